import Verif.Lemmas.SinFloat
/-! How far `wrap_phase` on floats strays from the argument reduced by whole turns of the real circle. -/

namespace MixedNum
namespace Flt
variable {f : Format}

/-- Rounding either overflows or gives a finite float. -/
theorem ofExact_cases (hp : 1 ≤ f.p) (z : Bool) (q : ℚ) : Is (ofExact z q : Flt f) (rnd f.p f.emin q) ∨
    ((2:ℚ) ^ f.emax ≤ |rnd f.p f.emin q| ∧ (ofExact z q : Flt f) = .inf (decide (q < 0))) := by
  rcases lt_or_ge (|rnd f.p f.emin q|) (2 ^ f.emax) with h | h
  · exact .inl (is_ofExact hp z h)
  · refine .inr ⟨h, ?_⟩
    have hq : q ≠ 0 := by
      rintro rfl
      have : (0:ℚ) < 2 ^ f.emax := by positivity
      simp [rnd] at h
      linarith
    unfold ofExact
    rw [if_neg hq]
    show (if roundTo f.p f.emin |q| < 2 ^ f.emax then _ else _) = _
    rw [← abs_rnd, if_neg (not_lt.mpr h)]

theorem lt_nan (y : Flt f) : y.lt .nan = false := by cases y <;> rfl

/-- The last subtraction of a turn is exact. -/
theorem rep_last (h : f.Ok) {a : ℚ} (ha : Rep f.p f.emin a) (h1 : piV f ≤ a) (h2 : a ≤ 3 * piV f) :
    Rep f.p f.emin (a - 2 * piV f) := by
  have hb := piV_bounds h
  have hp := h.p; have he := h.emin
  have hu : ∀ q : ℚ, 3 ≤ q → 2 - (f.p:ℤ) ≤ ulpExp f.p f.emin q := by
    intro q hq
    have : (1:ℤ) ≤ ilog2 q := le_ilog2 (by linarith) (by norm_num; linarith)
    unfold ulpExp; omega
  obtain ⟨k, hk⟩ := ha.units_of_le (by linarith) (hu a (by linarith))
  obtain ⟨j, hj⟩ := (is_pi h).rep.units_of_le (by linarith) (hu (piV f) (by linarith))
  have hpos := two_zpow_pos (2 - (f.p:ℤ))
  have hq : a - 2 * piV f = ((k - 2 * j : ℤ) : ℚ) * 2 ^ (2 - (f.p:ℤ)) := by
    rw [hk]; conv_lhs => rw [hj]
    push_cast; ring
  refine ⟨k - 2 * j, 2 - f.p, by have := emin_lt h; omega, ?_, hq⟩
  have h4 : |a - 2 * piV f| < 4 := by rw [abs_lt]; constructor <;> linarith
  rw [hq, abs_mul, abs_of_pos hpos] at h4
  have e4 : (4:ℚ) = 2 ^ f.p * 2 ^ (2 - (f.p:ℤ)) := by
    rw [← zpow_natCast, ← two_zpow_add]; norm_num
  rw [e4] at h4
  have := lt_of_mul_lt_mul_right h4 hpos.le
  exact_mod_cast this

theorem emin_small (hf : f.Wide) : (2:ℝ) ^ f.emin / 2 ≤ 1 / 10 ^ 8 * eta f := by
  have := hf.p; have := hf.emin
  have he := eta_pos (f := f); have hel := eta_le hf
  have e1 : (2:ℝ) ^ (-(f.p:ℤ)) = eta f := rfl
  have : (2:ℝ) ^ f.emin ≤ 2 ^ (-(f.p:ℤ) + -(f.p:ℤ) + -4) := zpow_le_zpow_right₀ (by norm_num) (by omega)
  rw [zpow_add₀ (by norm_num), zpow_add₀ (by norm_num), e1] at this
  have h3 := mul_le_mul_of_nonneg_right hel he.le
  norm_num at this h3 ⊢; linarith

/-- One subtraction of a turn. -/
theorem step_acc (hf : f.Wide) (h60 : f.p ≤ 60) {a : ℚ} (h1 : piV f ≤ a) (h2 : (a:ℝ) * eta f ≤ 1 / 10) :
    |((rnd f.p f.emin (a - 2 * piV f) : ℚ) : ℝ) - (a - 2 * Real.pi)| ≤ (a + 43 / 10) * eta f ∧
      6 ≤ (a:ℝ) - (rnd f.p f.emin (a - 2 * piV f) : ℚ) := by
  have he := eta_pos (f := f); have hel := eta_le hf
  have hpi := abs_le.mp (pi_near hf h60)
  have hb := piV_bounds hf.ok
  have r := cast_abs_le (abs_rnd_le (p := f.p) (emin := f.emin) (a - 2 * piV f))
  have e1 : (2:ℝ) ^ (-(f.p:ℤ)) = eta f := rfl
  push_cast at r
  rw [e1] at r
  have hs := emin_small hf
  have h1' : ((piV f : ℚ) : ℝ) ≤ a := by exact_mod_cast h1
  have hb' : (3:ℝ) ≤ (piV f : ℚ) := by exact_mod_cast hb.1
  have hq : |(a:ℝ) - 2 * (piV f : ℚ)| ≤ a := by rw [abs_le]; constructor <;> linarith
  have h3 := mul_le_mul_of_nonneg_right hq he.le
  have r' := abs_le.mp (r.trans (add_le_add h3 hs))
  have g := Real.pi_gt_d2
  constructor
  · rw [abs_le, add_mul]; constructor <;> norm_num at * <;> linarith
  · norm_num at *; linarith

/-- What a loop leaves: a value near the start less `k` turns. -/
def Turned (a : ℚ) (b : ℚ) (k : ℕ) (η : ℝ) : Prop :=
  |(b:ℝ) - (a - 2 * Real.pi * k)| ≤ k * ((a + 43 / 10) * η) ∧ 6 * (k:ℝ) ≤ a - b

theorem Turned.step (hf : f.Wide) (h60 : f.p ≤ 60) {a b : ℚ} {k : ℕ} (h : Turned a b k (eta f)) (h1 : piV f ≤ b)
    (h2 : (a:ℝ) * eta f ≤ 1 / 10) : Turned a (rnd f.p f.emin (b - 2 * piV f)) (k + 1) (eta f) := by
  obtain ⟨t1, t2⟩ := h
  have he := eta_pos (f := f)
  have hk : (0:ℝ) ≤ k := by positivity
  have hba : (b:ℝ) ≤ a := by linarith
  have hbe := mul_le_mul_of_nonneg_right hba he.le
  obtain ⟨s1, s2⟩ := step_acc hf h60 h1 (hbe.trans h2)
  have h3 : ((b:ℝ) + 43 / 10) * eta f ≤ (a + 43 / 10) * eta f := by rw [add_mul, add_mul]; linarith
  set c := rnd f.p f.emin (b - 2 * piV f)
  refine ⟨?_, by push_cast; linarith⟩
  push_cast
  rw [show (c:ℝ) - (a - 2 * Real.pi * (k + 1)) = (c - (b - 2 * Real.pi)) + (b - (a - 2 * Real.pi * k)) by ring]
  refine (abs_add_le _ _).trans ?_
  linarith

/-- The second loop. -/
theorem loop_down_acc (hf : f.Wide) (h60 : f.p ≤ 60) {x : Flt f} {a : ℚ} (hx : Is x a) (h1 : -piV f ≤ a)
    (h2 : (a:ℝ) * eta f ≤ 1 / 10) (h3 : a ≤ limit f) :
    ∃ r b k, Returns (whileLoop (fun t => (pure (MixedCmp.le (piF f) t) : Prog Bool)) (fun t => pure (t.sub (tauF f))) x) r ∧
      Is r b ∧ -piV f ≤ b ∧ b < piV f ∧ Turned a b k (eta f) := by
  have h := hf.ok
  obtain ⟨r, hr, ⟨b, k, hb, hb1, _, hT⟩, hrc⟩ := whileLoop_total
    (c := fun t => (pure (MixedCmp.le (piF f) t) : Prog Bool)) (b := fun t => pure (t.sub (tauF f)))
    (fun t => ∃ b k, Is t b ∧ -piV f ≤ b ∧ b ≤ limit f ∧ Turned a b k (eta f))
    (fun t => ⌊(Flt.val t + piV f) / 2 ^ f.emin⌋₊) (by
      rintro t ⟨b, k, hb, hb1, hb2, hT⟩
      rw [(is_pi h).le hb]
      by_cases hc : piV f ≤ b
      · right
        obtain ⟨s1, s2, s3⟩ := step_down h hc hb2
        have hs := hb.sub hf.one_le (is_tau h) s3
        refine ⟨by rw [decide_eq_true hc], _, rfl, ⟨_, k + 1, hs, s1, by linarith, hT.step hf h60 hc h2⟩, ?_⟩
        rw [hs.val, hb.val]
        exact measure_lt hs.rep hb.rep (by linarith) s2
      · left; rw [decide_eq_false hc]) x ⟨a, 0, hx, h1, h3, by simp [Turned]⟩
  refine ⟨r, b, k, hr, hb, hb1, ?_, hT⟩
  have := Prog.pure_inj hrc
  rw [(is_pi h).le hb] at this
  exact not_le.mp (of_decide_eq_false this)

/-- The first loop, from below -π: it ends strictly below π. -/
theorem loop_up_acc (hf : f.Wide) (h60 : f.p ≤ 60) {x : Flt f} {a : ℚ} (hx : Is x a) (h1 : a < -piV f)
    (h2 : (-a:ℝ) * eta f ≤ 1 / 10) (h3 : -limit f ≤ a) :
    ∃ r b k, Returns (whileLoop (fun t => (pure (t.lt (piF f).neg) : Prog Bool)) (fun t => pure (t.add (tauF f))) x) r ∧
      Is r b ∧ -piV f ≤ b ∧ b < piV f ∧ Turned (-a) (-b) k (eta f) := by
  have h := hf.ok
  have hpb := piV_bounds h
  have hl := limit_ge h
  obtain ⟨r, hr, ⟨b, k, hb, _, hb2, hT⟩, hrc⟩ := whileLoop_total
    (c := fun t => (pure (t.lt (piF f).neg) : Prog Bool)) (b := fun t => pure (t.add (tauF f)))
    (fun t => ∃ b k, Is t b ∧ -limit f ≤ b ∧ b < piV f ∧ Turned (-a) (-b) k (eta f))
    (fun t => ⌊(-Flt.val t + limit f) / 2 ^ f.emin⌋₊) (by
      rintro t ⟨b, k, hb, hb1, hb2, hT⟩
      rw [hb.lt (is_pi h).neg]
      by_cases hc : b < -piV f
      · right
        obtain ⟨s1, s2, s3⟩ := step_down h (a := -b) (by linarith) (by linarith)
        have hst := hT.step hf h60 (by linarith) (by push_cast; exact h2)
        have hlt : rnd f.p f.emin (b + 2 * piV f) < piV f := by
          rcases le_or_gt (-b) (3 * piV f) with h4 | h4
          · have := rnd_rep (rep_last h hb.rep.neg (by linarith) h4)
            rw [show -b - 2 * piV f = -(b + 2 * piV f) by ring, rnd_neg] at this
            linarith
          · have := rnd_le_rep hf.one_le (a := b + 2 * piV f) (b := -piV f) (by linarith) (is_pi h).rep.neg
            linarith
        rw [show -b - 2 * piV f = -(b + 2 * piV f) by ring, rnd_neg] at s1 s2 s3 hst
        rw [abs_neg] at s3
        have hs := hb.add hf.one_le (is_tau h) s3
        refine ⟨by rw [decide_eq_true hc], _, rfl, ⟨_, k + 1, hs, by linarith, hlt, hst⟩, ?_⟩
        rw [hs.val, hb.val]
        exact measure_lt hs.rep.neg hb.rep.neg (by linarith) s2
      · left; rw [decide_eq_false hc]) x ⟨a, 0, hx, h3, by linarith, by simp [Turned]⟩
  refine ⟨r, b, k, hr, hb, ?_, hb2, hT⟩
  have := Prog.pure_inj hrc
  rw [hb.lt (is_pi h).neg] at this
  exact not_lt.mp (of_decide_eq_false this)

theorem limit_of {a : ℚ} (h2 : (a:ℝ) * eta f ≤ 1 / 10) : a ≤ limit f := by
  have he := eta_pos (f := f)
  have e : ((limit f : ℚ) : ℝ) * eta f = 8 := by
    unfold limit eta; push_cast; rw [← zpow_add₀ (by norm_num)]; norm_num
  by_contra hc
  have : ((limit f : ℚ) : ℝ) < a := by exact_mod_cast not_le.mp hc
  have := mul_lt_mul_of_pos_right this he
  norm_num at *; linarith

theorem Turned.bound {a b : ℚ} {k : ℕ} {η : ℝ} (hη : 0 < η) (h : Turned a b k η) (hb : -(3.2:ℝ) ≤ b) (ha : 0 ≤ (a:ℝ)) :
    |(b:ℝ) - (a - 2 * Real.pi * k)| ≤ (a + 4) ^ 2 / 6 * η := by
  obtain ⟨h1, h2⟩ := h
  refine h1.trans ?_
  rw [← mul_assoc]
  refine mul_le_mul_of_nonneg_right ?_ hη.le
  have hk : (k:ℝ) ≤ (a + 3.2) / 6 := by linarith
  have := mul_le_mul_of_nonneg_right hk (by linarith : (0:ℝ) ≤ a + 43 / 10)
  nlinarith

/-- The whole reduction. -/
theorem wrap_acc (hf : f.Wide) (h60 : f.p ≤ 60) {x : Flt f} {a : ℚ} (hx : Is x a)
    (h2 : |(a:ℝ)| * eta f ≤ 1 / 10) :
    ∃ r b, ∃ k : ℤ, Returns (wrapPhase x) r ∧ Is r b ∧ -piV f ≤ b ∧ b < piV f ∧
      |(b:ℝ) - (a - 2 * Real.pi * k)| ≤ (|(a:ℝ)| + 4) ^ 2 / 6 * eta f := by
  have h := hf.ok
  have he := eta_pos (f := f); have hel := eta_le hf
  have hpi := abs_le.mp (pi_near hf h60)
  have g := Real.pi_gt_d4; have g' := Real.pi_lt_d4
  have hpv : ((piV f : ℚ) : ℝ) ≤ 3.2 := by norm_num at *; linarith
  rw [wrapPhase_eq]
  by_cases hc : a < -piV f
  · have hpb := piV_bounds h
    have hneg : (a:ℝ) < 0 := by
      have : a < 0 := by linarith
      exact_mod_cast this
    rw [abs_of_neg hneg] at h2 ⊢
    obtain ⟨r, b, k, hr, hb, b1, b2, hT⟩ := loop_up_acc hf h60 hx hc h2 (by
      have := limit_of (a := -a) (by push_cast; exact h2)
      linarith)
    refine ⟨r, b, -k, ?_, hb, b1, b2, ?_⟩
    · refine hr.bind (whileLoop_done ?_)
      rw [(is_pi h).le hb, decide_eq_false (not_le.mpr b2)]
    · have b2' : (b:ℝ) < (piV f : ℚ) := by exact_mod_cast b2
      have := hT.bound he (by push_cast; linarith) (by push_cast; linarith)
      push_cast at this ⊢
      rw [show (b:ℝ) - (a - 2 * Real.pi * -(k:ℝ)) = -(-(b:ℝ) - (-(a:ℝ) - 2 * Real.pi * k)) by ring, abs_neg]
      exact this
  · have hc' := not_lt.mp hc
    have ha : (a:ℝ) ≤ |(a:ℝ)| := le_abs_self _
    have h2' : (a:ℝ) * eta f ≤ 1 / 10 := (mul_le_mul_of_nonneg_right ha he.le).trans h2
    obtain ⟨r, b, k, hr, hb, b1, b2, hT⟩ := loop_down_acc hf h60 hx hc' h2' (limit_of h2')
    refine ⟨r, b, k, ?_, hb, b1, b2, ?_⟩
    · refine Returns.bind (whileLoop_done ?_) hr
      rw [hx.lt (is_pi h).neg, decide_eq_false hc]
    · rcases le_or_gt 0 (a:ℝ) with h0 | h0
      · rw [abs_of_nonneg h0]
        have b1' : -((piV f : ℚ) : ℝ) ≤ b := by exact_mod_cast b1
        exact hT.bound he (by linarith) h0
      · have hk : k = 0 := by
          have h5 := hT.2
          have b1' : -((piV f : ℚ) : ℝ) ≤ b := by exact_mod_cast b1
          have : (k:ℝ) < 1 := by linarith
          have : k < 1 := by exact_mod_cast this
          omega
        subst hk
        have h5 := hT.1
        simp only [Nat.cast_zero, zero_mul] at h5
        push_cast
        refine h5.trans (by positivity)

end Flt
end MixedNum
