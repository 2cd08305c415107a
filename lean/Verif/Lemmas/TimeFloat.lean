import Verif.Lemmas.TimeOps
import Verif.Lemmas.WrapAcc
/-! The passes of the loops on floats. -/

namespace MixedNum
namespace Flt
variable {f : Format}

theorem freeOps : FreeOps (Flt f) where
  add _ _ := .of_pure _
  sub _ _ := .of_pure _
  mul _ _ := .of_pure _
  div _ _ := .of_pure _
  int _ := .of_pure _
  flt _ := .of_pure _
  powi _ _ := .of_pure _
  abs _ := .of_pure _

theorem freeSigned : FreeSigned (Flt f) where
  pi := .of_pure _
  neg _ := .of_pure _

/-- Bound on the passes of the square root's loops. -/
def sqrtPasses (f : Format) : ℕ := max ((-f.emin).toNat / 2) ((f.emax + 1) / 2)

theorem four_pow (j : ℕ) : (4:ℚ) ^ j = 2 ^ (2 * (j:ℤ)) := by
  rw [zpow_mul, zpow_natCast]; norm_num

theorem normalize_time {cn : Counter} (hcn : cn.Upto (2 ^ 30 + 1)) (hf : f.Wide) {x : Flt f} {X : ℚ} (hx : Is x X) (hX : 0 < X) :
    PassesAtMost (niirfNormalize cn x) (sqrtPasses f) ∧
      ∀ n r, niirfNormalize cn x n = .ok r → |r.2| ≤ (2 ^ 30 + 1 : ℤ) ∧ r.2.natAbs ≤ sqrtPasses f := by
  have hp := hf.one_le
  have hmin := hf.emin; have hmax := hf.emax; have hp24 := hf.p; have hge := hf.emin_ge; have hle := hf.emax_le
  have h4 : (4:ℚ) ≠ 0 := by norm_num
  have l4 : Is (ofExact false ((4:ℤ):ℚ) : Flt f) 4 := by simpa using lit_small (f := f) hf (n := 4) (by norm_num) (by norm_num)
  have lq : Is (ofExact false (1/4) : Flt f) (1/4) := by
    have := lit_sixteenth (f := f) hf (n := 4) (by norm_num) (by norm_num); norm_num at this ⊢; exact this
  have l1 : Is (ofExact false 1 : Flt f) 1 := by simpa using lit_small (f := f) hf (n := 1) (by norm_num) (by norm_num)
  have big : (4:ℚ) < 2 ^ f.emax := by
    calc (4:ℚ) = 2 ^ 2 := by norm_num
      _ < _ := pow_lt_pow_right₀ (by norm_num) (by omega)
  have hXe := hx.rep.ge_emin hX
  have o := freeOps (f := f)
  unfold niirfNormalize
  obtain ⟨t1, r1⟩ := whileLoop_time (σ := Flt f × ℤ)
    (c := fun s => do pure (MixedCmp.lt s.1 (← Lit.ofF64 (1/4))))
    (b := fun s => do
      let k ← cn.fit (s.2 - 1)
      pure (← NumOps.mul s.1 (← Lit.ofI32 4), k))
    (fun s => ∃ j : ℕ, s.2 = -j ∧ (j:ℤ) ≤ (-f.emin) / 2 ∧ ∃ a, Is s.1 a ∧ (2:ℚ) ^ (f.emin + 2 * j) ≤ a)
    (fun s => ((-f.emin) / 2 + s.2).toNat) (fun s => by loop_free o, o)
    (fun s => (Counter.free _ _).bind fun _ => by loop_free o, o) (by
      rintro ⟨y, k⟩ ⟨y', k'⟩ ⟨j, rfl, hj, a, ha, hja⟩ h1 h2
      simp only at ha h1 h2 ⊢
      have h0 : 0 < a := (two_zpow_pos _).trans_le hja
      have h1 : (pure (y.lt (ofExact false (1/4))) : Prog Bool) = pure true := h1
      have h1 := Prog.pure_inj h1
      rw [ha.lt lq] at h1
      have h : a < 1 / 4 := of_decide_eq_true h1
      have hr : Rep f.p f.emin (a * 4) := by
        have := ha.rep.two_mul.two_mul; rwa [show a * 4 = 2 * (2 * a) by ring]
      have hm : Is (y.mul (ofExact false ((4:ℤ):ℚ))) (a * 4) := by
        have := ha.mul hp l4 (by rw [rnd_rep hr, abs_of_pos (by positivity)]; linarith)
        rwa [rnd_rep hr] at this
      have hj4 : f.emin + 2 * j < -2 := by
        refine lt_of_two_zpow_lt (hja.trans_lt ?_)
        norm_num at h ⊢; exact h
      rw [hcn _ (abs_le.mpr (by omega)), pure_bind] at h2
      have h2 : (pure (y.mul (ofExact false ((4:ℤ):ℚ)), -(j:ℤ) - 1) : Prog (Flt f × ℤ)) = pure (y', k') := h2
      cases Prog.pure_inj h2
      refine ⟨⟨j + 1, by push_cast; ring, by push_cast; omega, a * 4, hm, ?_⟩, by omega⟩
      rw [show f.emin + 2 * ((j + 1 : ℕ) : ℤ) = f.emin + 2 * j + 2 by push_cast; ring, two_zpow_add]
      norm_num; linarith) (s := (x, 0)) ⟨0, by simp, by simp only [Nat.cast_zero]; omega, X, hx, by simpa using hXe⟩
  have key : ∀ (n : ℕ) (s1 : Flt f × ℤ), whileLoop (fun (s : Flt f × ℤ) => do pure (MixedCmp.lt s.1 (← Lit.ofF64 (1/4))))
      (fun s => do
        let k ← cn.fit (s.2 - 1)
        pure (← NumOps.mul s.1 (← Lit.ofI32 4), k)) (x, 0) n = .ok s1 →
      PassesAtMost (whileLoop (fun (s : Flt f × ℤ) => do pure (MixedCmp.le (← Lit.ofF64 1) s.1))
        (fun s => do
          let k ← cn.fit (s.2 + 1)
          pure (← NumOps.div s.1 (← Lit.ofI32 4), k)) s1) ((f.emax + 1) / 2) ∧
      ∀ n r, whileLoop (fun (s : Flt f × ℤ) => do pure (MixedCmp.le (← Lit.ofF64 1) s.1))
        (fun s => do
          let k ← cn.fit (s.2 + 1)
          pure (← NumOps.div s.1 (← Lit.ofI32 4), k)) s1 n = .ok r → |r.2| ≤ (2 ^ 30 + 1 : ℤ) ∧ r.2.natAbs ≤ sqrtPasses f := by
    intro n s1 e
    obtain ⟨⟨j, hj1, hj2, a1, ha1, hja⟩, -⟩ := r1 n s1 e
    have ha1max := ha1.lt_max
    have h01 : 0 < a1 := (two_zpow_pos _).trans_le hja
    rw [abs_of_pos h01] at ha1max
    obtain ⟨t2, r2⟩ := whileLoop_time (σ := Flt f × ℤ)
      (c := fun s => do pure (MixedCmp.le (← Lit.ofF64 1) s.1))
      (b := fun s => do
        let k ← cn.fit (s.2 + 1)
        pure (← NumOps.div s.1 (← Lit.ofI32 4), k))
      (fun t => ∃ i : ℕ, t.2 = -j + i ∧ 2 * i ≤ f.emax + 1 ∧ ∃ a, Is t.1 a ∧ 0 < a ∧ a * 2 ^ (2 * i) = a1)
      (fun t => ((((f.emax + 1) / 2 : ℕ):ℤ) - (t.2 + j)).toNat) (fun s => by loop_free o, o)
      (fun s => (Counter.free _ _).bind fun _ => by loop_free o, o) (by
        rintro ⟨y, k⟩ ⟨y', k'⟩ ⟨i, rfl, hi, a, ha, ha0, hai⟩ h1 h2
        simp only at ha h1 h2 ⊢
        have h1 : (pure (MixedCmp.le (ofExact false 1) y) : Prog Bool) = pure true := h1
        have h1 := Prog.pure_inj h1
        rw [l1.le ha] at h1
        have h : 1 ≤ a := of_decide_eq_true h1
        have hr : Rep f.p f.emin (a / 4) := by
          have := ha.rep.scale (e := 0) (j := -2) (by simpa using h) (by omega)
          rwa [show a * 2 ^ (-2:ℤ) = a / 4 by norm_num [div_eq_mul_inv]] at this
        have hb : |a / 4| < 2 ^ f.emax := by
          have := ha.lt_max
          rw [abs_of_pos (by linarith)] at this
          rw [abs_of_pos (by linarith)]; linarith
        have hm : Is (y.div (ofExact false ((4:ℤ):ℚ))) (a / 4) := by
          have := ha.div hp l4 h4 (by rwa [rnd_rep hr])
          rwa [rnd_rep hr] at this
        have hi2 : 2 * i < f.emax := by
          refine (pow_lt_pow_iff_right₀ (by norm_num : (1:ℚ) < 2)).mp (lt_of_le_of_lt ?_ ha1max)
          rw [← hai]; exact le_mul_of_one_le_left (by positivity) h
        rw [hcn _ (abs_le.mpr (by omega)), pure_bind] at h2
        have h2 : (pure (y.div (ofExact false ((4:ℤ):ℚ)), -(j:ℤ) + i + 1) : Prog (Flt f × ℤ)) = pure (y', k') := h2
        cases Prog.pure_inj h2
        refine ⟨⟨i + 1, by push_cast; ring, by omega, a / 4, hm, by positivity, ?_⟩, by omega⟩
        rw [← hai, show 2 * (i + 1) = 2 * i + 2 by ring, pow_add]; ring)
      (s := s1) ⟨0, by simpa using hj1, by omega, a1, ha1, h01, by simp⟩
    refine ⟨fun n hn => t2 n ?_, fun n r hr => ?_⟩
    · simp only [hj1]; omega
    · obtain ⟨⟨i, hi, hi2, -⟩, -⟩ := r2 n r hr
      unfold sqrtPasses
      rw [hi, abs_le]; omega
  have hle1 : (f.emax + 1) / 2 ≤ sqrtPasses f := le_max_right _ _
  refine ⟨PassesAtMost.bind (fun n hn => t1 n ?_) fun s1 n e n' hn' => (key n s1 e).1 n' (by omega), fun n r hr => ?_⟩
  · simp only []; unfold sqrtPasses at hn; omega
  · obtain ⟨s1, e, hr⟩ := Prog.bind_ok_inv hr
    exact (key n s1 e).2 n r hr

/-! ### Phase wrapping -/

theorem step_time (hf : f.Wide) (h60 : f.p ≤ 60) {a : ℚ} (h1 : piV f ≤ a) (h2 : (a:ℝ) * eta f ≤ 1 / 10) :
    6 ≤ (a:ℝ) - (rnd f.p f.emin (a - 2 * piV f) : ℚ) ∧ (a:ℝ) - (rnd f.p f.emin (a - 2 * piV f) : ℚ) ≤ 7 := by
  obtain ⟨s1, s2⟩ := step_acc hf h60 h1 h2
  refine ⟨s2, ?_⟩
  have hel := eta_le hf
  have := (abs_le.mp s1).1
  have g := Real.pi_lt_d2
  rw [add_mul] at this
  norm_num at *; linarith

/-- Phase wrapping of a float within the range where it is accurate: how many passes it makes. -/
theorem wrap_time (hf : f.Wide) (h60 : f.p ≤ 60) {x : Flt f} {a : ℚ} (hx : Is x a) (h2 : |(a:ℝ)| * eta f ≤ 1 / 10) :
    ∃ (r : Flt f) (k : ℕ), 6 * (k:ℝ) ≤ |(a:ℝ)| + 16 / 5 ∧ |(a:ℝ)| ≤ 7 * k + 16 / 5 ∧
      ∀ n, wrapPhase x n = if n ≤ k then .timeout else .ok r := by
  have h := hf.ok
  have he := eta_pos (f := f); have hel := eta_le hf
  have hpi := abs_le.mp (pi_near hf h60)
  have g := Real.pi_gt_d4; have g' := Real.pi_lt_d4
  have hpv : ((piV f : ℚ) : ℝ) ≤ 16 / 5 := by norm_num at *; linarith
  have hpb := piV_bounds h
  rw [wrapPhase_eq]
  by_cases hc : a < -piV f
  · have hneg : (a:ℝ) < 0 := by
      have : a < 0 := by linarith
      exact_mod_cast this
    rw [abs_of_neg hneg] at h2 ⊢
    have hlim := limit_of (a := -a) (by push_cast; exact h2)
    obtain ⟨k, r, hS, ⟨b, hb, hb1, hb2, -⟩, hrc, k1, k2⟩ := steps_linear
      (c := fun t => (pure (t.lt (piF f).neg) : Prog Bool)) (b := fun t => pure (t.add (tauF f)))
      (fun t => ∃ b, Is t b ∧ a ≤ b ∧ b < piV f ∧ -limit f ≤ b) (fun t => (-Flt.val t : ℝ)) (lo := 6) (hi := 7) (L := -((piV f : ℚ) : ℝ)) (by norm_num)
      (by
        rintro t ⟨b, hb, -, hb2, -⟩
        rw [hb.val]
        have : (b:ℝ) < (piV f : ℚ) := by exact_mod_cast hb2
        linarith) (by
        rintro t ⟨b, hb, hb1, hb2, hb3⟩
        rw [hb.lt (is_pi h).neg]
        by_cases hc : b < -piV f
        · right
          obtain ⟨s1, s2, s3⟩ := step_down h (a := -b) (by linarith) (by linarith)
          have hab : (a:ℝ) ≤ b := by exact_mod_cast hb1
          obtain ⟨u1, u2⟩ := step_time hf h60 (a := -b) (by linarith) (by
            push_cast
            exact (mul_le_mul_of_nonneg_right (by linarith) he.le).trans h2)
          have hlt : rnd f.p f.emin (b + 2 * piV f) < piV f := by
            rcases le_or_gt (-b) (3 * piV f) with h4 | h4
            · have := rnd_rep (rep_last h hb.rep.neg (by linarith) h4)
              rw [show -b - 2 * piV f = -(b + 2 * piV f) by ring, rnd_neg] at this
              linarith
            · have := rnd_le_rep hf.one_le (a := b + 2 * piV f) (b := -piV f) (by linarith) (is_pi h).rep.neg
              linarith
          rw [show -b - 2 * piV f = -(b + 2 * piV f) by ring, rnd_neg] at s1 s2 s3 u1 u2
          rw [abs_neg] at s3
          have hs := hb.add hf.one_le (is_tau h) s3
          refine ⟨by rw [decide_eq_true hc], _, rfl, ⟨_, hs, by linarith, hlt, by linarith⟩, ?_⟩
          rw [hs.val, hb.val]
          push_cast at u1 u2
          exact ⟨by linarith, by linarith⟩
        · left; rw [decide_eq_false hc]) (s := x) ⟨a, hx, le_refl _, by linarith, by linarith⟩
    have hbc := Prog.pure_inj hrc
    rw [hb.lt (is_pi h).neg] at hbc
    have hbc := not_lt.mp (of_decide_eq_false hbc)
    rw [hx.val, hb.val] at k1 k2
    have b1' : -((piV f : ℚ) : ℝ) ≤ b := by exact_mod_cast hbc
    have b2' : (b:ℝ) < (piV f : ℚ) := by exact_mod_cast hb2
    refine ⟨r, k, by linarith, by linarith, fun n => ?_⟩
    rw [hS.seq (.done ?_), Nat.max_zero]
    rw [(is_pi h).le hb, decide_eq_false (not_le.mpr hb2)]
  · have hc' := not_lt.mp hc
    have ha : (a:ℝ) ≤ |(a:ℝ)| := le_abs_self _
    have h2' : (a:ℝ) * eta f ≤ 1 / 10 := (mul_le_mul_of_nonneg_right ha he.le).trans h2
    have hlim := limit_of h2'
    obtain ⟨k, r, hS, ⟨b, hb, hb1, hb2⟩, hrc, k1, k2⟩ := steps_linear
      (c := fun t => (pure (MixedCmp.le (piF f) t) : Prog Bool)) (b := fun t => pure (t.sub (tauF f)))
      (fun t => ∃ b, Is t b ∧ -piV f ≤ b ∧ b ≤ a) (fun t => (Flt.val t : ℝ)) (lo := 6) (hi := 7) (L := -((piV f : ℚ) : ℝ)) (by norm_num)
      (by
        rintro t ⟨b, hb, hb1, -⟩
        rw [hb.val]
        exact_mod_cast hb1) (by
        rintro t ⟨b, hb, hb1, hb2⟩
        rw [(is_pi h).le hb]
        by_cases hc : piV f ≤ b
        · right
          obtain ⟨s1, s2, s3⟩ := step_down h hc (hb2.trans hlim)
          have hab : (b:ℝ) ≤ a := by exact_mod_cast hb2
          obtain ⟨u1, u2⟩ := step_time hf h60 hc ((mul_le_mul_of_nonneg_right hab he.le).trans h2')
          have hs := hb.sub hf.one_le (is_tau h) s3
          refine ⟨by rw [decide_eq_true hc], _, rfl, ⟨_, hs, s1, by linarith⟩, ?_⟩
          rw [hs.val, hb.val]
          exact ⟨u1, u2⟩
        · left; rw [decide_eq_false hc]) (s := x) ⟨a, hx, hc', le_refl _⟩
    have hbc := Prog.pure_inj hrc
    rw [(is_pi h).le hb] at hbc
    have hbc := not_le.mp (of_decide_eq_false hbc)
    rw [hx.val, hb.val] at k1 k2
    have b1' : -((piV f : ℚ) : ℝ) ≤ b := by exact_mod_cast hb1
    have b2' : (b:ℝ) < (piV f : ℚ) := by exact_mod_cast hbc
    have c' : -((piV f : ℚ) : ℝ) ≤ a := by exact_mod_cast hc'
    refine ⟨r, k, by linarith, ?_, fun n => ?_⟩
    · have : (0:ℝ) ≤ k := by positivity
      rw [abs_le]; constructor <;> linarith
    · rw [Steps.seq (.done ?_) hS, Nat.zero_max]
      rw [hx.lt (is_pi h).neg, decide_eq_false hc]

end Flt
end MixedNum
