import Verif.Props.SinFixed
import Verif.Props.Wrap
import Verif.Props.AddSub
import Verif.Lemmas.Run
/-! # C103: phase wrapping and cosine on fixed point for angles of any size -/

namespace MixedNum
variable {m : Mode} {W F : ℕ}

namespace Fixed

/-- The computed `pi / 2` and the shift by it, as one step of `cos`. -/
theorem cos_unfold (h : F + 20 ≤ W) (x : Fixed m true W F) :
    cos x = (fit (x.val + halfRaw F) : Prog (Fixed m true W F)) >>= fun q => wrapPhase q >>= fun w => sin w := by
  unfold cos
  have assoc : ∀ (g : Fixed m true W F → Prog (Fixed m true W F)),
      (do let p ← MixedPi.pi; let two ← Lit.ofI32 2; let ph ← NumOps.div p two; g ph) =
      (do let ph ← (do let p ← MixedPi.pi; let two ← Lit.ofI32 2; NumOps.div p two); g ph) := by
    intro g; simp only [bind_assoc]
  rw [assoc, half_eq (by omega), pure_bind, add_def, mkv_val]

/-- Number of turns removed by wrapping. -/
theorem turns_le {a w p k : ℤ} (hp : 0 < p) (h1 : -p ≤ w) (h2 : w < p) (hk : w = a + k * (2 * p)) :
    |(k:ℝ)| * (2 * p) ≤ |(a:ℝ)| + p := by
  have hp' : (0:ℝ) < p := by exact_mod_cast hp
  have e : (k:ℝ) * (2 * p) = w - a := by
    have : k * (2 * p) = w - a := by omega
    exact_mod_cast this
  have hw : |(w:ℝ)| ≤ p := by
    rw [abs_le]; constructor
    · exact_mod_cast h1
    · exact_mod_cast h2.le
  calc |(k:ℝ)| * (2 * p) = |(k:ℝ) * (2 * p)| := by rw [abs_mul, abs_of_pos (by positivity : (0:ℝ) < 2 * p)]
    _ = |(w:ℝ) - a| := by rw [e]
    _ ≤ |(w:ℝ)| + |(a:ℝ)| := abs_sub _ _
    _ ≤ _ := by linarith

/-- The wrapped value, what it is a translate of, and how far that is from the true angle. -/
theorem wrap_close (h : F + 4 ≤ W) (x : Fixed m true W F) :
    ∃ (w : Fixed m true W F) (k : ℤ), Returns (wrapPhase x) w ∧ -piRaw F ≤ w.val ∧ w.val < piRaw F ∧
      |w.r - (x.r + k * (2 * Real.pi))| ≤ (|x.r| / 6 + 2 / 3) * (u F + 1 / 2 ^ 51) := by
  set E := wrapExact (m := m) (F := F) (W := W) (by omega) (fun _ => by omega) with hE
  obtain ⟨w, hw, w1, w2, k, hk⟩ := E.spec x
  have hw1 : -((piRaw F : ℤ) : ℝ) ≤ w.val := by simpa [hE, wrapExact] using w1
  have hw2 : (w.val : ℝ) < (piRaw F : ℤ) := by simpa [hE, wrapExact] using w2
  have hk' : (w.val : ℝ) = (x.val : ℝ) + k * (2 * (piRaw F : ℤ)) := by
    simpa [hE, wrapExact] using hk
  have hw1' : -piRaw F ≤ w.val := by exact_mod_cast hw1
  have hw2' : w.val < piRaw F := by exact_mod_cast hw2
  have hkZ : w.val = x.val + k * (2 * piRaw F) := by exact_mod_cast hk'
  have hb := piRaw_bounds F
  have h2F : (0:ℤ) < 2 ^ F := by positivity
  refine ⟨w, k, hw, hw1', hw2', ?_⟩
  have hu := u_pos F; have hpu := pow_mul_u F
  have ht := turns_le (by omega) hw1' hw2' hkZ
  have hp3 : (3:ℝ) ≤ piRaw F * u F := by
    have : ((3 * 2 ^ F : ℤ) : ℝ) ≤ piRaw F := by exact_mod_cast hb.1
    push_cast at this
    nlinarith
  have hp4 : (piRaw F : ℝ) * u F ≤ 4 := by
    have : ((piRaw F : ℤ) : ℝ) ≤ (4 * 2 ^ F : ℤ) := by exact_mod_cast hb.2.le
    push_cast at this
    nlinarith
  have hx : |x.r| = |(x.val:ℝ)| * u F := by rw [r_eq, abs_mul, abs_of_pos hu]
  have hk6 : |(k:ℝ)| * 6 ≤ |x.r| + 4 := by
    rw [hx]
    have h1 : |(k:ℝ)| * (2 * piRaw F) * u F ≤ (|(x.val:ℝ)| + piRaw F) * u F := mul_le_mul_of_nonneg_right ht hu.le
    have h2 : |(k:ℝ)| * 3 ≤ |(k:ℝ)| * (piRaw F * u F) := mul_le_mul_of_nonneg_left hp3 (abs_nonneg _)
    linarith
  have hpc := pi_close F
  have e : w.r - (x.r + k * (2 * Real.pi)) = k * 2 * ((piRaw F : ℝ) * u F - Real.pi) := by
    rw [r_eq, r_eq, hk']; ring
  rw [e, abs_mul, abs_mul, abs_two]
  have h3 : 2 * |(piRaw F : ℝ) * u F - Real.pi| ≤ u F + 1 / 2 ^ 51 := by
    have : (1:ℝ) / 2 ^ 51 = 2 * (1 / 2 ^ 52) := by norm_num
    rw [this]; linarith
  calc |(k:ℝ)| * 2 * |(piRaw F : ℝ) * u F - Real.pi| = |(k:ℝ)| * (2 * |(piRaw F : ℝ) * u F - Real.pi|) := by ring
    _ ≤ |(k:ℝ)| * (u F + 1 / 2 ^ 51) := mul_le_mul_of_nonneg_left h3 (abs_nonneg _)
    _ ≤ _ := mul_le_mul_of_nonneg_right (by linarith) (by positivity)

end Fixed

/-! ## C103 -/

/-- C103: on signed types with at least 4 integer bits, for every angle, the wrapped angle is at most π up to the rounding of π, and within
`(|x|/6 + 2/3)` units in the last place of an angle equal to `x` modulo a full turn of the real 2π (plus a term for
types finer than the 53 bits of the constant). -/
theorem C103_wrap (h : F + 4 ≤ W) (x : Fixed m true W F) :
    ∃ (w : Fixed m true W F) (k : ℤ), Returns (wrapPhase x) w ∧
      |(w.val : ℝ) / 2 ^ F| ≤ Real.pi + 1 / 2 ^ (F + 1) + 1 / 2 ^ 52 ∧
      |(w.val : ℝ) / 2 ^ F - (x.val / 2 ^ F + k * (2 * Real.pi))| ≤
        (|(x.val : ℝ) / 2 ^ F| / 6 + 2 / 3) * (1 / 2 ^ F + 1 / 2 ^ 51) := by
  obtain ⟨w, k, hw, w1, w2, e⟩ := Fixed.wrap_close h x
  refine ⟨w, k, hw, ?_, e⟩
  have hc := Fixed.pi_close F
  have hw' : |w.val| ≤ Fixed.piRaw F := abs_le.mpr ⟨by omega, by omega⟩
  have hr : |(w.val : ℝ)| ≤ Fixed.piRaw F := by exact_mod_cast hw'
  have hu : Fixed.u F = 1 / 2 ^ F := by simp [Fixed.u]
  rw [abs_div, abs_of_pos (by positivity : (0:ℝ) < 2 ^ F), div_eq_mul_one_div, ← hu]
  have h2 : (1:ℝ) / 2 ^ (F + 1) = Fixed.u F / 2 := by rw [hu, pow_succ]; field_simp
  rw [h2]
  have := mul_le_mul_of_nonneg_right hr (by rw [hu]; positivity : 0 ≤ Fixed.u F)
  have := (abs_le.mp hc).2
  linarith

/-- C103: the cosine of every angle to which π/2 can be added is within 4e-6, 9 units in the last place, and the
error of the wrapping. -/
theorem C103_cos (h : F + 20 ≤ W) (x p : Fixed m true W F) (hp : (MixedPi.pi : Prog (Fixed m true W F)) = pure p)
    (hx : x.val + p.val / 2 < 2 ^ (W - 1)) :
    ∃ z : Fixed m true W F, Returns (cos x) z ∧
      |(z.val : ℝ) / 2 ^ F - Real.cos (x.val / 2 ^ F)| ≤
        4 / 1000000 + 9 / 2 ^ F + |(x.val : ℝ) / 2 ^ F| / 6 * (1 / 2 ^ F + 1 / 2 ^ 51) := by
  have hpv : p.val = Fixed.piRaw F := by
    rw [Fixed.pi_def (by omega)] at hp; rw [← Prog.pure_inj hp]; rfl
  rw [hpv] at hx
  have hfit : Fits true W (x.val + Fixed.halfRaw F) := by
    have h1 := x.fits; have hb := Fixed.halfRaw_bounds F
    refine ⟨?_, ?_⟩
    · have := h1.1; omega
    · simpa [whi, Fixed.halfRaw] using hx
  set q : Fixed m true W F := Fixed.mkv (x.val + Fixed.halfRaw F) hfit with hq
  obtain ⟨w, k, hw, w1, w2, e1⟩ := Fixed.wrap_close (by omega) q
  obtain ⟨z, hz, e2⟩ := Fixed.sin_accuracy h w (abs_le.mpr ⟨by omega, by omega⟩)
  refine ⟨z, ?_, ?_⟩
  · rw [Fixed.cos_unfold h, Fixed.fit_of_fits hfit, pure_bind]
    exact hw.bind (.of_eq hz)
  · have hu := Fixed.u_pos F; have hpu := Fixed.pow_mul_u F
    have hhc := Fixed.half_close F
    have hqr : q.r = x.r + Fixed.halfRaw F * Fixed.u F := by
      rw [Fixed.r_eq, Fixed.r_eq, hq, Fixed.mkv_val]; push_cast; ring
    have hcos : Real.cos x.r = Real.sin (x.r + Real.pi / 2 + k * (2 * Real.pi)) := by
      rw [Real.sin_add_int_mul_two_pi, Real.sin_add_pi_div_two]
    have hb := Fixed.halfRaw_bounds F
    have h0 : (0:ℝ) ≤ Fixed.halfRaw F * Fixed.u F := by
      have : (0:ℝ) ≤ Fixed.halfRaw F := by exact_mod_cast hb.1.le
      positivity
    have h2 : (Fixed.halfRaw F : ℝ) * Fixed.u F ≤ 2 := by
      have : ((Fixed.halfRaw F : ℤ) : ℝ) ≤ (2 * 2 ^ F : ℤ) := by exact_mod_cast hb.2.1.le
      push_cast at this
      nlinarith
    have hqa : |q.r| ≤ |x.r| + 2 := by
      rw [hqr]; refine (abs_add_le _ _).trans ?_; rw [abs_of_nonneg h0]; linarith
    have hsum : |w.r - (x.r + Real.pi / 2 + k * (2 * Real.pi))| ≤
        (|x.r| / 6 + 1) * (Fixed.u F + 1 / 2 ^ 51) + (3 / 4 * Fixed.u F + 1 / 2 ^ 53) := by
      have e3 : w.r - (x.r + Real.pi / 2 + k * (2 * Real.pi)) = (w.r - (q.r + k * (2 * Real.pi))) +
          (2 * (Fixed.halfRaw F : ℝ) * Fixed.u F - Real.pi) / 2 := by rw [hqr]; ring
      rw [e3]
      refine (abs_add_le _ _).trans (add_le_add (e1.trans ?_) ?_)
      · refine mul_le_mul_of_nonneg_right (by linarith) (by positivity)
      · rw [abs_div, abs_two]
        have : (1:ℝ) / 2 ^ 53 = 1 / 2 ^ 52 / 2 := by norm_num
        rw [this]; linarith
    have hsc := (Real.abs_sin_sub_sin_le w.r (x.r + Real.pi / 2 + k * (2 * Real.pi))).trans hsum
    rw [← hcos] at hsc
    have hfin : |z.r - Real.cos x.r| ≤
        4 / 1000000 + 9 * Fixed.u F + |x.r| / 6 * (Fixed.u F + 1 / 2 ^ 51) := by
      calc |z.r - Real.cos x.r| = |(z.r - Real.sin w.r) + (Real.sin w.r - Real.cos x.r)| := by congr 1; ring
        _ ≤ _ := abs_add_le _ _
        _ ≤ _ := by norm_num at e2 hsc ⊢; linarith
    rw [show (9:ℝ) / 2 ^ F = 9 * Fixed.u F by unfold Fixed.u; ring]
    exact hfin

example := C103_cos (m := .checked) (W := 32) (F := 8) (by decide) (fx .checked true 32 8 10000) (fx .checked true 32 8 804) (by kernel_rfl) (by decide)

/-- C103, exactly when the cosine panics: with overflow checks, adding π/2 overflows. -/
theorem C103_cos_panics (h : F + 20 ≤ W) (x p : Fixed .checked true W F)
    (hp : (MixedPi.pi : Prog (Fixed .checked true W F)) = pure p) :
    Panics (cos x) .overflow ↔ 2 ^ (W - 1) ≤ x.val + p.val / 2 := by
  constructor
  · intro hP
    by_contra hc
    obtain ⟨z, hz, _⟩ := C103_cos h x p hp (by omega)
    exact hz.not_panics hP
  · intro hc
    have hpv : p.val = Fixed.piRaw F := by
      rw [Fixed.pi_def (by omega)] at hp; rw [← Prog.pure_inj hp]; rfl
    rw [hpv] at hc
    refine .of_eq ?_
    rw [Fixed.cos_unfold h, Fixed.fit_checked, Prog.fail_bind]
    rintro ⟨_, h2⟩
    have : x.val + Fixed.piRaw F / 2 < 2 ^ (W - 1) := by simpa [whi, Fixed.halfRaw] using h2
    omega

example : (8 + 20 ≤ 32) ∧ (fx .checked true 32 8 (-2000000)).val + Fixed.piRaw 8 / 2 < 2 ^ 31 ∧
    2 ^ 31 ≤ (fx .checked true 32 8 (2 ^ 31 - 1)).val + Fixed.piRaw 8 / 2 := by
  unfold Fixed.piRaw; rw [Fixed.piLit_eq]; decide +kernel

end MixedNum
