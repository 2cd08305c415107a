import Verif.Lemmas.Ends
import Verif.Lemmas.WrapInst
import Verif.Props.AddSub
/-! # C38: polynomial sine on fixed point -/

namespace MixedNum
variable {W F : ℕ}

theorem ends_powi_checked (x : Fixed .checked true W F) (e : ℤ) : Ends .overflow (MixedPowi.powi x e) := by
  show Ends _ (powi x _); unfold powi; split
  · exact Fixed.ends_fit_checked _
  · exact ends_powiLoop (fun _ _ => Fixed.ends_fit_checked _) _ _ _

theorem ends_powi_wrapping (x : Fixed .wrapping true W F) (e : ℤ) : Ends .divByZero (MixedPowi.powi x e) := by
  show Ends _ (powi x _); unfold powi; split
  · exact Fixed.ends_fit_wrapping _ _
  · exact ends_powiLoop (fun _ _ => Fixed.ends_fit_wrapping _ _) _ _ _

theorem ends_sinFold_checked (x : Fixed .checked true W F) : Ends .overflow (sinFold x) := by
  unfold sinFold
  refine (Fixed.ends_fit_checked _).bind fun p _ => ?_
  refine (Fixed.ends_fit_checked _).bind fun two h2 => ?_
  have h2 := Fixed.val_of_fit_checked h2
  refine (Fixed.ends_div_checked (by rw [h2]; positivity)).bind fun ph _ => ?_
  refine (Fixed.ends_fit_checked _).bind fun np _ => ?_
  split
  · refine (Fixed.ends_fit_checked _).bind fun d _ => ?_
    exact (Fixed.ends_fit_checked _).bind fun _ _ => Fixed.ends_fit_checked _
  · split
    · exact (Fixed.ends_fit_checked _).bind fun _ _ => Fixed.ends_fit_checked _
    · exact .ret _

theorem ends_sinFold_wrapping (x : Fixed .wrapping true W F) : Ends .divByZero (sinFold x) := by
  unfold sinFold
  refine (Fixed.ends_fit_wrapping _ _).bind fun p _ => ?_
  refine (Fixed.ends_fit_wrapping _ _).bind fun two h2 => ?_
  refine (Fixed.ends_div_wrapping _ _).bind fun ph _ => ?_
  refine (Fixed.ends_fit_wrapping _ _).bind fun np _ => ?_
  split
  · refine (Fixed.ends_fit_wrapping _ _).bind fun d _ => ?_
    exact (Fixed.ends_fit_wrapping _ _).bind fun _ _ => Fixed.ends_fit_wrapping _ _
  · split
    · exact (Fixed.ends_fit_wrapping _ _).bind fun _ _ => Fixed.ends_fit_wrapping _ _
    · exact .ret _

theorem not_fits_362880 (h : W < F + 20) (h0 : 0 < W) : ¬ Fits true W (362880 * 2 ^ F) := by
  rw [Fixed.fits_signed]; rintro ⟨_, h2⟩
  have h1 : (2:ℤ) ^ (W - 1) ≤ 2 ^ (18 + F) := pow_le_pow_right₀ (by norm_num) (by omega)
  rw [pow_add] at h1
  have : (0:ℤ) < 2 ^ F := by positivity
  norm_num at h1; omega

/-- C38 is false, checked builds: with fewer than 20 integer bits (sign included) `sin` panics on *every* input,
because 9! = 362880 is not representable. -/
theorem C38_counterexample (h : W < F + 20) (h0 : 0 < W) (x : Fixed .checked true W F) :
    Panics (sin x) .overflow := by
  refine .of_eq ?_
  unfold sin
  refine (ends_sinFold_checked x).bind_fail fun x_ _ => ?_
  refine (ends_powi_checked x_ 3).bind_fail fun p _ => ?_
  refine (Fixed.ends_fit_checked _).bind_fail fun l hl => ?_
  refine (Fixed.ends_div_checked (by rw [Fixed.val_of_fit_checked hl]; positivity)).bind_fail fun d _ => ?_
  refine (Fixed.ends_fit_checked _).bind_fail fun s _ => ?_
  refine (ends_powi_checked x_ 5).bind_fail fun p _ => ?_
  refine (Fixed.ends_fit_checked _).bind_fail fun l hl => ?_
  refine (Fixed.ends_div_checked (by rw [Fixed.val_of_fit_checked hl]; positivity)).bind_fail fun d _ => ?_
  refine (Fixed.ends_fit_checked _).bind_fail fun s _ => ?_
  refine (ends_powi_checked x_ 7).bind_fail fun p _ => ?_
  refine (Fixed.ends_fit_checked _).bind_fail fun l hl => ?_
  refine (Fixed.ends_div_checked (by rw [Fixed.val_of_fit_checked hl]; positivity)).bind_fail fun d _ => ?_
  refine (Fixed.ends_fit_checked _).bind_fail fun s _ => ?_
  refine (ends_powi_checked x_ 9).bind_fail fun p _ => ?_
  rw [Fixed.ofI32_def, Fixed.fit_checked (not_fits_362880 h h0), Prog.fail_bind]

theorem wrapInt_multiple {n : ℤ} (h0 : 0 < W) (h : (2:ℤ) ^ W ∣ n) : wrapInt true W n = 0 := by
  rw [wrapInt_congr (b := 0) h0 (Int.modEq_zero_iff_dvd.mpr h)]
  exact wrapInt_of_fits (fits_zero _ _)

/-- C38, wrapping builds: with at most 7 integer bits 9! = 2835 · 2^7 wraps to 0 and `sin` divides by zero on every
input. -/
theorem C38_wrapping_counterexample (h : W ≤ F + 7) (h0 : 0 < W) (x : Fixed .wrapping true W F) :
    Panics (sin x) .divByZero := by
  refine .of_eq ?_
  unfold sin
  refine (ends_sinFold_wrapping x).bind_fail fun x_ _ => ?_
  refine (ends_powi_wrapping x_ 3).bind_fail fun p _ => ?_
  refine (Fixed.ends_fit_wrapping _ _).bind_fail fun l _ => ?_
  refine (Fixed.ends_div_wrapping _ _).bind_fail fun d _ => ?_
  refine (Fixed.ends_fit_wrapping _ _).bind_fail fun s _ => ?_
  refine (ends_powi_wrapping x_ 5).bind_fail fun p _ => ?_
  refine (Fixed.ends_fit_wrapping _ _).bind_fail fun l _ => ?_
  refine (Fixed.ends_div_wrapping _ _).bind_fail fun d _ => ?_
  refine (Fixed.ends_fit_wrapping _ _).bind_fail fun s _ => ?_
  refine (ends_powi_wrapping x_ 7).bind_fail fun p _ => ?_
  refine (Fixed.ends_fit_wrapping _ _).bind_fail fun l _ => ?_
  refine (Fixed.ends_div_wrapping _ _).bind_fail fun d _ => ?_
  refine (Fixed.ends_fit_wrapping _ _).bind_fail fun s _ => ?_
  refine (ends_powi_wrapping x_ 9).bind_fail fun p _ => ?_
  refine (Fixed.ends_fit_wrapping _ _).bind_fail fun l hl => ?_
  have hz : l.val = 0 := by
    rw [Fixed.val_of_fit_wrapping hl]
    refine wrapInt_multiple h0 ?_
    obtain ⟨d, hd⟩ := Nat.le.dest h
    refine ⟨2835 * 2 ^ d, ?_⟩
    have : (2:ℤ) ^ F * 2 ^ 7 = 2 ^ W * 2 ^ d := by rw [← pow_add, ← pow_add, hd]
    linarith
  rw [Fixed.div_def, if_pos hz, Prog.fail_bind]

example : Panics (sin (fx .checked true 32 16 0)) .overflow := C38_counterexample (by decide) (by decide) _
example : Panics (sin (fx .wrapping true 16 13 0)) .divByZero := C38_wrapping_counterexample (by decide) (by decide) _

end MixedNum
