import Verif.Spec.Outcome
import Verif.Lemmas.Word
/-! The model's `fit` meets the outcome specification. -/

namespace MixedNum
variable {m : Mode} {s : Bool} {W F : ℕ}

theorem inRange_iff {n : ℤ} : InRange s W n ↔ Fits s W n := by
  cases s <;> simp [InRange, Fits, wlo, whi]

theorem isReduction_wrapInt (hW : 0 < W) (n : ℤ) : IsReduction s W n (wrapInt s W n) :=
  ⟨inRange_iff.mpr (fits_wrapInt s W n), wrapInt_modEq hW n⟩

/-- A reduction is unique. -/
theorem IsReduction.eq_wrapInt (hW : 0 < W) {n r : ℤ} (h : IsReduction s W n r) : r = wrapInt s W n :=
  eq_of_modEq_of_fits hW (inRange_iff.mp h.1) (fits_wrapInt s W n) (h.2.trans (wrapInt_modEq hW n).symm)

theorem PInt.pairOutcome (hW : 0 < W) (x y : ℤ) :
    PairOutcome (fun a : PInt m s W => a.val) m s W x y
      (do let re ← PInt.fit x; let im ← PInt.fit y; pure (⟨re, im⟩ : Cartesian (PInt m s W))) := by
  refine ⟨fun h => ?_, fun h => ?_⟩
  · rw [inRange_iff, inRange_iff] at h
    rw [PInt.fit_of_fits h.1, PInt.fit_of_fits h.2]
    exact ⟨_, .of_eq rfl, rfl, rfl⟩
  · rw [inRange_iff, inRange_iff] at h
    cases m with
    | checked =>
      by_cases hx : Fits s W x
      · rw [PInt.fit_of_fits hx, PInt.fit_checked (fun hy => h ⟨hx, hy⟩)]; exact .of_eq rfl
      · rw [PInt.fit_checked hx]; exact .of_eq rfl
    | wrapping =>
      simp only [PInt.fit_wrapping]
      exact ⟨_, .of_eq rfl, isReduction_wrapInt hW x, isReduction_wrapInt hW y⟩

theorem Fixed.pairOutcome (hW : 0 < W) (x y : ℤ) :
    PairOutcome (fun a : Fixed m s W F => a.val) m s W x y
      (do let re ← Fixed.fit x; let im ← Fixed.fit y; pure (⟨re, im⟩ : Cartesian (Fixed m s W F))) := by
  refine ⟨fun h => ?_, fun h => ?_⟩
  · rw [inRange_iff, inRange_iff] at h
    rw [Fixed.fit_of_fits h.1, Fixed.fit_of_fits h.2]
    exact ⟨_, .of_eq rfl, rfl, rfl⟩
  · rw [inRange_iff, inRange_iff] at h
    cases m with
    | checked =>
      by_cases hx : Fits s W x
      · rw [Fixed.fit_of_fits hx, Fixed.fit_checked (fun hy => h ⟨hx, hy⟩)]; exact .of_eq rfl
      · rw [Fixed.fit_checked hx]; exact .of_eq rfl
    | wrapping =>
      simp only [Fixed.fit_wrapping]
      exact ⟨_, .of_eq rfl, isReduction_wrapInt hW x, isReduction_wrapInt hW y⟩

theorem PInt.outcome (hW : 0 < W) (x : ℤ) :
    Outcome (fun a : PInt m s W => a.val) m s W x (PInt.fit x) := by
  refine ⟨fun h => ?_, fun h => ?_⟩
  · rw [PInt.fit_of_fits (inRange_iff.mp h)]; exact ⟨_, .of_eq rfl, rfl⟩
  · rw [inRange_iff] at h
    cases m with
    | checked => rw [PInt.fit_checked h]; exact .of_eq rfl
    | wrapping => rw [PInt.fit_wrapping]; exact ⟨_, .of_eq rfl, isReduction_wrapInt hW x⟩

theorem Fixed.outcome (hW : 0 < W) (x : ℤ) :
    Outcome (fun a : Fixed m s W F => a.val) m s W x (Fixed.fit x) := by
  refine ⟨fun h => ?_, fun h => ?_⟩
  · rw [Fixed.fit_of_fits (inRange_iff.mp h)]; exact ⟨_, .of_eq rfl, rfl⟩
  · rw [inRange_iff] at h
    cases m with
    | checked => rw [Fixed.fit_checked h]; exact .of_eq rfl
    | wrapping => rw [Fixed.fit_wrapping]; exact ⟨_, .of_eq rfl, isReduction_wrapInt hW x⟩

end MixedNum
