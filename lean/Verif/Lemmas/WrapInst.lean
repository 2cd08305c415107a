import Verif.Lemmas.Wrap
import Verif.Lemmas.Word
import Verif.Lemmas.Real
import Verif.Lemmas.Round
/-! Exact reals and signed fixed-point numbers wrap phases without rounding. -/

namespace MixedNum

/-- The reals. -/
noncomputable def wrapReal : WrapExact ℝ where
  v x := x
  inj _ _ h := h
  p := Real.pi
  np := -Real.pi
  t := 2 * Real.pi
  two := ((2 : ℤ) : ℝ)
  pos := Real.pi_pos
  pi_eq := rfl
  two_eq := rfl
  tau_eq := by simp
  neg_eq := rfl
  neg_v := rfl
  lt_iff := by simp
  le_iff := by simp
  add_eq a _ := ⟨_, rfl, rfl⟩
  sub_eq a _ := ⟨_, rfl, rfl⟩

namespace Fixed
variable {m : Mode} {W F : ℕ}

theorem piLit_eq : piLit = 884279719003555 / 281474976710656 := by decide +kernel

/-- The stored integer of the type's π. -/
def piRaw (F : ℕ) : ℤ := roundHalfEven (piLit * 2 ^ F)

theorem piRaw_bounds (F : ℕ) : 3 * 2 ^ F ≤ piRaw F ∧ piRaw F < 4 * 2 ^ F := by
  have h0 : (1:ℚ) ≤ 2 ^ F := one_le_pow₀ (by norm_num)
  constructor
  · apply le_roundHalfEven_of_le
    rw [piLit_eq]; push_cast; nlinarith
  · have := roundHalfEven_le (piLit * 2 ^ F)
    have h : (piRaw F : ℚ) < 4 * 2 ^ F := by
      refine lt_of_le_of_lt this ?_
      rw [piLit_eq]; linarith
    exact_mod_cast h

theorem fits_signed {n : ℤ} : Fits true W n ↔ -(2 ^ (W - 1)) ≤ n ∧ n < 2 ^ (W - 1) := by
  simp [Fits, wlo, whi]

/-- `2^(F+k) ≤ 2^(W-1)` when there are enough integer bits. -/
theorem pow_le_of_bits {k : ℕ} (h : F + k + 1 ≤ W) : (2:ℤ) ^ k * 2 ^ F ≤ 2 ^ (W - 1) := by
  rw [← pow_add]; exact pow_le_pow_right₀ (by norm_num) (by omega)

theorem fits_pi (h : F + 3 ≤ W) : Fits true W (piRaw F) := by
  have := piRaw_bounds F; have := pow_le_of_bits (k := 2) (show F + 2 + 1 ≤ W by omega)
  have : (0:ℤ) < 2 ^ F := by positivity
  rw [fits_signed]; constructor <;> omega

theorem fits_neg_pi (h : F + 3 ≤ W) : Fits true W (-piRaw F) := by
  have := piRaw_bounds F; have := pow_le_of_bits (k := 2) (show F + 2 + 1 ≤ W by omega)
  have : (0:ℤ) < 2 ^ F := by positivity
  rw [fits_signed]; constructor <;> omega

theorem fits_two (h : F + 3 ≤ W) : Fits true W (2 * 2 ^ F) := by
  have := pow_le_of_bits (k := 2) (show F + 2 + 1 ≤ W by omega)
  have : (0:ℤ) < 2 ^ F := by positivity
  rw [fits_signed]; constructor <;> omega

theorem fits_tau (h : F + 4 ≤ W) : Fits true W (2 * piRaw F) := by
  have := piRaw_bounds F; have := pow_le_of_bits (k := 3) (show F + 3 + 1 ≤ W by omega)
  have : (0:ℤ) < 2 ^ F := by positivity
  rw [fits_signed]; constructor <;> omega

/-- With three integer bits the turn does not fit. -/
theorem not_fits_tau (h : W = F + 3) : ¬ Fits true W (2 * piRaw F) := by
  have := piRaw_bounds F
  have e : (2:ℤ) ^ (W - 1) = 4 * 2 ^ F := by subst h; rw [show F + 3 - 1 = F + 2 by omega, pow_add]; ring
  rw [fits_signed]; omega

theorem pi_def (h : F + 3 ≤ W) : (MixedPi.pi : Prog (Fixed m true W F)) = pure (mkv (piRaw F) (fits_pi h)) :=
  fit_of_fits _

theorem two_mul_pi (F : ℕ) : 2 * 2 ^ F * piRaw F / 2 ^ F = 2 * piRaw F := by
  rw [show 2 * 2 ^ F * piRaw F = 2 * piRaw F * 2 ^ F by ring]; exact Int.mul_ediv_cancel _ (by positivity)

theorem wrapInt_turn {a n : ℤ} (hW : 0 < W) (hn : Fits true W (a + n)) : wrapInt true W (a + wrapInt true W n) = a + n := by
  rw [← wrapInt_of_fits hn]
  exact wrapInt_congr hW ((Int.ModEq.refl a).add (wrapInt_modEq hW n))

/-- Signed fixed point: four integer bits with overflow checks, three without. -/
noncomputable def wrapExact (h : F + 3 ≤ W) (hm : m = .checked → F + 4 ≤ W) : WrapExact (Fixed m true W F) where
  v x := x.val
  inj a b hab := by ext; have h' : (a.val : ℝ) = b.val := hab; exact_mod_cast h'
  p := mkv (piRaw F) (fits_pi h)
  np := mkv (-piRaw F) (fits_neg_pi h)
  t := mkv (wrapInt true W (2 * piRaw F)) (fits_wrapInt _ _ _)
  two := mkv (2 * 2 ^ F) (fits_two h)
  pos := by
    have := piRaw_bounds F; have : (0:ℤ) < 2 ^ F := by positivity
    simp only [mkv_val]; exact_mod_cast (by omega : 0 < piRaw F)
  pi_eq := pi_def h
  two_eq := by rw [ofI32_def, fit_of_fits (fits_two h)]
  tau_eq := by
    rw [mul_def, mkv_val, mkv_val, two_mul_pi]
    cases m with
    | checked =>
      have := fits_tau (hm rfl)
      rw [fit_of_fits this]; congr 1; ext; simp [wrapInt_of_fits this]
    | wrapping => rw [fit_wrapping]
  neg_eq := by rw [neg_def, mkv_val, fit_of_fits (fits_neg_pi h)]
  neg_v := by simp
  lt_iff a b := by simp
  le_iff a b := by simp
  add_eq a ha := by
    have h1 : a.val < -piRaw F := by simp only [mkv_val] at ha; exact_mod_cast ha
    have hb := piRaw_bounds F
    have hf : Fits true W (a.val + 2 * piRaw F) :=
      Fits.between a.fits (fits_pi h) (by have : (0:ℤ) < 2 ^ F := by positivity
                                          omega) (by omega)
    cases m with
    | checked =>
      refine ⟨mkv _ hf, ?_, by simp⟩
      rw [add_def, mkv_val, wrapInt_of_fits (fits_tau (hm rfl)), fit_of_fits hf]
    | wrapping =>
      refine ⟨mkv _ hf, ?_, by simp⟩
      rw [add_def, mkv_val, fit_wrapping]; congr 1; ext; exact wrapInt_turn (by omega) hf
  sub_eq a ha := by
    have h1 : piRaw F ≤ a.val := by simp only [mkv_val] at ha; exact_mod_cast ha
    have hb := piRaw_bounds F
    have hf : Fits true W (a.val - 2 * piRaw F) :=
      Fits.between (fits_neg_pi h) a.fits (by omega) (by have : (0:ℤ) < 2 ^ F := by positivity
                                                         omega)
    cases m with
    | checked =>
      refine ⟨mkv _ hf, ?_, by simp⟩
      rw [sub_def, mkv_val, wrapInt_of_fits (fits_tau (hm rfl)), fit_of_fits hf]
    | wrapping =>
      refine ⟨mkv _ hf, ?_, by simp⟩
      rw [sub_def, mkv_val, fit_wrapping]; congr 1; ext
      show wrapInt true W (a.val - wrapInt true W (2 * piRaw F)) = _
      rw [mkv_val, ← wrapInt_of_fits hf]
      exact wrapInt_congr (by omega) ((Int.ModEq.refl a.val).sub (wrapInt_modEq (by omega) _))

end Fixed
end MixedNum
