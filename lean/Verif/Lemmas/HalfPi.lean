import Verif.Lemmas.FixedReal
import Verif.Props.Misc
/-! π and π/2 on fixed point. -/

namespace MixedNum
namespace Fixed
variable {m : Mode} {W F : ℕ}

/-- The stored integer of `π/2`. -/
def halfRaw (F : ℕ) : ℤ := piRaw F / 2

theorem halfRaw_bounds (F : ℕ) : 0 < halfRaw F ∧ halfRaw F < 2 * 2 ^ F ∧ 2 * halfRaw F ≤ piRaw F ∧
    piRaw F ≤ 2 * halfRaw F + 1 := by
  have := piRaw_bounds F; have : (0:ℤ) < 2 ^ F := by positivity
  unfold halfRaw; omega

theorem fits_half (h : F + 3 ≤ W) : Fits true W (halfRaw F) := by
  have := halfRaw_bounds F
  exact (fits_zero _ _).between (fits_pi h) (by omega) (by omega)

theorem half_eq (h : F + 3 ≤ W) : (do let p ← MixedPi.pi; let two ← Lit.ofI32 2; NumOps.div p two) =
    (pure (mkv (halfRaw F) (fits_half h)) : Prog (Fixed m true W F)) := by
  have hp : (0:ℤ) < 2 ^ F := by positivity
  have hb := piRaw_bounds F
  rw [pi_def (by omega), pure_bind, ofI32_def, fit_of_fits (fits_two (by omega)), pure_bind, div_def, mkv_val, mkv_val,
    if_neg (by positivity)]
  have e : (piRaw F * 2 ^ F).tdiv (2 * 2 ^ F) = halfRaw F := by
    rw [Int.tdiv_eq_ediv_of_nonneg (by nlinarith), Int.mul_ediv_mul_of_pos_left _ _ hp]; rfl
  rw [e]; exact fit_of_fits _

theorem pi_close (F : ℕ) : |(piRaw F : ℝ) * u F - Real.pi| ≤ u F / 2 + 1 / 2 ^ 52 := by
  have h := close_of_round (F := F) piLit_close
  rw [show ((roundHalfEven (piLit * 2 ^ F) : ℤ) : ℝ) = piRaw F from rfl] at h
  rw [show (piRaw F : ℝ) * u F = piRaw F / 2 ^ F by unfold u; ring]
  rw [show u F / 2 = 1 / 2 / 2 ^ F by unfold u; ring]; exact h

theorem half_close (F : ℕ) : |2 * (halfRaw F : ℝ) * u F - Real.pi| ≤ 3 / 2 * u F + 1 / 2 ^ 52 := by
  have h := abs_le.mp (pi_close F)
  have hb := halfRaw_bounds F
  have h1 : 2 * (halfRaw F : ℝ) ≤ piRaw F := by exact_mod_cast hb.2.2.1
  have h2 : (piRaw F : ℝ) ≤ 2 * halfRaw F + 1 := by exact_mod_cast hb.2.2.2
  have hu := u_pos F
  have e1 := mul_le_mul_of_nonneg_right h1 hu.le
  have e2 := mul_le_mul_of_nonneg_right h2 hu.le
  rw [abs_le]; constructor <;> linarith

end Fixed
end MixedNum
