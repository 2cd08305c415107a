import Verif.Lemmas.Round
/-! Halfway cases of rounding. -/

namespace MixedNum

/-- Halfway cases round to the even neighbour. -/
theorem roundHalfEven_tie {y : ℚ} (h : |(roundHalfEven y : ℚ) - y| = 1 / 2) : roundHalfEven y % 2 = 0 := by
  have hl := Int.floor_le y
  have hu := Int.lt_floor_add_one y
  rw [roundHalfEven_eq] at h ⊢
  split_ifs at h ⊢ with h1 h2 h3
  · rw [abs_sub_comm, abs_of_nonneg (by linarith)] at h; linarith
  · push_cast at h; rw [abs_of_nonneg (by linarith)] at h; linarith
  · exact h3
  · omega

end MixedNum
