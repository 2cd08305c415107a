import Verif.Lemmas.SqrtIter
import Verif.Props.AddSub
import Verif.Lemmas.Run
/-! # C112: the NIIRF square root with any number of iterations on signed fixed point -/

namespace MixedNum
variable {m : Mode} {W F : ℕ}
open Fixed

/-- C112: with `n ≥ 2` iterations the relative error shrinks at least by the factor 0.105 per further iteration, down to the
resolution of the type. -/
theorem C112_iterated (hF : 8 ≤ F) (hK : F + 4 ≤ W) (hW : W ≤ 128) (x : Fixed m true W F) (hx : x.val ≠ 0)
    (hmin : x.val ≠ -(2 ^ (W - 1))) (n : ℕ) (hn : 2 ≤ n) :
    ∃ z, Returns (niirf (.i32 m) x n) z ∧ |(z.val : ℝ) / 2 ^ F - √(|(x.val : ℝ)| / 2 ^ F)| ≤
      (996 / 1000000 * (21 / 200) ^ (n - 2) + 9 / 2 / 2 ^ F) * √(|(x.val : ℝ)| / 2 ^ F) + 13 / 8 / 2 ^ F := by
  have hf : Fits true W |x.val| := by
    have := x.fits; rw [fits_signed] at this ⊢; constructor <;> cases abs_cases x.val <;> omega
  obtain ⟨z, h1, h2⟩ := niirf_iterated (Counter.upto_width m hW) hF hK hx hf hn
  refine ⟨z, h1, ?_⟩
  have e : u F = 1 / 2 ^ F := rfl
  simp only [e, mul_one_div] at h2
  exact h2

/-- C112: with no or one iteration the result is the starting line, within 4.2 percent. -/
theorem C112_start (hF : 8 ≤ F) (hK : F + 4 ≤ W) (hW : W ≤ 128) (x : Fixed m true W F) (hx : x.val ≠ 0)
    (hmin : x.val ≠ -(2 ^ (W - 1))) (n : ℕ) (hn : n ≤ 1) :
    ∃ z, Returns (niirf (.i32 m) x n) z ∧ |(z.val : ℝ) / 2 ^ F - √(|(x.val : ℝ)| / 2 ^ F)| ≤
      (41669 / 1000000 + 5 / 2 ^ F) * √(|(x.val : ℝ)| / 2 ^ F) + 7 / 4 / 2 ^ F := by
  have hf : Fits true W |x.val| := by
    have := x.fits; rw [fits_signed] at this ⊢; constructor <;> cases abs_cases x.val <;> omega
  obtain ⟨z, h1, h2⟩ := niirf_uniterated (Counter.upto_width m hW) hF hK hx hf hn
  refine ⟨z, h1, ?_⟩
  have e : u F = 1 / 2 ^ F := rfl
  simp only [e, mul_one_div] at h2
  exact h2

example := C112_start (by decide) (by decide) (by decide) (fx .checked true 16 8 (-700)) (by decide) (by decide) 1 (by decide)

/-- C112: zero gives zero for every number of iterations. -/
theorem C112_zero (x : Fixed m true W F) (hx : x.val = 0) (n : ℕ) :
    ∃ z, Returns (niirf (.i32 m) x n) z ∧ z.val = 0 := by
  refine ⟨MixedZero.zero, .of_eq ?_, zero_val⟩
  unfold niirf
  rw [if_pos (by rw [beq_def, zero_val, decide_eq_true hx])]

example : ∃ z, Returns (niirf (.i32 .checked) (fx .checked true 64 32 (-(2 ^ 33))) 6) z ∧
    |(z.val : ℝ) / 2 ^ 32 - √2| ≤ 2 / 10 ^ 7 := by
  obtain ⟨z, h1, h2⟩ := C112_iterated (by norm_num) (by norm_num) (by norm_num) (fx .checked true 64 32 (-(2 ^ 33))) (by decide)
    (by decide) 6 (by norm_num)
  refine ⟨z, h1, ?_⟩
  have e : |((fx .checked true 64 32 (-(2 ^ 33))).val : ℝ)| / 2 ^ 32 = 2 := by
    rw [show (fx .checked true 64 32 (-(2 ^ 33))).val = -(2 ^ 33) from by decide]
    push_cast; rw [abs_neg, abs_of_pos (by positivity)]; norm_num
  rw [e] at h2
  have : √2 ≤ 3 / 2 := by rw [Real.sqrt_le_left (by norm_num)]; norm_num
  norm_num at h2 ⊢; nlinarith

end MixedNum
