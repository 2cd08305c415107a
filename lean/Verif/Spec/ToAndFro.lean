import Verif.Model.Complex
import Mathlib.Algebra.BigOperators.Group.Finset.Basic
import Mathlib.Data.Real.Basic
/-! # Changing form and back, many times (specification only)

A program that keeps a number in one form and does part of its work in the other. -/

namespace MixedNum
variable {α : Type}

/-- `for _ in 0..n { z = z.to_polar().to_cartesian() }`. -/
def toAndFro [MixedCmp α] [NumOps α] [Lit α] [MixedPi α] [MixedNumSigned α] [MixedSinCos α] [MixedPowi α] [MixedSqrt α] [MixedAtan α]
    (z : Cartesian α) : ℕ → Prog (Cartesian α)
  | 0 => pure z
  | n + 1 => do
    let w ← toAndFro z n
    let q ← w.toPolar
    q.toCartesian

/-- How far a number of size `N` can have moved after `n` steps, each of which moves it by `d` times its size and `e` more. -/
noncomputable def drift (d e N : ℝ) (n : ℕ) : ℝ := ((1 + d) ^ n - 1) * N + e * ∑ i ∈ Finset.range n, (1 + d) ^ i

end MixedNum
