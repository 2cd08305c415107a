import Verif.Model.Complex
import Mathlib.Analysis.Real.Pi.Bounds
/-! # A sum of turned numbers (specification only)

One bin of a discrete Fourier transform, or the output of a mixer: samples times polar factors, added up. -/

namespace MixedNum
variable {α : Type}

/-- `for (z, p) in ts { acc = acc + z * p }` with Cartesian `z` and polar `p`. -/
def spectrum [MixedCmp α] [NumOps α] [Lit α] [MixedPi α] [MixedNumSigned α] [MixedSinCos α] (acc : Cartesian α)
    (ts : List (Cartesian α × Polar α)) : Prog (Cartesian α) :=
  ts.foldlM (fun acc t => do acc.add (← t.1.mulPolar t.2)) acc

/-- The terms of one bin: sample `k` of `n` is turned by `-2πjk/n`. -/
noncomputable def bin (n : ℕ) (j : ℤ) (x : ℕ → Cartesian ℝ) : List (Cartesian ℝ × Polar ℝ) :=
  (List.range n).map fun k => (x k, ⟨1, -(2 * Real.pi * j * k / n)⟩)

end MixedNum
