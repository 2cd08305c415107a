import Verif.Spec.Spectrum
import Verif.Spec.Complex
import Verif.Model.Ideal
/-! # A discrete Fourier transform written with the crate's operators (specification only) -/

namespace MixedNum
noncomputable section

/-- Sample `k` of a block of `n` is turned by `d · 2πjk/n`; `d` is `-1` on the way there and `1` on the way back. -/
def turned (d : ℝ) (j : ℕ) (xs : List (Cartesian ℝ)) : List (Cartesian ℝ × Polar ℝ) :=
  xs.zipIdx.map fun p => (p.1, ⟨1, d * (2 * Real.pi * j * p.2 / xs.length)⟩)

/-- The transform of a block: one bin for each sample. -/
def transform (xs : List (Cartesian ℝ)) : Prog (List (Cartesian ℝ)) :=
  (List.range xs.length).mapM fun j => spectrum ⟨0, 0⟩ (turned (-1) j xs)

/-- The inverse transform: turned the other way, and each sum divided by the number of bins. -/
def inverse (ys : List (Cartesian ℝ)) : Prog (List (Cartesian ℝ)) :=
  (List.range ys.length).mapM fun k => do (← spectrum ⟨0, 0⟩ (turned 1 k ys)).divScalar (ys.length : ℝ)

/-- Entry `k` of a block as a complex number, zero outside. -/
def entry (xs : List (Cartesian ℝ)) (k : ℕ) : ℂ := (xs.getD k ⟨0, 0⟩).toC

/-- `Σ |x|²`. -/
def energy (xs : List (Cartesian ℝ)) : ℝ := (xs.map fun x => ‖x.toC‖ ^ 2).sum

end
end MixedNum
