import Verif.Model.Complex
import Mathlib.Analysis.SpecialFunctions.Complex.Circle
/-! # Turning a number step by step (specification only)

The loop of an oscillator or mixer: a Cartesian number is multiplied by one polar number after the other. -/

namespace MixedNum
variable {α : Type}

/-- `for p in ps { z *= p }`. -/
def turnBy [MixedCmp α] [NumOps α] [Lit α] [MixedPi α] [MixedNumSigned α] [MixedSinCos α] (z : Cartesian α) (ps : List (Polar α)) :
    Prog (Cartesian α) := ps.foldlM Cartesian.mulAssignPolar z

/-- The complex number with this magnitude and angle. -/
noncomputable def phasor (mag ang : ℝ) : ℂ := mag * Complex.exp (ang * Complex.I)

/-- `1 + S + ... + S^(n-1)`. -/
noncomputable def geo (S : ℝ) (n : ℕ) : ℝ := ∑ i ∈ Finset.range n, S ^ i

end MixedNum
