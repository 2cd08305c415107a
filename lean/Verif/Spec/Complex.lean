import Mathlib.Analysis.SpecialFunctions.Complex.Arg
import Verif.Model.Complex
/-! # The complex number a Cartesian or polar value with real components stands for -/

namespace MixedNum
noncomputable section

/-- `re + im i`. -/
def Cartesian.toC (z : Cartesian ℝ) : ℂ := ⟨z.re, z.im⟩

/-- `mag e^(i ang)`. -/
def Polar.toC (p : Polar ℝ) : ℂ := p.mag * Complex.exp (p.ang * Complex.I)

/-- `re + im i` for the `num` crate's type. -/
def NumComplex.toC (z : NumComplex ℝ) : ℂ := ⟨z.re, z.im⟩

end
end MixedNum
