import Verif.Model.Float
import Mathlib.Data.EReal.Basic
/-! # Equality of floats up to the sign of zero, and floats as extended reals. Specification only. -/

namespace MixedNum

/-- The same float (NaN included), or two zeros whose signs may differ. -/
def Flt.Same {f : Format} (x y : Flt f) : Prop := x = y ∨ ∃ s t, x = .fin s 0 ∧ y = .fin t 0

/-- The extended real number a float other than NaN stands for. -/
def Flt.MeansE {f : Format} (x : Flt f) (v : EReal) : Prop :=
  x = .inf true ∧ v = ⊥ ∨ x = .inf false ∧ v = ⊤ ∨ ∃ m : ℚ, x = .fin false m ∧ v = ((m : ℝ) : EReal) ∨ x = .fin true m ∧ v = ((-m : ℝ) : EReal)

end MixedNum
