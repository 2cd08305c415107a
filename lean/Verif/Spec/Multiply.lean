import Verif.Model.Complex
import Verif.Model.PInt
import Verif.Spec.Float
import Mathlib.NumberTheory.Zsqrtd.GaussianInt
/-! # Multiplying up a list (specification only)

The crate has no `Product`; this is the loop a caller writes with its operator. -/

namespace MixedNum
variable {α : Type}

/-- `for w in ws { z = z * w }`. -/
def multiplyUp [NumOps α] (z : Cartesian α) (ws : List (Cartesian α)) : Prog (Cartesian α) := ws.foldlM Cartesian.mul z

/-- The Gaussian integer a pair of machine integers stands for. -/
def gauss {m : Mode} {s : Bool} {W : ℕ} (z : Cartesian (PInt m s W)) : GaussianInt := ⟨z.re.val, z.im.val⟩

/-- Two finite floats standing for a Gaussian integer. -/
def IsGauss {f : Format} (z : Cartesian (Flt f)) (g : GaussianInt) : Prop :=
  ((z.re.Valid ∧ z.re.IsFinite) ∧ z.im.Valid ∧ z.im.IsFinite) ∧ z.re.val = g.re ∧ z.im.val = g.im

/-- The sum of the magnitudes of both parts. -/
def size (g : GaussianInt) : ℤ := |g.re| + |g.im|

end MixedNum
