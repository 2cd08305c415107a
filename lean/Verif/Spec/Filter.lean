import Verif.Model.Complex
import Mathlib.Algebra.BigOperators.Fin
/-! # A one-pole filter, or Horner's rule (specification only)

The loop a caller writes with the crate's operators, and the number it is meant to compute. -/

namespace MixedNum
variable {α : Type}

/-- `for w in ws { y = y * a + w }`: a filter with feedback `a`, or Horner's rule for the polynomial with coefficients `y, ws` at `a`. -/
def feedback [NumOps α] (a y : Cartesian α) (ws : List (Cartesian α)) : Prog (Cartesian α) :=
  ws.foldlM (fun y w => do (← y.mul a).add w) y

/-- `y a^n + w_0 a^(n-1) + ... + w_(n-1)`. -/
def horner {R : Type} [CommRing R] (a y : R) (ws : List R) : R :=
  y * a ^ ws.length + ∑ i : Fin ws.length, ws[i] * a ^ (ws.length - 1 - i)

end MixedNum
