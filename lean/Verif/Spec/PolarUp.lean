import Verif.Model.Complex
/-! # Multiplying up a list of polar numbers (specification only) -/

namespace MixedNum
variable {α : Type}

/-- `for q in qs { p = p * q }` on polar numbers. -/
def polarUp [MixedCmp α] [NumOps α] [Lit α] (p : Polar α) (qs : List (Polar α)) : Prog (Polar α) := qs.foldlM Polar.mul p

end MixedNum
