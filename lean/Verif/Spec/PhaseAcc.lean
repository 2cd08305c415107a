import Verif.Model.Trig
/-! # A phase accumulator (specification only)

The loop a caller writes to generate a tone: advance the phase, wrap it, and take the sine. -/

namespace MixedNum
variable {α : Type} [MixedCmp α] [NumOps α] [Lit α] [MixedPi α] [MixedNumSigned α]

/-- `for d in ds { x = wrap_phase(x + d) }`. -/
def advance (x : α) (ds : List α) : Prog α := ds.foldlM (fun x d => NumOps.add x d >>= wrapPhase) x

end MixedNum
