import Verif.Model.Complex
/-! # The angle between two numbers (specification only)

What a frequency demodulator computes from two samples that follow each other. -/

namespace MixedNum
variable {α : Type}

/-- `(z * w.conj()).arg()`. -/
def phaseDiff [NumOps α] [MixedNumSigned α] [MixedAtan α] (z w : Cartesian α) : Prog α := do
  let c ← w.conj
  let p ← z.mul c
  p.arg

end MixedNum
