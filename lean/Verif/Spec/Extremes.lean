import Mathlib.Data.Int.Notation
import Mathlib.Algebra.Ring.Int.Defs
/-! # The least and the greatest value of a word

Specification only. -/

namespace MixedNum

/-- The least value of a signed or unsigned word of `W` bits. -/
def least (s : Bool) (W : ℕ) : ℤ := if s then -(2 ^ (W - 1)) else 0

/-- The greatest. -/
def greatest (s : Bool) (W : ℕ) : ℤ := (if s then 2 ^ (W - 1) else 2 ^ W) - 1

end MixedNum
