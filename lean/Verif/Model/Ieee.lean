import Mathlib.Algebra.Order.Field.Rat
import Mathlib.Algebra.Order.Ring.Abs
/-!
# IEEE-754 rounding of rationals

Round-to-nearest, ties-to-even, to a binary format with `p` bits of precision and least exponent
`emin` (the exponent of the least subnormal). Exponent overflow is treated in `Model/Float.lean`.
Models what the Rust compiler does with decimal literals, what `as` casts do, and what IEEE `+ - * /` do.
-/

namespace MixedNum

/-- `2^e` as a rational, for any integer `e`. -/
def pow2 (e : ℤ) : ℚ := if 0 ≤ e then 2 ^ e.toNat else 1 / 2 ^ (-e).toNat

/-- `⌊log₂ q⌋` for `q > 0`. -/
def ilog2 (q : ℚ) : ℤ :=
  let e : ℤ := (Nat.log2 q.num.natAbs : ℤ) - (Nat.log2 q.den : ℤ)
  if pow2 e ≤ q then e else e - 1

/-- Nearest integer, ties to the even one. -/
def roundHalfEven (q : ℚ) : ℤ :=
  let f := q.floor
  let r := q - f
  if r < 1/2 then f
  else if 1/2 < r then f + 1
  else if f % 2 = 0 then f else f + 1

/-- Nearest number with `p` significant bits whose last bit is not below `2^emin` (ties to even). -/
def roundTo (p : ℕ) (emin : ℤ) (q : ℚ) : ℚ :=
  if q = 0 then 0 else
    let e := max (ilog2 |q| - (p - 1)) emin
    roundHalfEven (q / pow2 e) * pow2 e

/-- The value of an `f64` literal or `f64` result with exact value `q` (no exponent overflow). -/
def f64Round (q : ℚ) : ℚ := roundTo 53 (-1074) q

end MixedNum
