import Verif.Model.Float
/-! Multiplication of a float by a power of two, and the middle of the range of a format. -/

namespace MixedNum.Flt
variable {f : Format}

/-- `x'` is `x` times `2^k`: both finite, with the same sign bit. -/
def Shift (k : ℤ) (x x' : Flt f) : Prop := ∃ s m, x = .fin s m ∧ x' = .fin s (m * 2 ^ k)

/-- Zero, or of a size whose square stays clear of both ends of the range of the format. For `f32` the size is from `2^-62` to `2^63`,
for `f64` from `2^-510` to `2^511`. -/
def Middle (f : Format) (q : ℚ) : Prop := q = 0 ∨ ((2:ℚ) ^ (f.emin + f.p + 1) ≤ q ^ 2 ∧ 4 * q ^ 2 ≤ 2 ^ f.emax)

end MixedNum.Flt
