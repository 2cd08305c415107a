import Verif.Spec.Float
/-! # What IEEE 754 requires of one part when an operand is infinite

Specification only. -/

namespace MixedNum
variable {f : Format}

/-- `y` is what `x` times the infinity of sign `t` has to be: infinite with the sign of the product; NaN for zero and NaN. -/
def TimesInf (x : Flt f) (t : Bool) (y : Flt f) : Prop :=
  (MixedCmp.lt MixedZero.zero x = true → y = .inf t) ∧ (MixedCmp.lt x MixedZero.zero = true → y = .inf (!t)) ∧
  (MixedCmp.beq x MixedZero.zero = true ∨ x = .nan → y = .nan)

/-- `y` is what `x` divided by the infinity of sign `t` has to be: a zero with the sign of the quotient; NaN if `x` is not finite. -/
def OverInf (x : Flt f) (t : Bool) (y : Flt f) : Prop :=
  (x.IsFinite → y.IsFinite ∧ y.val = 0 ∧ (MixedReal.isNegative y = true ↔ MixedReal.isNegative x ≠ t)) ∧ (¬x.IsFinite → y = .nan)

/-- `y` is what the infinity of sign `s` times or divided by the non-zero `r` has to be. -/
def InfTimes (s : Bool) (r y : Flt f) : Prop :=
  (MixedCmp.lt MixedZero.zero r = true → y = .inf s) ∧ (MixedCmp.lt r MixedZero.zero = true → y = .inf (!s))

/-- `y` is what the infinity of sign `s` plus `r` has to be: the same infinity, unless `r` is the opposite one or NaN. -/
def InfPlus (s : Bool) (r y : Flt f) : Prop :=
  (r.IsFinite ∨ r = .inf s → y = .inf s) ∧ (r = .inf (!s) ∨ r = .nan → y = .nan)

end MixedNum
