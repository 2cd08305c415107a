import Verif.Model.Float
import Verif.Model.Fixed
/-! # What is assumed of the text of one component

Specification only. `core::fmt` and the `fixed` crate render a component; which characters they use and that different numbers
get different texts is documented, how they compute them is not modelled. -/

namespace MixedNum

/-- The text of a number that is not negative: digits, a point, an exponent, or a word. It begins neither with a sign nor with a
space, and a sign occurs only directly after an `e` or `E`, which is not the last character. -/
structure PlainText (t : List Char) : Prop where
  head : ∃ c r, t = c :: r ∧ c ≠ '+' ∧ c ≠ '-' ∧ c ≠ ' '
  signs : ∀ l a c r, t = l ++ a :: c :: r → c = '+' ∨ c = '-' → a = 'e' ∨ a = 'E'
  last : ∀ l, t ≠ l ++ ['e'] ∧ t ≠ l ++ ['E']

/-- Without a minus sign: NaN, plus infinity and the finite floats with sign bit zero. -/
def Flt.Plus {f : Format} : Flt f → Prop
  | .nan => True
  | .inf s => s = false
  | .fin s _ => s = false

/-- `{}`, `{:e}` and `{:E}` of a float, without precision: the texts of floats without minus sign are plain and pairwise
different; minus zero is shown as minus and the text of zero. -/
structure FloatText {f : Format} (r : Flt f → List Char) : Prop where
  plain : ∀ x, x.Valid → x.Plus → PlainText (r x)
  inj : ∀ x y, x.Valid → y.Valid → x.Plus → y.Plus → r x = r y → x = y
  negZero : r (.fin true 0) = '-' :: r (.fin false 0)

/-- `{}` of a fixed-point number, without precision: the texts of numbers that are not negative are plain and pairwise different. -/
structure FixedText {m : Mode} {s : Bool} {W F : ℕ} (r : Fixed m s W F → List Char) : Prop where
  plain : ∀ x, 0 ≤ x.val → PlainText (r x)
  inj : ∀ x y, 0 ≤ x.val → 0 ≤ y.val → r x = r y → x = y

end MixedNum
