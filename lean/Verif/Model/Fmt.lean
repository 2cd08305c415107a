import Verif.Model.Complex
import Verif.Model.PInt
import Mathlib.Data.Nat.Digits.Defs
/-!
# Formatting: `src/complex/cartesian_impl/num_complex_impl.rs` and `Display for Polar`

Text is a list of characters. How `core::fmt` renders one component (with the formatter's precision) is a parameter
`render`; for integers under `{}` it is `decimal`.
-/

namespace MixedNum
open MixedCmp MixedZero

variable {α : Type}

/-- The formatter settings the code looks at. -/
structure FmtSpec where
  signPlus : Bool := false
  alternate : Bool := false
  precision : Option ℕ := none
  width : Option ℕ := none

/-- Where the text of each part goes: `fmt_re_im` (num_complex_impl.rs:40-79). -/
def fmtReIm (f : FmtSpec) (pre : List Char) (reNeg imNeg : Bool) (real imag : List Char) : List Char :=
  let pre := if f.alternate then pre else []
  let sign : List Char := if reNeg then ['-'] else if f.signPlus then ['+'] else []
  if imNeg then
    sign ++ pre ++ real ++ ['-'] ++ pre ++ imag ++ ['i']
  else
    sign ++ pre ++ real ++ ['+'] ++ pre ++ imag ++ ['i']

/-- `fmt_complex` (num_complex_impl.rs:81-95): with feature `std`, right-aligned with spaces to the width. -/
def fmtComplex (std : Bool) (f : FmtSpec) (text : List Char) : List Char :=
  if std then
    match f.width with
    | some w => List.replicate (w - text.length) ' ' ++ text
    | none => text
  else text

/-- The absolute value of a part as `write_complex!` computes it: `0 - x` if negative (num_complex_impl.rs:11-20). -/
def fmtAbs [MixedCmp α] [MixedZero α] [NumOps α] (x : α) : Prog α :=
  if lt x zero then NumOps.sub zero x else pure x

/-- `write_complex!` (num_complex_impl.rs:9-38): the body of `fmt` for all seven formatting traits (lines 99-189).
`render prec x` is the text of component `x`; `pre` is the alternate-form prefix. -/
def writeComplex [MixedCmp α] [MixedZero α] [NumOps α] (std : Bool) (f : FmtSpec) (pre : List Char)
    (render : Option ℕ → α → List Char) (z : Cartesian α) : Prog (List Char) := do
  let absRe ← fmtAbs z.re
  let absIm ← fmtAbs z.im
  pure (fmtComplex std f
    (fmtReIm f pre (lt z.re zero) (lt z.im zero) (render f.precision absRe) (render f.precision absIm)))

/-- `Display for Polar` (src/complex/polar_impl.rs:180-187). -/
def polarDisplay (render : α → List Char) (p : Polar α) : List Char :=
  render p.mag ++ ['∠'] ++ render p.ang

/-- Decimal text of an integer, as `core::fmt::Display` prints it without flags. -/
def decimalInt (n : ℤ) : List Char :=
  if n < 0 then '-' :: Nat.toDigits 10 n.natAbs else Nat.toDigits 10 n.natAbs

/-- `{}` of a primitive integer; the precision is ignored for integers. -/
def decimal {m : Mode} {s : Bool} {W : ℕ} (_prec : Option ℕ) (x : PInt m s W) : List Char := decimalInt x.val

/-- `to_string()` of a Cartesian integer: `Display` (num_complex_impl.rs:99-117) with a default formatter. -/
def displayInt {m : Mode} {s : Bool} {W : ℕ} (z : Cartesian (PInt m s W)) : Prog (List Char) :=
  writeComplex true {} [] decimal z

/-- The integer formats other than decimal: `LowerHex`, `UpperHex`, `Octal`, `Binary` (num_complex_impl.rs:155-189). -/
inductive Radix
  | lowerHex
  | upperHex
  | octal
  | binary

/-- The base of the format. -/
def Radix.base : Radix → ℕ
  | .lowerHex => 16
  | .upperHex => 16
  | .octal => 8
  | .binary => 2

/-- The prefix of the alternate form (num_complex_impl.rs:160,169,178,187). -/
def Radix.pre : Radix → List Char
  | .lowerHex => ['0', 'x']
  | .upperHex => ['0', 'x']
  | .octal => ['0', 'o']
  | .binary => ['0', 'b']

/-- A digit as `core::fmt` writes it: capital letters under `{:X}`. -/
def Radix.digit (r : Radix) (d : ℕ) : Char :=
  match r with
  | .upperHex => (Nat.digitChar d).toUpper
  | _ => Nat.digitChar d

/-- The digits of a natural number, most significant first; zero is one digit. -/
def Radix.text (r : Radix) (n : ℕ) : List Char :=
  if n = 0 then ['0'] else ((Nat.digits r.base n).reverse.map r.digit)

/-- `{:x}`, `{:X}`, `{:o}`, `{:b}` of a primitive integer: the digits of its bits, read as an unsigned number.
The precision is ignored for integers. -/
def Radix.render (r : Radix) {m : Mode} {s : Bool} {W : ℕ} (_prec : Option ℕ) (x : PInt m s W) : List Char :=
  r.text (x.val % 2 ^ W).toNat

/-- `LowerHex`, `UpperHex`, `Octal` and `Binary` of a Cartesian integer (num_complex_impl.rs:155-189). -/
def displayRadix (r : Radix) {m : Mode} {s : Bool} {W : ℕ} (std : Bool) (f : FmtSpec) (z : Cartesian (PInt m s W)) :
    Prog (List Char) :=
  writeComplex std f r.pre r.render z

/-- The derived `Debug` of a struct with two fields (src/complex.rs:12,22). `alt` is `{:#?}`: one field per line, indented by
four spaces; the text of a field is taken to be one line. -/
def debugStruct (name f1 f2 : List Char) (alt : Bool) (t1 t2 : List Char) : List Char :=
  if alt then
    name ++ " {\n    ".toList ++ f1 ++ ": ".toList ++ t1 ++ ",\n    ".toList ++ f2 ++ ": ".toList ++ t2 ++ ",\n}".toList
  else
    name ++ " { ".toList ++ f1 ++ ": ".toList ++ t1 ++ ", ".toList ++ f2 ++ ": ".toList ++ t2 ++ " }".toList

/-- `Debug for Cartesian`, derived (src/complex.rs:12). -/
def debugCartesian (alt : Bool) (render : α → List Char) (z : Cartesian α) : List Char :=
  debugStruct "Cartesian".toList "re".toList "im".toList alt (render z.re) (render z.im)

/-- `Debug for Polar`, derived (src/complex.rs:22). -/
def debugPolar (alt : Bool) (render : α → List Char) (p : Polar α) : List Char :=
  debugStruct "Polar".toList "mag".toList "ang".toList alt (render p.mag) (render p.ang)

end MixedNum
