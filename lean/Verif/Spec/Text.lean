import Mathlib.Data.Nat.Notation
import Mathlib.Data.Int.Notation
/-! # Reading the text `<re><sign><im>i` back

Specification only; written without reference to the formatting code. -/

namespace MixedNum

/-- Reads an integer: any number of leading minus signs, each negating, then decimal digits.
Returns the value and the rest of the text. -/
def readInt : List Char → ℤ × List Char
  | '-' :: t => (-(readInt t).1, (readInt t).2)
  | t => (Nat.ofDigitChars 10 (t.takeWhile Char.isDigit) 0, t.dropWhile Char.isDigit)

/-- Reads `<int>+<int>i` or `<int>-<int>i`. -/
def readCartesian (t : List Char) : Option (ℤ × ℤ) :=
  match (readInt t).2 with
  | '+' :: r => if (readInt r).2 = ['i'] then some ((readInt t).1, (readInt r).1) else none
  | '-' :: r => if (readInt r).2 = ['i'] then some ((readInt t).1, -(readInt r).1) else none
  | _ => none

/-- The layout of a formatted complex number. `neg`/`neg'` say whether the parts are negative, `a`/`b` are the texts
of their absolute values, `radix` is the radix prefix (empty unless the alternate flag is given). -/
def layout (plus neg neg' : Bool) (radix a b : String) : String :=
  (if neg then "-" else if plus then "+" else "") ++ radix ++ a ++ (if neg' then "-" else "+") ++ radix ++ b ++ "i"

/-- `t` is `s` with spaces in front so that it has at least `w` characters. -/
def IsPadded (w : ℕ) (s t : List Char) : Prop :=
  ∃ k, t = List.replicate k ' ' ++ s ∧ t.length = max w s.length

/-- Reads `<int>∠<int>`. -/
def readPolar (t : List Char) : Option (ℤ × ℤ) :=
  match (readInt t).2 with
  | '∠' :: r => if (readInt r).2 = [] then some ((readInt t).1, (readInt r).1) else none
  | _ => none

/-- The value of a digit, small or capital. -/
def digitValue (c : Char) : Option ℕ :=
  if '0' ≤ c ∧ c ≤ '9' then some (c.toNat - '0'.toNat)
  else if 'a' ≤ c ∧ c ≤ 'f' then some (c.toNat - 'a'.toNat + 10)
  else if 'A' ≤ c ∧ c ≤ 'F' then some (c.toNat - 'A'.toNat + 10)
  else none

/-- A digit of the given base. -/
def isDigitOf (base : ℕ) (c : Char) : Bool :=
  match digitValue c with
  | some v => v < base
  | none => false

/-- Reads the prefix and a natural number in the given base. Returns the value and the rest of the text. -/
def readNat (base : ℕ) (pre t : List Char) : Option (ℕ × List Char) :=
  if pre.isPrefixOf t then
    let u := t.drop pre.length
    if u.takeWhile (isDigitOf base) = [] then none
    else some ((u.takeWhile (isDigitOf base)).foldl (fun n c => base * n + (digitValue c).getD 0) 0, u.dropWhile (isDigitOf base))
  else none

/-- Reads an optional sign. -/
def readSign : List Char → Bool × List Char
  | '-' :: t => (true, t)
  | '+' :: t => (false, t)
  | t => (false, t)

/-- Reads `[sign]<prefix><nat><sign><prefix><nat>i` after any spaces. -/
def readRadix (base : ℕ) (pre t : List Char) : Option (ℤ × ℤ) := do
  let (neg, t) := readSign (t.dropWhile (· == ' '))
  let (a, t) ← readNat base pre t
  let (neg', t) := readSign t
  let (b, t) ← readNat base pre t
  if t = ['i'] then some (if neg then -(a : ℤ) else a, if neg' then -(b : ℤ) else b) else none

end MixedNum
