import Verif.Model.Ieee
import Verif.Model.Complex
import Verif.Model.Atan
import Verif.Model.Sqrt
import Verif.Model.PInt
import Verif.Model.Fixed
/-!
# IEEE-754 binary floats: `src/float_impl.rs`

`Flt f` is the set of floats of format `f`, given by value: NaN (one, payload not modelled, sign unknown), infinities,
and finite numbers as sign and magnitude. A float that can exist satisfies `Flt.Valid`; every operation rounds to
nearest, ties to even. Nothing panics.
-/

namespace MixedNum

/-- A binary format: `p` bits of precision, least subnormal `2^emin`, finite values below `2^emax`. -/
structure Format where
  p : ℕ
  emin : ℤ
  emax : ℕ

/-- `f32`. -/
abbrev F32 : Format := ⟨24, -149, 128⟩
/-- `f64`. -/
abbrev F64 : Format := ⟨53, -1074, 1024⟩

/-- An IEEE number: NaN, an infinity, or sign and magnitude. `f32`, `f64` (src/float_impl.rs:206-207). -/
inductive Flt (f : Format) where
  | nan
  | inf (neg : Bool)
  | fin (neg : Bool) (mag : ℚ)
  deriving DecidableEq

namespace Flt
variable {f : Format}

/-- The float exists in the format: the magnitude is a multiple `n * 2^e` with `n < 2^p`, `e ≥ emin`, below `2^emax`. -/
def Valid : Flt f → Prop
  | .nan => True
  | .inf _ => True
  | .fin _ m => ∃ n : ℕ, ∃ e : ℤ, n < 2 ^ f.p ∧ f.emin ≤ e ∧ m = n * pow2 e ∧ m < 2 ^ f.emax

/-- Value of a finite float (0 for the others; only used after a case split). -/
def val : Flt f → ℚ
  | .fin s m => if s then -m else m
  | _ => 0

/-- The float nearest to the exact result `q`; `z` is the sign to use when `q` is 0. -/
def ofExact (z : Bool) (q : ℚ) : Flt f :=
  if q = 0 then .fin z 0
  else
    let r := roundTo f.p f.emin |q|
    if r < 2 ^ f.emax then .fin (decide (q < 0)) r else .inf (decide (q < 0))

/-- Unary minus. -/
def neg : Flt f → Flt f
  | .nan => .nan
  | .inf s => .inf (!s)
  | .fin s m => .fin (!s) m

/-- `abs`. -/
def abs : Flt f → Flt f
  | .nan => .nan
  | .inf _ => .inf false
  | .fin _ m => .fin false m

/-- IEEE addition. -/
def add : Flt f → Flt f → Flt f
  | .nan, _ => .nan
  | _, .nan => .nan
  | .inf s, .inf t => if s = t then .inf s else .nan
  | .inf s, .fin _ _ => .inf s
  | .fin _ _, .inf t => .inf t
  | .fin s m, .fin t n => ofExact (s && t) (val (.fin s m : Flt f) + val (.fin t n : Flt f))

/-- IEEE subtraction: addition of the negation. -/
def sub (a b : Flt f) : Flt f := add a (neg b)

/-- IEEE multiplication. -/
def mul : Flt f → Flt f → Flt f
  | .nan, _ => .nan
  | _, .nan => .nan
  | .inf s, .inf t => .inf (xor s t)
  | .inf s, .fin t n => if n = 0 then .nan else .inf (xor s t)
  | .fin s m, .inf t => if m = 0 then .nan else .inf (xor s t)
  | .fin s m, .fin t n => ofExact (xor s t) (val (.fin s m : Flt f) * val (.fin t n : Flt f))

/-- IEEE division. -/
def div : Flt f → Flt f → Flt f
  | .nan, _ => .nan
  | _, .nan => .nan
  | .inf _, .inf _ => .nan
  | .inf s, .fin t _ => .inf (xor s t)
  | .fin s _, .inf t => .fin (xor s t) 0
  | .fin s m, .fin t n =>
    if n = 0 then (if m = 0 then .nan else .inf (xor s t))
    else ofExact (xor s t) (val (.fin s m : Flt f) / val (.fin t n : Flt f))

/-- `<` (false on NaN). -/
def lt : Flt f → Flt f → Bool
  | .nan, _ => false
  | _, .nan => false
  | .inf s, .inf t => s && !t
  | .inf s, .fin _ _ => s
  | .fin _ _, .inf t => !t
  | .fin s m, .fin t n => decide (val (.fin s m : Flt f) < val (.fin t n : Flt f))

/-- `==` (false on NaN, `0.0 == -0.0`). -/
def beq : Flt f → Flt f → Bool
  | .nan, _ => false
  | _, .nan => false
  | .inf s, .inf t => s == t
  | .inf _, .fin _ _ => false
  | .fin _ _, .inf _ => false
  | .fin s m, .fin t n => decide (val (.fin s m : Flt f) = val (.fin t n : Flt f))

/-- `PartialOrd`, `PartialEq` of the primitive floats. -/
instance : MixedCmp (Flt f) where
  lt := lt
  le a b := lt a b || beq a b
  beq := beq

/-- `+ - * /` of the primitive floats: the exact result rounded once. -/
instance : NumOps (Flt f) where
  add a b := pure (add a b)
  sub a b := pure (sub a b)
  mul a b := pure (mul a b)
  div a b := pure (div a b)

/-- `n as f32` for an `i32`, `q as f32` for an `f64` (src/float_impl.rs:12-23). -/
instance : Lit (Flt f) where
  ofI32 n := pure (ofExact false n)
  ofF64 q := pure (ofExact false q)

/-- `0 as $T` (src/float_impl.rs:146-152). -/
instance : MixedZero (Flt f) where
  zero := .fin false 0

/-- `1 as $T` (src/float_impl.rs:154-160). -/
instance : MixedOne (Flt f) where
  one := pure (ofExact false 1)

/-- `MixedPi` (src/float_impl.rs:162-172). The literal takes the type of the cast, so it is rounded once. -/
instance : MixedPi (Flt f) where
  pi := pure (ofExact false 3.1415926535897932384626433832795028841971693993751058209749445923078164062)
  tau := pure (ofExact false 6.2831853071795864769252867665590057683943387987502116419498891846156328124)

/-- Unary minus flips the sign bit. -/
instance : MixedNumSigned (Flt f) where
  neg a := pure (neg a)

/-- `MixedAbs` (src/float_impl.rs:99-105). -/
instance : MixedAbs (Flt f) where
  abs a := pure (abs a)

/-- The sign bit of the NaN (true: set). Rust does not specify it, so nothing is known of it here: an `opaque` constant has no
defining equation, and what is proved holds for either value. -/
opaque nanSign (f : Format) : Bool

/-- `MixedReal` (src/float_impl.rs:119-144). `is_sign_positive` and `is_sign_negative` read the sign bit. Simplification: a
format has one NaN, so its sign bit is the same throughout a run. -/
instance : MixedReal (Flt f) where
  maxValue := pure (.fin false (2 ^ f.emax - pow2 (f.emax - f.p)))
  minValue := pure (.fin true (2 ^ f.emax - pow2 (f.emax - f.p)))
  isPositive a := match a with
    | .nan => !nanSign f
    | .inf s => !s
    | .fin s _ => !s
  isNegative a := match a with
    | .nan => nanSign f
    | .inf s => s
    | .fin s _ => s

/-- First loop of `num::pow`: square while the exponent is even (`fuel` bounds the recursion). -/
def powStrip : ℕ → Flt f → ℕ → Flt f × ℕ
  | 0, b, e => (b, e)
  | k + 1, b, e => if e % 2 = 0 then powStrip k (mul b b) (e / 2) else (b, e)

/-- Second loop of `num::pow`. -/
def powAcc : ℕ → Flt f → Flt f → ℕ → Flt f
  | 0, acc, _, _ => acc
  | k + 1, acc, b, e =>
    if 1 < e then
      let e := e / 2
      let b := mul b b
      powAcc k (if e % 2 = 1 then mul acc b else acc) b e
    else acc

/-- `num::pow` (num-traits): exponentiation by squaring; the exponent has at most 64 bits. -/
def pow (b : Flt f) (e : ℕ) : Flt f :=
  if e = 0 then ofExact false 1
  else
    let (b, e) := powStrip 64 b e
    powAcc 64 b b e

/-- `self.powi(exp)` (src/float_impl.rs:107-113): `FloatCore::powi` of num-traits. -/
instance : MixedPowi (Flt f) where
  powi a e := pure (if e < 0 then pow (div (ofExact false 1) a) e.natAbs else pow a e.natAbs)

/-! ### Conversions -/

/-- Float to float: `as` (src/float_impl.rs:12-23). -/
def cast {g : Format} : Flt g → Flt f
  | .nan => .nan
  | .inf s => .inf s
  | .fin s m => ofExact s (val (.fin s m : Flt g))

/-- Float to integer: `as` saturates and sends NaN to 0. -/
def toWord {s : Bool} {W : ℕ} : Flt f → Word s W
  | .nan => Word.saturate 0
  | .inf t => if t then ⟨wlo s W, le_refl _, wlo_lt_whi s W⟩
      else ⟨whi s W - 1, by have := wlo_lt_whi s W; omega, by omega⟩
  | .fin t m => Word.saturate (PInt.truncQ (val (.fin t m : Flt f)))

/-- `mixed_from_num`/`mixed_to_num` between floats (src/float_impl.rs:12-23). -/
instance {g : Format} : Conv (Flt g) (Flt f) where
  fromNum x := pure (cast x)
  toNum x := pure (cast x)

/-- `mixed_from_num`/`mixed_to_num` of a float type for an integer type (src/float_impl.rs:12-23). -/
instance {m : Mode} {s : Bool} {W : ℕ} : Conv (PInt m s W) (Flt f) where
  fromNum n := pure (ofExact false n.val)
  toNum x := pure ⟨toWord x⟩

/-- The same for an integer type and a float (src/int_impl.rs:3-17). -/
instance {m : Mode} {s : Bool} {W : ℕ} : Conv (Flt f) (PInt m s W) where
  fromNum x := pure ⟨toWord x⟩
  toNum n := pure (ofExact false n.val)

/-- `MixedNumConversion<Cartesian<T2>> for f32/f64` (src/float_impl.rs:25-62). -/
instance {β : Type} [Conv β (Flt f)] [MixedZero β] : Conv (Cartesian β) (Flt f) where
  fromNum z := Conv.fromNum z.re
  toNum x := do pure ⟨← Conv.toNum x, MixedZero.zero⟩


end Flt

namespace Fixed
variable {m : Mode} {s : Bool} {W F : ℕ}

/-- `from_num` of a float: NaN and infinities always panic; `to_num` rounds to nearest even
(src/fixed_impl.rs:6-16). -/
instance {f : Format} : Conv (Flt f) (Fixed m s W F) where
  fromNum x := match x with
    | .nan => Prog.fail .nonFinite
    | .inf _ => Prog.fail .nonFinite
    | .fin t q => fit (roundHalfEven ((Flt.fin t q : Flt f).val * 2 ^ F))
  toNum x := pure (Flt.ofExact false x.toRat)

/-- `from_num`/`to_num` of integers (src/fixed_impl.rs:6-16): exact shift, floor. -/
instance {s' : Bool} {W' : ℕ} : Conv (PInt m s' W') (Fixed m s W F) where
  fromNum n := fit (n.val * 2 ^ F)
  toNum x := PInt.fit (x.val / 2 ^ F)

/-- `MixedNumConversion<Cartesian<T2>>` for fixed point (src/fixed_impl.rs:18-30). -/
instance {β : Type} [Conv β (Fixed m s W F)] [MixedZero β] : Conv (Cartesian β) (Fixed m s W F) where
  fromNum z := Conv.fromNum z.re
  toNum x := do pure ⟨← Conv.toNum x, MixedZero.zero⟩

end Fixed

end MixedNum
