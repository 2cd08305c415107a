import Verif.Model.Prog
import Verif.Model.Ieee
/-!
# The crate's traits, as Lean classes

One class per Rust trait (or group of `core::ops` traits) that the generic code uses.
All operations that may panic live in `Prog`.
-/

namespace MixedNum

/-- `core::cmp::PartialOrd` / `PartialEq` as required by trait `MixedNum` (src/traits.rs:50-56).
For floats these are the IEEE comparisons, so `beq` need not be reflexive. -/
class MixedCmp (α : Type) where
  lt : α → α → Bool
  le : α → α → Bool
  beq : α → α → Bool

/-- `num::traits::NumOps` (`+ - * /`) as required by `MixedOps` (src/traits/math_traits.rs:3-14).
`AddAssign`, `SubAssign`, `MulAssign` on primitive and fixed types store the value of `+ - *`,
so they need no operation of their own. `%` is not used by the crate. -/
class NumOps (α : Type) where
  add : α → α → Prog α
  sub : α → α → Prog α
  mul : α → α → Prog α
  div : α → α → Prog α

/-- `MixedNumConversion<i32>` and `MixedNumConversion<f64>` used on literals in generic code:
`T::mixed_from_num(2)` is the `i32` instance (integer literal fallback), `T::mixed_from_num(0.25)` the `f64`
instance (float literal fallback). `ofF64` gets the exact rational value of the `f64`
(src/traits.rs:19-24). -/
class Lit (α : Type) where
  ofI32 : ℤ → Prog α
  ofF64 : ℚ → Prog α

/-- `MixedNumConversion<T>` for `Self` (src/traits.rs:19-24). -/
class Conv (T Self : Type) where
  fromNum : T → Prog Self
  toNum : Self → Prog T

/-- `MixedZero` (src/traits.rs:26-30). Total: no implementation in the crate can panic. -/
class MixedZero (α : Type) where
  zero : α

/-- `MixedOne` (src/traits.rs:32-36). -/
class MixedOne (α : Type) where
  one : Prog α

/-- `MixedPi` (src/traits.rs:38-43). -/
class MixedPi (α : Type) where
  pi : Prog α
  tau : Prog α

/-- `MixedReal` (src/traits.rs:58-75). `mixed_sign` is `trigonometry::sign` in every
implementation of the crate and is modelled by `sign` in `Model/Trig.lean`. -/
class MixedReal (α : Type) where
  maxValue : Prog α
  minValue : Prog α
  isPositive : α → Bool
  isNegative : α → Bool

/-- `MixedNumSigned`: unary minus (src/traits.rs:82-85). -/
class MixedNumSigned (α : Type) where
  neg : α → Prog α

/-- `MixedAbs` (src/traits/math_traits.rs:16-20). -/
class MixedAbs (α : Type) where
  abs : α → Prog α

/-- `MixedPowi` (src/traits/math_traits.rs:22-26); the exponent is an `i32`. -/
class MixedPowi (α : Type) where
  powi : α → ℤ → Prog α

/-- `MixedSqrt::mixed_sqrt` (src/traits/math_traits.rs:114-144); `mixed_niirf` is
`niirf(x, 2)` in every implementation, see `Model/Sqrt.lean`. -/
class MixedSqrt (α : Type) where
  sqrt : α → Prog α

/-- `MixedSin::mixed_sincos` (src/traits/math_traits.rs:69-77): the pair (sin, cos). -/
class MixedSinCos (α : Type) where
  sincos : α → Prog (α × α)

/-- `MixedAtan::mixed_atan2` (src/traits/math_traits.rs:48-67); `self` is y, the argument is x. -/
class MixedAtan (α : Type) where
  atan2 : α → α → Prog α

/-- `MixedExp` (src/traits/math_traits.rs:108-112). -/
class MixedExp (α : Type) where
  exp : α → Prog α

/-- `Mixedlog10` (src/traits/math_traits.rs:183-187). -/
class MixedLog10 (α : Type) where
  log10 : α → Prog α

/-- `MixedExp10` (src/traits/math_traits.rs:159-163). -/
class MixedExp10 (α : Type) where
  exp10 : α → Prog α

end MixedNum
