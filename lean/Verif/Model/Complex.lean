import Verif.Model.Trig
/-!
# `src/complex.rs`, `src/complex/ops.rs`, `src/complex/cartesian_impl.rs`, `src/complex/polar_impl.rs`

Implementations that Rust generates by macro for `T`, `&T` and `&mut T` have the same body and are modelled once.
A method on `&mut self` returns the new value of `self`.
-/

namespace MixedNum
open MixedCmp NumOps Lit MixedNumSigned MixedPowi MixedAbs MixedZero MixedReal MixedOne MixedSqrt MixedSinCos
  MixedAtan MixedExp

variable {α β : Type}

/-- `Cartesian<T>` (src/complex.rs:12-20). -/
structure Cartesian (α : Type) where
  re : α
  im : α
  deriving DecidableEq, Repr

/-- `Polar<T>` (src/complex.rs:22-30). -/
structure Polar (α : Type) where
  mag : α
  ang : α
  deriving DecidableEq, Repr

/-- `num::Complex<T>`: the external struct with public fields `re`, `im`. -/
structure NumComplex (α : Type) where
  re : α
  im : α
  deriving DecidableEq, Repr

/-- `T::from_num(power)` for `power: usize` (src/complex/ops.rs:164; the `fixed` crate's conversion). -/
class FromUsize (α : Type) where
  ofUsize : ℕ → Prog α

/-! ## `src/complex/ops.rs` -/
namespace ops

/-- `abs` (src/complex/ops.rs:35-40). -/
def abs [NumOps α] [MixedPowi α] [MixedSqrt α] (a : Cartesian α) : Prog α := do
  let rSqr ← add (← MixedPowi.powi a.re 2) (← MixedPowi.powi a.im 2)
  sqrt rSqr

/-- `to_polar` (src/complex/ops.rs:9-17). -/
def toPolar [NumOps α] [MixedPowi α] [MixedSqrt α] [MixedAtan α] (x : Cartesian α) : Prog (Polar α) := do
  let mag ← ops.abs x
  let ang ← atan2 x.im x.re
  pure ⟨mag, ang⟩

/-- `to_cartesian` (src/complex/ops.rs:58-69). -/
def toCartesian [MixedCmp α] [NumOps α] [Lit α] [MixedPi α] [MixedNumSigned α] [MixedSinCos α] (a : Polar α) :
    Prog (Cartesian α) := do
  let theta ← wrapPhase a.ang
  let (imagS, realS) ← sincos theta
  let re ← mul a.mag realS
  let im ← mul a.mag imagS
  pure ⟨re, im⟩

/-- `add` (src/complex/ops.rs:73-81). -/
def add [NumOps α] (a b : Cartesian α) : Prog (Cartesian α) := do
  let re ← NumOps.add a.re b.re
  let im ← NumOps.add a.im b.im
  pure ⟨re, im⟩

/-- `sub` (src/complex/ops.rs:86-94). -/
def sub [NumOps α] (a b : Cartesian α) : Prog (Cartesian α) := do
  let re ← NumOps.sub a.re b.re
  let im ← NumOps.sub a.im b.im
  pure ⟨re, im⟩

/-- `mul_polar` (src/complex/ops.rs:98-117). The conversion of the literal 0 in the second operand of `||`
cannot fail (it is evaluated lazily in Rust); the model converts it once. -/
def mulPolar [MixedCmp α] [NumOps α] [Lit α] (a b : Polar α) : Prog (Polar α) := do
  let z ← ofI32 0
  if beq a.mag z || beq b.mag z then
    pure ⟨z, z⟩
  else
    let mag ← mul a.mag b.mag
    let ang ← NumOps.add a.ang b.ang
    pure ⟨mag, ang⟩

/-- `mul_cartesian` (src/complex/ops.rs:121-132). -/
def mulCartesian [NumOps α] (ab bc : Cartesian α) : Prog (Cartesian α) := do
  let a := ab.re
  let b := ab.im
  let c := bc.re
  let d := bc.im
  let re ← NumOps.sub (← mul a c) (← mul b d)
  let im ← NumOps.add (← mul a d) (← mul b c)
  pure ⟨re, im⟩

/-- `powi` on complex numbers (src/complex/ops.rs:157-172). -/
def powi [NumOps α] [MixedPowi α] [MixedSqrt α] [MixedAtan α] [MixedSinCos α] [FromUsize α]
    (base : Cartesian α) (power : ℕ) : Prog (Cartesian α) := do
  let temp ← NumOps.add (← MixedPowi.powi base.re 2) (← MixedPowi.powi base.im 2)
  let mag ← MixedPowi.powi (← sqrt temp) (i32OfUsize power)
  let phi ← mul (← atan2 base.im base.re) (← FromUsize.ofUsize power)
  let (imagS, realS) ← sincos phi
  let real ← mul mag realS
  let imag ← mul mag imagS
  pure ⟨real, imag⟩

/-- `div_scalar_cartesian` (src/complex/ops.rs:177-193). -/
def divScalarCartesian [MixedCmp α] [NumOps α] [Lit α] [MixedReal α] (a : Cartesian α) (b : α) :
    Prog (Cartesian α) := do
  if beq b (← ofI32 0) then
    pure ⟨← maxValue, ← maxValue⟩
  else
    let re ← div a.re b
    let im ← div a.im b
    pure ⟨re, im⟩

/-- `div_cartesian` (src/complex/ops.rs:198-211). Line 206 takes `d` from the denominator's *real* part. -/
def divCartesian [NumOps α] [MixedPowi α] (numerator denominator : Cartesian α) : Prog (Cartesian α) := do
  let a := numerator.re
  let b := numerator.im
  let c := denominator.re
  let d := denominator.re
  let re ← div (← NumOps.add (← mul a c) (← mul b d))
    (← NumOps.add (← MixedPowi.powi c 2) (← MixedPowi.powi d 2))
  let im ← div (← NumOps.sub (← mul b c) (← mul a d))
    (← NumOps.add (← MixedPowi.powi c 2) (← MixedPowi.powi d 2))
  pure ⟨re, im⟩

end ops

/-! ## `src/complex/cartesian_impl.rs` -/
namespace Cartesian

/-- `new` (src/complex/cartesian_impl.rs:13-16). -/
def new (re im : α) : Cartesian α := ⟨re, im⟩

/-- `new_from_cartesian` (src/complex/cartesian_impl.rs:19-26). -/
def newFromCartesian (re im : α) : Cartesian α := ⟨re, im⟩

/-- `new_from_polar` (src/complex/cartesian_impl.rs:28-34). -/
def newFromPolar [MixedCmp α] [NumOps α] [Lit α] [MixedPi α] [MixedNumSigned α] [MixedSinCos α] (mag ang : α) :
    Prog (Cartesian α) := ops.toCartesian ⟨mag, ang⟩

/-- `ToCartesian::to_cartesian` of a number already in Cartesian form (src/complex/cartesian_impl.rs:36-44). -/
def toCartesian (z : Cartesian α) : Prog (Cartesian α) := pure z

/-- `ToPolar::to_polar` (src/complex/cartesian_impl.rs:46-54). -/
def toPolar [NumOps α] [MixedPowi α] [MixedSqrt α] [MixedAtan α] (x : Cartesian α) : Prog (Polar α) :=
  ops.toPolar x

/-- `mixed_zero` (src/complex/cartesian_impl.rs:56-63). -/
instance [MixedZero α] : MixedZero (Cartesian α) where
  zero := ⟨zero, zero⟩

/-- `mixed_one` (src/complex/cartesian_impl.rs:65-72). -/
instance [MixedZero α] [MixedOne α] : MixedOne (Cartesian α) where
  one := do pure ⟨← one, zero⟩

/-- `mixed_to_complex` (src/complex/cartesian_impl.rs:74-80). -/
def mixedToComplex [MixedZero α] (number : α) : Cartesian α := ⟨number, zero⟩

/-- `Mag::mag` (src/complex/cartesian_impl.rs:98-101). -/
def mag [NumOps α] [MixedPowi α] [MixedSqrt α] (z : Cartesian α) : Prog α := do
  sqrt (← NumOps.add (← MixedPowi.powi z.re 2) (← MixedPowi.powi z.im 2))

/-- `Mag::abs` (src/complex/cartesian_impl.rs:116-119). -/
def abs [NumOps α] [MixedPowi α] [MixedSqrt α] (z : Cartesian α) : Prog α := mag z

/-- `MixedAbs::mixed_abs` (src/complex/cartesian_impl.rs:122-128). -/
def mixedAbs [NumOps α] [MixedPowi α] [MixedSqrt α] [MixedZero α] (z : Cartesian α) : Prog (Cartesian α) := do
  pure ⟨← mag z, zero⟩

/-- `Arg::arg` (src/complex/cartesian_impl.rs:147-150). -/
def arg [MixedAtan α] (z : Cartesian α) : Prog α := atan2 z.im z.re

/-- `Arg::ang` (src/complex/cartesian_impl.rs:152-170). -/
def ang [MixedAtan α] (z : Cartesian α) : Prog α := arg z

/-- `Mul<Cartesian<T>>`, also by reference (src/complex/cartesian_impl.rs:173-194). -/
def mul [NumOps α] (z w : Cartesian α) : Prog (Cartesian α) := ops.mulCartesian z w

/-- `Mul<T1>` by a scalar (src/complex/cartesian_impl.rs:198-219). -/
def mulScalar [NumOps β] [Conv α β] (z : Cartesian β) (rhs : α) : Prog (Cartesian β) := do
  let re ← NumOps.mul z.re (← Conv.fromNum rhs)
  let im ← NumOps.mul z.im (← Conv.fromNum rhs)
  pure ⟨re, im⟩

/-- `MixedNumConversion<Cartesian<T1>> for Cartesian<T2>` (src/complex/cartesian_impl.rs:221-233). -/
instance [Conv α β] : Conv (Cartesian α) (Cartesian β) where
  fromNum z := do pure ⟨← Conv.fromNum z.re, ← Conv.fromNum z.im⟩
  toNum z := do pure ⟨← Conv.toNum z.re, ← Conv.toNum z.im⟩

/-- `Mul<Polar<T>>` (src/complex/cartesian_impl.rs:237-244). -/
def mulPolar [MixedCmp α] [NumOps α] [Lit α] [MixedPi α] [MixedNumSigned α] [MixedSinCos α]
    (z : Cartesian α) (rhs : Polar α) : Prog (Cartesian α) := do
  let rhsCartesian ← ops.toCartesian rhs
  ops.mulCartesian z rhsCartesian

/-- `MulAssign<Polar<T>>` (src/complex/cartesian_impl.rs:246-253). -/
def mulAssignPolar [MixedCmp α] [NumOps α] [Lit α] [MixedPi α] [MixedNumSigned α] [MixedSinCos α]
    (z : Cartesian α) (rhs : Polar α) : Prog (Cartesian α) := do
  let temp ← Cartesian.mul z (← ops.toCartesian rhs)
  pure { z with re := temp.re, im := temp.im }

/-- `Add<T1>` of a scalar (src/complex/cartesian_impl.rs:262-279). -/
def addScalar [NumOps β] [Conv α β] (z : Cartesian β) (rhs : α) : Prog (Cartesian β) := do
  let re ← NumOps.add z.re (← Conv.fromNum rhs)
  pure ⟨re, z.im⟩

/-- `AddAssign<T1>` of a scalar (src/complex/cartesian_impl.rs:281-297). -/
def addAssignScalar [NumOps β] [Conv α β] (z : Cartesian β) (rhs : α) : Prog (Cartesian β) := do
  let re ← NumOps.add z.re (← Conv.fromNum rhs)
  pure { z with re := re }

/-- `Add<Cartesian<T>>` (src/complex/cartesian_impl.rs:301-307). -/
def add [NumOps α] (z rhs : Cartesian α) : Prog (Cartesian α) := do
  let re ← NumOps.add z.re rhs.re
  let im ← NumOps.add z.im rhs.im
  pure ⟨re, im⟩

/-- `AddAssign<Cartesian<T>>` (src/complex/cartesian_impl.rs:309-315). Line 313 adds `rhs.im` to the (already updated) *real* part. -/
def addAssign [NumOps α] (z rhs : Cartesian α) : Prog (Cartesian α) := do
  let re ← NumOps.add z.re rhs.re
  let z := { z with re := re }
  let im ← NumOps.add z.re rhs.im
  pure { z with im := im }

/-- `Sub<Cartesian<T>>` (src/complex/cartesian_impl.rs:317-323). -/
def sub [NumOps α] (z rhs : Cartesian α) : Prog (Cartesian α) := do
  let re ← NumOps.sub z.re rhs.re
  let im ← NumOps.sub z.im rhs.im
  pure ⟨re, im⟩

/-- `SubAssign<Cartesian<T>>` (src/complex/cartesian_impl.rs:325-331). Line 329 subtracts `rhs.im` from the (already updated) *real* part. -/
def subAssign [NumOps α] (z rhs : Cartesian α) : Prog (Cartesian α) := do
  let re ← NumOps.sub z.re rhs.re
  let z := { z with re := re }
  let im ← NumOps.sub z.re rhs.im
  pure { z with im := im }

/-- `Add<num::Complex<T>>` (src/complex/cartesian_impl.rs:301-307 instantiated at 339-341). -/
def addNC [NumOps α] (z : Cartesian α) (rhs : NumComplex α) : Prog (Cartesian α) := do
  let re ← NumOps.add z.re rhs.re
  let im ← NumOps.add z.im rhs.im
  pure ⟨re, im⟩

/-- `AddAssign<num::Complex<T>>` (src/complex/cartesian_impl.rs:309-315 at 339-341). -/
def addAssignNC [NumOps α] (z : Cartesian α) (rhs : NumComplex α) : Prog (Cartesian α) := do
  let re ← NumOps.add z.re rhs.re
  let z := { z with re := re }
  let im ← NumOps.add z.re rhs.im
  pure { z with im := im }

/-- `Sub<num::Complex<T>>` (src/complex/cartesian_impl.rs:317-323 at 339-341). -/
def subNC [NumOps α] (z : Cartesian α) (rhs : NumComplex α) : Prog (Cartesian α) := do
  let re ← NumOps.sub z.re rhs.re
  let im ← NumOps.sub z.im rhs.im
  pure ⟨re, im⟩

/-- `SubAssign<num::Complex<T>>` (src/complex/cartesian_impl.rs:325-331 at 339-341). -/
def subAssignNC [NumOps α] (z : Cartesian α) (rhs : NumComplex α) : Prog (Cartesian α) := do
  let re ← NumOps.sub z.re rhs.re
  let z := { z with re := re }
  let im ← NumOps.sub z.re rhs.im
  pure { z with im := im }

/-- `Sub<T1>` of a scalar (src/complex/cartesian_impl.rs:344-361). -/
def subScalar [NumOps β] [Conv α β] (z : Cartesian β) (rhs : α) : Prog (Cartesian β) := do
  let re ← NumOps.sub z.re (← Conv.fromNum rhs)
  pure ⟨re, z.im⟩

/-- `SubAssign<T1>` of a scalar (src/complex/cartesian_impl.rs:363-379). -/
def subAssignScalar [NumOps β] [Conv α β] (z : Cartesian β) (rhs : α) : Prog (Cartesian β) := do
  let re ← NumOps.sub z.re (← Conv.fromNum rhs)
  pure { z with re := re }

/-- `Div<Cartesian<T>>` (src/complex/cartesian_impl.rs:383-395). Line 391 takes `d` from the divisor's *real* part. -/
def div [NumOps α] [MixedPowi α] (z rhs : Cartesian α) : Prog (Cartesian α) := do
  let a := z.re
  let b := z.im
  let c := rhs.re
  let d := rhs.re
  let re ← NumOps.div (← NumOps.add (← NumOps.mul a c) (← NumOps.mul b d))
    (← NumOps.add (← MixedPowi.powi c 2) (← MixedPowi.powi d 2))
  let im ← NumOps.div (← NumOps.sub (← NumOps.mul b c) (← NumOps.mul a d))
    (← NumOps.add (← MixedPowi.powi c 2) (← MixedPowi.powi d 2))
  pure ⟨re, im⟩

/-- `DivAssign<Cartesian<T>>` (src/complex/cartesian_impl.rs:397-409). Line 404 takes `d` from the divisor's *real* part. -/
def divAssign [NumOps α] [MixedPowi α] (z rhs : Cartesian α) : Prog (Cartesian α) := do
  let a := z.re
  let b := z.im
  let c := rhs.re
  let d := rhs.re
  let re ← NumOps.div (← NumOps.add (← NumOps.mul a c) (← NumOps.mul b d))
    (← NumOps.add (← MixedPowi.powi c 2) (← MixedPowi.powi d 2))
  let z := { z with re := re }
  let im ← NumOps.div (← NumOps.sub (← NumOps.mul b c) (← NumOps.mul a d))
    (← NumOps.add (← MixedPowi.powi c 2) (← MixedPowi.powi d 2))
  pure { z with im := im }

/-- `Div<num::Complex<T>>` (src/complex/cartesian_impl.rs:383-395 at 417-419). -/
def divNC [NumOps α] [MixedPowi α] (z : Cartesian α) (rhs : NumComplex α) : Prog (Cartesian α) := do
  let a := z.re
  let b := z.im
  let c := rhs.re
  let d := rhs.re
  let re ← NumOps.div (← NumOps.add (← NumOps.mul a c) (← NumOps.mul b d))
    (← NumOps.add (← MixedPowi.powi c 2) (← MixedPowi.powi d 2))
  let im ← NumOps.div (← NumOps.sub (← NumOps.mul b c) (← NumOps.mul a d))
    (← NumOps.add (← MixedPowi.powi c 2) (← MixedPowi.powi d 2))
  pure ⟨re, im⟩

/-- `DivAssign<num::Complex<T>>` (src/complex/cartesian_impl.rs:397-409 at 417-419). -/
def divAssignNC [NumOps α] [MixedPowi α] (z : Cartesian α) (rhs : NumComplex α) : Prog (Cartesian α) := do
  let a := z.re
  let b := z.im
  let c := rhs.re
  let d := rhs.re
  let re ← NumOps.div (← NumOps.add (← NumOps.mul a c) (← NumOps.mul b d))
    (← NumOps.add (← MixedPowi.powi c 2) (← MixedPowi.powi d 2))
  let z := { z with re := re }
  let im ← NumOps.div (← NumOps.sub (← NumOps.mul b c) (← NumOps.mul a d))
    (← NumOps.add (← MixedPowi.powi c 2) (← MixedPowi.powi d 2))
  pure { z with im := im }

/-- `Div<T1>` by a scalar (src/complex/cartesian_impl.rs:422-442). -/
def divScalar [MixedCmp α] [MixedZero α] [NumOps β] [MixedReal β] [Conv α β] (z : Cartesian β) (rhs : α) :
    Prog (Cartesian β) := do
  if beq rhs zero then
    pure ⟨← maxValue, ← maxValue⟩
  else
    let re ← NumOps.div z.re (← Conv.fromNum rhs)
    let im ← NumOps.div z.im (← Conv.fromNum rhs)
    pure ⟨re, im⟩

/-- `DivAssign<T1>` by a scalar (src/complex/cartesian_impl.rs:444-465). After the zero case there is no `return`:
lines 462-463 run in every case. -/
def divAssignScalar [MixedCmp α] [MixedZero α] [NumOps β] [MixedReal β] [Conv α β] (z : Cartesian β) (rhs : α) :
    Prog (Cartesian β) := do
  let z ← if beq rhs zero then (do pure ⟨← maxValue, ← maxValue⟩ : Prog (Cartesian β)) else pure z
  let re ← NumOps.div z.re (← Conv.fromNum rhs)
  let z := { z with re := re }
  let im ← NumOps.div z.im (← Conv.fromNum rhs)
  pure { z with im := im }

/-- `Conj::conj` at target type `Cartesian<T>` (src/complex/cartesian_impl.rs:467-485). -/
def conj [MixedNumSigned α] (z : Cartesian α) : Prog (Cartesian α) := do
  pure (new z.re (← neg z.im))

/-- `Conj::conj` at target type `Polar<T>` (src/complex/cartesian_impl.rs:467-485 with src/complex/polar_impl.rs:19-26). -/
def conjPolar [NumOps α] [MixedPowi α] [MixedSqrt α] [MixedAtan α] [MixedNumSigned α] (z : Cartesian α) :
    Prog (Polar α) := do
  ops.toPolar ⟨z.re, ← neg z.im⟩

/-- `MixedExp::mixed_exp` (src/complex/cartesian_impl.rs:488-519). -/
def exp [NumOps α] [MixedSinCos α] [MixedExp α] (z : Cartesian α) : Prog (Cartesian α) := do
  let (im, re) ← sincos z.im
  let scale ← MixedExp.exp z.re
  let rValue : Cartesian α := new re im
  let re' ← NumOps.mul rValue.re scale
  let im' ← NumOps.mul rValue.im scale
  pure ⟨re', im'⟩

end Cartesian

/-! ## `src/complex/polar_impl.rs` -/
namespace Polar

/-- `new` (src/complex/polar_impl.rs:13-16). -/
def new (mag ang : α) : Polar α := ⟨mag, ang⟩

/-- `new_from_polar` (src/complex/polar_impl.rs:28-34). -/
def newFromPolar (mag ang : α) : Polar α := ⟨mag, ang⟩

/-- `new_from_cartesian` (src/complex/polar_impl.rs:19-26). -/
def newFromCartesian [NumOps α] [MixedPowi α] [MixedSqrt α] [MixedAtan α] (re im : α) : Prog (Polar α) :=
  ops.toPolar ⟨re, im⟩

/-- `MixedNumConversion<T2>` (src/complex/polar_impl.rs:36-46). -/
instance [MixedZero β] [Conv α β] : Conv α (Polar β) where
  fromNum number := do pure ⟨← Conv.fromNum number, zero⟩
  toNum p := Conv.toNum p.mag

/-- `ToCartesian::to_cartesian` (src/complex/polar_impl.rs:48-56). -/
def toCartesian [MixedCmp α] [NumOps α] [Lit α] [MixedPi α] [MixedNumSigned α] [MixedSinCos α] (p : Polar α) :
    Prog (Cartesian α) := ops.toCartesian p

/-- `ToPolar::to_polar` of a number already in polar form (src/complex/polar_impl.rs:58-66). -/
def toPolar (p : Polar α) : Prog (Polar α) := pure p

/-- `mixed_zero` (src/complex/polar_impl.rs:68-75). -/
instance [MixedZero α] : MixedZero (Polar α) where
  zero := ⟨zero, zero⟩

/-- `mixed_one` (src/complex/polar_impl.rs:77-84). -/
instance [MixedZero α] [MixedOne α] : MixedOne (Polar α) where
  one := do pure ⟨← one, zero⟩

/-- `mixed_to_complex` (src/complex/polar_impl.rs:86-92). -/
def mixedToComplex [MixedZero α] (number : α) : Polar α := ⟨number, zero⟩

/-- `Mag::mag` (src/complex/polar_impl.rs:94-101). -/
def getMag (p : Polar α) : α := p.mag

/-- `Mag::abs` (src/complex/polar_impl.rs:102-107). -/
def getAbs (p : Polar α) : α := p.mag

/-- `Arg::arg` (src/complex/polar_impl.rs:119-126). -/
def getArg (p : Polar α) : α := p.ang

/-- `Arg::ang` (src/complex/polar_impl.rs:128-133). -/
def getAng (p : Polar α) : α := p.ang

/-- `MixedAbs::mixed_abs` (src/complex/polar_impl.rs:110-117). -/
def mixedAbs [MixedZero α] (p : Polar α) : Polar α := ⟨p.mag, zero⟩

/-- `Mul<Polar<T>>` (src/complex/polar_impl.rs:136-142). -/
def mul [MixedCmp α] [NumOps α] [Lit α] (p q : Polar α) : Prog (Polar α) := ops.mulPolar p q

/-- `Mul<Cartesian<T>>` (src/complex/polar_impl.rs:144-151). -/
def mulCartesian [MixedCmp α] [NumOps α] [Lit α] [MixedPowi α] [MixedSqrt α] [MixedAtan α]
    (p : Polar α) (rhs : Cartesian α) : Prog (Polar α) := do
  let rhsPol ← ops.toPolar rhs
  ops.mulPolar p rhsPol

/-- `Mul<T>` by a scalar (src/complex/polar_impl.rs:153-159). -/
def mulScalar [NumOps α] (p : Polar α) (rhs : α) : Prog (Polar α) := do
  pure ⟨← NumOps.mul p.mag rhs, p.ang⟩

/-- `Div<T>` by a scalar (src/complex/polar_impl.rs:161-170). -/
def divScalar [MixedCmp α] [NumOps α] [MixedZero α] [MixedReal α] (p : Polar α) (rhs : α) : Prog (Polar α) := do
  if beq rhs zero then
    pure ⟨← maxValue, p.ang⟩
  else
    pure ⟨← NumOps.div p.mag rhs, p.ang⟩

/-- `Conj::conj` at target type `Polar<T>` (src/complex/polar_impl.rs:172-178). -/
def conj [MixedNumSigned α] (p : Polar α) : Prog (Polar α) := do
  pure (new p.mag (← neg p.ang))

/-- `Conj::conj` at target type `Cartesian<T>` (src/complex/polar_impl.rs:172-178 with src/complex/cartesian_impl.rs:28-34). -/
def conjCartesian [MixedCmp α] [NumOps α] [Lit α] [MixedPi α] [MixedNumSigned α] [MixedSinCos α] (p : Polar α) :
    Prog (Cartesian α) := do
  Cartesian.newFromPolar p.mag (← neg p.ang)

end Polar

/-! ## Derived comparison (src/complex.rs:12, 22) -/

/-- `partial_cmp` of a component, from its comparison operators. -/
def partialCmp [MixedCmp α] (a b : α) : Option Ordering :=
  if beq a b then some .eq else if lt a b then some .lt else if lt b a then some .gt else none

/-- `#[derive(PartialEq)]` and `#[derive(PartialOrd)]` on `Cartesian` (src/complex.rs:12): parts in declaration order. -/
def Cartesian.partialCmp [MixedCmp α] (a b : Cartesian α) : Option Ordering :=
  match MixedNum.partialCmp a.re b.re with
  | some .eq => MixedNum.partialCmp a.im b.im
  | c => c

/-- Derived comparison on `Polar` (src/complex.rs:22). -/
def Polar.partialCmp [MixedCmp α] (a b : Polar α) : Option Ordering :=
  match MixedNum.partialCmp a.mag b.mag with
  | some .eq => MixedNum.partialCmp a.ang b.ang
  | c => c

/-- `MixedNum for Cartesian<T>` (src/complex/cartesian_impl.rs:521-523) with the derived operators. -/
instance [MixedCmp α] : MixedCmp (Cartesian α) where
  lt a b := a.partialCmp b == some .lt
  le a b := a.partialCmp b == some .lt || a.partialCmp b == some .eq
  beq a b := MixedCmp.beq a.re b.re && MixedCmp.beq a.im b.im

/-- `MixedNum for Polar<T>` (src/complex/polar_impl.rs:3-5) with the derived operators. -/
instance [MixedCmp α] : MixedCmp (Polar α) where
  lt a b := a.partialCmp b == some .lt
  le a b := a.partialCmp b == some .lt || a.partialCmp b == some .eq
  beq a b := MixedCmp.beq a.mag b.mag && MixedCmp.beq a.ang b.ang

end MixedNum
