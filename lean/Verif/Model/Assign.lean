import Verif.Model.Complex
/-!
# Assigning operators, with the state they leave behind when they panic

`Model/Complex.lean` models `z += w` by the value left in `z` when the operator returns. A panic can be caught
(`std::panic::catch_unwind`) and then `z` is still there, with whatever has been stored so far. Here the same operators
are modelled store by store.
-/

namespace MixedNum
open MixedCmp MixedZero MixedReal

/-- A method taking `&mut self`: from the state of `self` and the step budget to the outcome and the state of `self`
afterwards. -/
def Mut (σ α : Type) : Type := σ → Nat → Out α × σ

namespace Mut
variable {σ α : Type}

/-- Sequencing: a panic or a timeout stops the method, and the state stays as it is at that point. -/
def bind {β : Type} (m : Mut σ α) (k : α → Mut σ β) : Mut σ β := fun s n =>
  match m s n with
  | (.ok a, s') => k a s' n
  | (.panic e, s') => (.panic e, s')
  | (.timeout, s') => (.timeout, s')

/-- Methods form a monad. -/
instance : Monad (Mut σ) where
  pure a := fun s _ => (.ok a, s)
  bind := bind

/-- Evaluate an expression; `self` is not written. -/
def eval (p : Prog α) : Mut σ α := fun s n => (p n, s)

/-- Read `self`. -/
def read : Mut σ σ := fun s _ => (.ok s, s)

/-- Store to `self`. -/
def store (f : σ → σ) : Mut σ Unit := fun s _ => (.ok (), f s)

/-- The method as a program that gives the final state if it returns. -/
def run (m : Mut σ Unit) (s : σ) : Prog σ := fun n =>
  match m s n with
  | (.ok _, s') => .ok s'
  | (.panic e, _) => .panic e
  | (.timeout, _) => .timeout

end Mut

/-- The method returns and leaves `w` in `self`. -/
def ReturnsLeaving {σ : Type} (m : Mut σ Unit) (s w : σ) : Prop := ∃ N, ∀ n, N ≤ n → m s n = (.ok (), w)

/-- The method panics and leaves `w` in `self`. -/
def PanicsLeaving {σ : Type} (m : Mut σ Unit) (s : σ) (e : Panic) (w : σ) : Prop :=
  ∃ N, ∀ n, N ≤ n → m s n = (.panic e, w)

namespace Cartesian
open Mut
variable {α β : Type}

/-- `self.re = v`. -/
def storeRe (v : α) : Mut (Cartesian α) Unit := store fun z => { z with re := v }
/-- `self.im = v`. -/
def storeIm (v : α) : Mut (Cartesian α) Unit := store fun z => { z with im := v }

/-- `MulAssign<Polar<T>>` (src/complex/cartesian_impl.rs:246-253). -/
def mulAssignPolarM [MixedCmp α] [NumOps α] [Lit α] [MixedPi α] [MixedNumSigned α] [MixedSinCos α] (rhs : Polar α) :
    Mut (Cartesian α) Unit := do
  let z ← read
  let temp ← eval (do Cartesian.mul z (← ops.toCartesian rhs))
  storeRe temp.re
  storeIm temp.im

/-- `AddAssign<T1>` of a scalar (src/complex/cartesian_impl.rs:281-297). -/
def addAssignScalarM [NumOps β] [Conv α β] (rhs : α) : Mut (Cartesian β) Unit := do
  let z ← read
  storeRe (← eval (do NumOps.add z.re (← Conv.fromNum rhs)))

/-- `SubAssign<T1>` of a scalar (src/complex/cartesian_impl.rs:363-379). -/
def subAssignScalarM [NumOps β] [Conv α β] (rhs : α) : Mut (Cartesian β) Unit := do
  let z ← read
  storeRe (← eval (do NumOps.sub z.re (← Conv.fromNum rhs)))

/-- `AddAssign<Cartesian<T>>` and `AddAssign<num::Complex<T>>` (src/complex/cartesian_impl.rs:309-315); `c` and `d` are
`rhs.re` and `rhs.im`. Line 313 reads the new real part. -/
def addAssignM [NumOps α] (c d : α) : Mut (Cartesian α) Unit := do
  let z ← read
  storeRe (← eval (NumOps.add z.re c))
  let z ← read
  storeIm (← eval (NumOps.add z.re d))

/-- `SubAssign<Cartesian<T>>` and `SubAssign<num::Complex<T>>` (src/complex/cartesian_impl.rs:325-331); `c` and `d` are
`rhs.re` and `rhs.im`. Line 329 reads the new real part. -/
def subAssignM [NumOps α] (c d : α) : Mut (Cartesian α) Unit := do
  let z ← read
  storeRe (← eval (NumOps.sub z.re c))
  let z ← read
  storeIm (← eval (NumOps.sub z.re d))

/-- `DivAssign<Cartesian<T>>` and `DivAssign<num::Complex<T>>` (src/complex/cartesian_impl.rs:397-409); `c` is `rhs.re`,
the imaginary part of `rhs` is never read (line 404). -/
def divAssignM [NumOps α] [MixedPowi α] (c : α) : Mut (Cartesian α) Unit := do
  let z ← read
  let a := z.re
  let b := z.im
  let d := c
  let re ← eval do
    NumOps.div (← NumOps.add (← NumOps.mul a c) (← NumOps.mul b d))
      (← NumOps.add (← MixedPowi.powi c 2) (← MixedPowi.powi d 2))
  storeRe re
  let im ← eval do
    NumOps.div (← NumOps.sub (← NumOps.mul b c) (← NumOps.mul a d))
      (← NumOps.add (← MixedPowi.powi c 2) (← MixedPowi.powi d 2))
  storeIm im

/-- `DivAssign<T1>` by a scalar (src/complex/cartesian_impl.rs:444-465). -/
def divAssignScalarM [MixedCmp α] [MixedZero α] [NumOps β] [MixedReal β] [Conv α β] (rhs : α) : Mut (Cartesian β) Unit := do
  if beq rhs zero then
    storeRe (← eval maxValue)
    storeIm (← eval maxValue)
  let z ← read
  storeRe (← eval (do NumOps.div z.re (← Conv.fromNum rhs)))
  let z ← read
  storeIm (← eval (do NumOps.div z.im (← Conv.fromNum rhs)))

end Cartesian
end MixedNum
