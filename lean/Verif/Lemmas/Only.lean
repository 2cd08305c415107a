import Verif.Spec.OnlyPanics
import Verif.Model.Delegate
import Verif.Model.Complex
import Verif.Model.Db
import Verif.Model.Fmt
import Verif.Model.Target
/-! The reasons for which the generic functions of the crate can panic are those of the operations they call. -/

namespace MixedNum

/-- `OnlyPanics`, as the lemmas use it. -/
abbrev Only {α : Type} (E : Panic → Prop) (p : Prog α) : Prop := OnlyPanics E p

namespace Only
variable {E : Panic → Prop} {α β σ : Type}

theorem pure (a : α) : Only E (Pure.pure a : Prog α) := fun _ _ h => by cases h

theorem fail {e : Panic} (h : E e) : Only E (Prog.fail e : Prog α) := fun _ _ h' => by cases h'; exact h

theorem bind {p : Prog α} {f : α → Prog β} (hp : Only E p) (hf : ∀ a, Only E (f a)) : Only E (p >>= f) := by
  intro n e h
  change Prog.bind p f n = _ at h
  unfold Prog.bind at h
  cases hq : p n with
  | ok a => rw [hq] at h; exact hf a n e h
  | panic e' => rw [hq] at h; cases h; exact hp n _ hq
  | timeout => rw [hq] at h; cases h

theorem go {c : σ → Prog Bool} {f : σ → Prog σ} (hc : ∀ s, Only E (c s)) (hf : ∀ s, Only E (f s)) (k : ℕ) (s : σ) :
    Only E (whileGo c f k s) := by
  induction k generalizing s with
  | zero => intro n e h; cases h
  | succ k ih =>
    refine bind (hc s) fun b => ?_
    cases b
    · exact pure _
    · exact bind (hf s) fun s' => ih s'

theorem loop {c : σ → Prog Bool} {f : σ → Prog σ} (hc : ∀ s, Only E (c s)) (hf : ∀ s, Only E (f s)) (s : σ) :
    Only E (whileLoop c f s) := fun n e h => go hc hf n s n e h

theorem ite {c : Prop} [Decidable c] {p q : Prog α} (hp : Only E p) (hq : Only E q) : Only E (if c then p else q) := by
  by_cases h : c
  · rw [if_pos h]; exact hp
  · rw [if_neg h]; exact hq

theorem mono {E' : Panic → Prop} {p : Prog α} (h : Only E p) (hE : ∀ e, E e → E' e) : Only E' p := fun n e h' => hE e (h n e h')

theorem never {p : Prog α} (h : Only (fun _ => False) p) : NeverPanics p := fun n e h' => h n e h'

class Ring (E : Panic → Prop) (α : Type) [NumOps α] : Prop where
  add : ∀ a b : α, Only E (NumOps.add a b)
  sub : ∀ a b : α, Only E (NumOps.sub a b)
  mul : ∀ a b : α, Only E (NumOps.mul a b)

class Div (E : Panic → Prop) (α : Type) [NumOps α] : Prop where
  div : ∀ a b : α, Only E (NumOps.div a b)

class Lits (E : Panic → Prop) (α : Type) [Lit α] : Prop where
  ofI32 : ∀ n, Only E (Lit.ofI32 n : Prog α)
  ofF64 : ∀ q, Only E (Lit.ofF64 q : Prog α)

class Convs (E : Panic → Prop) (α β : Type) [Conv α β] : Prop where
  fromNum : ∀ a : α, Only E (Conv.fromNum a : Prog β)
  toNum : ∀ b : β, Only E (Conv.toNum b : Prog α)

class One (E : Panic → Prop) (α : Type) [MixedOne α] : Prop where
  one : Only E (MixedOne.one : Prog α)

class Pi (E : Panic → Prop) (α : Type) [MixedPi α] : Prop where
  pi : Only E (MixedPi.pi : Prog α)
  tau : Only E (MixedPi.tau : Prog α)

class Reals (E : Panic → Prop) (α : Type) [MixedReal α] : Prop where
  maxValue : Only E (MixedReal.maxValue : Prog α)
  minValue : Only E (MixedReal.minValue : Prog α)

class Neg (E : Panic → Prop) (α : Type) [MixedNumSigned α] : Prop where
  neg : ∀ a : α, Only E (MixedNumSigned.neg a)

class Abs (E : Panic → Prop) (α : Type) [MixedAbs α] : Prop where
  abs : ∀ a : α, Only E (MixedAbs.abs a)

class Powi (E : Panic → Prop) (α : Type) [MixedPowi α] : Prop where
  powi : ∀ (a : α) (e : ℤ), Only E (MixedPowi.powi a e)

class Sqrt (E : Panic → Prop) (α : Type) [MixedSqrt α] : Prop where
  sqrt : ∀ a : α, Only E (MixedSqrt.sqrt a)

class SinCos (E : Panic → Prop) (α : Type) [MixedSinCos α] : Prop where
  sincos : ∀ a : α, Only E (MixedSinCos.sincos a)

class Atan (E : Panic → Prop) (α : Type) [MixedAtan α] : Prop where
  atan2 : ∀ a b : α, Only E (MixedAtan.atan2 a b)

class Exp (E : Panic → Prop) (α : Type) [MixedExp α] : Prop where
  exp : ∀ a : α, Only E (MixedExp.exp a)

class Usize (E : Panic → Prop) (α : Type) [FromUsize α] : Prop where
  ofUsize : ∀ n, Only E (FromUsize.ofUsize n : Prog α)

class Log10 (E : Panic → Prop) (α : Type) [MixedLog10 α] : Prop where
  log10 : ∀ a : α, Only E (MixedLog10.log10 a)

class Exp10 (E : Panic → Prop) (α : Type) [MixedExp10 α] : Prop where
  exp10 : ∀ a : α, Only E (MixedExp10.exp10 a)

/-- Closes the goal for a call of a function already dealt with. -/
syntax "only_step" : tactic
macro_rules | `(tactic| only_step) => `(tactic| first
  | with_reducible exact Only.pure _
  | with_reducible exact Ring.add _ _
  | with_reducible exact Ring.sub _ _
  | with_reducible exact Ring.mul _ _
  | with_reducible exact Div.div _ _
  | with_reducible exact Lits.ofI32 _
  | with_reducible exact Lits.ofF64 _
  | with_reducible exact Convs.fromNum _
  | with_reducible exact Convs.toNum _
  | with_reducible exact One.one
  | with_reducible exact Pi.pi
  | with_reducible exact Pi.tau
  | with_reducible exact Reals.maxValue
  | with_reducible exact Reals.minValue
  | with_reducible exact Neg.neg _
  | with_reducible exact Abs.abs _
  | with_reducible exact Powi.powi _ _
  | with_reducible exact Sqrt.sqrt _
  | with_reducible exact SinCos.sincos _
  | with_reducible exact Atan.atan2 _ _
  | with_reducible exact Exp.exp _
  | with_reducible exact Usize.ofUsize _
  | with_reducible exact Log10.log10 _
  | with_reducible exact Exp10.exp10 _
  | with_reducible apply_assumption)

/-- Steps through a program. -/
macro "only" : tactic => `(tactic| repeat' first
  | with_reducible refine Only.bind ?_ (fun _ => ?_)
  | with_reducible refine Only.ite ?_ ?_
  | only_step
  | with_reducible refine Only.loop (fun _ => ?_) (fun _ => ?_) _
  | split
  | dsimp only)

theorem sign [MixedCmp α] [Lit α] [Lits E α]
    (a : α) : Only E (MixedNum.sign a) := by
  unfold MixedNum.sign; only
macro_rules | `(tactic| only_step) => `(tactic| with_reducible exact sign _)

theorem sinFold [MixedCmp α] [NumOps α] [Ring E α] [Div E α] [Lit α] [Lits E α] [MixedPi α] [Pi E α] [MixedNumSigned α] [Neg E α]
    (a : α) : Only E (MixedNum.sinFold a) := by
  unfold MixedNum.sinFold; only
macro_rules | `(tactic| only_step) => `(tactic| with_reducible exact sinFold _)

theorem sin [MixedCmp α] [NumOps α] [Ring E α] [Div E α] [Lit α] [Lits E α] [MixedPi α] [Pi E α] [MixedNumSigned α] [Neg E α] [MixedPowi α] [Powi E α]
    (a : α) : Only E (MixedNum.sin a) := by
  unfold MixedNum.sin; only
macro_rules | `(tactic| only_step) => `(tactic| with_reducible exact sin _)

theorem wrapPhase [MixedCmp α] [NumOps α] [Ring E α] [Lit α] [Lits E α] [MixedPi α] [Pi E α] [MixedNumSigned α] [Neg E α]
    (a : α) : Only E (MixedNum.wrapPhase a) := by
  unfold MixedNum.wrapPhase; only
macro_rules | `(tactic| only_step) => `(tactic| with_reducible exact wrapPhase _)

theorem cos [MixedCmp α] [NumOps α] [Ring E α] [Div E α] [Lit α] [Lits E α] [MixedPi α] [Pi E α] [MixedNumSigned α] [Neg E α] [MixedPowi α] [Powi E α]
    (a : α) : Only E (MixedNum.cos a) := by
  unfold MixedNum.cos; only
macro_rules | `(tactic| only_step) => `(tactic| with_reducible exact cos _)

theorem powiLoop [NumOps α] [Ring E α]
    (a : α) (k : ℕ) (b : α) : Only E (MixedNum.powiLoop a k b) := by
  induction k generalizing b with
  | zero => exact Only.pure _
  | succ k ih => exact Only.bind (Ring.mul _ _) fun _ => ih _
macro_rules | `(tactic| only_step) => `(tactic| with_reducible exact powiLoop _ _ _)

theorem powi [NumOps α] [Ring E α] [Lit α] [Lits E α]
    (a : α) (k : ℕ) : Only E (MixedNum.powi a k) := by
  unfold MixedNum.powi; only
macro_rules | `(tactic| only_step) => `(tactic| with_reducible exact powi _ _)

theorem mixedPowiVia [NumOps α] [Ring E α] [Lit α] [Lits E α]
    (a : α) (e : ℤ) : Only E (MixedNum.mixedPowiVia a e) := by
  unfold MixedNum.mixedPowiVia; only
macro_rules | `(tactic| only_step) => `(tactic| with_reducible exact mixedPowiVia _ _)

theorem mixedPowiAt [NumOps α] [Ring E α] [Lit α] [Lits E α]
    (P : ℕ) (a : α) (e : ℤ) : Only E (MixedNum.mixedPowiAt P a e) := by
  unfold MixedNum.mixedPowiAt; only
macro_rules | `(tactic| only_step) => `(tactic| with_reducible exact mixedPowiAt _ _ _)

theorem beta [MixedCmp α] [Lit α] [Lits E α]
    (a : α) : Only E (MixedNum.beta a) := by
  unfold MixedNum.beta; only
macro_rules | `(tactic| only_step) => `(tactic| with_reducible exact beta _)

theorem normalize [MixedCmp α] [NumOps α] [Ring E α] [Div E α] [Lit α] [Lits E α]
    {c : Counter} (hc : ∀ n, Only E (c.fit n)) (a : α) : Only E (niirfNormalize c a) := by
  unfold niirfNormalize; only
macro_rules | `(tactic| only_step) => `(tactic| with_reducible exact normalize ‹_› _)

theorem iter [MixedCmp α] [NumOps α] [Ring E α] [Lit α] [Lits E α] [MixedPowi α] [Powi E α]
    (a : α) (k : ℕ) (b : α) : Only E (niirfIter a k b) := by
  induction k generalizing b with
  | zero => exact Only.pure _
  | succ k ih => unfold niirfIter; only
macro_rules | `(tactic| only_step) => `(tactic| with_reducible exact iter _ _ _)

theorem denormalize [NumOps α] [Ring E α] [Div E α] [Lit α] [Lits E α]
    {c : Counter} (hc : ∀ n, Only E (c.fit n)) (a : α) (n : ℤ) : Only E (niirfDenormalize c a n) := by
  unfold niirfDenormalize; only
macro_rules | `(tactic| only_step) => `(tactic| with_reducible exact denormalize ‹_› _ _)

theorem niirf [MixedCmp α] [NumOps α] [Ring E α] [Div E α] [Lit α] [Lits E α] [MixedPowi α] [Powi E α] [MixedAbs α] [Abs E α] [MixedZero α]
    {c : Counter} (hc : ∀ n, Only E (c.fit n)) (a : α) (n : ℕ) : Only E (MixedNum.niirf c a n) := by
  unfold MixedNum.niirf; only
macro_rules | `(tactic| only_step) => `(tactic| with_reducible exact niirf ‹_› _ _)

theorem atanPoly1 [NumOps α] [Ring E α] [Div E α] [Lit α] [Lits E α] [MixedPowi α] [Powi E α]
    (a b : α) : Only E (MixedNum.atanPoly1 a b) := by
  unfold MixedNum.atanPoly1; only
macro_rules | `(tactic| only_step) => `(tactic| with_reducible exact atanPoly1 _ _)

theorem atanPoly2 [NumOps α] [Ring E α] [Div E α] [Lit α] [Lits E α] [MixedPowi α] [Powi E α]
    (a b : α) : Only E (MixedNum.atanPoly2 a b) := by
  unfold MixedNum.atanPoly2; only
macro_rules | `(tactic| only_step) => `(tactic| with_reducible exact atanPoly2 _ _)

theorem atan2Poly [MixedCmp α] [NumOps α] [Ring E α] [Div E α] [Lit α] [Lits E α] [MixedPi α] [Pi E α] [MixedNumSigned α] [Neg E α] [MixedPowi α] [Powi E α] [MixedAbs α] [Abs E α] [MixedZero α] [MixedReal α] [Reals E α]
    (a b : α) : Only E (MixedNum.atan2Poly a b) := by
  unfold MixedNum.atan2Poly; only
macro_rules | `(tactic| only_step) => `(tactic| with_reducible exact atan2Poly _ _)

theorem atanPoly [MixedCmp α] [NumOps α] [Ring E α] [Div E α] [Lit α] [Lits E α] [MixedPi α] [Pi E α] [MixedNumSigned α] [Neg E α] [MixedPowi α] [Powi E α] [MixedAbs α] [Abs E α] [MixedZero α] [MixedReal α] [Reals E α] [MixedOne α] [One E α]
    (a : α) : Only E (MixedNum.atanPoly a) := by
  unfold MixedNum.atanPoly; only
macro_rules | `(tactic| only_step) => `(tactic| with_reducible exact atanPoly _)

theorem mag2db [NumOps α] [Ring E α] [Lit α] [Lits E α] [MixedLog10 α] [Log10 E α]
    (a : α) : Only E (MixedNum.mag2db a) := by
  unfold MixedNum.mag2db; only
macro_rules | `(tactic| only_step) => `(tactic| with_reducible exact mag2db _)

theorem db2mag [NumOps α] [Ring E α] [Div E α] [Lit α] [Lits E α] [MixedExp10 α] [Exp10 E α]
    (a : α) : Only E (MixedNum.db2mag a) := by
  unfold MixedNum.db2mag; only
macro_rules | `(tactic| only_step) => `(tactic| with_reducible exact db2mag _)

theorem pow2db [NumOps α] [Ring E α] [Lit α] [Lits E α] [MixedLog10 α] [Log10 E α]
    (a : α) : Only E (MixedNum.pow2db a) := by
  unfold MixedNum.pow2db; only
macro_rules | `(tactic| only_step) => `(tactic| with_reducible exact pow2db _)

theorem db2pow [NumOps α] [Ring E α] [Div E α] [Lit α] [Lits E α] [MixedExp10 α] [Exp10 E α]
    (a : α) : Only E (MixedNum.db2pow a) := by
  unfold MixedNum.db2pow; only
macro_rules | `(tactic| only_step) => `(tactic| with_reducible exact db2pow _)

theorem opsAbs [NumOps α] [Ring E α] [MixedPowi α] [Powi E α] [MixedSqrt α] [Sqrt E α]
    (z : Cartesian α) : Only E (ops.abs z) := by
  unfold ops.abs; only
macro_rules | `(tactic| only_step) => `(tactic| with_reducible exact opsAbs _)

theorem opsToPolar [NumOps α] [Ring E α] [MixedPowi α] [Powi E α] [MixedSqrt α] [Sqrt E α] [MixedAtan α] [Atan E α]
    (z : Cartesian α) : Only E (ops.toPolar z) := by
  unfold ops.toPolar; only
macro_rules | `(tactic| only_step) => `(tactic| with_reducible exact opsToPolar _)

theorem opsToCartesian [MixedCmp α] [NumOps α] [Ring E α] [Lit α] [Lits E α] [MixedPi α] [Pi E α] [MixedNumSigned α] [Neg E α] [MixedSinCos α] [SinCos E α]
    (p : Polar α) : Only E (ops.toCartesian p) := by
  unfold ops.toCartesian; only
macro_rules | `(tactic| only_step) => `(tactic| with_reducible exact opsToCartesian _)

theorem opsAdd [NumOps α] [Ring E α]
    (z w : Cartesian α) : Only E (ops.add z w) := by
  unfold ops.add; only
macro_rules | `(tactic| only_step) => `(tactic| with_reducible exact opsAdd _ _)

theorem opsSub [NumOps α] [Ring E α]
    (z w : Cartesian α) : Only E (ops.sub z w) := by
  unfold ops.sub; only
macro_rules | `(tactic| only_step) => `(tactic| with_reducible exact opsSub _ _)

theorem opsMulPolar [MixedCmp α] [NumOps α] [Ring E α] [Lit α] [Lits E α]
    (p q : Polar α) : Only E (ops.mulPolar p q) := by
  unfold ops.mulPolar; only
macro_rules | `(tactic| only_step) => `(tactic| with_reducible exact opsMulPolar _ _)

theorem opsMulCartesian [NumOps α] [Ring E α]
    (z w : Cartesian α) : Only E (ops.mulCartesian z w) := by
  unfold ops.mulCartesian; only
macro_rules | `(tactic| only_step) => `(tactic| with_reducible exact opsMulCartesian _ _)

theorem opsPowi [NumOps α] [Ring E α] [MixedPowi α] [Powi E α] [MixedSqrt α] [Sqrt E α] [MixedAtan α] [Atan E α] [MixedSinCos α] [SinCos E α] [FromUsize α] [Usize E α]
    (z : Cartesian α) (n : ℕ) : Only E (ops.powi z n) := by
  unfold ops.powi; only
macro_rules | `(tactic| only_step) => `(tactic| with_reducible exact opsPowi _ _)

theorem opsDivScalar [MixedCmp α] [NumOps α] [Ring E α] [Div E α] [Lit α] [Lits E α] [MixedReal α] [Reals E α]
    (z : Cartesian α) (t : α) : Only E (ops.divScalarCartesian z t) := by
  unfold ops.divScalarCartesian; only
macro_rules | `(tactic| only_step) => `(tactic| with_reducible exact opsDivScalar _ _)

theorem opsDiv [NumOps α] [Ring E α] [Div E α] [MixedPowi α] [Powi E α]
    (z w : Cartesian α) : Only E (ops.divCartesian z w) := by
  unfold ops.divCartesian; only
macro_rules | `(tactic| only_step) => `(tactic| with_reducible exact opsDiv _ _)

theorem newFromPolar [MixedCmp α] [NumOps α] [Ring E α] [Lit α] [Lits E α] [MixedPi α] [Pi E α] [MixedNumSigned α] [Neg E α] [MixedSinCos α] [SinCos E α]
    (a b : α) : Only E (Cartesian.newFromPolar a b) := by
  unfold Cartesian.newFromPolar; only
macro_rules | `(tactic| only_step) => `(tactic| with_reducible exact newFromPolar _ _)

theorem toPolar [NumOps α] [Ring E α] [MixedPowi α] [Powi E α] [MixedSqrt α] [Sqrt E α] [MixedAtan α] [Atan E α]
    (z : Cartesian α) : Only E (Cartesian.toPolar z) := by
  unfold Cartesian.toPolar; only
macro_rules | `(tactic| only_step) => `(tactic| with_reducible exact toPolar _)

theorem mag [NumOps α] [Ring E α] [MixedPowi α] [Powi E α] [MixedSqrt α] [Sqrt E α]
    (z : Cartesian α) : Only E (Cartesian.mag z) := by
  unfold Cartesian.mag; only
macro_rules | `(tactic| only_step) => `(tactic| with_reducible exact mag _)

theorem absC [NumOps α] [Ring E α] [MixedPowi α] [Powi E α] [MixedSqrt α] [Sqrt E α]
    (z : Cartesian α) : Only E (Cartesian.abs z) := by
  unfold Cartesian.abs; only
macro_rules | `(tactic| only_step) => `(tactic| with_reducible exact absC _)

theorem mixedAbs [NumOps α] [Ring E α] [MixedPowi α] [Powi E α] [MixedSqrt α] [Sqrt E α] [MixedZero α]
    (z : Cartesian α) : Only E (Cartesian.mixedAbs z) := by
  unfold Cartesian.mixedAbs; only
macro_rules | `(tactic| only_step) => `(tactic| with_reducible exact mixedAbs _)

theorem arg [MixedAtan α] [Atan E α]
    (z : Cartesian α) : Only E (Cartesian.arg z) := by
  unfold Cartesian.arg; only
macro_rules | `(tactic| only_step) => `(tactic| with_reducible exact arg _)

theorem ang [MixedAtan α] [Atan E α]
    (z : Cartesian α) : Only E (Cartesian.ang z) := by
  unfold Cartesian.ang; only
macro_rules | `(tactic| only_step) => `(tactic| with_reducible exact ang _)

theorem mul [NumOps α] [Ring E α]
    (z w : Cartesian α) : Only E (Cartesian.mul z w) := by
  unfold Cartesian.mul; only
macro_rules | `(tactic| only_step) => `(tactic| with_reducible exact mul _ _)

theorem mulScalar [NumOps α] [Ring E α] [Conv β α] [Convs E β α]
    (z : Cartesian α) (t : β) : Only E (Cartesian.mulScalar z t) := by
  unfold Cartesian.mulScalar; only
macro_rules | `(tactic| only_step) => `(tactic| with_reducible exact mulScalar _ _)

theorem mulPolar [MixedCmp α] [NumOps α] [Ring E α] [Lit α] [Lits E α] [MixedPi α] [Pi E α] [MixedNumSigned α] [Neg E α] [MixedSinCos α] [SinCos E α]
    (z : Cartesian α) (p : Polar α) : Only E (Cartesian.mulPolar z p) := by
  unfold Cartesian.mulPolar; only
macro_rules | `(tactic| only_step) => `(tactic| with_reducible exact mulPolar _ _)

theorem mulAssignPolar [MixedCmp α] [NumOps α] [Ring E α] [Lit α] [Lits E α] [MixedPi α] [Pi E α] [MixedNumSigned α] [Neg E α] [MixedSinCos α] [SinCos E α]
    (z : Cartesian α) (p : Polar α) : Only E (Cartesian.mulAssignPolar z p) := by
  unfold Cartesian.mulAssignPolar; only
macro_rules | `(tactic| only_step) => `(tactic| with_reducible exact mulAssignPolar _ _)

theorem addScalar [NumOps α] [Ring E α] [Conv β α] [Convs E β α]
    (z : Cartesian α) (t : β) : Only E (Cartesian.addScalar z t) := by
  unfold Cartesian.addScalar; only
macro_rules | `(tactic| only_step) => `(tactic| with_reducible exact addScalar _ _)

theorem addAssignScalar [NumOps α] [Ring E α] [Conv β α] [Convs E β α]
    (z : Cartesian α) (t : β) : Only E (Cartesian.addAssignScalar z t) := by
  unfold Cartesian.addAssignScalar; only
macro_rules | `(tactic| only_step) => `(tactic| with_reducible exact addAssignScalar _ _)

theorem subScalar [NumOps α] [Ring E α] [Conv β α] [Convs E β α]
    (z : Cartesian α) (t : β) : Only E (Cartesian.subScalar z t) := by
  unfold Cartesian.subScalar; only
macro_rules | `(tactic| only_step) => `(tactic| with_reducible exact subScalar _ _)

theorem subAssignScalar [NumOps α] [Ring E α] [Conv β α] [Convs E β α]
    (z : Cartesian α) (t : β) : Only E (Cartesian.subAssignScalar z t) := by
  unfold Cartesian.subAssignScalar; only
macro_rules | `(tactic| only_step) => `(tactic| with_reducible exact subAssignScalar _ _)

theorem add [NumOps α] [Ring E α]
    (z w : Cartesian α) : Only E (Cartesian.add z w) := by
  unfold Cartesian.add; only
macro_rules | `(tactic| only_step) => `(tactic| with_reducible exact add _ _)

theorem addNC [NumOps α] [Ring E α]
    (z : Cartesian α) (w : NumComplex α) : Only E (Cartesian.addNC z w) := by
  unfold Cartesian.addNC; only
macro_rules | `(tactic| only_step) => `(tactic| with_reducible exact addNC _ _)

theorem addAssign [NumOps α] [Ring E α]
    (z w : Cartesian α) : Only E (Cartesian.addAssign z w) := by
  unfold Cartesian.addAssign; only
macro_rules | `(tactic| only_step) => `(tactic| with_reducible exact addAssign _ _)

theorem addAssignNC [NumOps α] [Ring E α]
    (z : Cartesian α) (w : NumComplex α) : Only E (Cartesian.addAssignNC z w) := by
  unfold Cartesian.addAssignNC; only
macro_rules | `(tactic| only_step) => `(tactic| with_reducible exact addAssignNC _ _)

theorem sub [NumOps α] [Ring E α]
    (z w : Cartesian α) : Only E (Cartesian.sub z w) := by
  unfold Cartesian.sub; only
macro_rules | `(tactic| only_step) => `(tactic| with_reducible exact sub _ _)

theorem subNC [NumOps α] [Ring E α]
    (z : Cartesian α) (w : NumComplex α) : Only E (Cartesian.subNC z w) := by
  unfold Cartesian.subNC; only
macro_rules | `(tactic| only_step) => `(tactic| with_reducible exact subNC _ _)

theorem subAssign [NumOps α] [Ring E α]
    (z w : Cartesian α) : Only E (Cartesian.subAssign z w) := by
  unfold Cartesian.subAssign; only
macro_rules | `(tactic| only_step) => `(tactic| with_reducible exact subAssign _ _)

theorem subAssignNC [NumOps α] [Ring E α]
    (z : Cartesian α) (w : NumComplex α) : Only E (Cartesian.subAssignNC z w) := by
  unfold Cartesian.subAssignNC; only
macro_rules | `(tactic| only_step) => `(tactic| with_reducible exact subAssignNC _ _)

theorem div [NumOps α] [Ring E α] [Div E α] [MixedPowi α] [Powi E α]
    (z w : Cartesian α) : Only E (Cartesian.div z w) := by
  unfold Cartesian.div; only
macro_rules | `(tactic| only_step) => `(tactic| with_reducible exact div _ _)

theorem divNC [NumOps α] [Ring E α] [Div E α] [MixedPowi α] [Powi E α]
    (z : Cartesian α) (w : NumComplex α) : Only E (Cartesian.divNC z w) := by
  unfold Cartesian.divNC; only
macro_rules | `(tactic| only_step) => `(tactic| with_reducible exact divNC _ _)

theorem divAssign [NumOps α] [Ring E α] [Div E α] [MixedPowi α] [Powi E α]
    (z w : Cartesian α) : Only E (Cartesian.divAssign z w) := by
  unfold Cartesian.divAssign; only
macro_rules | `(tactic| only_step) => `(tactic| with_reducible exact divAssign _ _)

theorem divAssignNC [NumOps α] [Ring E α] [Div E α] [MixedPowi α] [Powi E α]
    (z : Cartesian α) (w : NumComplex α) : Only E (Cartesian.divAssignNC z w) := by
  unfold Cartesian.divAssignNC; only
macro_rules | `(tactic| only_step) => `(tactic| with_reducible exact divAssignNC _ _)

theorem divScalar [NumOps α] [Ring E α] [Div E α] [MixedReal α] [Reals E α] [MixedCmp β] [MixedZero β] [Conv β α] [Convs E β α]
    (z : Cartesian α) (t : β) : Only E (Cartesian.divScalar z t) := by
  unfold Cartesian.divScalar; only
macro_rules | `(tactic| only_step) => `(tactic| with_reducible exact divScalar _ _)

theorem divAssignScalar [NumOps α] [Ring E α] [Div E α] [MixedReal α] [Reals E α] [MixedCmp β] [MixedZero β] [Conv β α] [Convs E β α]
    (z : Cartesian α) (t : β) : Only E (Cartesian.divAssignScalar z t) := by
  unfold Cartesian.divAssignScalar; only
macro_rules | `(tactic| only_step) => `(tactic| with_reducible exact divAssignScalar _ _)

theorem conj [MixedNumSigned α] [Neg E α]
    (z : Cartesian α) : Only E (Cartesian.conj z) := by
  unfold Cartesian.conj; only
macro_rules | `(tactic| only_step) => `(tactic| with_reducible exact conj _)

theorem conjPolar [NumOps α] [Ring E α] [MixedPowi α] [Powi E α] [MixedSqrt α] [Sqrt E α] [MixedAtan α] [Atan E α] [MixedNumSigned α] [Neg E α]
    (z : Cartesian α) : Only E (Cartesian.conjPolar z) := by
  unfold Cartesian.conjPolar; only
macro_rules | `(tactic| only_step) => `(tactic| with_reducible exact conjPolar _)

theorem exp [NumOps α] [Ring E α] [MixedSinCos α] [SinCos E α] [MixedExp α] [Exp E α]
    (z : Cartesian α) : Only E (Cartesian.exp z) := by
  unfold Cartesian.exp; only
macro_rules | `(tactic| only_step) => `(tactic| with_reducible exact exp _)

theorem polarNewFromCartesian [NumOps α] [Ring E α] [MixedPowi α] [Powi E α] [MixedSqrt α] [Sqrt E α] [MixedAtan α] [Atan E α]
    (a b : α) : Only E (Polar.newFromCartesian a b) := by
  unfold Polar.newFromCartesian; only
macro_rules | `(tactic| only_step) => `(tactic| with_reducible exact polarNewFromCartesian _ _)

theorem polarToCartesian [MixedCmp α] [NumOps α] [Ring E α] [Lit α] [Lits E α] [MixedPi α] [Pi E α] [MixedNumSigned α] [Neg E α] [MixedSinCos α] [SinCos E α]
    (p : Polar α) : Only E (Polar.toCartesian p) := by
  unfold Polar.toCartesian; only
macro_rules | `(tactic| only_step) => `(tactic| with_reducible exact polarToCartesian _)

theorem polarMul [MixedCmp α] [NumOps α] [Ring E α] [Lit α] [Lits E α]
    (p q : Polar α) : Only E (Polar.mul p q) := by
  unfold Polar.mul; only
macro_rules | `(tactic| only_step) => `(tactic| with_reducible exact polarMul _ _)

theorem polarMulCartesian [MixedCmp α] [NumOps α] [Ring E α] [Lit α] [Lits E α] [MixedPowi α] [Powi E α] [MixedSqrt α] [Sqrt E α] [MixedAtan α] [Atan E α]
    (p : Polar α) (z : Cartesian α) : Only E (Polar.mulCartesian p z) := by
  unfold Polar.mulCartesian; only
macro_rules | `(tactic| only_step) => `(tactic| with_reducible exact polarMulCartesian _ _)

theorem polarMulScalar [NumOps α] [Ring E α]
    (p : Polar α) (t : α) : Only E (Polar.mulScalar p t) := by
  unfold Polar.mulScalar; only
macro_rules | `(tactic| only_step) => `(tactic| with_reducible exact polarMulScalar _ _)

theorem polarDivScalar [MixedCmp α] [NumOps α] [Ring E α] [Div E α] [MixedZero α] [MixedReal α] [Reals E α]
    (p : Polar α) (t : α) : Only E (Polar.divScalar p t) := by
  unfold Polar.divScalar; only
macro_rules | `(tactic| only_step) => `(tactic| with_reducible exact polarDivScalar _ _)

theorem polarConj [MixedNumSigned α] [Neg E α]
    (p : Polar α) : Only E (Polar.conj p) := by
  unfold Polar.conj; only
macro_rules | `(tactic| only_step) => `(tactic| with_reducible exact polarConj _)

theorem polarConjCartesian [MixedCmp α] [NumOps α] [Ring E α] [Lit α] [Lits E α] [MixedPi α] [Pi E α] [MixedNumSigned α] [Neg E α] [MixedSinCos α] [SinCos E α]
    (p : Polar α) : Only E (Polar.conjCartesian p) := by
  unfold Polar.conjCartesian; only
macro_rules | `(tactic| only_step) => `(tactic| with_reducible exact polarConjCartesian _)

theorem fmtAbs [MixedCmp α] [MixedZero α] [NumOps α] [Ring E α]
    (a : α) : Only E (MixedNum.fmtAbs a) := by
  unfold MixedNum.fmtAbs; only
macro_rules | `(tactic| only_step) => `(tactic| with_reducible exact fmtAbs _)

theorem writeComplex [MixedCmp α] [MixedZero α] [NumOps α] [Ring E α]
    (std : Bool) (f : FmtSpec) (pre : List Char) (render : Option ℕ → α → List Char) (z : Cartesian α) : Only E (MixedNum.writeComplex std f pre render z) := by
  unfold MixedNum.writeComplex; only
macro_rules | `(tactic| only_step) => `(tactic| with_reducible exact writeComplex _ _ _ _ _)

end Only
end MixedNum
