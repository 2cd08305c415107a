import Verif.Lemmas.OnlyInst
import Verif.Lemmas.Prog
import Verif.Props.AddSub
/-!
# C141, C142 — For which reasons a call can panic
-/

namespace MixedNum

/-- Applies what is known of the function at the head of the goal. -/
macro "only_panics" : tactic => `(tactic| first
  | (open Only in only_step)
  | (refine Only.never ?_; open Only in only_step)
  | exact Only.pure _
  | exact Only.niirf Only.counter_fit _ _
  | exact Only.niirf Only.counter_wrapping _ _
  | exact Only.never (Only.niirf Only.counter_wrapping _ _)
  | exact Only.wrapPhase _
  | exact Only.atan2Poly _ _)

/-! ## C141 -/

/-- Integers in a release build: operators, absolute value, powers and sign. -/
theorem C141_int_release {s : Bool} {W : ℕ} (a b : PInt .wrapping s W) (e : ℤ) (n : ℕ) :
    NeverPanics (NumOps.add a b) ∧
    NeverPanics (NumOps.sub a b) ∧
    NeverPanics (NumOps.mul a b) ∧
    NeverPanics (MixedAbs.abs a) ∧
    NeverPanics (MixedPowi.powi a e) ∧
    NeverPanics (MixedNum.powi a n) ∧
    NeverPanics (sign a) ∧
    OnlyPanics Arithmetic (NumOps.div a b) := by
  and_intros <;> only_panics

/-- Complex integers in a release build. -/
theorem C141_int_complex_release {s : Bool} {W : ℕ} (z w : Cartesian (PInt .wrapping s W)) (v : NumComplex (PInt .wrapping s W)) (p q : Polar (PInt .wrapping s W))
    (c : PInt .wrapping s W) (std : Bool) (f : FmtSpec) (pre : List Char) (render : Option ℕ → PInt .wrapping s W → List Char) :
    NeverPanics (Cartesian.add z w) ∧
    NeverPanics (Cartesian.addAssign z w) ∧
    NeverPanics (Cartesian.sub z w) ∧
    NeverPanics (Cartesian.subAssign z w) ∧
    NeverPanics (Cartesian.mul z w) ∧
    NeverPanics (ops.add z w) ∧
    NeverPanics (ops.sub z w) ∧
    NeverPanics (ops.mulCartesian z w) ∧
    NeverPanics (Cartesian.addNC z v) ∧
    NeverPanics (Cartesian.addAssignNC z v) ∧
    NeverPanics (Cartesian.subNC z v) ∧
    NeverPanics (Cartesian.subAssignNC z v) ∧
    NeverPanics (Polar.mul p q) ∧
    NeverPanics (Polar.mulScalar p c) ∧
    NeverPanics (ops.mulPolar p q) ∧
    NeverPanics (writeComplex std f pre render z) ∧
    OnlyPanics Arithmetic (Cartesian.div z w) ∧
    OnlyPanics Arithmetic (Cartesian.divAssign z w) ∧
    OnlyPanics Arithmetic (ops.divCartesian z w) ∧
    OnlyPanics Arithmetic (Cartesian.divNC z v) ∧
    OnlyPanics Arithmetic (Cartesian.divAssignNC z v) ∧
    OnlyPanics Arithmetic (Polar.divScalar p c) ∧
    OnlyPanics Arithmetic (ops.divScalarCartesian z c) := by
  and_intros <;> only_panics

/-- Negation and conjugation of integers in a release build. -/
theorem C141_int_neg_release {W : ℕ} (a : PInt .wrapping true W) (z : Cartesian (PInt .wrapping true W)) (p : Polar (PInt .wrapping true W)) :
    NeverPanics (MixedNumSigned.neg a) ∧
    NeverPanics (Cartesian.conj z) ∧
    NeverPanics (Polar.conj p) := by
  and_intros <;> only_panics

/-- Complex integers with an integer of any type in a release build. -/
theorem C141_int_scalar_release {s s' : Bool} {W W' : ℕ} (z : Cartesian (PInt .wrapping s W)) (t : PInt .wrapping s' W') :
    NeverPanics (Cartesian.mulScalar z t) ∧
    NeverPanics (Cartesian.addScalar z t) ∧
    NeverPanics (Cartesian.addAssignScalar z t) ∧
    NeverPanics (Cartesian.subScalar z t) ∧
    NeverPanics (Cartesian.subAssignScalar z t) ∧
    OnlyPanics Arithmetic (Cartesian.divScalar z t) ∧
    OnlyPanics Arithmetic (Cartesian.divAssignScalar z t) := by
  and_intros <;> only_panics

/-- Complex integers with a float in a release build. -/
theorem C141_int_float_release {s : Bool} {W : ℕ} {f : Format} (z : Cartesian (PInt .wrapping s W)) (t : Flt f) :
    NeverPanics (Cartesian.mulScalar z t) ∧
    NeverPanics (Cartesian.addScalar z t) ∧
    NeverPanics (Cartesian.addAssignScalar z t) ∧
    NeverPanics (Cartesian.subScalar z t) ∧
    NeverPanics (Cartesian.subAssignScalar z t) ∧
    OnlyPanics Arithmetic (Cartesian.divScalar z t) ∧
    OnlyPanics Arithmetic (Cartesian.divAssignScalar z t) := by
  and_intros <;> only_panics

/-- Integers in a debug build: operators, absolute value, powers and sign. -/
theorem C141_int_debug {s : Bool} {W : ℕ} (a b : PInt .checked s W) (e : ℤ) (n : ℕ) :
    OnlyPanics OutOfRange (NumOps.add a b) ∧
    OnlyPanics OutOfRange (NumOps.sub a b) ∧
    OnlyPanics OutOfRange (NumOps.mul a b) ∧
    OnlyPanics OutOfRange (MixedAbs.abs a) ∧
    OnlyPanics OutOfRange (MixedPowi.powi a e) ∧
    OnlyPanics OutOfRange (MixedNum.powi a n) ∧
    OnlyPanics OutOfRange (sign a) ∧
    OnlyPanics Arithmetic (NumOps.div a b) := by
  and_intros <;> only_panics

/-- Complex integers in a debug build. -/
theorem C141_int_complex_debug {s : Bool} {W : ℕ} (z w : Cartesian (PInt .checked s W)) (v : NumComplex (PInt .checked s W)) (p q : Polar (PInt .checked s W))
    (c : PInt .checked s W) (std : Bool) (f : FmtSpec) (pre : List Char) (render : Option ℕ → PInt .checked s W → List Char) :
    OnlyPanics OutOfRange (Cartesian.add z w) ∧
    OnlyPanics OutOfRange (Cartesian.addAssign z w) ∧
    OnlyPanics OutOfRange (Cartesian.sub z w) ∧
    OnlyPanics OutOfRange (Cartesian.subAssign z w) ∧
    OnlyPanics OutOfRange (Cartesian.mul z w) ∧
    OnlyPanics OutOfRange (ops.add z w) ∧
    OnlyPanics OutOfRange (ops.sub z w) ∧
    OnlyPanics OutOfRange (ops.mulCartesian z w) ∧
    OnlyPanics OutOfRange (Cartesian.addNC z v) ∧
    OnlyPanics OutOfRange (Cartesian.addAssignNC z v) ∧
    OnlyPanics OutOfRange (Cartesian.subNC z v) ∧
    OnlyPanics OutOfRange (Cartesian.subAssignNC z v) ∧
    OnlyPanics OutOfRange (Polar.mul p q) ∧
    OnlyPanics OutOfRange (Polar.mulScalar p c) ∧
    OnlyPanics OutOfRange (ops.mulPolar p q) ∧
    OnlyPanics OutOfRange (writeComplex std f pre render z) ∧
    OnlyPanics Arithmetic (Cartesian.div z w) ∧
    OnlyPanics Arithmetic (Cartesian.divAssign z w) ∧
    OnlyPanics Arithmetic (ops.divCartesian z w) ∧
    OnlyPanics Arithmetic (Cartesian.divNC z v) ∧
    OnlyPanics Arithmetic (Cartesian.divAssignNC z v) ∧
    OnlyPanics Arithmetic (Polar.divScalar p c) ∧
    OnlyPanics Arithmetic (ops.divScalarCartesian z c) := by
  and_intros <;> only_panics

/-- Negation and conjugation of integers in a debug build. -/
theorem C141_int_neg_debug {W : ℕ} (a : PInt .checked true W) (z : Cartesian (PInt .checked true W)) (p : Polar (PInt .checked true W)) :
    OnlyPanics OutOfRange (MixedNumSigned.neg a) ∧
    OnlyPanics OutOfRange (Cartesian.conj z) ∧
    OnlyPanics OutOfRange (Polar.conj p) := by
  and_intros <;> only_panics

/-- Complex integers with an integer of any type in a debug build. -/
theorem C141_int_scalar_debug {s s' : Bool} {W W' : ℕ} (z : Cartesian (PInt .checked s W)) (t : PInt .checked s' W') :
    OnlyPanics OutOfRange (Cartesian.mulScalar z t) ∧
    OnlyPanics OutOfRange (Cartesian.addScalar z t) ∧
    OnlyPanics OutOfRange (Cartesian.addAssignScalar z t) ∧
    OnlyPanics OutOfRange (Cartesian.subScalar z t) ∧
    OnlyPanics OutOfRange (Cartesian.subAssignScalar z t) ∧
    OnlyPanics Arithmetic (Cartesian.divScalar z t) ∧
    OnlyPanics Arithmetic (Cartesian.divAssignScalar z t) := by
  and_intros <;> only_panics

/-- Complex integers with a float in a debug build. -/
theorem C141_int_float_debug {s : Bool} {W : ℕ} {f : Format} (z : Cartesian (PInt .checked s W)) (t : Flt f) :
    OnlyPanics OutOfRange (Cartesian.mulScalar z t) ∧
    OnlyPanics OutOfRange (Cartesian.addScalar z t) ∧
    OnlyPanics OutOfRange (Cartesian.addAssignScalar z t) ∧
    OnlyPanics OutOfRange (Cartesian.subScalar z t) ∧
    OnlyPanics OutOfRange (Cartesian.subAssignScalar z t) ∧
    OnlyPanics Arithmetic (Cartesian.divScalar z t) ∧
    OnlyPanics Arithmetic (Cartesian.divAssignScalar z t) := by
  and_intros <;> only_panics

/-- Fixed point in a release build: operators, absolute value, powers, sign and square roots. -/
theorem C141_fixed_release {s : Bool} {W F : ℕ} (a b : Fixed .wrapping s W F) (e : ℤ) (n : ℕ) :
    NeverPanics (NumOps.add a b) ∧
    NeverPanics (NumOps.sub a b) ∧
    NeverPanics (NumOps.mul a b) ∧
    NeverPanics (MixedAbs.abs a) ∧
    NeverPanics (MixedPowi.powi a e) ∧
    NeverPanics (MixedNum.powi a n) ∧
    NeverPanics (sign a) ∧
    OnlyPanics ByZero (NumOps.div a b) ∧
    OnlyPanics ByZero (MixedSqrt.sqrt a) ∧
    OnlyPanics ByZero (Fixed.mixedNiirf a) ∧
    OnlyPanics ByZero (niirf (.i32 .wrapping) a n) := by
  and_intros <;> only_panics

/-- Complex fixed point in a release build. -/
theorem C141_fixed_complex_release {s : Bool} {W F : ℕ} (z w : Cartesian (Fixed .wrapping s W F)) (v : NumComplex (Fixed .wrapping s W F)) (p q : Polar (Fixed .wrapping s W F))
    (c : Fixed .wrapping s W F) (std : Bool) (f : FmtSpec) (pre : List Char) (render : Option ℕ → Fixed .wrapping s W F → List Char) :
    NeverPanics (Cartesian.add z w) ∧
    NeverPanics (Cartesian.addAssign z w) ∧
    NeverPanics (Cartesian.sub z w) ∧
    NeverPanics (Cartesian.subAssign z w) ∧
    NeverPanics (Cartesian.mul z w) ∧
    NeverPanics (ops.add z w) ∧
    NeverPanics (ops.sub z w) ∧
    NeverPanics (ops.mulCartesian z w) ∧
    NeverPanics (Cartesian.addNC z v) ∧
    NeverPanics (Cartesian.addAssignNC z v) ∧
    NeverPanics (Cartesian.subNC z v) ∧
    NeverPanics (Cartesian.subAssignNC z v) ∧
    NeverPanics (Polar.mul p q) ∧
    NeverPanics (Polar.mulScalar p c) ∧
    NeverPanics (ops.mulPolar p q) ∧
    NeverPanics (writeComplex std f pre render z) ∧
    OnlyPanics ByZero (Cartesian.div z w) ∧
    OnlyPanics ByZero (Cartesian.divAssign z w) ∧
    OnlyPanics ByZero (ops.divCartesian z w) ∧
    OnlyPanics ByZero (Cartesian.divNC z v) ∧
    OnlyPanics ByZero (Cartesian.divAssignNC z v) ∧
    OnlyPanics ByZero (Polar.divScalar p c) ∧
    OnlyPanics ByZero (ops.divScalarCartesian z c) ∧
    OnlyPanics ByZero (Cartesian.mag z) ∧
    OnlyPanics ByZero (Cartesian.abs z) ∧
    OnlyPanics ByZero (Cartesian.mixedAbs z) ∧
    OnlyPanics ByZero (ops.abs z) := by
  and_intros <;> only_panics

/-- Negation, conjugation, wrapping of phases and trigonometry of fixed point in a release build. -/
theorem C141_fixed_trig_release {W F : ℕ} (x y : Fixed .wrapping true W F) (z : Cartesian (Fixed .wrapping true W F)) (p : Polar (Fixed .wrapping true W F)) :
    NeverPanics (MixedNumSigned.neg x) ∧
    NeverPanics (Cartesian.conj z) ∧
    NeverPanics (Polar.conj p) ∧
    NeverPanics (wrapPhase x) ∧
    NeverPanics (Fixed.mixedWrapPhase x) ∧
    OnlyPanics ByZero (sin x) ∧
    OnlyPanics ByZero (cos x) ∧
    OnlyPanics ByZero (atan2Poly y x) ∧
    OnlyPanics ByZero (atanPoly x) ∧
    OnlyPanics ByZero (Fixed.mixedAtan2Poly y x) := by
  and_intros <;> only_panics

/-- Complex fixed point with an integer of any type in a release build. -/
theorem C141_fixed_scalar_release {s s' : Bool} {W F W' : ℕ} (z : Cartesian (Fixed .wrapping s W F)) (t : PInt .wrapping s' W') :
    NeverPanics (Cartesian.mulScalar z t) ∧
    NeverPanics (Cartesian.addScalar z t) ∧
    NeverPanics (Cartesian.addAssignScalar z t) ∧
    NeverPanics (Cartesian.subScalar z t) ∧
    NeverPanics (Cartesian.subAssignScalar z t) ∧
    OnlyPanics ByZero (Cartesian.divScalar z t) ∧
    OnlyPanics ByZero (Cartesian.divAssignScalar z t) := by
  and_intros <;> only_panics

/-- Fixed point in a debug build: operators, absolute value, powers, sign and square roots. -/
theorem C141_fixed_debug {s : Bool} {W F : ℕ} (a b : Fixed .checked s W F) (e : ℤ) (n : ℕ) :
    OnlyPanics OutOfRange (NumOps.add a b) ∧
    OnlyPanics OutOfRange (NumOps.sub a b) ∧
    OnlyPanics OutOfRange (NumOps.mul a b) ∧
    OnlyPanics OutOfRange (MixedAbs.abs a) ∧
    OnlyPanics OutOfRange (MixedPowi.powi a e) ∧
    OnlyPanics OutOfRange (MixedNum.powi a n) ∧
    OnlyPanics OutOfRange (sign a) ∧
    OnlyPanics Arithmetic (NumOps.div a b) ∧
    OnlyPanics Arithmetic (MixedSqrt.sqrt a) ∧
    OnlyPanics Arithmetic (Fixed.mixedNiirf a) ∧
    OnlyPanics Arithmetic (niirf (.i32 .checked) a n) := by
  and_intros <;> only_panics

/-- Complex fixed point in a debug build. -/
theorem C141_fixed_complex_debug {s : Bool} {W F : ℕ} (z w : Cartesian (Fixed .checked s W F)) (v : NumComplex (Fixed .checked s W F)) (p q : Polar (Fixed .checked s W F))
    (c : Fixed .checked s W F) (std : Bool) (f : FmtSpec) (pre : List Char) (render : Option ℕ → Fixed .checked s W F → List Char) :
    OnlyPanics OutOfRange (Cartesian.add z w) ∧
    OnlyPanics OutOfRange (Cartesian.addAssign z w) ∧
    OnlyPanics OutOfRange (Cartesian.sub z w) ∧
    OnlyPanics OutOfRange (Cartesian.subAssign z w) ∧
    OnlyPanics OutOfRange (Cartesian.mul z w) ∧
    OnlyPanics OutOfRange (ops.add z w) ∧
    OnlyPanics OutOfRange (ops.sub z w) ∧
    OnlyPanics OutOfRange (ops.mulCartesian z w) ∧
    OnlyPanics OutOfRange (Cartesian.addNC z v) ∧
    OnlyPanics OutOfRange (Cartesian.addAssignNC z v) ∧
    OnlyPanics OutOfRange (Cartesian.subNC z v) ∧
    OnlyPanics OutOfRange (Cartesian.subAssignNC z v) ∧
    OnlyPanics OutOfRange (Polar.mul p q) ∧
    OnlyPanics OutOfRange (Polar.mulScalar p c) ∧
    OnlyPanics OutOfRange (ops.mulPolar p q) ∧
    OnlyPanics OutOfRange (writeComplex std f pre render z) ∧
    OnlyPanics Arithmetic (Cartesian.div z w) ∧
    OnlyPanics Arithmetic (Cartesian.divAssign z w) ∧
    OnlyPanics Arithmetic (ops.divCartesian z w) ∧
    OnlyPanics Arithmetic (Cartesian.divNC z v) ∧
    OnlyPanics Arithmetic (Cartesian.divAssignNC z v) ∧
    OnlyPanics Arithmetic (Polar.divScalar p c) ∧
    OnlyPanics Arithmetic (ops.divScalarCartesian z c) ∧
    OnlyPanics Arithmetic (Cartesian.mag z) ∧
    OnlyPanics Arithmetic (Cartesian.abs z) ∧
    OnlyPanics Arithmetic (Cartesian.mixedAbs z) ∧
    OnlyPanics Arithmetic (ops.abs z) := by
  and_intros <;> only_panics

/-- Negation, conjugation, wrapping of phases and trigonometry of fixed point in a debug build. -/
theorem C141_fixed_trig_debug {W F : ℕ} (x y : Fixed .checked true W F) (z : Cartesian (Fixed .checked true W F)) (p : Polar (Fixed .checked true W F)) :
    OnlyPanics OutOfRange (MixedNumSigned.neg x) ∧
    OnlyPanics OutOfRange (Cartesian.conj z) ∧
    OnlyPanics OutOfRange (Polar.conj p) ∧
    OnlyPanics OutOfRange (wrapPhase x) ∧
    OnlyPanics OutOfRange (Fixed.mixedWrapPhase x) ∧
    OnlyPanics Arithmetic (sin x) ∧
    OnlyPanics Arithmetic (cos x) ∧
    OnlyPanics Arithmetic (atan2Poly y x) ∧
    OnlyPanics Arithmetic (atanPoly x) ∧
    OnlyPanics Arithmetic (Fixed.mixedAtan2Poly y x) := by
  and_intros <;> only_panics

/-- Complex fixed point with an integer of any type in a debug build. -/
theorem C141_fixed_scalar_debug {s s' : Bool} {W F W' : ℕ} (z : Cartesian (Fixed .checked s W F)) (t : PInt .checked s' W') :
    OnlyPanics OutOfRange (Cartesian.mulScalar z t) ∧
    OnlyPanics OutOfRange (Cartesian.addScalar z t) ∧
    OnlyPanics OutOfRange (Cartesian.addAssignScalar z t) ∧
    OnlyPanics OutOfRange (Cartesian.subScalar z t) ∧
    OnlyPanics OutOfRange (Cartesian.subAssignScalar z t) ∧
    OnlyPanics Arithmetic (Cartesian.divScalar z t) ∧
    OnlyPanics Arithmetic (Cartesian.divAssignScalar z t) := by
  and_intros <;> only_panics

/-- Conversion to fixed point panics, in a release build, only on NaN and infinities, and then it does. -/
theorem C141_convert_release {s : Bool} {W F : ℕ} {f : Format} (t : Flt f) :
    OnlyPanics (· = .nonFinite) (Conv.fromNum t : Prog (Fixed .wrapping s W F)) ∧
    (Panics (Conv.fromNum t : Prog (Fixed .wrapping s W F)) .nonFinite ↔ ∀ b q, t ≠ .fin b q) := by
  cases t with
  | nan => exact ⟨Only.fail rfl, fun _ _ _ => by simp, fun _ => ⟨0, fun _ _ => rfl⟩⟩
  | inf b => exact ⟨Only.fail rfl, fun _ _ _ => by simp, fun _ => ⟨0, fun _ _ => rfl⟩⟩
  | fin b q =>
    have h : Only (fun _ => False) (Conv.fromNum (.fin b q : Flt f) : Prog (Fixed .wrapping s W F)) := Only.fixed_wrapping _
    refine ⟨h.mono fun _ h => h.elim, fun ⟨N, hN⟩ => (h N _ (hN N le_rfl)).elim, fun h => (h b q rfl).elim⟩

/-- Fixed point between Cartesian and polar form, magnitudes, arguments and `exp`: whatever the reasons for which the functions of
crate `cordic` panic, in a release build only a division by zero is added to them. -/
theorem C141_fixed_forms_release {W F : ℕ} [Cordic .wrapping W F] {E : Panic → Prop} (hz : E .divByZero)
    (h1 : ∀ x : Fixed .wrapping true W F, OnlyPanics E (Cordic.sinCos x)) (h2 : ∀ y x : Fixed .wrapping true W F, OnlyPanics E (Cordic.atan2 y x))
    (z : Cartesian (Fixed .wrapping true W F)) (p : Polar (Fixed .wrapping true W F)) (a b : Fixed .wrapping true W F) (n : ℕ) :
    OnlyPanics E (Cartesian.toPolar z) ∧ OnlyPanics E (Cartesian.conjPolar z) ∧ OnlyPanics E (Polar.newFromCartesian a b) ∧
    OnlyPanics E (Polar.mulCartesian p z) ∧ OnlyPanics E (ops.powi z n) := by
  have : Only.SinCos E (Fixed .wrapping true W F) := ⟨h1⟩
  have : Only.Atan E (Fixed .wrapping true W F) := ⟨h2⟩
  have : Only.Has E .divByZero := ⟨hz⟩
  and_intros <;> only_panics

/-- The conversions to Cartesian form and `exp` on fixed point, in a release build, panic for no reason but those of crate `cordic`. -/
theorem C141_fixed_cordic_release {W F : ℕ} [Cordic .wrapping W F] {E : Panic → Prop}
    (h1 : ∀ x : Fixed .wrapping true W F, OnlyPanics E (Cordic.sinCos x)) (h2 : ∀ y x : Fixed .wrapping true W F, OnlyPanics E (Cordic.atan2 y x))
    (h3 : ∀ x : Fixed .wrapping true W F, OnlyPanics E (Cordic.exp x))
    (z : Cartesian (Fixed .wrapping true W F)) (p : Polar (Fixed .wrapping true W F)) (a b : Fixed .wrapping true W F) :
    OnlyPanics E (Cartesian.newFromPolar a b) ∧ OnlyPanics E (Polar.toCartesian p) ∧ OnlyPanics E (Cartesian.mulPolar z p) ∧
    OnlyPanics E (Cartesian.mulAssignPolar z p) ∧ OnlyPanics E (Polar.conjCartesian p) ∧ OnlyPanics E (Cartesian.exp z) ∧
    OnlyPanics E (Cartesian.arg z) ∧ OnlyPanics E (Cartesian.ang z) := by
  have : Only.SinCos E (Fixed .wrapping true W F) := ⟨h1⟩
  have : Only.Atan E (Fixed .wrapping true W F) := ⟨h2⟩
  have : Only.Exp E (Fixed .wrapping true W F) := ⟨h3⟩
  and_intros <;> only_panics

/-- Each reason occurs. In a release build: 1 by 0 on fixed point, -128 by -1 on `i8`, an infinity made fixed point; in a debug build:
100 + 100 on `i8`. In a release build the latter is -56. -/
example : Panics (NumOps.div (fx .wrapping true 8 4 16) (fx .wrapping true 8 4 0)) .divByZero ∧
    Panics (NumOps.div (i .wrapping true 8 (-128)) (i .wrapping true 8 (-1))) .overflow ∧
    Panics (Conv.fromNum (.inf true : Flt F32) : Prog (Fixed .wrapping true 8 4)) .nonFinite ∧
    Panics (NumOps.add (i .checked true 8 100) (i .checked true 8 100)) .overflow ∧
    Returns (NumOps.add (i .wrapping true 8 100) (i .wrapping true 8 100)) (i .wrapping true 8 (-56)) :=
  ⟨⟨0, fun _ _ => rfl⟩, ⟨0, fun _ _ => rfl⟩, ⟨0, fun _ _ => rfl⟩, ⟨0, fun _ _ => rfl⟩, ⟨0, fun _ _ => rfl⟩⟩

/-! ## C142 -/

/-- Operators and functions on floats that are the crate's own. -/
theorem C142_float {f : Format} (a b : Flt f) (e : ℤ) (n : ℕ) :
    NeverPanics (NumOps.add a b) ∧
    NeverPanics (NumOps.sub a b) ∧
    NeverPanics (NumOps.mul a b) ∧
    NeverPanics (MixedAbs.abs a) ∧
    NeverPanics (MixedPowi.powi a e) ∧
    NeverPanics (MixedNum.powi a n) ∧
    NeverPanics (sign a) ∧
    NeverPanics (NumOps.div a b) ∧
    NeverPanics (MixedNumSigned.neg a) ∧
    NeverPanics (wrapPhase a) ∧
    NeverPanics (sin a) ∧
    NeverPanics (cos a) ∧
    NeverPanics (atan2Poly a b) ∧
    NeverPanics (atanPoly a) ∧
    NeverPanics (Flt.mixedAtan2Poly a b) ∧
    NeverPanics (Flt.mixedWrapPhase a) ∧
    NeverPanics (Flt.mixedFloor a) ∧
    NeverPanics (Flt.mixedCeil a) := by
  and_intros <;> only_panics

/-- Complex floats. -/
theorem C142_complex {f : Format} (z w : Cartesian (Flt f)) (v : NumComplex (Flt f)) (p q : Polar (Flt f)) (c : Flt f)
    (std : Bool) (spec : FmtSpec) (pre : List Char) (render : Option ℕ → Flt f → List Char) :
    NeverPanics (Cartesian.add z w) ∧
    NeverPanics (Cartesian.addAssign z w) ∧
    NeverPanics (Cartesian.sub z w) ∧
    NeverPanics (Cartesian.subAssign z w) ∧
    NeverPanics (Cartesian.mul z w) ∧
    NeverPanics (ops.add z w) ∧
    NeverPanics (ops.sub z w) ∧
    NeverPanics (ops.mulCartesian z w) ∧
    NeverPanics (Cartesian.addNC z v) ∧
    NeverPanics (Cartesian.addAssignNC z v) ∧
    NeverPanics (Cartesian.subNC z v) ∧
    NeverPanics (Cartesian.subAssignNC z v) ∧
    NeverPanics (Cartesian.div z w) ∧
    NeverPanics (Cartesian.divAssign z w) ∧
    NeverPanics (ops.divCartesian z w) ∧
    NeverPanics (Cartesian.divNC z v) ∧
    NeverPanics (Cartesian.divAssignNC z v) ∧
    NeverPanics (Polar.mul p q) ∧
    NeverPanics (Polar.mulScalar p c) ∧
    NeverPanics (ops.mulPolar p q) ∧
    NeverPanics (Polar.divScalar p c) ∧
    NeverPanics (ops.divScalarCartesian z c) ∧
    NeverPanics (Cartesian.conj z) ∧
    NeverPanics (Polar.conj p) ∧
    NeverPanics (writeComplex std spec pre render z) := by
  and_intros <;> only_panics

/-- Complex floats with a float of any format. -/
theorem C142_scalar {f g : Format} (z : Cartesian (Flt f)) (t : Flt g) :
    NeverPanics (Cartesian.mulScalar z t) ∧
    NeverPanics (Cartesian.addScalar z t) ∧
    NeverPanics (Cartesian.addAssignScalar z t) ∧
    NeverPanics (Cartesian.subScalar z t) ∧
    NeverPanics (Cartesian.subAssignScalar z t) ∧
    NeverPanics (Cartesian.divScalar z t) ∧
    NeverPanics (Cartesian.divAssignScalar z t) := by
  and_intros <;> only_panics

/-- Complex floats with an integer of any type. -/
theorem C142_scalar_int {f : Format} {m : Mode} {s : Bool} {W : ℕ} (z : Cartesian (Flt f)) (t : PInt m s W) :
    NeverPanics (Cartesian.mulScalar z t) ∧
    NeverPanics (Cartesian.addScalar z t) ∧
    NeverPanics (Cartesian.addAssignScalar z t) ∧
    NeverPanics (Cartesian.subScalar z t) ∧
    NeverPanics (Cartesian.subAssignScalar z t) ∧
    NeverPanics (Cartesian.divScalar z t) ∧
    NeverPanics (Cartesian.divAssignScalar z t) := by
  and_intros <;> only_panics

/-- What goes through `libm`, whose functions do not panic. -/
theorem C142_libm {f : Format} [Libm f] (a b : Flt f) (z : Cartesian (Flt f)) (p : Polar (Flt f)) :
    NeverPanics (MixedSqrt.sqrt a) ∧
    NeverPanics (MixedSinCos.sincos a) ∧
    NeverPanics (MixedAtan.atan2 a b) ∧
    NeverPanics (MixedExp.exp a) ∧
    NeverPanics (mag2db a) ∧
    NeverPanics (db2mag a) ∧
    NeverPanics (pow2db a) ∧
    NeverPanics (db2pow a) ∧
    NeverPanics (Cartesian.mag z) ∧
    NeverPanics (Cartesian.abs z) ∧
    NeverPanics (Cartesian.mixedAbs z) ∧
    NeverPanics (ops.abs z) ∧
    NeverPanics (Cartesian.arg z) ∧
    NeverPanics (Cartesian.ang z) ∧
    NeverPanics (Cartesian.toPolar z) ∧
    NeverPanics (ops.toPolar z) ∧
    NeverPanics (Cartesian.conjPolar z) ∧
    NeverPanics (Cartesian.exp z) ∧
    NeverPanics (Cartesian.newFromPolar a b) ∧
    NeverPanics (Cartesian.mulPolar z p) ∧
    NeverPanics (Cartesian.mulAssignPolar z p) ∧
    NeverPanics (Polar.newFromCartesian a b) ∧
    NeverPanics (Polar.toCartesian p) ∧
    NeverPanics (ops.toCartesian p) ∧
    NeverPanics (Polar.mulCartesian p z) ∧
    NeverPanics (Polar.conjCartesian p) := by
  and_intros <;> only_panics

/-- `niirf` on floats: not in a release build; in a debug build its counter may overflow, and nothing else can panic. -/
theorem C142_niirf {f : Format} (x : Flt f) (n : ℕ) :
    NeverPanics (niirf (.i32 .wrapping) x n) ∧ NeverPanics (Flt.mixedNiirf .wrapping x) ∧
    OnlyPanics OutOfRange (niirf (.i32 .checked) x n) ∧ OnlyPanics OutOfRange (Flt.mixedNiirf .checked x) := by
  and_intros <;> only_panics

end MixedNum
