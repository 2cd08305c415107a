import Verif.Lemmas.SimInst
import Verif.Props.AddSub
/-!
# C139 — A release build does what a debug build does, unless the debug build panics
-/

namespace MixedNum

/-- Operators, absolute value, powers and sign of integers. -/
theorem C139_int {s : Bool} {W : ℕ} (a b : PInt .checked s W) (e : ℤ) (n : ℕ) :
    Agrees PInt.release (NumOps.add a b) (NumOps.add a.release b.release) ∧
    Agrees PInt.release (NumOps.sub a b) (NumOps.sub a.release b.release) ∧
    Agrees PInt.release (NumOps.mul a b) (NumOps.mul a.release b.release) ∧
    Agrees PInt.release (NumOps.div a b) (NumOps.div a.release b.release) ∧
    Agrees PInt.release (MixedAbs.abs a) (MixedAbs.abs a.release) ∧
    Agrees PInt.release (MixedPowi.powi a e) (MixedPowi.powi a.release e) ∧
    Agrees PInt.release (MixedNum.powi a n) (MixedNum.powi a.release n) ∧
    Agrees PInt.release (sign a) (sign a.release) :=
  ⟨Sim.agrees (Sim.Num.add (R := To PInt.release) rfl rfl),
    Sim.agrees (Sim.Num.sub (R := To PInt.release) rfl rfl),
    Sim.agrees (Sim.Num.mul (R := To PInt.release) rfl rfl),
    Sim.agrees (Sim.Num.div (R := To PInt.release) rfl rfl),
    Sim.agrees (Sim.Abs.abs (R := To PInt.release) rfl),
    Sim.agrees (Sim.Powi.powi (R := To PInt.release) e rfl),
    Sim.agrees (Sim.powi (R := To PInt.release) n rfl),
    Sim.agrees (Sim.sign (R := To PInt.release) rfl)⟩

/-- Unary minus of integers. -/
theorem C139_int_neg {W : ℕ} (a : PInt .checked true W) :
    Agrees PInt.release (MixedNumSigned.neg a) (MixedNumSigned.neg a.release) :=
  Sim.agrees (Sim.Neg.neg (R := To PInt.release) rfl)

/-- Operators between complex numbers over integers, the assigning ones too. -/
theorem C139_int_cartesian {s : Bool} {W : ℕ} (z w : Cartesian (PInt .checked s W)) :
    Agrees (Cartesian.releaseBy PInt.release) (Cartesian.add z w)
      (Cartesian.add (z.releaseBy PInt.release) (w.releaseBy PInt.release)) ∧
    Agrees (Cartesian.releaseBy PInt.release) (Cartesian.addAssign z w)
      (Cartesian.addAssign (z.releaseBy PInt.release) (w.releaseBy PInt.release)) ∧
    Agrees (Cartesian.releaseBy PInt.release) (Cartesian.sub z w)
      (Cartesian.sub (z.releaseBy PInt.release) (w.releaseBy PInt.release)) ∧
    Agrees (Cartesian.releaseBy PInt.release) (Cartesian.subAssign z w)
      (Cartesian.subAssign (z.releaseBy PInt.release) (w.releaseBy PInt.release)) ∧
    Agrees (Cartesian.releaseBy PInt.release) (Cartesian.mul z w)
      (Cartesian.mul (z.releaseBy PInt.release) (w.releaseBy PInt.release)) ∧
    Agrees (Cartesian.releaseBy PInt.release) (Cartesian.div z w)
      (Cartesian.div (z.releaseBy PInt.release) (w.releaseBy PInt.release)) ∧
    Agrees (Cartesian.releaseBy PInt.release) (Cartesian.divAssign z w)
      (Cartesian.divAssign (z.releaseBy PInt.release) (w.releaseBy PInt.release)) :=
  ⟨Sim.agrees_cart (Sim.add (R := To PInt.release) ⟨rfl, rfl⟩ ⟨rfl, rfl⟩),
    Sim.agrees_cart (Sim.addAssign (R := To PInt.release) ⟨rfl, rfl⟩ ⟨rfl, rfl⟩),
    Sim.agrees_cart (Sim.sub (R := To PInt.release) ⟨rfl, rfl⟩ ⟨rfl, rfl⟩),
    Sim.agrees_cart (Sim.subAssign (R := To PInt.release) ⟨rfl, rfl⟩ ⟨rfl, rfl⟩),
    Sim.agrees_cart (Sim.mul (R := To PInt.release) ⟨rfl, rfl⟩ ⟨rfl, rfl⟩),
    Sim.agrees_cart (Sim.div (R := To PInt.release) ⟨rfl, rfl⟩ ⟨rfl, rfl⟩),
    Sim.agrees_cart (Sim.divAssign (R := To PInt.release) ⟨rfl, rfl⟩ ⟨rfl, rfl⟩)⟩

/-- Operators with a complex number of crate `num`, over integers. -/
theorem C139_int_num_complex {s : Bool} {W : ℕ} (z : Cartesian (PInt .checked s W)) (w : NumComplex (PInt .checked s W)) :
    Agrees (Cartesian.releaseBy PInt.release) (Cartesian.addNC z w)
      (Cartesian.addNC (z.releaseBy PInt.release) (w.releaseBy PInt.release)) ∧
    Agrees (Cartesian.releaseBy PInt.release) (Cartesian.addAssignNC z w)
      (Cartesian.addAssignNC (z.releaseBy PInt.release) (w.releaseBy PInt.release)) ∧
    Agrees (Cartesian.releaseBy PInt.release) (Cartesian.subNC z w)
      (Cartesian.subNC (z.releaseBy PInt.release) (w.releaseBy PInt.release)) ∧
    Agrees (Cartesian.releaseBy PInt.release) (Cartesian.subAssignNC z w)
      (Cartesian.subAssignNC (z.releaseBy PInt.release) (w.releaseBy PInt.release)) ∧
    Agrees (Cartesian.releaseBy PInt.release) (Cartesian.divNC z w)
      (Cartesian.divNC (z.releaseBy PInt.release) (w.releaseBy PInt.release)) ∧
    Agrees (Cartesian.releaseBy PInt.release) (Cartesian.divAssignNC z w)
      (Cartesian.divAssignNC (z.releaseBy PInt.release) (w.releaseBy PInt.release)) :=
  ⟨Sim.agrees_cart (Sim.addNC (R := To PInt.release) ⟨rfl, rfl⟩ ⟨rfl, rfl⟩),
    Sim.agrees_cart (Sim.addAssignNC (R := To PInt.release) ⟨rfl, rfl⟩ ⟨rfl, rfl⟩),
    Sim.agrees_cart (Sim.subNC (R := To PInt.release) ⟨rfl, rfl⟩ ⟨rfl, rfl⟩),
    Sim.agrees_cart (Sim.subAssignNC (R := To PInt.release) ⟨rfl, rfl⟩ ⟨rfl, rfl⟩),
    Sim.agrees_cart (Sim.divNC (R := To PInt.release) ⟨rfl, rfl⟩ ⟨rfl, rfl⟩),
    Sim.agrees_cart (Sim.divAssignNC (R := To PInt.release) ⟨rfl, rfl⟩ ⟨rfl, rfl⟩)⟩

/-- Operators between a complex number over integers and an integer of any type. -/
theorem C139_int_scalar {s s' : Bool} {W W' : ℕ} (z : Cartesian (PInt .checked s W)) (t : PInt .checked s' W') :
    Agrees (Cartesian.releaseBy PInt.release) (Cartesian.mulScalar z t)
      (Cartesian.mulScalar (z.releaseBy PInt.release) t.release) ∧
    Agrees (Cartesian.releaseBy PInt.release) (Cartesian.addScalar z t)
      (Cartesian.addScalar (z.releaseBy PInt.release) t.release) ∧
    Agrees (Cartesian.releaseBy PInt.release) (Cartesian.addAssignScalar z t)
      (Cartesian.addAssignScalar (z.releaseBy PInt.release) t.release) ∧
    Agrees (Cartesian.releaseBy PInt.release) (Cartesian.subScalar z t)
      (Cartesian.subScalar (z.releaseBy PInt.release) t.release) ∧
    Agrees (Cartesian.releaseBy PInt.release) (Cartesian.subAssignScalar z t)
      (Cartesian.subAssignScalar (z.releaseBy PInt.release) t.release) ∧
    Agrees (Cartesian.releaseBy PInt.release) (Cartesian.divScalar z t)
      (Cartesian.divScalar (z.releaseBy PInt.release) t.release) ∧
    Agrees (Cartesian.releaseBy PInt.release) (Cartesian.divAssignScalar z t)
      (Cartesian.divAssignScalar (z.releaseBy PInt.release) t.release) :=
  ⟨Sim.agrees_cart (Sim.mulScalar (R := To PInt.release) (S := To PInt.release) ⟨rfl, rfl⟩ rfl),
    Sim.agrees_cart (Sim.addScalar (R := To PInt.release) (S := To PInt.release) ⟨rfl, rfl⟩ rfl),
    Sim.agrees_cart (Sim.addAssignScalar (R := To PInt.release) (S := To PInt.release) ⟨rfl, rfl⟩ rfl),
    Sim.agrees_cart (Sim.subScalar (R := To PInt.release) (S := To PInt.release) ⟨rfl, rfl⟩ rfl),
    Sim.agrees_cart (Sim.subAssignScalar (R := To PInt.release) (S := To PInt.release) ⟨rfl, rfl⟩ rfl),
    Sim.agrees_cart (Sim.divScalar (R := To PInt.release) (S := To PInt.release) ⟨rfl, rfl⟩ rfl),
    Sim.agrees_cart (Sim.divAssignScalar (R := To PInt.release) (S := To PInt.release) ⟨rfl, rfl⟩ rfl)⟩

/-- Operators of polar numbers over integers. -/
theorem C139_int_polar {s : Bool} {W : ℕ} (p q : Polar (PInt .checked s W)) (t : PInt .checked s W) :
    Agrees (Polar.releaseBy PInt.release) (Polar.mul p q) (Polar.mul (p.releaseBy PInt.release) (q.releaseBy PInt.release)) ∧
    Agrees (Polar.releaseBy PInt.release) (Polar.mulScalar p t) (Polar.mulScalar (p.releaseBy PInt.release) t.release) ∧
    Agrees (Polar.releaseBy PInt.release) (Polar.divScalar p t) (Polar.divScalar (p.releaseBy PInt.release) t.release) :=
  ⟨Sim.agrees_pol (Sim.polarMul (R := To PInt.release) ⟨rfl, rfl⟩ ⟨rfl, rfl⟩),
    Sim.agrees_pol (Sim.polarMulScalar (R := To PInt.release) ⟨rfl, rfl⟩ rfl),
    Sim.agrees_pol (Sim.polarDivScalar (R := To PInt.release) ⟨rfl, rfl⟩ rfl)⟩

/-- Conjugation over integers. -/
theorem C139_int_conj {W : ℕ} (z : Cartesian (PInt .checked true W)) (p : Polar (PInt .checked true W)) :
    Agrees (Cartesian.releaseBy PInt.release) (Cartesian.conj z) (Cartesian.conj (z.releaseBy PInt.release)) ∧
    Agrees (Polar.releaseBy PInt.release) (Polar.conj p) (Polar.conj (p.releaseBy PInt.release)) :=
  ⟨Sim.agrees_cart (Sim.conj (R := To PInt.release) ⟨rfl, rfl⟩),
    Sim.agrees_pol (Sim.polarConj (R := To PInt.release) ⟨rfl, rfl⟩)⟩

/-- Operators, absolute value, powers and sign of fixed-point numbers. -/
theorem C139_fixed {s : Bool} {W F : ℕ} (a b : Fixed .checked s W F) (e : ℤ) (n : ℕ) :
    Agrees Fixed.release (NumOps.add a b) (NumOps.add a.release b.release) ∧
    Agrees Fixed.release (NumOps.sub a b) (NumOps.sub a.release b.release) ∧
    Agrees Fixed.release (NumOps.mul a b) (NumOps.mul a.release b.release) ∧
    Agrees Fixed.release (NumOps.div a b) (NumOps.div a.release b.release) ∧
    Agrees Fixed.release (MixedAbs.abs a) (MixedAbs.abs a.release) ∧
    Agrees Fixed.release (MixedPowi.powi a e) (MixedPowi.powi a.release e) ∧
    Agrees Fixed.release (MixedNum.powi a n) (MixedNum.powi a.release n) ∧
    Agrees Fixed.release (sign a) (sign a.release) :=
  ⟨Sim.agrees (Sim.Num.add (R := To Fixed.release) rfl rfl),
    Sim.agrees (Sim.Num.sub (R := To Fixed.release) rfl rfl),
    Sim.agrees (Sim.Num.mul (R := To Fixed.release) rfl rfl),
    Sim.agrees (Sim.Num.div (R := To Fixed.release) rfl rfl),
    Sim.agrees (Sim.Abs.abs (R := To Fixed.release) rfl),
    Sim.agrees (Sim.Powi.powi (R := To Fixed.release) e rfl),
    Sim.agrees (Sim.powi (R := To Fixed.release) n rfl),
    Sim.agrees (Sim.sign (R := To Fixed.release) rfl)⟩

/-- Unary minus of fixed-point numbers. -/
theorem C139_fixed_neg {W F : ℕ} (a : Fixed .checked true W F) :
    Agrees Fixed.release (MixedNumSigned.neg a) (MixedNumSigned.neg a.release) :=
  Sim.agrees (Sim.Neg.neg (R := To Fixed.release) rfl)

/-- Operators between complex numbers over fixed-point numbers, the assigning ones too. -/
theorem C139_fixed_cartesian {s : Bool} {W F : ℕ} (z w : Cartesian (Fixed .checked s W F)) :
    Agrees (Cartesian.releaseBy Fixed.release) (Cartesian.add z w)
      (Cartesian.add (z.releaseBy Fixed.release) (w.releaseBy Fixed.release)) ∧
    Agrees (Cartesian.releaseBy Fixed.release) (Cartesian.addAssign z w)
      (Cartesian.addAssign (z.releaseBy Fixed.release) (w.releaseBy Fixed.release)) ∧
    Agrees (Cartesian.releaseBy Fixed.release) (Cartesian.sub z w)
      (Cartesian.sub (z.releaseBy Fixed.release) (w.releaseBy Fixed.release)) ∧
    Agrees (Cartesian.releaseBy Fixed.release) (Cartesian.subAssign z w)
      (Cartesian.subAssign (z.releaseBy Fixed.release) (w.releaseBy Fixed.release)) ∧
    Agrees (Cartesian.releaseBy Fixed.release) (Cartesian.mul z w)
      (Cartesian.mul (z.releaseBy Fixed.release) (w.releaseBy Fixed.release)) ∧
    Agrees (Cartesian.releaseBy Fixed.release) (Cartesian.div z w)
      (Cartesian.div (z.releaseBy Fixed.release) (w.releaseBy Fixed.release)) ∧
    Agrees (Cartesian.releaseBy Fixed.release) (Cartesian.divAssign z w)
      (Cartesian.divAssign (z.releaseBy Fixed.release) (w.releaseBy Fixed.release)) :=
  ⟨Sim.agrees_cart (Sim.add (R := To Fixed.release) ⟨rfl, rfl⟩ ⟨rfl, rfl⟩),
    Sim.agrees_cart (Sim.addAssign (R := To Fixed.release) ⟨rfl, rfl⟩ ⟨rfl, rfl⟩),
    Sim.agrees_cart (Sim.sub (R := To Fixed.release) ⟨rfl, rfl⟩ ⟨rfl, rfl⟩),
    Sim.agrees_cart (Sim.subAssign (R := To Fixed.release) ⟨rfl, rfl⟩ ⟨rfl, rfl⟩),
    Sim.agrees_cart (Sim.mul (R := To Fixed.release) ⟨rfl, rfl⟩ ⟨rfl, rfl⟩),
    Sim.agrees_cart (Sim.div (R := To Fixed.release) ⟨rfl, rfl⟩ ⟨rfl, rfl⟩),
    Sim.agrees_cart (Sim.divAssign (R := To Fixed.release) ⟨rfl, rfl⟩ ⟨rfl, rfl⟩)⟩

/-- Operators with a complex number of crate `num`, over fixed-point numbers. -/
theorem C139_fixed_num_complex {s : Bool} {W F : ℕ} (z : Cartesian (Fixed .checked s W F)) (w : NumComplex (Fixed .checked s W F)) :
    Agrees (Cartesian.releaseBy Fixed.release) (Cartesian.addNC z w)
      (Cartesian.addNC (z.releaseBy Fixed.release) (w.releaseBy Fixed.release)) ∧
    Agrees (Cartesian.releaseBy Fixed.release) (Cartesian.addAssignNC z w)
      (Cartesian.addAssignNC (z.releaseBy Fixed.release) (w.releaseBy Fixed.release)) ∧
    Agrees (Cartesian.releaseBy Fixed.release) (Cartesian.subNC z w)
      (Cartesian.subNC (z.releaseBy Fixed.release) (w.releaseBy Fixed.release)) ∧
    Agrees (Cartesian.releaseBy Fixed.release) (Cartesian.subAssignNC z w)
      (Cartesian.subAssignNC (z.releaseBy Fixed.release) (w.releaseBy Fixed.release)) ∧
    Agrees (Cartesian.releaseBy Fixed.release) (Cartesian.divNC z w)
      (Cartesian.divNC (z.releaseBy Fixed.release) (w.releaseBy Fixed.release)) ∧
    Agrees (Cartesian.releaseBy Fixed.release) (Cartesian.divAssignNC z w)
      (Cartesian.divAssignNC (z.releaseBy Fixed.release) (w.releaseBy Fixed.release)) :=
  ⟨Sim.agrees_cart (Sim.addNC (R := To Fixed.release) ⟨rfl, rfl⟩ ⟨rfl, rfl⟩),
    Sim.agrees_cart (Sim.addAssignNC (R := To Fixed.release) ⟨rfl, rfl⟩ ⟨rfl, rfl⟩),
    Sim.agrees_cart (Sim.subNC (R := To Fixed.release) ⟨rfl, rfl⟩ ⟨rfl, rfl⟩),
    Sim.agrees_cart (Sim.subAssignNC (R := To Fixed.release) ⟨rfl, rfl⟩ ⟨rfl, rfl⟩),
    Sim.agrees_cart (Sim.divNC (R := To Fixed.release) ⟨rfl, rfl⟩ ⟨rfl, rfl⟩),
    Sim.agrees_cart (Sim.divAssignNC (R := To Fixed.release) ⟨rfl, rfl⟩ ⟨rfl, rfl⟩)⟩

/-- Operators between a complex number over fixed-point numbers and an integer of any type. -/
theorem C139_fixed_scalar {s s' : Bool} {W F W' : ℕ} (z : Cartesian (Fixed .checked s W F)) (t : PInt .checked s' W') :
    Agrees (Cartesian.releaseBy Fixed.release) (Cartesian.mulScalar z t)
      (Cartesian.mulScalar (z.releaseBy Fixed.release) t.release) ∧
    Agrees (Cartesian.releaseBy Fixed.release) (Cartesian.addScalar z t)
      (Cartesian.addScalar (z.releaseBy Fixed.release) t.release) ∧
    Agrees (Cartesian.releaseBy Fixed.release) (Cartesian.addAssignScalar z t)
      (Cartesian.addAssignScalar (z.releaseBy Fixed.release) t.release) ∧
    Agrees (Cartesian.releaseBy Fixed.release) (Cartesian.subScalar z t)
      (Cartesian.subScalar (z.releaseBy Fixed.release) t.release) ∧
    Agrees (Cartesian.releaseBy Fixed.release) (Cartesian.subAssignScalar z t)
      (Cartesian.subAssignScalar (z.releaseBy Fixed.release) t.release) ∧
    Agrees (Cartesian.releaseBy Fixed.release) (Cartesian.divScalar z t)
      (Cartesian.divScalar (z.releaseBy Fixed.release) t.release) ∧
    Agrees (Cartesian.releaseBy Fixed.release) (Cartesian.divAssignScalar z t)
      (Cartesian.divAssignScalar (z.releaseBy Fixed.release) t.release) :=
  ⟨Sim.agrees_cart (Sim.mulScalar (R := To Fixed.release) (S := To PInt.release) ⟨rfl, rfl⟩ rfl),
    Sim.agrees_cart (Sim.addScalar (R := To Fixed.release) (S := To PInt.release) ⟨rfl, rfl⟩ rfl),
    Sim.agrees_cart (Sim.addAssignScalar (R := To Fixed.release) (S := To PInt.release) ⟨rfl, rfl⟩ rfl),
    Sim.agrees_cart (Sim.subScalar (R := To Fixed.release) (S := To PInt.release) ⟨rfl, rfl⟩ rfl),
    Sim.agrees_cart (Sim.subAssignScalar (R := To Fixed.release) (S := To PInt.release) ⟨rfl, rfl⟩ rfl),
    Sim.agrees_cart (Sim.divScalar (R := To Fixed.release) (S := To PInt.release) ⟨rfl, rfl⟩ rfl),
    Sim.agrees_cart (Sim.divAssignScalar (R := To Fixed.release) (S := To PInt.release) ⟨rfl, rfl⟩ rfl)⟩

/-- Operators of polar numbers over fixed-point numbers. -/
theorem C139_fixed_polar {s : Bool} {W F : ℕ} (p q : Polar (Fixed .checked s W F)) (t : Fixed .checked s W F) :
    Agrees (Polar.releaseBy Fixed.release) (Polar.mul p q) (Polar.mul (p.releaseBy Fixed.release) (q.releaseBy Fixed.release)) ∧
    Agrees (Polar.releaseBy Fixed.release) (Polar.mulScalar p t) (Polar.mulScalar (p.releaseBy Fixed.release) t.release) ∧
    Agrees (Polar.releaseBy Fixed.release) (Polar.divScalar p t) (Polar.divScalar (p.releaseBy Fixed.release) t.release) :=
  ⟨Sim.agrees_pol (Sim.polarMul (R := To Fixed.release) ⟨rfl, rfl⟩ ⟨rfl, rfl⟩),
    Sim.agrees_pol (Sim.polarMulScalar (R := To Fixed.release) ⟨rfl, rfl⟩ rfl),
    Sim.agrees_pol (Sim.polarDivScalar (R := To Fixed.release) ⟨rfl, rfl⟩ rfl)⟩

/-- Conjugation over fixed-point numbers. -/
theorem C139_fixed_conj {W F : ℕ} (z : Cartesian (Fixed .checked true W F)) (p : Polar (Fixed .checked true W F)) :
    Agrees (Cartesian.releaseBy Fixed.release) (Cartesian.conj z) (Cartesian.conj (z.releaseBy Fixed.release)) ∧
    Agrees (Polar.releaseBy Fixed.release) (Polar.conj p) (Polar.conj (p.releaseBy Fixed.release)) :=
  ⟨Sim.agrees_cart (Sim.conj (R := To Fixed.release) ⟨rfl, rfl⟩),
    Sim.agrees_pol (Sim.polarConj (R := To Fixed.release) ⟨rfl, rfl⟩)⟩

/-- Text of complex integers: decimal and in the other bases. -/
theorem C139_int_text {s : Bool} {W : ℕ} (z : Cartesian (PInt .checked s W)) (r : Radix) (std : Bool) (f : FmtSpec) :
    Agrees id (displayInt z) (displayInt (z.releaseBy PInt.release)) ∧
    Agrees id (displayRadix r std f z) (displayRadix r std f (z.releaseBy PInt.release)) :=
  ⟨Sim.agrees ((Sim.writeComplex (R := To PInt.release) (z := z) (z' := z.releaseBy PInt.release) _ _ _ (by rintro _ _ _ rfl; rfl) ⟨rfl, rfl⟩).mono fun _ _ h => h.symm),
    Sim.agrees ((Sim.writeComplex (R := To PInt.release) (z := z) (z' := z.releaseBy PInt.release) _ _ _ (by rintro _ _ _ rfl; rfl) ⟨rfl, rfl⟩).mono fun _ _ h => h.symm)⟩

/-- Square root of fixed-point numbers, signed or not. -/
theorem C139_fixed_sqrt {s : Bool} {W F : ℕ} (x : Fixed .checked s W F) :
    Agrees Fixed.release (MixedSqrt.sqrt x) (MixedSqrt.sqrt x.release) ∧
    Agrees Fixed.release (Fixed.mixedNiirf x) (Fixed.mixedNiirf x.release) :=
  ⟨Sim.agrees (Sim.Sqrt.sqrt (R := To Fixed.release) rfl),
    Sim.agrees (Sim.niirf (R := To Fixed.release) Sim.counter 2 rfl)⟩

/-- `niirf` with any number of iterations, with the counter of each build. -/
theorem C139_fixed_niirf {s : Bool} {W F : ℕ} (x : Fixed .checked s W F) (n : ℕ) :
    Agrees Fixed.release (niirf (.i32 .checked) x n) (niirf (.i32 .wrapping) x.release n) :=
  (Sim.niirf (R := To Fixed.release) Sim.counter n rfl).agrees

/-- On floats only the counter of `niirf` depends on the build. -/
theorem C139_float_niirf {f : Format} (x : Flt f) (n : ℕ) :
    Agrees id (niirf (.i32 .checked) x n) (niirf (.i32 .wrapping) x n) ∧ Agrees id (Flt.mixedNiirf .checked x) (Flt.mixedNiirf .wrapping x) :=
  ⟨(Sim.niirf (R := To id) Sim.counter n rfl).agrees, (Sim.niirf (R := To id) Sim.counter 2 rfl).agrees⟩

/-- The crate's own sine, cosine, arctangents and `wrap_phase`. -/
theorem C139_fixed_trig {W F : ℕ} (y x : Fixed .checked true W F) :
    Agrees Fixed.release (sin x) (sin x.release) ∧
    Agrees Fixed.release (cos x) (cos x.release) ∧
    Agrees Fixed.release (wrapPhase x) (wrapPhase x.release) ∧
    Agrees Fixed.release (atanPoly x) (atanPoly x.release) ∧
    Agrees Fixed.release (atan2Poly y x) (atan2Poly y.release x.release) ∧
    Agrees Fixed.release (Fixed.mixedAtan2Poly y x) (Fixed.mixedAtan2Poly y.release x.release) ∧
    Agrees Fixed.release (Fixed.mixedWrapPhase x) (Fixed.mixedWrapPhase x.release) :=
  ⟨Sim.agrees (Sim.sin (R := To Fixed.release) rfl),
    Sim.agrees (Sim.cos (R := To Fixed.release) rfl),
    Sim.agrees (Sim.wrapPhase (R := To Fixed.release) rfl),
    Sim.agrees (Sim.atanPoly (R := To Fixed.release) rfl),
    Sim.agrees (Sim.atan2Poly (R := To Fixed.release) rfl rfl),
    Sim.agrees (Sim.atan2Poly (R := To Fixed.release) rfl rfl),
    Sim.agrees (Sim.wrapPhase (R := To Fixed.release) rfl)⟩

/-- Magnitude of complex fixed-point numbers. -/
theorem C139_fixed_abs {s : Bool} {W F : ℕ} (z : Cartesian (Fixed .checked s W F)) :
    Agrees Fixed.release (ops.abs z) (ops.abs (z.releaseBy Fixed.release)) ∧
    Agrees Fixed.release (Cartesian.mag z) (Cartesian.mag (z.releaseBy Fixed.release)) ∧
    Agrees (Cartesian.releaseBy Fixed.release) (Cartesian.mixedAbs z) (Cartesian.mixedAbs (z.releaseBy Fixed.release)) :=
  ⟨Sim.agrees (Sim.opsAbs (R := To Fixed.release) ⟨rfl, rfl⟩),
    Sim.agrees (Sim.mag (R := To Fixed.release) ⟨rfl, rfl⟩),
    Sim.agrees_cart (Sim.mixedAbs (R := To Fixed.release) ⟨rfl, rfl⟩)⟩

/-- The methods handed to crate `cordic`, if that crate has the property. -/
theorem C139_cordic {W F : ℕ} [Cordic .checked W F] [Cordic .wrapping W F] [CordicAlike W F] (y x : Fixed .checked true W F) :
    Agrees Fixed.release (Fixed.mixedSin x) (Fixed.mixedSin x.release) ∧
    Agrees Fixed.release (Fixed.mixedAsin x) (Fixed.mixedAsin x.release) ∧
    Agrees Fixed.release (Fixed.mixedCos x) (Fixed.mixedCos x.release) ∧
    Agrees Fixed.release (Fixed.mixedAcos x) (Fixed.mixedAcos x.release) ∧
    Agrees Fixed.release (Fixed.mixedAtan x) (Fixed.mixedAtan x.release) ∧
    Agrees Fixed.release (MixedAtan.atan2 y x) (MixedAtan.atan2 y.release x.release) ∧
    Agrees Fixed.release (MixedExp.exp x) (MixedExp.exp x.release) ∧
    Agrees (fun q => (q.1.release, q.2.release)) (MixedSinCos.sincos x) (MixedSinCos.sincos x.release) :=
  ⟨Sim.agrees (Sim.of_alike (CordicAlike.sin x)),
    Sim.agrees (Sim.of_alike (CordicAlike.asin x)),
    Sim.agrees (Sim.of_alike (CordicAlike.cos x)),
    Sim.agrees (Sim.of_alike (CordicAlike.acos x)),
    Sim.agrees (Sim.of_alike (CordicAlike.atan x)),
    Sim.agrees (Sim.Atan.atan2 (R := To Fixed.release) rfl rfl),
    Sim.agrees (Sim.Exp.exp (R := To Fixed.release) rfl),
    Sim.agrees (Sim.of_alike (CordicAlike.sinCos x))⟩

/-- Everything that goes through crate `cordic`: changes between the two forms, exponential, powers. -/
theorem C139_fixed_forms {W F : ℕ} [Cordic .checked W F] [Cordic .wrapping W F] [CordicAlike W F] (z : Cartesian (Fixed .checked true W F)) (p : Polar (Fixed .checked true W F))
    (a b : Fixed .checked true W F) (n : ℕ) :
    Agrees (Polar.releaseBy Fixed.release) (ops.toPolar z) (ops.toPolar (z.releaseBy Fixed.release)) ∧
    Agrees (Cartesian.releaseBy Fixed.release) (ops.toCartesian p) (ops.toCartesian (p.releaseBy Fixed.release)) ∧
    Agrees (Cartesian.releaseBy Fixed.release) (Cartesian.newFromPolar a b) (Cartesian.newFromPolar a.release b.release) ∧
    Agrees (Polar.releaseBy Fixed.release) (Polar.newFromCartesian a b) (Polar.newFromCartesian a.release b.release) ∧
    Agrees Fixed.release (Cartesian.arg z) (Cartesian.arg (z.releaseBy Fixed.release)) ∧
    Agrees (Cartesian.releaseBy Fixed.release) (Cartesian.mulPolar z p)
      (Cartesian.mulPolar (z.releaseBy Fixed.release) (p.releaseBy Fixed.release)) ∧
    Agrees (Cartesian.releaseBy Fixed.release) (Cartesian.mulAssignPolar z p)
      (Cartesian.mulAssignPolar (z.releaseBy Fixed.release) (p.releaseBy Fixed.release)) ∧
    Agrees (Polar.releaseBy Fixed.release) (Polar.mulCartesian p z)
      (Polar.mulCartesian (p.releaseBy Fixed.release) (z.releaseBy Fixed.release)) ∧
    Agrees (Polar.releaseBy Fixed.release) (Cartesian.conjPolar z) (Cartesian.conjPolar (z.releaseBy Fixed.release)) ∧
    Agrees (Cartesian.releaseBy Fixed.release) (Polar.conjCartesian p) (Polar.conjCartesian (p.releaseBy Fixed.release)) ∧
    Agrees (Cartesian.releaseBy Fixed.release) (Cartesian.exp z) (Cartesian.exp (z.releaseBy Fixed.release)) ∧
    Agrees (Cartesian.releaseBy Fixed.release) (ops.powi z n) (ops.powi (z.releaseBy Fixed.release) n) :=
  ⟨Sim.agrees_pol (Sim.opsToPolar (R := To Fixed.release) ⟨rfl, rfl⟩),
    Sim.agrees_cart (Sim.opsToCartesian (R := To Fixed.release) ⟨rfl, rfl⟩),
    Sim.agrees_cart (Sim.newFromPolar (R := To Fixed.release) rfl rfl),
    Sim.agrees_pol (Sim.polarNewFromCartesian (R := To Fixed.release) rfl rfl),
    Sim.agrees (Sim.arg (R := To Fixed.release) ⟨rfl, rfl⟩),
    Sim.agrees_cart (Sim.mulPolar (R := To Fixed.release) ⟨rfl, rfl⟩ ⟨rfl, rfl⟩),
    Sim.agrees_cart (Sim.mulAssignPolar (R := To Fixed.release) ⟨rfl, rfl⟩ ⟨rfl, rfl⟩),
    Sim.agrees_pol (Sim.polarMulCartesian (R := To Fixed.release) ⟨rfl, rfl⟩ ⟨rfl, rfl⟩),
    Sim.agrees_pol (Sim.conjPolar (R := To Fixed.release) ⟨rfl, rfl⟩),
    Sim.agrees_cart (Sim.polarConjCartesian (R := To Fixed.release) ⟨rfl, rfl⟩),
    Sim.agrees_cart (Sim.exp (R := To Fixed.release) ⟨rfl, rfl⟩),
    Sim.agrees_cart (Sim.opsPowi (R := To Fixed.release) n ⟨rfl, rfl⟩)⟩

/-- Conversions: between integers, between integers and fixed point, and with floats. -/
theorem C139_convert {s s' : Bool} {W W' F : ℕ} {f : Format} (i : PInt .checked s W) (x : Fixed .checked s W F) (t : Flt f) :
    Agrees PInt.release (Conv.fromNum i : Prog (PInt .checked s' W')) (Conv.fromNum i.release) ∧
    Agrees PInt.release (Conv.toNum i : Prog (PInt .checked s' W')) (Conv.toNum i.release) ∧
    Agrees Fixed.release (Conv.fromNum i : Prog (Fixed .checked s' W' F)) (Conv.fromNum i.release) ∧
    Agrees PInt.release (Conv.toNum x : Prog (PInt .checked s' W')) (Conv.toNum x.release) ∧
    Agrees PInt.release (Conv.fromNum t : Prog (PInt .checked s' W')) (Conv.fromNum t) ∧
    Agrees Fixed.release (Conv.fromNum t : Prog (Fixed .checked s' W' F)) (Conv.fromNum t) ∧
    Agrees id (Conv.toNum i : Prog (Flt f)) (Conv.toNum i.release) ∧ Agrees id (Conv.toNum x : Prog (Flt f)) (Conv.toNum x.release) :=
  ⟨Sim.agrees (Sim.Convs.fromNum (R := To PInt.release) (S := To PInt.release) rfl),
    Sim.agrees (Sim.Convs.toNum (R := To PInt.release) (S := To PInt.release) rfl),
    Sim.agrees (Sim.Convs.fromNum (R := To PInt.release) (S := To Fixed.release) rfl),
    Sim.agrees (Sim.Convs.toNum (R := To PInt.release) (S := To Fixed.release) rfl),
    Sim.agrees (Sim.Convs.fromNum (R := To id) (S := To PInt.release) rfl),
    Sim.agrees (Sim.Convs.fromNum (R := To id) (S := To Fixed.release) rfl),
    Sim.agrees (Sim.Convs.toNum (R := To id) (S := To PInt.release) rfl),
    Sim.agrees (Sim.Convs.toNum (R := To id) (S := To Fixed.release) rfl)⟩

/-! The property is not empty: `100 + 27` on 8 bits returns 127 in both builds, `100 + 28` panics in one and gives -128 in the other,
`1 / 0` panics in both. -/

example : Returns (NumOps.add (i .checked true 8 100) (i .checked true 8 27)) (i .checked true 8 127) ∧
    Returns (NumOps.add (i .checked true 8 100).release (i .checked true 8 27).release) (i .checked true 8 127).release :=
  ⟨.of_eq rfl, .of_eq rfl⟩

example : Panics (NumOps.add (i .checked true 8 100) (i .checked true 8 28)) .overflow ∧
    Returns (NumOps.add (i .checked true 8 100).release (i .checked true 8 28).release) (i .wrapping true 8 (-128)) :=
  ⟨.of_eq rfl, .of_eq rfl⟩

example : Panics (NumOps.div (i .checked true 8 1) (i .checked true 8 0)) .divByZero ∧
    Panics (NumOps.div (i .checked true 8 1).release (i .checked true 8 0).release) .divByZero := ⟨.of_eq rfl, .of_eq rfl⟩

/-! There are functions, some of them panicking, that meet the hypothesis on crate `cordic`. -/

example : ∃ (_ : Cordic .checked 32 16) (_ : Cordic .wrapping 32 16), CordicAlike 32 16 := by
  let g : (m : Mode) → Cordic m 32 16 := fun m =>
    { sin := fun x => NumOps.mul x x, cos := fun x => NumOps.add x x, sinCos := fun x => pure (x, x), asin := pure
      acos := fun x => MixedNumSigned.neg x, atan := pure, atan2 := fun y x => NumOps.sub y x, exp := fun x => NumOps.mul x x }
  refine ⟨g _, g _, @CordicAlike.mk _ _ (g _) (g _) ?_ ?_ ?_ ?_ ?_ ?_ ?_ ?_⟩
  · exact fun x => endsAlike_fit _
  · exact fun x => endsAlike_fit _
  · exact fun x => .inr ⟨_, rfl, rfl⟩
  · exact fun x => .inr ⟨_, rfl, rfl⟩
  · exact fun x => endsAlike_fit _
  · exact fun x => .inr ⟨_, rfl, rfl⟩
  · exact fun y x => endsAlike_fit _
  · exact fun x => endsAlike_fit _


end MixedNum
