import Verif.Lemmas.RealParts
import Verif.Props.ExactFloat
import Verif.Props.AddSub
import Verif.Lemmas.Run
import Verif.Lemmas.Case
/-!
# C140 — A real operand is a complex operand with imaginary part zero

True of `+`, `-` and `*` on every type (on floats up to the sign of zeros, for finite operands). False of `/`: the divisor's imaginary
part is read from its real part, so `z / (t, 0)` is not `z / t`.
-/

namespace MixedNum
open Cartesian
variable {m : Mode} {s s' : Bool} {W W' F : ℕ} {f : Format}

/-- C140, integers: `z + t`, `z - t`, `z * t` for an integer `t` of any type. -/
theorem C140_int_partial (z : Cartesian (PInt m s W)) (t : PInt m s' W') :
    SameOutcome (z.addScalar t) (do let x ← Conv.fromNum t; z.add ⟨x, MixedZero.zero⟩) ∧
    SameOutcome (z.subScalar t) (do let x ← Conv.fromNum t; z.sub ⟨x, MixedZero.zero⟩) ∧
    SameOutcome (z.mulScalar t) (do let x ← Conv.fromNum t; z.mul ⟨x, MixedZero.zero⟩) :=
  ⟨.of_eq (PInt.zeroLaws.addScalar z t), .of_eq (PInt.zeroLaws.subScalar z t), .of_eq (PInt.zeroLaws.mulScalar z t)⟩

/-- C140, fixed point with a scalar that is an integer of any type. -/
theorem C140_fixed_partial (z : Cartesian (Fixed m s W F)) (t : PInt m s' W') :
    SameOutcome (z.addScalar t) (do let x ← Conv.fromNum t; z.add ⟨x, MixedZero.zero⟩) ∧
    SameOutcome (z.subScalar t) (do let x ← Conv.fromNum t; z.sub ⟨x, MixedZero.zero⟩) ∧
    SameOutcome (z.mulScalar t) (do let x ← Conv.fromNum t; z.mul ⟨x, MixedZero.zero⟩) :=
  ⟨.of_eq (Fixed.zeroLaws.addScalar z t), .of_eq (Fixed.zeroLaws.subScalar z t), .of_eq (Fixed.zeroLaws.mulScalar z t)⟩

/-- C140, integers and fixed point with a scalar that is a float. -/
theorem C140_float_scalar_partial (z : Cartesian (PInt m s W)) (w : Cartesian (Fixed m s W F)) (t : Flt f) :
    (SameOutcome (z.addScalar t) (do let x ← Conv.fromNum t; z.add ⟨x, MixedZero.zero⟩) ∧
    SameOutcome (z.subScalar t) (do let x ← Conv.fromNum t; z.sub ⟨x, MixedZero.zero⟩) ∧
    SameOutcome (z.mulScalar t) (do let x ← Conv.fromNum t; z.mul ⟨x, MixedZero.zero⟩)) ∧
    SameOutcome (w.addScalar t) (do let x ← Conv.fromNum t; w.add ⟨x, MixedZero.zero⟩) ∧
    SameOutcome (w.subScalar t) (do let x ← Conv.fromNum t; w.sub ⟨x, MixedZero.zero⟩) ∧
    SameOutcome (w.mulScalar t) (do let x ← Conv.fromNum t; w.mul ⟨x, MixedZero.zero⟩) :=
  ⟨⟨.of_eq (PInt.zeroLaws.addScalar z t), .of_eq (PInt.zeroLaws.subScalar z t), .of_eq (PInt.zeroLaws.mulScalar z t)⟩,
    .of_eq (Fixed.zeroLaws.addScalar w t), .of_eq (Fixed.zeroLaws.subScalar w t), .of_eq (Fixed.zeroLaws.mulScalar w t)⟩

/-- C140, exact reals. -/
theorem C140_real_partial (z : Cartesian ℝ) (t : ℝ) :
    SameOutcome (z.addScalar t) (z.add ⟨t, 0⟩) ∧ SameOutcome (z.subScalar t) (z.sub ⟨t, 0⟩) ∧
    SameOutcome (z.mulScalar t) (z.mul ⟨t, 0⟩) :=
  ⟨.of_eq (real_zeroLaws.addScalar z t), .of_eq (real_zeroLaws.subScalar z t), .of_eq (real_zeroLaws.mulScalar z t)⟩

/-- C140, two real numbers: sums, differences and products of complex numbers with imaginary part zero are those of their real parts,
with imaginary part zero, and fail when those fail. -/
theorem C140_subring (a b : PInt m s W) (c d : Fixed m s W F) (x y : ℝ) :
    (SameOutcome (Cartesian.add ⟨a, MixedZero.zero⟩ ⟨b, MixedZero.zero⟩) (do pure ⟨← NumOps.add a b, MixedZero.zero⟩) ∧
    SameOutcome (Cartesian.sub ⟨a, MixedZero.zero⟩ ⟨b, MixedZero.zero⟩) (do pure ⟨← NumOps.sub a b, MixedZero.zero⟩) ∧
    SameOutcome (Cartesian.mul ⟨a, MixedZero.zero⟩ ⟨b, MixedZero.zero⟩) (do pure ⟨← NumOps.mul a b, MixedZero.zero⟩)) ∧
    (SameOutcome (Cartesian.add ⟨c, MixedZero.zero⟩ ⟨d, MixedZero.zero⟩) (do pure ⟨← NumOps.add c d, MixedZero.zero⟩) ∧
    SameOutcome (Cartesian.sub ⟨c, MixedZero.zero⟩ ⟨d, MixedZero.zero⟩) (do pure ⟨← NumOps.sub c d, MixedZero.zero⟩) ∧
    SameOutcome (Cartesian.mul ⟨c, MixedZero.zero⟩ ⟨d, MixedZero.zero⟩) (do pure ⟨← NumOps.mul c d, MixedZero.zero⟩)) ∧
    Returns (Cartesian.add ⟨x, 0⟩ ⟨y, 0⟩) ⟨x + y, 0⟩ ∧ Returns (Cartesian.sub ⟨x, 0⟩ ⟨y, 0⟩) ⟨x - y, 0⟩ ∧
    Returns (Cartesian.mul ⟨x, 0⟩ ⟨y, 0⟩) ⟨x * y, 0⟩ :=
  ⟨⟨.of_eq (PInt.zeroLaws.add a b), .of_eq (PInt.zeroLaws.sub a b), .of_eq (PInt.zeroLaws.mul a b)⟩,
    ⟨.of_eq (Fixed.zeroLaws.add c d), .of_eq (Fixed.zeroLaws.sub c d), .of_eq (Fixed.zeroLaws.mul c d)⟩,
    .of_eq (real_zeroLaws.add x y), .of_eq (real_zeroLaws.sub x y), .of_eq (real_zeroLaws.mul x y)⟩

/-- C140, floats with a float or an integer as scalar: the parts agree up to the sign of zeros, if `z` is finite. (An infinite part times
the zero is a NaN.) -/
theorem C140_float_partial {α : Type} [Conv α (Flt f)] (hf : f.Wide) (z : Cartesian (Flt f)) (t : α) (x : Flt f)
    (ht : Returns (Conv.fromNum t) x) (h1 : z.re.IsFinite) (h2 : z.im.Valid ∧ z.im.IsFinite) :
    (∃ a a' : Cartesian (Flt f), Returns (z.addScalar t) a ∧ Returns (z.add ⟨x, MixedZero.zero⟩) a' ∧ a.re = a'.re ∧ a.im.Same a'.im) ∧
    (∃ a a' : Cartesian (Flt f), Returns (z.subScalar t) a ∧ Returns (z.sub ⟨x, MixedZero.zero⟩) a' ∧ a.re = a'.re ∧ a.im.Same a'.im) ∧
    ∃ a a' : Cartesian (Flt f), Returns (z.mulScalar t) a ∧ Returns (z.mul ⟨x, MixedZero.zero⟩) a' ∧ a.re.Same a'.re ∧ a.im.Same a'.im := by
  obtain ⟨u, v⟩ := z
  obtain ⟨s, m, rfl⟩ := h1
  obtain ⟨hv, t, n, rfl⟩ := h2
  have hz : ∀ (u : Bool) (k : ℚ), ∃ w, (Flt.fin u k : Flt f).mul (.fin false 0) = .fin w 0 := by
    intro u k
    refine ⟨xor u false, ?_⟩
    show Flt.ofExact _ (_ * _) = _
    rw [show (Flt.fin false 0 : Flt f).val = 0 from rfl, MulZeroClass.mul_zero]; simp [Flt.ofExact]
  obtain ⟨w1, e1⟩ := hz t n
  obtain ⟨w2, e2⟩ := hz s m
  refine ⟨⟨⟨(Flt.fin s m).add x, .fin t n⟩, _, ?_, .of_eq rfl, rfl, (add_zero_same hf false hv).1.symm⟩,
    ⟨⟨(Flt.fin s m).sub x, .fin t n⟩, _, ?_, .of_eq rfl, rfl, (add_zero_same hf true hv).1.symm⟩,
    ⟨⟨(Flt.fin s m).mul x, (Flt.fin t n).mul x⟩, _, ?_, .of_eq rfl, ?_, ?_⟩⟩
  · unfold Cartesian.addScalar; exact ht.bind (.of_eq rfl)
  · unfold Cartesian.subScalar; exact ht.bind (.of_eq rfl)
  · unfold Cartesian.mulScalar; exact ht.bind (Returns.bind (.of_eq rfl) (ht.bind (.of_eq rfl)))
  · dsimp only
    rw [show (MixedZero.zero : Flt f) = .fin false 0 from rfl, e1]
    exact (add_zero_same hf (!w1) (mul_valid hf _ _)).1.symm
  · dsimp only
    rw [show (MixedZero.zero : Flt f) = .fin false 0 from rfl, e2]
    exact (add_zero_same hf w2 (mul_valid hf _ _)).2.symm

example := C140_float_partial (f := F32) Flt.wide_F32 ⟨.fin false 3, .fin true 1⟩ (i .checked true 8 0) (.fin false 0) (.of_eq (by kernel_rfl)) ⟨_, _, rfl⟩
  ⟨by is_float 1 0, _, _, rfl⟩

/-- C140 is false of division: `4 / 2` is `2` with a real divisor, and `1 - i` with the complex divisor `2 + 0 i`. -/
theorem C140_div_counterexample :
    Returns (Cartesian.divScalar (⟨i m true 32 4, MixedZero.zero⟩ : Cartesian (PInt m true 32)) (i m true 32 2)) ⟨i m true 32 2, MixedZero.zero⟩ ∧
    Returns (Cartesian.div (⟨i m true 32 4, MixedZero.zero⟩ : Cartesian (PInt m true 32)) ⟨i m true 32 2, MixedZero.zero⟩)
      ⟨i m true 32 1, i m true 32 (-1)⟩ := by
  cases m <;> exact ⟨.of_eq rfl, .of_eq rfl⟩

/-! ## Concrete cases -/

/-- `(3 + 4i) * 2` on `i32`, with the scalar an `i64`. -/
example : Returns (Cartesian.mulScalar (⟨i m true 32 3, i m true 32 4⟩ : Cartesian (PInt m true 32)) (i m true 64 2))
    ⟨i m true 32 6, i m true 32 8⟩ := by
  cases m <;> exact .of_eq rfl

/-- `(100 + i) * 2` on `i8` panics with either operand in a debug build. -/
example : Panics (Cartesian.mulScalar (⟨i .checked true 8 100, i .checked true 8 1⟩ : Cartesian (PInt .checked true 8)) (i .checked true 8 2)) .overflow ∧
    Panics (Cartesian.mul (⟨i .checked true 8 100, i .checked true 8 1⟩ : Cartesian (PInt .checked true 8)) ⟨i .checked true 8 2, MixedZero.zero⟩)
      .overflow :=
  ⟨⟨0, fun _ _ => rfl⟩, ⟨0, fun _ _ => rfl⟩⟩

/-- The hypotheses of the float theorem are met by `1 - 0 i` and the integer scalar 3; adding `0` turns the `-0` into `0`. -/
example : Returns (Conv.fromNum (i m true 32 3) : Prog (Flt F32)) (.fin false 3) ∧ (Flt.fin true 0 : Flt F32).Valid ∧
    (Flt.fin true 0 : Flt F32).add (.fin false 0) = .fin false 0 := by
  refine ⟨.of_eq (congrArg pure ?_), Flt.is_zero.valid, ?_⟩
  · cases m <;> decide +kernel
  · decide +kernel

end MixedNum
