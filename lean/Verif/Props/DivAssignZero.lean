import Verif.Props.Div
import Verif.Lemmas.FloatSqrtTable
/-! # C12, continued: what `/=` does with a zero scalar on fixed point and on floats -/

namespace MixedNum
open Flt
variable {m : Mode} {s s' : Bool} {W W' F : ℕ} {f g : Format}

/-- C12 fails at zero on fixed point: `/=` by an integer or float zero panics for every `z`, while `/` gives the largest number twice (C11). -/
theorem C12_counterexample_fixed (z : Cartesian (Fixed m s W F)) (r : PInt m s' W') (h : r.val = 0) (sg : Bool) :
    Panics (z.divAssignScalar r) .divByZero ∧ Panics (z.divAssignScalar (.fin sg 0 : Flt f)) .divByZero ∧
    ∃ c : Fixed m s W F, Returns MixedReal.maxValue c ∧ Returns (z.divScalar r) ⟨c, c⟩ ∧
      Returns (z.divScalar (.fin sg 0 : Flt f)) ⟨c, c⟩ := by
  have h0 : Fits s W 0 := fits_zero s W
  have c1 : (Conv.fromNum r : Prog (Fixed m s W F)) = pure (Fixed.mkv 0 h0) := by
    show Fixed.fit (r.val * 2 ^ F) = _
    rw [h, zero_mul]; exact Fixed.fit_of_fits h0
  have hr : roundHalfEven 0 = 0 := by decide +kernel
  have c2 : (Conv.fromNum (.fin sg 0 : Flt f) : Prog (Fixed m s W F)) = pure (Fixed.mkv 0 h0) := by
    show Fixed.fit (roundHalfEven ((Flt.fin sg 0 : Flt f).val * 2 ^ F)) = _
    rw [show (Flt.fin sg 0 : Flt f).val = 0 by cases sg <;> simp [Flt.val], zero_mul, hr]; exact Fixed.fit_of_fits h0
  have hm : ∃ x : Fixed m s W F, (MixedReal.maxValue : Prog (Fixed m s W F)) = pure x := ⟨_, rfl⟩
  obtain ⟨x, hx⟩ := hm
  have hb : (Flt.fin sg 0 : Flt f).beq (.fin false 0) = true := by cases sg <;> simp [Flt.beq, Flt.val]
  refine ⟨?_, ?_, x, .of_eq hx, ?_, ?_⟩
  · refine .of_eq ?_
    simp only [Cartesian.divAssignScalar, c1, hx, pure_bind, PInt.beq_def, PInt.zero_val, h, decide_true, if_true, Fixed.div_def,
      Fixed.mkv_val, Prog.fail_bind]
  · refine .of_eq ?_
    simp only [Cartesian.divAssignScalar, c2, hx, pure_bind, Flt.beq_def, Flt.zero_def, hb, if_true, Fixed.div_def,
      Fixed.mkv_val, Prog.fail_bind]
  · refine .of_eq ?_
    simp only [Cartesian.divScalar, hx, pure_bind, PInt.beq_def, PInt.zero_val, h, decide_true, if_true]
  · refine .of_eq ?_
    simp only [Cartesian.divScalar, hx, pure_bind, Flt.beq_def, Flt.zero_def, hb, if_true]

/-- C12 fails at zero on floats: `/=` by a zero leaves infinities with the sign of the zero, whatever `z` was (even NaN), where `/` gives the
largest finite value (C11). -/
theorem C12_counterexample_float (hf : f.Wide) (z : Cartesian (Flt f)) (sg : Bool) (r : PInt m s' W') (h : r.val = 0) :
    Returns (z.divAssignScalar (.fin sg 0 : Flt g)) ⟨.inf sg, .inf sg⟩ ∧
    Returns (z.divAssignScalar r) ⟨.inf false, .inf false⟩ ∧
    ∃ (q : ℚ) (c : Flt f), c = .fin false q ∧ Returns MixedReal.maxValue c ∧ Returns (z.divScalar (.fin sg 0 : Flt g)) ⟨c, c⟩ ∧
      Returns (z.divScalar r) ⟨c, c⟩ := by
  have hb : (Flt.fin sg 0 : Flt g).beq (.fin false 0) = true := by cases sg <;> simp [Flt.beq, Flt.val]
  have hne : (2:ℚ) ^ f.emax - pow2 (f.emax - f.p) ≠ 0 := by
    have h1 := hf.1
    rw [pow2_eq, ← zpow_natCast]
    have : (2:ℚ) ^ ((f.emax:ℤ) - f.p) < 2 ^ (f.emax : ℤ) := zpow_lt_zpow_right₀ (by norm_num) (by omega)
    exact (sub_pos.mpr this).ne'
  have hm : (MixedReal.maxValue : Prog (Flt f)) = pure (.fin false (2 ^ f.emax - pow2 (f.emax - f.p))) := rfl
  refine ⟨?_, ?_, _, _, rfl, .of_eq hm, ?_, ?_⟩
  · have hc : (Conv.fromNum (Flt.fin sg 0 : Flt g) : Prog (Flt f)) = pure (.fin sg 0) := by
      show pure _ = _; congr 1
      show Flt.ofExact sg _ = _
      rw [show (Flt.fin sg 0 : Flt g).val = 0 by cases sg <;> simp [Flt.val]]
      simp [Flt.ofExact]
    refine .of_eq ?_
    simp only [Cartesian.divAssignScalar, Flt.beq_def, Flt.zero_def, hb, if_true, hc, pure_bind, Flt.div_def, hm, Flt.div,
      if_neg hne, Bool.false_xor]
  · have hc : (Conv.fromNum r : Prog (Flt f)) = pure (.fin false 0) := by
      show pure _ = _; congr 1
      rw [h]; simp [Flt.ofExact]
    refine .of_eq ?_
    simp only [Cartesian.divAssignScalar, PInt.beq_def, PInt.zero_val, h, decide_true, if_true, hc, pure_bind, Flt.div_def, hm, Flt.div,
      if_neg hne, Bool.xor_self]
  · refine .of_eq ?_
    simp only [Cartesian.divScalar, hm, pure_bind, Flt.beq_def, Flt.zero_def, hb, if_true]
  · refine .of_eq ?_
    simp only [Cartesian.divScalar, hm, pure_bind, PInt.beq_def, PInt.zero_val, h, decide_true, if_true]

example (z : Cartesian (Flt F32)) : Returns (z.divAssignScalar (.fin true 0 : Flt F64)) ⟨.inf true, .inf true⟩ :=
  (C12_counterexample_float wide_F32 z true (i .checked true 8 0) rfl).1
example (z : Cartesian (Fixed .wrapping true 16 8)) : Panics (z.divAssignScalar (i .wrapping true 8 0)) .divByZero :=
  (C12_counterexample_fixed (f := F32) z _ rfl false).1

end MixedNum
