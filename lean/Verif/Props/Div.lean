import Verif.Lemmas.Extremes
import Mathlib.Tactic.FieldSimp
import Verif.Props.AddSub
import Verif.Lemmas.Run
/-! # C07, C08, C11, C12, C13, C63: complex and scalar division, `num::Complex` operands -/

namespace MixedNum
variable {m : Mode} {s : Bool} {W F : ℕ}

/-! ## C07: complex division

Full statement (false of the code):
`∀ z w, w.toC ≠ 0 → ∃ q, Returns (z.div w) q ∧ q.toC * w.toC = z.toC`. -/

/-- C07 fails already for 1/1: the code returns (1-i)/2. -/
theorem C07_counterexample : ∃ z w q : Cartesian ℝ, w.toC ≠ 0 ∧ Returns (z.div w) q ∧ q.toC * w.toC ≠ z.toC := by
  refine ⟨⟨1, 0⟩, ⟨1, 0⟩, ⟨1/2, -1/2⟩, ?_, .of_eq ?_, ?_⟩
  · intro h; have := congrArg Complex.re h; simp [Cartesian.toC] at this
  · have : (1:ℝ) + 1 ≠ 0 := by norm_num
    simp [Cartesian.div, this]; norm_num
  · intro h; have := congrArg Complex.im h; simp [Cartesian.toC] at this

/-- C07 fails: dividing by the non-zero number i is a division by zero. -/
theorem C07_panics_on_imaginary_divisor (z : Cartesian ℝ) (t : ℝ) :
    Panics (z.div ⟨0, t⟩) .divByZero := by
  refine .of_eq ?_
  simp [Cartesian.div]

/-- C07 fails for signed 8-bit integers: (4+4i)/(2+0i) gives 2+0i instead of 2+2i. -/
theorem C07_counterexample_int : ∃ z w q : Cartesian (PInt .checked true 8), Returns (z.div w) q ∧
    z.re.val = 4 ∧ z.im.val = 4 ∧ w.re.val = 2 ∧ w.im.val = 0 ∧ q.re.val = 2 ∧ q.im.val = 0 :=
  ⟨⟨i _ _ _ 4, i _ _ _ 4⟩, ⟨i _ _ _ 2, i _ _ _ 0⟩, ⟨i _ _ _ 2, i _ _ _ 0⟩, .of_eq rfl, rfl, rfl, rfl, rfl, rfl, rfl⟩

/-- The divisor's imaginary part is never read, for every component type. -/
theorem C07_ignores_imaginary_part {α : Type} [NumOps α] [MixedPowi α] (z : Cartesian α) (re im im' : α) :
    z.div ⟨re, im⟩ = z.div ⟨re, im'⟩ := rfl

/-- What the code computes: division by c + ci, where c is the divisor's real part. -/
theorem C07_actual (z w : Cartesian ℝ) (h : w.re ≠ 0) :
    ∃ q, Returns (z.div w) q ∧ q.toC * ⟨w.re, w.re⟩ = z.toC := by
  have h2 : w.re ^ 2 + w.re ^ 2 ≠ 0 := by positivity
  refine ⟨⟨(z.re * w.re + z.im * w.re) / (w.re ^ 2 + w.re ^ 2), (z.im * w.re - z.re * w.re) / (w.re ^ 2 + w.re ^ 2)⟩,
    .of_eq ?_, ?_⟩
  · simp [Cartesian.div, h2]
  · apply Complex.ext
    · simp only [Cartesian.toC, Complex.mul_re]; field_simp; ring
    · simp only [Cartesian.toC, Complex.mul_im]; field_simp; ring

example := C07_actual ⟨1, 2⟩ ⟨3, 4⟩ (by norm_num)

/-- C07, partial: division inverts multiplication when the divisor has equal, non-zero parts.
Missing: every other divisor, where `C07_exact` shows the property is false (unless z = 0). -/
theorem C07_partial (z w : Cartesian ℝ) (h : w.re ≠ 0) (h' : w.im = w.re) :
    ∃ q, Returns (z.div w) q ∧ q.toC * w.toC = z.toC := by
  obtain ⟨q, hq, e⟩ := C07_actual z w h
  refine ⟨q, hq, ?_⟩
  rw [← e]; simp only [Cartesian.toC, h']

example : ∃ w : Cartesian ℝ, w.re ≠ 0 ∧ w.im = w.re := ⟨⟨2, 2⟩, by norm_num, rfl⟩

/-- C07, exactly: a returned quotient is right iff the divisor's parts are equal or the dividend is zero. -/
theorem C07_exact (z w q : Cartesian ℝ) (h : w.re ≠ 0) (hq : Returns (z.div w) q) :
    q.toC * w.toC = z.toC ↔ (w.im = w.re ∨ z.toC = 0) := by
  obtain ⟨q', hq', e⟩ := C07_actual z w h
  obtain rfl := hq.unique hq'
  have hc : (⟨w.re, w.re⟩ : ℂ) ≠ 0 := by
    intro hc; exact h (congrArg Complex.re hc)
  constructor
  · intro hw
    by_cases hz : z.toC = 0
    · exact .inr hz
    · left
      have hq0 : q.toC ≠ 0 := by intro h0; rw [h0, zero_mul] at e; exact hz e.symm
      have := mul_left_cancel₀ hq0 (hw.trans e.symm)
      exact congrArg Complex.im this
  · rintro (hw | hz)
    · rw [← e]; simp only [Cartesian.toC, hw]
    · have hq0 : q.toC = 0 := by
        rw [hz] at e; exact (mul_eq_zero.mp e).resolve_right hc
      rw [hq0, hz, zero_mul]

/-- The hypotheses hold of `(1+2i) / (3+3i)`, which returns `1/2 + (1/6)i`. -/
example := C07_exact ⟨1, 2⟩ ⟨3, 3⟩ ⟨1 / 2, 1 / 6⟩ (by norm_num) (.of_eq (by simp [Cartesian.div]; norm_num))

/-! ## C08 -/

/-- C08: all division entry points have the same outcome, for every component type. -/
theorem C08_division_entry_points {α : Type} [NumOps α] [MixedPowi α] (z w : Cartesian α) :
    z.divAssign w = z.div w ∧ ops.divCartesian z w = z.div w ∧
    z.divNC ⟨w.re, w.im⟩ = z.div w ∧ z.divAssignNC ⟨w.re, w.im⟩ = z.div w := ⟨rfl, rfl, rfl, rfl⟩

/-! ## C63 -/

/-- C63: `num::Complex` right operands behave like `Cartesian` ones, for every component type. -/
theorem C63_num_complex {α : Type} [NumOps α] [MixedPowi α] (z : Cartesian α) (re im : α) :
    z.addNC ⟨re, im⟩ = z.add ⟨re, im⟩ ∧ z.addAssignNC ⟨re, im⟩ = z.addAssign ⟨re, im⟩ ∧
    z.subNC ⟨re, im⟩ = z.sub ⟨re, im⟩ ∧ z.subAssignNC ⟨re, im⟩ = z.subAssign ⟨re, im⟩ ∧
    z.divNC ⟨re, im⟩ = z.div ⟨re, im⟩ ∧ z.divAssignNC ⟨re, im⟩ = z.divAssign ⟨re, im⟩ :=
  ⟨rfl, rfl, rfl, rfl, rfl, rfl⟩

/-- C63, exact reals: adding and subtracting a `num::Complex` is complex addition and subtraction. -/
theorem C63_real (z : Cartesian ℝ) (w : NumComplex ℝ) :
    (∃ c, Returns (z.addNC w) c ∧ c.toC = z.toC + w.toC) ∧ (∃ c, Returns (z.subNC w) c ∧ c.toC = z.toC - w.toC) := by
  refine ⟨⟨⟨z.re + w.re, z.im + w.im⟩, .of_eq (by simp [Cartesian.addNC]), ?_⟩,
    ⟨⟨z.re - w.re, z.im - w.im⟩, .of_eq (by simp [Cartesian.subNC]), ?_⟩⟩ <;>
  apply Complex.ext <;> simp [Cartesian.toC, NumComplex.toC]

/-! ## C11 -/

/-- C11, integers divided by an integer zero of any type: both parts become the maximum. -/
theorem C11_int_zero {s' : Bool} {W' : ℕ} (z : Cartesian (PInt m s W)) (r : PInt m s' W') (h : r.val = 0) :
    ∃ c, Returns (z.divScalar r) c ∧ c.re.val = greatest s W ∧ c.im.val = greatest s W := by
  simp only [greatest_eq]
  refine ⟨_, .of_eq (by simp only [Cartesian.divScalar, PInt.beq_def, PInt.zero_val, h, decide_true, if_true]; rfl), rfl, rfl⟩

example := C11_int_zero (⟨i .checked true 8 5, i .checked true 8 (-7)⟩ : Cartesian (PInt .checked true 8)) (i .checked false 16 0) rfl

/-- C11, integers divided by a float zero (+0 or -0). -/
theorem C11_int_float_zero {f : Format} (z : Cartesian (PInt m s W)) (sg : Bool) :
    ∃ c, Returns (z.divScalar (.fin sg 0 : Flt f)) c ∧ c.re.val = greatest s W ∧ c.im.val = greatest s W := by
  simp only [greatest_eq]
  have h : (Flt.fin sg 0 : Flt f).beq (.fin false 0) = true := by cases sg <;> simp [Flt.beq, Flt.val]
  refine ⟨_, .of_eq (by simp only [Cartesian.divScalar, Flt.beq_def, Flt.zero_def, h, if_true]; rfl), rfl, rfl⟩

/-- C11, fixed point divided by an integer or float zero. -/
theorem C11_fixed_zero {f : Format} {s' : Bool} {W' : ℕ} (z : Cartesian (Fixed m s W F)) (r : PInt m s' W')
    (h : r.val = 0) (sg : Bool) :
    (∃ c, Returns (z.divScalar r) c ∧ c.re.val = greatest s W ∧ c.im.val = greatest s W) ∧
    (∃ c, Returns (z.divScalar (.fin sg 0 : Flt f)) c ∧ c.re.val = greatest s W ∧ c.im.val = greatest s W) := by
  simp only [greatest_eq]
  have h' : (Flt.fin sg 0 : Flt f).beq (.fin false 0) = true := by cases sg <;> simp [Flt.beq, Flt.val]
  constructor
  · refine ⟨_, .of_eq (by simp only [Cartesian.divScalar, PInt.beq_def, PInt.zero_val, h, decide_true, if_true]; rfl), rfl, rfl⟩
  · refine ⟨_, .of_eq (by simp only [Cartesian.divScalar, Flt.beq_def, Flt.zero_def, h', if_true]; rfl), rfl, rfl⟩

example := C11_fixed_zero (f := F32) (⟨fx .checked true 8 4 5, fx .checked true 8 4 (-7)⟩ : Cartesian (Fixed .checked true 8 4)) (i .checked false 16 0) rfl true

/-- C11, floats divided by a float zero: both parts become the largest finite float (not an infinity). -/
theorem C11_float_zero {f g : Format} (z : Cartesian (Flt f)) (sg : Bool) :
    Returns (z.divScalar (.fin sg 0 : Flt g))
      ⟨.fin false (2 ^ f.emax - pow2 (f.emax - f.p)), .fin false (2 ^ f.emax - pow2 (f.emax - f.p))⟩ := by
  have h' : (Flt.fin sg 0 : Flt g).beq (.fin false 0) = true := by cases sg <;> simp [Flt.beq, Flt.val]
  refine .of_eq ?_
  simp only [Cartesian.divScalar, Flt.beq_def, Flt.zero_def, h', if_true]; rfl

/-- C11, every component type: a non-zero scalar (by the scalar type's `==`) divides both parts. -/
theorem C11_nonzero {α β : Type} [MixedCmp α] [MixedZero α] [NumOps β] [MixedReal β] [Conv α β]
    (z : Cartesian β) (r : α) (t : β) (h : MixedCmp.beq r MixedZero.zero = false) (ht : Conv.fromNum r = pure t) :
    z.divScalar r = (do let re ← NumOps.div z.re t; let im ← NumOps.div z.im t; pure ⟨re, im⟩) := by
  simp [Cartesian.divScalar, h, ht]

example := C11_nonzero (⟨i .checked true 8 5, i .checked true 8 (-7)⟩ : Cartesian (PInt .checked true 8)) (i .checked true 16 3) (i .checked true 8 3) rfl rfl

/-- C11: the free function `div_scalar_cartesian` saturates in the same way on every signed or unsigned integer. -/
theorem C11_free_function_int (z : Cartesian (PInt m s W)) (r : PInt m s W) :
    ops.divScalarCartesian z r = z.divScalar r := by
  have h0 : wrapInt s W 0 = 0 := wrapInt_of_fits (fits_zero s W)
  have hr : (Conv.fromNum r : Prog (PInt m s W)) = pure r := by
    show pure _ = _; congr 1; ext; exact wrapInt_of_fits r.fits
  by_cases h : r.val = 0
  · simp [ops.divScalarCartesian, Cartesian.divScalar, h, h0]
  · simp [ops.divScalarCartesian, Cartesian.divScalar, h, h0, hr]

/-- C11, exact reals: division by a non-zero real is complex division. -/
theorem C11_real (z : Cartesian ℝ) (r : ℝ) (h : r ≠ 0) : ∃ c, Returns (z.divScalar r) c ∧ c.toC = z.toC / r := by
  refine ⟨⟨z.re / r, z.im / r⟩, .of_eq (by simp [Cartesian.divScalar, h]), ?_⟩
  apply Complex.ext <;> simp [Cartesian.toC]

example : Cartesian.divScalar ⟨i .checked true 8 3, i .checked true 8 (-4)⟩ (i .checked true 8 0)
    = pure ⟨i .checked true 8 127, i .checked true 8 127⟩ := by rfl
example : Cartesian.divScalar ⟨i .checked true 8 7, i .checked true 8 (-4)⟩ (i .checked true 8 2)
    = pure ⟨i .checked true 8 3, i .checked true 8 (-2)⟩ := by rfl

/-! ## C12: `/=` by a scalar

Full statement (false of the code): `∀ z r, z.divAssignScalar r = z.divScalar r`. -/

/-- C12 fails at zero: `z / 0` saturates but `z /= 0` panics, for every integer type and every z. -/
theorem C12_counterexample_int {s' : Bool} {W' : ℕ} (z : Cartesian (PInt m s W)) (r : PInt m s' W') (h : r.val = 0) :
    (∃ c, Returns (z.divScalar r) c) ∧ Panics (z.divAssignScalar r) .divByZero := by
  constructor
  · obtain ⟨c, hc, _⟩ := C11_int_zero z r h; exact ⟨c, hc⟩
  · refine .of_eq ?_
    have ht : (Conv.fromNum r : Prog (PInt m s W)) = pure (PInt.mkv 0 (fits_zero s W)) := by
      show pure _ = _; congr 1; ext; show wrapInt s W r.val = 0; rw [h]; exact wrapInt_of_fits (fits_zero s W)
    simp only [Cartesian.divAssignScalar, ht, pure_bind, PInt.div_def, PInt.mkv_val, if_true, Prog.fail_bind, PInt.beq_def,
      PInt.zero_val, h, decide_true]
    rfl

/-- C12 fails at zero for floats: `/=` leaves infinity, `/` the largest finite value. -/
theorem C12_counterexample_f64 :
    ∃ z c c' : Cartesian (Flt F64), Returns (z.divScalar (.fin false 0 : Flt F64)) c ∧
      Returns (z.divAssignScalar (.fin false 0 : Flt F64)) c' ∧ c'.re = .inf false ∧ c.re ≠ .inf false := by
  refine ⟨⟨.fin false 1, .fin false 1⟩, _, ⟨.inf false, .inf false⟩, C11_float_zero _ false, .of_eq ?_, rfl, by simp⟩
  have h' : (Flt.fin false 0 : Flt F64).beq (.fin false 0) = true := by decide +kernel
  have hc : (Conv.fromNum (Flt.fin false 0 : Flt F64) : Prog (Flt F64)) = pure (.fin false 0) := by
    show pure _ = _; congr 1
  have hne : (2:ℚ) ^ 1024 - pow2 (1024 - 53) ≠ 0 := by decide +kernel
  simp only [Cartesian.divAssignScalar, Flt.beq_def, Flt.zero_def, h', if_true, hc, pure_bind, Flt.div_def]
  have hm : (MixedReal.maxValue : Prog (Flt F64)) = pure (.fin false (2 ^ 1024 - pow2 (1024 - 53))) := rfl
  simp only [hm, pure_bind, Flt.div, if_true, if_neg hne, Bool.xor_self]

/-- C12, partial: for a non-zero scalar `/=` and `/` have the same outcome, for every component type.
Missing: scalar zero, where it is false. -/
theorem C12_partial {α β : Type} [MixedCmp α] [MixedZero α] [NumOps β] [MixedReal β] [Conv α β]
    (z : Cartesian β) (r : α) (h : MixedCmp.beq r MixedZero.zero = false) :
    z.divAssignScalar r = z.divScalar r := by
  simp [Cartesian.divAssignScalar, Cartesian.divScalar, h]

example : MixedCmp.beq (i .checked true 8 2) MixedZero.zero = false := by rfl

/-! ## C13 -/

/-- C13, integers: `z / r` panics with division by zero exactly when `r` is not zero but converts to zero. -/
theorem C13_div_by_zero_iff {α : Type} [MixedCmp α] [MixedZero α] [Conv α (PInt m s W)]
    (z : Cartesian (PInt m s W)) (r : α) (t : PInt m s W) (ht : Conv.fromNum r = pure t) :
    Panics (z.divScalar r) .divByZero ↔ (MixedCmp.beq r MixedZero.zero = false ∧ t.val = 0) := by
  cases h : MixedCmp.beq r MixedZero.zero with
  | true =>
    have : z.divScalar r = pure ⟨PInt.mkv (whi s W - 1) (by have := wlo_lt_whi s W; constructor <;> omega),
        PInt.mkv (whi s W - 1) (by have := wlo_lt_whi s W; constructor <;> omega)⟩ := by
      simp only [Cartesian.divScalar, h, if_true]; rfl
    rw [this]; simp
  | false =>
    rw [C11_nonzero z r t h ht]
    by_cases h0 : t.val = 0
    · simp [PInt.div_def, h0]
    · simp only [PInt.div_def, h0, if_false, true_and, iff_false]
      by_cases h1 : Fits s W (z.re.val.tdiv t.val)
      · by_cases h2 : Fits s W (z.im.val.tdiv t.val)
        · simp [h1, h2]
        · simp only [dif_pos h1, dif_neg h2, pure_bind, Prog.fail_bind, panics_fail]; decide
      · simp only [dif_neg h1, Prog.fail_bind, panics_fail]; decide

example := (C13_div_by_zero_iff (⟨i .checked true 8 5, i .checked true 8 (-7)⟩ : Cartesian (PInt .checked true 8)) (i .checked true 16 256) (i .checked true 8 0)
  rfl).mpr ⟨rfl, rfl⟩

/-- C13 with a float scalar: division by zero exactly for a NaN or a non-zero number that truncates to 0
(or is negative, for unsigned components). -/
theorem C13_float {f : Format} (z : Cartesian (PInt m s W)) (r : Flt f) :
    Panics (z.divScalar r) .divByZero ↔ (r.beq (.fin false 0) = false ∧ (Flt.toWord r : Word s W).val = 0) :=
  C13_div_by_zero_iff z r ⟨Flt.toWord r⟩ rfl

/-- C13: dividing an `i32` Cartesian by 0.5 panics with division by zero, for every z. -/
theorem C13_half (z : Cartesian (PInt m true 32)) : Panics (z.divScalar (.fin false (1/2) : Flt F64)) .divByZero := by
  rw [C13_float]; constructor <;> decide +kernel

/-- C13: with a scalar of the component type itself, the only panic is the overflow of MIN / -1. -/
theorem C13_other_panic (z : Cartesian (PInt m s W)) (t : PInt m s W) (e : Panic)
    (h : Panics (z.divScalar t) e) :
    e = .overflow ∧ t.val = -1 ∧ (z.re.val = least s W ∨ z.im.val = least s W) := by
  simp only [least_eq]
  have hr : (Conv.fromNum t : Prog (PInt m s W)) = pure t := by
    show pure _ = _; congr 1; ext; exact wrapInt_of_fits t.fits
  have key : ∀ a : PInt m s W, t.val ≠ 0 → ¬ Fits s W (a.val.tdiv t.val) → t.val = -1 ∧ a.val = wlo s W := by
    intro a h0 hf
    have ha := a.fits
    by_cases h1 : t.val = -1
    · refine ⟨h1, ?_⟩
      rw [h1] at hf
      have h3 : a.val.tdiv (-1) = -a.val := by rw [Int.tdiv_neg, Int.tdiv_one]
      rw [h3] at hf
      have ht := t.fits; rw [h1] at ht
      have := ht.1
      cases s with
      | false => simp [wlo] at this
      | true =>
        simp only [Fits, wlo, whi, if_true] at *
        omega
    · exfalso; apply hf
      by_cases ht1 : t.val = 1
      · rw [ht1, Int.tdiv_one]; exact ha
      · -- |t| ≥ 2 : the quotient lies between a and 0
        have hle : (a.val.tdiv t.val).natAbs ≤ a.val.natAbs / 2 := by
          rw [Int.natAbs_tdiv]
          exact Nat.div_le_div_left (by omega) (by omega)
        cases s with
        | false =>
          have ht := t.fits
          simp only [Fits, wlo, whi, Bool.false_eq_true, if_false] at ha ht ⊢
          have : 0 ≤ a.val.tdiv t.val := Int.tdiv_nonneg ha.1 ht.1
          omega
        | true =>
          simp only [Fits, wlo, whi, if_true] at ha ⊢
          have : (0:ℤ) < 2 ^ (W - 1) := by positivity
          omega
  by_cases h0 : t.val = 0
  · obtain ⟨c, hc, _⟩ := C11_int_zero z t h0
    exact absurd h hc.not_panics
  · have hb : MixedCmp.beq t MixedZero.zero = false := by simp [h0]
    rw [C11_nonzero z t t hb hr] at h
    simp only [PInt.div_def, h0, if_false] at h
    by_cases h1 : Fits s W (z.re.val.tdiv t.val)
    · by_cases h2 : Fits s W (z.im.val.tdiv t.val)
      · simp [h1, h2] at h
      · simp only [dif_pos h1, dif_neg h2, pure_bind, Prog.fail_bind, panics_fail] at h
        obtain ⟨k1, k2⟩ := key _ h0 h2
        exact ⟨h.symm, k1, .inr k2⟩
    · simp only [dif_neg h1, Prog.fail_bind, panics_fail] at h
      obtain ⟨k1, k2⟩ := key _ h0 h1
      exact ⟨h.symm, k1, .inl k2⟩

example : Cartesian.divScalar ⟨i .checked true 8 (-128), i .checked true 8 0⟩ (i .checked true 8 (-1))
    = Prog.fail .overflow := by rfl
/-- A scalar that wraps to zero on conversion: 256 as i8. -/
example : Panics (Cartesian.divScalar ⟨i .checked true 8 3, i .checked true 8 0⟩ (i .checked true 16 256)) .divByZero :=
  .of_eq rfl

end MixedNum
