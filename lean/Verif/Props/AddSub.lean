import Verif.Lemmas.Outcome
import Verif.Lemmas.Real
import Verif.Lemmas.Float
import Verif.Spec.Complex
import Verif.Lemmas.Run
/-! # C01, C05, C06: complex addition, subtraction and their assigning forms -/

namespace MixedNum
variable {m : Mode} {s : Bool} {W F : ℕ}

/-! ## C01 -/

/-- C01, integers: `a + b`. -/
theorem C01_add_int (hW : 0 < W) (a b : Cartesian (PInt m s W)) :
    PairOutcome (fun c : PInt m s W => c.val) m s W (a.re.val + b.re.val) (a.im.val + b.im.val) (a.add b) :=
  PInt.pairOutcome hW _ _

/-- C01, integers: `a - b`. -/
theorem C01_sub_int (hW : 0 < W) (a b : Cartesian (PInt m s W)) :
    PairOutcome (fun c : PInt m s W => c.val) m s W (a.re.val - b.re.val) (a.im.val - b.im.val) (a.sub b) :=
  PInt.pairOutcome hW _ _

/-- C01, fixed point: `a + b`. Bit patterns add exactly, so the numbers `val / 2^F` do. -/
theorem C01_add_fixed (hW : 0 < W) (a b : Cartesian (Fixed m s W F)) :
    PairOutcome (fun c : Fixed m s W F => c.val) m s W (a.re.val + b.re.val) (a.im.val + b.im.val) (a.add b) :=
  Fixed.pairOutcome hW _ _

/-- C01, fixed point: `a - b`. -/
theorem C01_sub_fixed (hW : 0 < W) (a b : Cartesian (Fixed m s W F)) :
    PairOutcome (fun c : Fixed m s W F => c.val) m s W (a.re.val - b.re.val) (a.im.val - b.im.val) (a.sub b) :=
  Fixed.pairOutcome hW _ _

/-- C01: the free functions are the operators, for every component type. -/
theorem C01_free_functions {α : Type} [NumOps α] (a b : Cartesian α) :
    ops.add a b = a.add b ∧ ops.sub a b = a.sub b := ⟨rfl, rfl⟩

/-- A small signed or unsigned integer literal for examples. -/
def i (m : Mode) (s : Bool) (W : ℕ) (n : ℤ) (h : Fits s W n := by decide) : PInt m s W := PInt.mkv n h
/-- A fixed-point number given by its bit pattern, for examples. -/
def fx (m : Mode) (s : Bool) (W F : ℕ) (n : ℤ) (h : Fits s W n := by decide) : Fixed m s W F := Fixed.mkv n h

/-- Both cases of C01 occur: 100 + 27 fits an `i8`, 100 + 28 does not. -/
example : InRange true 8 (100 + 27) ∧ ¬ InRange true 8 (100 + 28) := by decide
example : Cartesian.add ⟨i .checked true 8 100, i .checked true 8 (-100)⟩ ⟨i .checked true 8 27, i .checked true 8 (-28)⟩
    = pure ⟨i .checked true 8 127, i .checked true 8 (-128)⟩ := by rfl
example : Cartesian.add ⟨i .checked true 8 100, i .checked true 8 0⟩ ⟨i .checked true 8 28, i .checked true 8 0⟩
    = Prog.fail .overflow := by rfl

/-! ## C05: `+=`

Full statement (false of the code): `∀ z w, z.addAssign w = z.add w`. -/

/-- C05 fails: (1+2i) += (3+4i) leaves 4+8i in an `i8` variable; `+` gives 4+6i. -/
theorem C05_counterexample :
    ∃ z w : Cartesian (PInt .checked true 8), ∃ r r', Returns (z.add w) r ∧ Returns (z.addAssign w) r' ∧
      r.im.val = 6 ∧ r'.im.val = 8 :=
  ⟨⟨i _ _ _ 1, i _ _ _ 2⟩, ⟨i _ _ _ 3, i _ _ _ 4⟩, ⟨i _ _ _ 4, i _ _ _ 6⟩, ⟨i _ _ _ 4, i _ _ _ 8⟩,
    .of_eq rfl, .of_eq rfl, rfl, rfl⟩

/-- C05 fails for `f32` too. -/
theorem C05_counterexample_f32 : ∃ z w : Cartesian (Flt F32), z.addAssign w ≠ z.add w := by
  refine ⟨⟨.fin false 1, .fin false 2⟩, ⟨.fin false 3, .fin false 4⟩, ?_⟩
  intro h
  have h0 := congrFun h 0
  have : (Flt.add (Flt.add (.fin false 1) (.fin false 3)) (.fin false 4) : Flt F32) = Flt.add (.fin false 2) (.fin false 4) := by
    simpa [Cartesian.addAssign, Cartesian.add] using h0
  revert this
  decide +kernel

/-- What `+=` does, for every component type: the imaginary part becomes (new real part) + rhs.im, and the old
imaginary part is never read. -/
theorem C05_ignores_imaginary_part {α : Type} [NumOps α] (re im im' : α) (w : Cartesian α) :
    Cartesian.addAssign ⟨re, im⟩ w = Cartesian.addAssign ⟨re, im'⟩ w := rfl

/-- C05, partial: `+=` agrees with `+` when the imaginary part happens to equal the new real part.
Missing for the full property: all other operands, where `C05_exact` shows it is false. -/
theorem C05_partial {α : Type} [NumOps α] (z w : Cartesian α) (h : NumOps.add z.re w.re = pure z.im) :
    z.addAssign w = z.add w := by
  simp [Cartesian.addAssign, Cartesian.add, h]

example : NumOps.add (i .checked true 8 1) (i .checked true 8 3) = pure (i .checked true 8 4) := by rfl

/-- C05, partial: the real part is always the right one, for every component type. -/
theorem C05_real_part_partial {α : Type} [NumOps α] (z w r r' : Cartesian α)
    (h : Returns (z.add w) r) (h' : Returns (z.addAssign w) r') : r.re = r'.re := by
  obtain ⟨n, h1, h2⟩ := h.common h'
  obtain ⟨a, ha, h1⟩ := Prog.bind_ok_inv h1
  obtain ⟨b, _, h1⟩ := Prog.bind_ok_inv h1
  obtain ⟨a', ha', h2⟩ := Prog.bind_ok_inv h2
  obtain ⟨b', _, h2⟩ := Prog.bind_ok_inv h2
  rw [ha] at ha'
  simp only [Prog.pure_apply, Out.ok.injEq] at ha' h1 h2
  rw [← h1, ← h2, ← ha']

example := C05_real_part_partial (⟨i .checked true 8 1, i .checked true 8 2⟩ : Cartesian (PInt .checked true 8))
  ⟨i .checked true 8 3, i .checked true 8 5⟩ ⟨i .checked true 8 4, i .checked true 8 7⟩ ⟨i .checked true 8 4, i .checked true 8 9⟩
  (by run 0) (by run 0)

/-- C05, exact reals: `+=` is right exactly when `z.im` equals the sum of the real parts. -/
theorem C05_exact (z w : Cartesian ℝ) : z.addAssign w = z.add w ↔ z.im = z.re + w.re := by
  simp only [Cartesian.addAssign, Cartesian.add, RealI.add_def, pure_bind]
  constructor
  · intro h; have := Prog.pure_inj h; simp at this; linarith
  · intro h; rw [h]

/-- C05, exact, integers without overflow checks. -/
theorem C05_exact_wrapping (hW : 0 < W) (z w : Cartesian (PInt .wrapping s W)) :
    z.addAssign w = z.add w ↔ z.im.val ≡ z.re.val + w.re.val [ZMOD 2 ^ W] := by
  simp only [Cartesian.addAssign, Cartesian.add, PInt.add_def, PInt.fit_wrapping, pure_bind, PInt.mkv_val]
  constructor
  · intro h
    have := Prog.pure_inj h
    simp only [Cartesian.mk.injEq, true_and] at this
    have h2 := congrArg (fun x : PInt .wrapping s W => x.val) this
    simp only [PInt.mkv_val] at h2
    have h3 := (wrapInt_modEq (s := s) hW (wrapInt s W (z.re.val + w.re.val) + w.im.val)).symm
    rw [h2] at h3
    replace h3 := h3.trans (wrapInt_modEq (s := s) hW (z.im.val + w.im.val))
    have h4 := Int.ModEq.add_right_cancel' _ h3
    exact (h4.symm.trans (wrapInt_modEq hW _))
  · intro h
    congr 2; ext; simp only [PInt.mkv_val]
    exact wrapInt_congr hW (((wrapInt_modEq hW _).trans h.symm).add_right _)

/-! ## C06: `-=`

Full statement (false of the code): `∀ z w, z.subAssign w = z.sub w`. -/

/-- C06 fails: (5+9i) -= (3+4i) leaves 2-2i in an `i8` variable; `-` gives 2+5i. -/
theorem C06_counterexample :
    ∃ z w : Cartesian (PInt .checked true 8), ∃ r r', Returns (z.sub w) r ∧ Returns (z.subAssign w) r' ∧
      r.im.val = 5 ∧ r'.im.val = -2 :=
  ⟨⟨i _ _ _ 5, i _ _ _ 9⟩, ⟨i _ _ _ 3, i _ _ _ 4⟩, ⟨i _ _ _ 2, i _ _ _ 5⟩, ⟨i _ _ _ 2, i _ _ _ (-2)⟩,
    .of_eq rfl, .of_eq rfl, rfl, rfl⟩

/-- C06 fails on the type's own inverse: `z -= z` does not give zero. -/
theorem C06_self_not_zero : ∃ z : Cartesian ℝ, ∃ r, Returns (z.subAssign z) r ∧ r.toC ≠ 0 := by
  refine ⟨⟨1, 2⟩, ⟨0, -2⟩, .of_eq ?_, ?_⟩
  · simp [Cartesian.subAssign]
  · intro h; have := congrArg Complex.im h; simp [Cartesian.toC] at this

theorem C06_ignores_imaginary_part {α : Type} [NumOps α] (re im im' : α) (w : Cartesian α) :
    Cartesian.subAssign ⟨re, im⟩ w = Cartesian.subAssign ⟨re, im'⟩ w := rfl

/-- C06, partial: `-=` agrees with `-` when the imaginary part happens to equal the new real part.
Missing for the full property: all other operands, where `C06_exact` shows it is false. -/
theorem C06_partial {α : Type} [NumOps α] (z w : Cartesian α) (h : NumOps.sub z.re w.re = pure z.im) :
    z.subAssign w = z.sub w := by
  simp [Cartesian.subAssign, Cartesian.sub, h]

example : NumOps.sub (i .checked true 8 1) (i .checked true 8 3) = pure (i .checked true 8 (-2)) := by rfl

/-- C06, exact reals: `-=` is right exactly when `z.im` equals the difference of the real parts. -/
theorem C06_exact (z w : Cartesian ℝ) : z.subAssign w = z.sub w ↔ z.im = z.re - w.re := by
  simp only [Cartesian.subAssign, Cartesian.sub, RealI.sub_def, pure_bind]
  constructor
  · intro h; have := Prog.pure_inj h; simp at this; linarith
  · intro h; rw [h]

end MixedNum
