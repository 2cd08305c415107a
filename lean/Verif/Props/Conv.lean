import Verif.Props.Ints
import Verif.Props.Div
import Verif.Props.AddSub
import Verif.Lemmas.Run
/-! # C54–C57: conversions, zero and one -/

namespace MixedNum
variable {m : Mode} {s s' : Bool} {W W' F : ℕ}

/-! ## C54 -/

/-- C54: converting between integer types keeps representable values. -/
theorem C54_exact (x : PInt m s' W') (h : InRange s W x.val) :
    ∃ y : PInt m s W, Returns (Conv.fromNum x) y ∧ y.val = x.val :=
  ⟨_, .of_eq rfl, wrapInt_of_fits (inRange_iff.mp h)⟩

example := C54_exact (m := .checked) (s := false) (W := 8) (i .checked true 16 200) (by decide)

/-- C54: otherwise the value is reduced modulo 2^W; nothing panics. -/
theorem C54_reduces (hW : 0 < W) (x : PInt m s' W') :
    ∃ y : PInt m s W, Returns (Conv.fromNum x) y ∧ IsReduction s W x.val y.val :=
  ⟨_, .of_eq rfl, isReduction_wrapInt hW _⟩

/-- C54: `mixed_to_num` is `mixed_from_num` of the other type. -/
theorem C54_to_num (x : PInt m s' W') :
    (Conv.toNum x : Prog (PInt m s W)) = (Conv.fromNum x : Prog (PInt m s W)) := rfl

/-- C54: to a type that can represent the value and back is the identity. -/
theorem C54_round_trip (x : PInt m s' W') (h : InRange s W x.val) :
    Returns (do let y ← (Conv.fromNum x : Prog (PInt m s W)); Conv.fromNum y) x ∧
    Returns (do let y ← (Conv.fromNum x : Prog (PInt m s W)); Conv.toNum y) x := by
  have e : ∀ y : PInt m s W, y.val = x.val → (Conv.fromNum y : Prog (PInt m s' W')) = pure x := by
    intro y hy
    show pure _ = _; congr 1; ext
    show wrapInt s' W' y.val = x.val
    rw [hy]; exact wrapInt_of_fits x.fits
  obtain ⟨y, hy, ey⟩ := C54_exact (s := s) (W := W) x h
  exact ⟨hy.bind (.of_eq (e y ey)), hy.bind (.of_eq (e y ey))⟩

example := C54_round_trip (m := .checked) (s := false) (W := 8) (i .checked true 16 200) (by decide)

/-- C54: a wider type of the same signedness represents every value. -/
theorem C54_widening (h : W' ≤ W) (x : PInt m s W') : InRange s W x.val := by
  rw [inRange_iff]
  have := x.fits
  have h1 : (2:ℤ) ^ (W' - 1) ≤ 2 ^ (W - 1) := pow_le_pow_right₀ (by norm_num) (by omega)
  have h2 : (2:ℤ) ^ W' ≤ 2 ^ W := pow_le_pow_right₀ (by norm_num) h
  cases s <;> simp only [Fits, wlo, whi, if_true, Bool.false_eq_true, if_false] at * <;> omega

example : InRange true 16 (i .checked false 8 200).val ∧ ¬ InRange true 8 (i .checked false 8 200).val := by decide
example : (Conv.fromNum (i .checked false 8 200) : Prog (PInt .checked true 8)) = pure (i .checked true 8 (-56)) := by rfl

/-! ## C55 -/

/-- C55: an integer becomes the fixed-point number with that value, or a reported overflow. -/
theorem C55_from_int (hW : 0 < W) (x : PInt m s' W') :
    Outcome (fun a : Fixed m s W F => a.val) m s W (x.val * 2 ^ F) (Conv.fromNum x) := Fixed.outcome hW _

/-- C55: fixed point to integer rounds toward minus infinity: the result n satisfies n ≤ x < n + 1. -/
theorem C55_to_int (x : Fixed m s W F) (y : PInt m s' W') (hm : m = .checked)
    (h : Returns (Conv.toNum x : Prog (PInt m s' W')) y) :
    (y.val : ℚ) ≤ x.toRat ∧ x.toRat < y.val + 1 := by
  subst hm
  have h : Returns (PInt.fit (x.val / 2 ^ F) : Prog (PInt .checked s' W')) y := h
  have hy : y.val = x.val / 2 ^ F := by
    by_cases hf : Fits s' W' (x.val / 2 ^ F)
    · rw [PInt.fit_of_fits hf] at h; rw [returns_pure] at h; rw [← h]; rfl
    · rw [PInt.fit_checked hf] at h; exact absurd h returns_fail
  have hp : (0:ℤ) < 2 ^ F := by positivity
  have hq : (0:ℚ) < 2 ^ F := by positivity
  have h1 := Int.ediv_mul_le x.val hp.ne'
  have h2 := Int.lt_ediv_add_one_mul_self x.val hp
  rw [← hy] at h1 h2
  unfold Fixed.toRat
  constructor
  · rw [le_div_iff₀ hq]; exact_mod_cast h1
  · rw [div_lt_iff₀ hq]; exact_mod_cast h2

example := C55_to_int (fx .checked true 16 4 (-33)) (i .checked true 8 (-3)) rfl (by run 0)

/-- C55: what `to_num` does when the floor does not fit the integer type. -/
theorem C55_to_int_outcome (hW : 0 < W') (x : Fixed m s W F) :
    Outcome (fun a : PInt m s' W' => a.val) m s' W' (x.val / 2 ^ F) (Conv.toNum x) := PInt.outcome hW _

/-- C55: an integer that fits survives the round trip. -/
theorem C55_round_trip (x : PInt m s' W') (h : InRange s W (x.val * 2 ^ F)) :
    Returns (do let y ← (Conv.fromNum x : Prog (Fixed m s W F)); Conv.toNum y) x := by
  have h' := inRange_iff.mp h
  have e : (Conv.fromNum x : Prog (Fixed m s W F)) = pure (Fixed.mkv _ h') := Fixed.fit_of_fits h'
  rw [e, pure_bind]
  refine .of_eq ?_
  show PInt.fit (x.val * 2 ^ F / 2 ^ F) = _
  have hd : x.val * 2 ^ F / 2 ^ F = x.val := Int.mul_ediv_cancel _ (by positivity)
  have hf : Fits s' W' (x.val * 2 ^ F / 2 ^ F) := by rw [hd]; exact x.fits
  rw [PInt.fit_of_fits hf]; congr 1; ext; exact hd

example : InRange true 8 ((i .checked true 32 (-3)).val * 2 ^ 4) ∧ ¬ InRange true 8 ((i .checked true 32 8).val * 2 ^ 4) := by
  decide
example : (Conv.toNum (fx .checked true 8 4 (-17)) : Prog (PInt .checked true 32)) = pure (i .checked true 32 (-2)) := by rfl

/-! ## C56 -/

/-- C56: Cartesian to Cartesian converts part by part, in both directions, for every pair of component types. -/
theorem C56_componentwise {α β : Type} [Conv α β] (z : Cartesian α) (w : Cartesian β) (a b : β) (c d : α)
    (ha : Conv.fromNum z.re = pure a) (hb : Conv.fromNum z.im = pure b)
    (hc : Conv.toNum w.re = pure c) (hd : Conv.toNum w.im = pure d) :
    Returns (Conv.fromNum z : Prog (Cartesian β)) ⟨a, b⟩ ∧ Returns (Conv.toNum w : Prog (Cartesian α)) ⟨c, d⟩ := by
  constructor
  · refine .of_eq ?_
    show (do let x ← Conv.fromNum z.re; let y ← Conv.fromNum z.im; pure (⟨x, y⟩ : Cartesian β)) = _
    rw [ha, hb]; rfl
  · refine .of_eq ?_
    show (do let x ← Conv.toNum w.re; let y ← Conv.toNum w.im; pure (⟨x, y⟩ : Cartesian α)) = _
    rw [hc, hd]; rfl

example := C56_componentwise (⟨i .checked true 8 5, i .checked true 8 (-7)⟩ : Cartesian (PInt .checked true 8))
  (⟨i .checked true 16 5, i .checked true 16 (-7)⟩ : Cartesian (PInt .checked true 16)) (i .checked true 16 5) (i .checked true 16 (-7))
  (i .checked true 8 5) (i .checked true 8 (-7)) (by rfl) (by rfl) (by rfl) (by rfl)

/-- C56: a failing conversion of a part is the failure of the whole. -/
theorem C56_panics {α β : Type} [Conv α β] (z : Cartesian α) (e : Panic)
    (h : Panics (Conv.fromNum z.re : Prog β) e) : Panics (Conv.fromNum z : Prog (Cartesian β)) e := Panics.bind h

example := C56_panics (β := Fixed .checked true 8 4) (⟨i .checked true 8 100, i .checked true 8 0⟩ : Cartesian (PInt .checked true 8)) .overflow
  (.of_eq (by rfl))

/-- C56, floats: taking the real part and adding a zero imaginary part. -/
theorem C56_real_float {f : Format} {β : Type} [Conv β (Flt f)] [MixedZero β] (z : Cartesian β) (x : Flt f) (y : β)
    (hy : Conv.toNum x = pure y) :
    (Conv.fromNum z : Prog (Flt f)) = Conv.fromNum z.re ∧
    (Conv.toNum x : Prog (Cartesian β)) = pure ⟨y, MixedZero.zero⟩ ∧
    (do let c ← (Conv.toNum x : Prog (Cartesian β)); (Conv.fromNum c : Prog (Flt f))) = Conv.fromNum y := by
  have e : (Conv.toNum x : Prog (Cartesian β)) = pure ⟨y, MixedZero.zero⟩ := by
    show (do let a ← Conv.toNum x; pure (⟨a, MixedZero.zero⟩ : Cartesian β)) = _
    rw [hy]; rfl
  exact ⟨rfl, e, by rw [e]; rfl⟩

example := C56_real_float (f := F32) (⟨i .checked true 8 100, i .checked true 8 7⟩ : Cartesian (PInt .checked true 8)) (.fin false 3)
  (i .checked true 8 3) (by kernel_rfl)

/-- C56, fixed point: the same. -/
theorem C56_real_fixed {β : Type} [Conv β (Fixed m s W F)] [MixedZero β] (z : Cartesian β) (x : Fixed m s W F) (y : β)
    (hy : Conv.toNum x = pure y) :
    (Conv.fromNum z : Prog (Fixed m s W F)) = Conv.fromNum z.re ∧
    (Conv.toNum x : Prog (Cartesian β)) = pure ⟨y, MixedZero.zero⟩ ∧
    (do let c ← (Conv.toNum x : Prog (Cartesian β)); (Conv.fromNum c : Prog (Fixed m s W F))) = Conv.fromNum y := by
  have e : (Conv.toNum x : Prog (Cartesian β)) = pure ⟨y, MixedZero.zero⟩ := by
    show (do let a ← Conv.toNum x; pure (⟨a, MixedZero.zero⟩ : Cartesian β)) = _
    rw [hy]; rfl
  exact ⟨rfl, e, by rw [e]; rfl⟩

example := C56_real_fixed (⟨i .checked true 8 5, i .checked true 8 7⟩ : Cartesian (PInt .checked true 8)) (fx .checked true 8 4 33)
  (i .checked true 8 2) (by kernel_rfl)

/-- C56: `mixed_to_complex` keeps the real and has zero imaginary part (polar: zero angle). -/
theorem C56_to_complex {α : Type} [MixedZero α] (x : α) :
    Cartesian.mixedToComplex x = ⟨x, MixedZero.zero⟩ ∧ Polar.mixedToComplex x = ⟨x, MixedZero.zero⟩ := ⟨rfl, rfl⟩

/-- C56: a real converted to polar form has angle zero, and back gives the converted magnitude. -/
theorem C56_polar {α β : Type} [MixedZero β] [Conv α β] (x : α) (p : Polar β) (y : β) (hy : Conv.fromNum x = pure y) :
    (Conv.fromNum x : Prog (Polar β)) = pure ⟨y, MixedZero.zero⟩ ∧ (Conv.toNum p : Prog α) = Conv.toNum p.mag := by
  refine ⟨?_, rfl⟩
  show (do let a ← Conv.fromNum x; pure (⟨a, MixedZero.zero⟩ : Polar β)) = _
  rw [hy]; rfl

example : (Conv.fromNum (⟨i .checked true 32 3, i .checked true 32 (-4)⟩ : Cartesian (PInt .checked true 32)) :
    Prog (Cartesian (PInt .checked true 8))) = pure ⟨i .checked true 8 3, i .checked true 8 (-4)⟩ := by rfl

/-! ## C57 -/

theorem PInt.fit_self (x : PInt m s W) : (PInt.fit x.val : Prog (PInt m s W)) = pure x := by
  rw [PInt.fit_of_fits x.fits]; rfl
theorem Fixed.fit_self (x : Fixed m s W F) : (Fixed.fit x.val : Prog (Fixed m s W F)) = pure x := by
  rw [Fixed.fit_of_fits x.fits]; rfl

theorem PInt.one_def (hW : 2 ≤ W) : (MixedOne.one : Prog (PInt m s W)) = pure (PInt.mkv 1 (fits_one hW)) := by
  show pure _ = _; congr 1; ext; exact wrapInt_of_fits (fits_one hW)
theorem Fixed.one_def (h : F + 2 ≤ W) : (MixedOne.one : Prog (Fixed m s W F)) = pure (Fixed.mkv _ (fits_scale h)) :=
  Fixed.fit_of_fits _

theorem PInt.fit_zero : (PInt.fit 0 : Prog (PInt m s W)) = pure (PInt.mkv 0 (fits_zero s W)) := PInt.fit_of_fits _
theorem Fixed.fit_zero : (Fixed.fit 0 : Prog (Fixed m s W F)) = pure (Fixed.mkv 0 (fits_zero s W)) := Fixed.fit_of_fits _

/-- C57, integers. -/
theorem C57_int (hW : 2 ≤ W) (x : PInt m s W) :
    NumOps.add x MixedZero.zero = pure x ∧ NumOps.add MixedZero.zero x = pure x ∧
    (do let o ← MixedOne.one; NumOps.mul x o) = pure x ∧ (do let o ← MixedOne.one; NumOps.mul o x) = pure x := by
  simp [PInt.one_def hW, PInt.fit_self]

/-- C57, fixed point of every supported type. -/
theorem C57_fixed (h : F + 2 ≤ W) (x : Fixed m s W F) :
    NumOps.add x MixedZero.zero = pure x ∧ NumOps.add MixedZero.zero x = pure x ∧
    (do let o ← MixedOne.one; NumOps.mul x o) = pure x ∧ (do let o ← MixedOne.one; NumOps.mul o x) = pure x := by
  have hp : (2:ℤ) ^ F ≠ 0 := by positivity
  have e1 : x.val * (1 * 2 ^ F) / 2 ^ F = x.val := by rw [one_mul]; exact Int.mul_ediv_cancel _ hp
  have e2 : (1 * 2 ^ F) * x.val / 2 ^ F = x.val := by rw [mul_comm, e1]
  refine ⟨?_, ?_, ?_, ?_⟩
  · rw [Fixed.add_def, Fixed.zero_val, add_zero, Fixed.fit_self]
  · rw [Fixed.add_def, Fixed.zero_val, zero_add, Fixed.fit_self]
  · rw [Fixed.one_def h, pure_bind, Fixed.mul_def, Fixed.mkv_val, e1, Fixed.fit_self]
  · rw [Fixed.one_def h, pure_bind, Fixed.mul_def, Fixed.mkv_val, e2, Fixed.fit_self]

theorem Cartesian.zero_def {α : Type} [MixedZero α] :
    (MixedZero.zero : Cartesian α) = ⟨MixedZero.zero, MixedZero.zero⟩ := rfl
theorem Cartesian.one_def {α : Type} [MixedZero α] [MixedOne α] :
    (MixedOne.one : Prog (Cartesian α)) = (do pure ⟨← MixedOne.one, MixedZero.zero⟩) := rfl

/-- C57, Cartesian integers. -/
theorem C57_cartesian_int (hW : 2 ≤ W) (z : Cartesian (PInt m s W)) :
    z.add MixedZero.zero = pure z ∧ (do let o ← MixedOne.one; z.mul o) = pure z := by
  constructor
  · simp [Cartesian.add, Cartesian.zero_def, PInt.fit_self]
  · simp [Cartesian.one_def, PInt.one_def hW, Cartesian.mul, ops.mulCartesian, PInt.fit_self, PInt.fit_zero]

example := C57_cartesian_int (by norm_num) ⟨i .checked true 8 (-128), i .checked true 8 127⟩

/-- C57, Cartesian fixed point. -/
theorem C57_cartesian_fixed (h : F + 2 ≤ W) (z : Cartesian (Fixed m s W F)) :
    z.add MixedZero.zero = pure z ∧ (do let o ← MixedOne.one; z.mul o) = pure z := by
  have hp : (2:ℤ) ^ F ≠ 0 := by positivity
  have e1 : ∀ x : Fixed m s W F, x.val * (1 * 2 ^ F) / 2 ^ F = x.val := by
    intro x; rw [one_mul]; exact Int.mul_ediv_cancel _ hp
  constructor
  · simp [Cartesian.add, Cartesian.zero_def, Fixed.fit_self]
  · rw [Cartesian.one_def, Fixed.one_def h]
    simp only [pure_bind, Cartesian.mul, ops.mulCartesian, Fixed.mul_def, Fixed.mkv_val, e1, Fixed.zero_val, mul_zero,
      Int.zero_ediv, Fixed.fit_self, Fixed.fit_zero, Fixed.sub_def, Fixed.add_def, sub_zero, zero_add]

example := C57_cartesian_fixed (by norm_num) ⟨fx .checked true 8 4 (-128), fx .checked true 8 4 127⟩

/-- C57, exact reals. -/
theorem C57_real (z : Cartesian ℝ) :
    z.add MixedZero.zero = pure z ∧ (do let o ← MixedOne.one; z.mul o) = pure z := by
  constructor
  · simp [Cartesian.add, Cartesian.zero_def]
  · simp [Cartesian.one_def, Cartesian.mul, ops.mulCartesian]

end MixedNum
