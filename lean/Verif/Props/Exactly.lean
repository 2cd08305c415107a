import Verif.Lemmas.Extremes
import Verif.Props.Div
import Verif.Props.Mul
import Verif.Props.Polar
import Verif.Props.Conv
import Verif.Props.PolarFloat
import Verif.Props.AddSub
import Verif.Lemmas.Run
/-! # Exact conditions for C05, C06, C13, C14, C22, C56 and C87 -/

namespace MixedNum
variable {m : Mode} {s : Bool} {W F : ℕ}

/-! ## C05, C06: exactly when the assigning forms are right, on integers and fixed-point numbers -/

/-- The value a machine type stores, both for a result that fits and for one that is reduced. -/
private theorem PInt.ok_modEq {n : ℤ} {k : ℕ} {c : PInt m s W} (hW : 0 < W) (h : (PInt.fit n : Prog (PInt m s W)) k = .ok c) :
    c.val ≡ n [ZMOD 2 ^ W] := by
  cases m with
  | wrapping =>
    rw [PInt.fit_wrapping] at h
    obtain rfl : _ = c := by simpa using h
    exact wrapInt_modEq hW n
  | checked =>
    by_cases hf : Fits s W n
    · rw [PInt.fit_of_fits hf] at h
      obtain rfl : _ = c := by simpa using h
      exact Int.ModEq.refl _
    · rw [PInt.fit_checked hf] at h; simp at h

private theorem Fixed.ok_modEq {n : ℤ} {k : ℕ} {c : Fixed m s W F} (hW : 0 < W)
    (h : (Fixed.fit n : Prog (Fixed m s W F)) k = .ok c) : c.val ≡ n [ZMOD 2 ^ W] := by
  cases m with
  | wrapping =>
    rw [Fixed.fit_wrapping] at h
    obtain rfl : _ = c := by simpa using h
    exact wrapInt_modEq hW n
  | checked =>
    by_cases hf : Fits s W n
    · rw [Fixed.fit_of_fits hf] at h
      obtain rfl : _ = c := by simpa using h
      exact Int.ModEq.refl _
    · rw [Fixed.fit_checked hf] at h; simp at h

private theorem exact_add {x u y v a b b' M : ℤ} (ha : a ≡ x + u [ZMOD M]) (hb : b ≡ y + v [ZMOD M])
    (hb' : b' ≡ a + v [ZMOD M]) : b ≡ b' [ZMOD M] ↔ y ≡ x + u [ZMOD M] := by
  constructor
  · intro h
    exact (Int.ModEq.add_right_cancel' v ((hb.symm.trans h).trans hb')).trans ha
  · intro h
    exact hb.trans (((h.trans ha.symm).add_right v).trans hb'.symm)

private theorem exact_sub {x u y v a b b' M : ℤ} (ha : a ≡ x - u [ZMOD M]) (hb : b ≡ y - v [ZMOD M])
    (hb' : b' ≡ a - v [ZMOD M]) : b ≡ b' [ZMOD M] ↔ y ≡ x - u [ZMOD M] := by
  constructor
  · intro h
    have := ((hb.symm.trans h).trans hb').add_right v
    simp only [sub_add_cancel] at this
    exact this.trans ha
  · intro h
    exact hb.trans (((h.trans ha.symm).sub_right v).trans hb'.symm)

/-- C05, integers of every width, signedness and overflow mode: when both forms return, they return the same number
exactly when `z.im` is, in the machine's arithmetic, the sum of the real parts. -/
theorem C05_exact_int (hW : 0 < W) (z w r r' : Cartesian (PInt m s W))
    (h : Returns (z.add w) r) (h' : Returns (z.addAssign w) r') :
    r = r' ↔ z.im.val ≡ z.re.val + w.re.val [ZMOD 2 ^ W] := by
  have hre := C05_real_part_partial z w r r' h h'
  obtain ⟨n, h1, h2⟩ := h.common h'
  obtain ⟨a, ha, h1⟩ := Prog.bind_ok_inv h1
  obtain ⟨b, hb, h1⟩ := Prog.bind_ok_inv h1
  obtain ⟨a', ha', h2⟩ := Prog.bind_ok_inv h2
  obtain ⟨b', hb', h2⟩ := Prog.bind_ok_inv h2
  rw [PInt.add_def] at ha hb ha' hb'
  simp only [Prog.pure_apply, Out.ok.injEq] at h1 h2
  subst h1 h2
  obtain rfl : a = a' := hre
  rw [← exact_add (PInt.ok_modEq hW ha) (PInt.ok_modEq hW hb) (PInt.ok_modEq hW hb')]
  simp only [Cartesian.mk.injEq, true_and]
  exact ⟨fun e => e ▸ Int.ModEq.refl _, fun e => PInt.ext (eq_of_modEq_of_fits hW b.fits b'.fits e)⟩

example := (C05_exact_int (by decide) (⟨i .checked true 8 1, i .checked true 8 4⟩ : Cartesian (PInt .checked true 8)) ⟨i .checked true 8 3, i .checked true 8 5⟩
  ⟨i .checked true 8 4, i .checked true 8 9⟩ ⟨i .checked true 8 4, i .checked true 8 9⟩ (by run 0) (by run 0)).mp rfl

/-- C05, fixed-point numbers: the same. -/
theorem C05_exact_fixed (hW : 0 < W) (z w r r' : Cartesian (Fixed m s W F))
    (h : Returns (z.add w) r) (h' : Returns (z.addAssign w) r') :
    r = r' ↔ z.im.val ≡ z.re.val + w.re.val [ZMOD 2 ^ W] := by
  have hre := C05_real_part_partial z w r r' h h'
  obtain ⟨n, h1, h2⟩ := h.common h'
  obtain ⟨a, ha, h1⟩ := Prog.bind_ok_inv h1
  obtain ⟨b, hb, h1⟩ := Prog.bind_ok_inv h1
  obtain ⟨a', ha', h2⟩ := Prog.bind_ok_inv h2
  obtain ⟨b', hb', h2⟩ := Prog.bind_ok_inv h2
  rw [Fixed.add_def] at ha hb ha' hb'
  simp only [Prog.pure_apply, Out.ok.injEq] at h1 h2
  subst h1 h2
  obtain rfl : a = a' := hre
  rw [← exact_add (Fixed.ok_modEq hW ha) (Fixed.ok_modEq hW hb) (Fixed.ok_modEq hW hb')]
  simp only [Cartesian.mk.injEq, true_and]
  exact ⟨fun e => e ▸ Int.ModEq.refl _, fun e => Fixed.ext (eq_of_modEq_of_fits hW b.fits b'.fits e)⟩

example := C05_exact_fixed (by decide) (⟨fx .checked true 16 4 20, fx .checked true 16 4 30⟩ : Cartesian (Fixed .checked true 16 4))
  ⟨fx .checked true 16 4 30, fx .checked true 16 4 50⟩ ⟨fx .checked true 16 4 50, fx .checked true 16 4 80⟩ ⟨fx .checked true 16 4 50, fx .checked true 16 4 100⟩
  (by run 0) (by run 0)

/-- C06, partial: the real part is always the right one, for every component type.
Missing for the full property: the imaginary part, which is wrong outside the condition of `C06_exact_int`. -/
theorem C06_real_part_partial {α : Type} [NumOps α] (z w r r' : Cartesian α)
    (h : Returns (z.sub w) r) (h' : Returns (z.subAssign w) r') : r.re = r'.re := by
  obtain ⟨n, h1, h2⟩ := h.common h'
  obtain ⟨a, ha, h1⟩ := Prog.bind_ok_inv h1
  obtain ⟨b, _, h1⟩ := Prog.bind_ok_inv h1
  obtain ⟨a', ha', h2⟩ := Prog.bind_ok_inv h2
  obtain ⟨b', _, h2⟩ := Prog.bind_ok_inv h2
  rw [ha] at ha'
  simp only [Prog.pure_apply, Out.ok.injEq] at ha' h1 h2
  rw [← h1, ← h2, ← ha']

example := C06_real_part_partial (⟨i .checked true 8 1, i .checked true 8 2⟩ : Cartesian (PInt .checked true 8)) ⟨i .checked true 8 3, i .checked true 8 5⟩
  ⟨i .checked true 8 (-2), i .checked true 8 (-3)⟩ ⟨i .checked true 8 (-2), i .checked true 8 (-7)⟩ (by run 0) (by run 0)

/-- C06, integers: when both forms return, they agree exactly when `z.im` is the difference of the real parts. -/
theorem C06_exact_int (hW : 0 < W) (z w r r' : Cartesian (PInt m s W))
    (h : Returns (z.sub w) r) (h' : Returns (z.subAssign w) r') :
    r = r' ↔ z.im.val ≡ z.re.val - w.re.val [ZMOD 2 ^ W] := by
  have hre := C06_real_part_partial z w r r' h h'
  obtain ⟨n, h1, h2⟩ := h.common h'
  obtain ⟨a, ha, h1⟩ := Prog.bind_ok_inv h1
  obtain ⟨b, hb, h1⟩ := Prog.bind_ok_inv h1
  obtain ⟨a', ha', h2⟩ := Prog.bind_ok_inv h2
  obtain ⟨b', hb', h2⟩ := Prog.bind_ok_inv h2
  rw [PInt.sub_def] at ha hb ha' hb'
  simp only [Prog.pure_apply, Out.ok.injEq] at h1 h2
  subst h1 h2
  obtain rfl : a = a' := hre
  rw [← exact_sub (PInt.ok_modEq hW ha) (PInt.ok_modEq hW hb) (PInt.ok_modEq hW hb')]
  simp only [Cartesian.mk.injEq, true_and]
  exact ⟨fun e => e ▸ Int.ModEq.refl _, fun e => PInt.ext (eq_of_modEq_of_fits hW b.fits b'.fits e)⟩

example := C06_exact_int (by decide) (⟨i .checked true 8 1, i .checked true 8 2⟩ : Cartesian (PInt .checked true 8)) ⟨i .checked true 8 3, i .checked true 8 5⟩
  ⟨i .checked true 8 (-2), i .checked true 8 (-3)⟩ ⟨i .checked true 8 (-2), i .checked true 8 (-7)⟩ (by run 0) (by run 0)

/-- C06, fixed-point numbers: the same. -/
theorem C06_exact_fixed (hW : 0 < W) (z w r r' : Cartesian (Fixed m s W F))
    (h : Returns (z.sub w) r) (h' : Returns (z.subAssign w) r') :
    r = r' ↔ z.im.val ≡ z.re.val - w.re.val [ZMOD 2 ^ W] := by
  have hre := C06_real_part_partial z w r r' h h'
  obtain ⟨n, h1, h2⟩ := h.common h'
  obtain ⟨a, ha, h1⟩ := Prog.bind_ok_inv h1
  obtain ⟨b, hb, h1⟩ := Prog.bind_ok_inv h1
  obtain ⟨a', ha', h2⟩ := Prog.bind_ok_inv h2
  obtain ⟨b', hb', h2⟩ := Prog.bind_ok_inv h2
  rw [Fixed.sub_def] at ha hb ha' hb'
  simp only [Prog.pure_apply, Out.ok.injEq] at h1 h2
  subst h1 h2
  obtain rfl : a = a' := hre
  rw [← exact_sub (Fixed.ok_modEq hW ha) (Fixed.ok_modEq hW hb) (Fixed.ok_modEq hW hb')]
  simp only [Cartesian.mk.injEq, true_and]
  exact ⟨fun e => e ▸ Int.ModEq.refl _, fun e => Fixed.ext (eq_of_modEq_of_fits hW b.fits b'.fits e)⟩

example : Returns (Cartesian.sub ⟨i .checked true 8 5, i _ _ _ 2⟩ ⟨i _ _ _ 3, i _ _ _ 4⟩) ⟨i _ _ _ 2, i _ _ _ (-2)⟩ ∧
    Returns (Cartesian.subAssign ⟨i .checked true 8 5, i _ _ _ 2⟩ ⟨i _ _ _ 3, i _ _ _ 4⟩) ⟨i _ _ _ 2, i _ _ _ (-2)⟩ :=
  ⟨.of_eq rfl, .of_eq rfl⟩

/-! ## C13: the other panic, for a scalar of any type -/

/-- When a quotient of machine integers does not fit, it is MIN / -1. -/
private theorem quot_fits_iff (a t : PInt m s W) (h0 : t.val ≠ 0) :
    ¬ Fits s W (a.val.tdiv t.val) ↔ t.val = -1 ∧ a.val = wlo s W := by
  have ha := a.fits; have ht := t.fits
  constructor
  · intro hf
    by_cases h1 : t.val = -1
    · refine ⟨h1, ?_⟩
      rw [h1, Int.tdiv_neg, Int.tdiv_one] at hf
      rw [h1] at ht
      have := ht.1
      cases s with
      | false => simp [wlo] at this
      | true => simp only [Fits, wlo, whi, if_true] at *; omega
    · exfalso; apply hf
      by_cases ht1 : t.val = 1
      · rw [ht1, Int.tdiv_one]; exact ha
      · have hle : (a.val.tdiv t.val).natAbs ≤ a.val.natAbs / 2 := by
          rw [Int.natAbs_tdiv]
          exact Nat.div_le_div_left (by omega) (by omega)
        cases s with
        | false =>
          simp only [Fits, wlo, whi, Bool.false_eq_true, if_false] at ha ht ⊢
          have : 0 ≤ a.val.tdiv t.val := Int.tdiv_nonneg ha.1 ht.1
          omega
        | true =>
          simp only [Fits, wlo, whi, if_true] at ha ⊢
          have : (0:ℤ) < 2 ^ (W - 1) := by positivity
          omega
  · rintro ⟨h1, h2⟩ hf
    rw [h1, h2, Int.tdiv_neg, Int.tdiv_one] at hf
    rw [h1] at ht
    have h3 := ht.1
    cases s with
    | false => simp [wlo] at h3
    | true => simp only [Fits, wlo, whi, if_true] at *; omega

/-- C13, integers, a scalar of any type: `z / r` panics with an overflow exactly when `r` is not zero, converts to -1
and a part of `z` is the smallest value. Together with `C13_div_by_zero_iff` this says when division panics. -/
theorem C13_overflow_iff {α : Type} [MixedCmp α] [MixedZero α] [Conv α (PInt m s W)]
    (z : Cartesian (PInt m s W)) (r : α) (t : PInt m s W) (ht : Conv.fromNum r = pure t) :
    Panics (z.divScalar r) .overflow ↔
      (MixedCmp.beq r MixedZero.zero = false ∧ t.val = -1 ∧ (z.re.val = least s W ∨ z.im.val = least s W)) := by
  simp only [least_eq]
  cases h : MixedCmp.beq r MixedZero.zero with
  | true =>
    have : z.divScalar r = pure ⟨PInt.mkv (whi s W - 1) (by have := wlo_lt_whi s W; constructor <;> omega),
        PInt.mkv (whi s W - 1) (by have := wlo_lt_whi s W; constructor <;> omega)⟩ := by
      simp only [Cartesian.divScalar, h, if_true]; rfl
    rw [this]; simp
  | false =>
    rw [C11_nonzero z r t h ht]
    by_cases h0 : t.val = 0
    · simp [PInt.div_def, h0]
    · have k1 := quot_fits_iff z.re t h0
      have k2 := quot_fits_iff z.im t h0
      simp only [PInt.div_def, h0, if_false, true_and]
      by_cases h1 : Fits s W (z.re.val.tdiv t.val)
      · by_cases h2 : Fits s W (z.im.val.tdiv t.val)
        · simp only [dif_pos h1, dif_pos h2, pure_bind, panics_pure, false_iff]
          rintro ⟨e, e' | e'⟩
          · exact k1.mpr ⟨e, e'⟩ h1
          · exact k2.mpr ⟨e, e'⟩ h2
        · simp only [dif_pos h1, dif_neg h2, pure_bind, Prog.fail_bind, panics_fail, true_iff]
          exact ⟨(k2.mp h2).1, .inr (k2.mp h2).2⟩
      · simp only [dif_neg h1, Prog.fail_bind, panics_fail, true_iff]
        exact ⟨(k1.mp h1).1, .inl (k1.mp h1).2⟩

/-- C13: an `i8` Cartesian with a part at -128, divided by the float -1.5, overflows. -/
example : Panics (Cartesian.divScalar (⟨i .wrapping true 8 3, i _ _ _ (-128)⟩ : Cartesian (PInt .wrapping true 8))
    (.fin true (3/2) : Flt F64)) .overflow := by
  rw [C13_overflow_iff _ _ ⟨Flt.toWord (.fin true (3/2) : Flt F64)⟩ rfl]
  exact ⟨by decide +kernel, by decide +kernel, .inr rfl⟩

/-! ## C14: the conjugate at the smallest value -/

/-- C14, signed fixed point without overflow checks: the number whose imaginary part has no negative is its own
conjugate. -/
theorem C14_fixed_min (hW : 0 < W) (z : Cartesian (Fixed .wrapping true W F)) (h : z.im.val = -(2 ^ (W - 1))) :
    Returns z.conj z := by
  refine .of_eq ?_
  have e : wrapInt true W (- z.im.val) = z.im.val := by
    refine eq_of_modEq_of_fits hW (fits_wrapInt _ _ _) z.im.fits ((wrapInt_modEq hW _).trans ?_)
    rw [h, Int.modEq_iff_dvd]
    refine ⟨-1, ?_⟩
    obtain ⟨k, rfl⟩ : ∃ k, W = k + 1 := ⟨W - 1, by omega⟩
    simp only [Nat.add_sub_cancel, pow_succ]; ring
  simp only [Cartesian.conj, Cartesian.new, Fixed.neg_def, Fixed.fit_wrapping, pure_bind]
  congr 1
  cases z
  simp only [Cartesian.mk.injEq, true_and]
  exact Fixed.ext e

example : Returns (Cartesian.conj ⟨fx .wrapping true 8 4 7, fx _ _ _ _ (-128)⟩) ⟨fx .wrapping true 8 4 7, fx _ _ _ _ (-128)⟩ :=
  .of_eq rfl

/-! ## C22: polar division by a non-zero integer -/

/-- C22, integers: a non-zero divisor divides the magnitude, truncating toward zero, and keeps the angle; the only
panic is the overflow of MIN / -1, in either overflow mode. -/
theorem C22_int_nonzero (p : Polar (PInt m s W)) (t : PInt m s W) (h : t.val ≠ 0) :
    (¬ (t.val = -1 ∧ p.mag.val = least s W) →
      ∃ c, Returns (p.divScalar t) c ∧ c.mag.val = p.mag.val.tdiv t.val ∧ c.ang = p.ang) ∧
    (t.val = -1 ∧ p.mag.val = least s W → Panics (p.divScalar t) .overflow) := by
  simp only [least_eq]
  have k := quot_fits_iff p.mag t h
  have e : p.divScalar t = (do pure ⟨← NumOps.div p.mag t, p.ang⟩) := by
    simp [Polar.divScalar, h]
  rw [e]
  simp only [PInt.div_def, h, if_false]
  constructor
  · intro hn
    have hf := not_not.mp (mt k.mp hn)
    exact ⟨⟨PInt.mkv _ hf, p.ang⟩, .of_eq (by rw [dif_pos hf]; rfl), rfl, rfl⟩
  · intro hn
    rw [dif_neg (k.mpr hn)]; simp

example : Returns (Polar.divScalar ⟨i .checked true 8 100, i _ _ _ 3⟩ (i .checked true 8 (-7)))
    ⟨i _ _ _ (-14), i _ _ _ 3⟩ := .of_eq rfl

/-! ## C56: panics of component-wise conversions -/

/-- C56: a conversion of a Cartesian number panics with the panic of the imaginary part when the real part converts,
and the same holds in the other direction. -/
theorem C56_panics_all {α β : Type} [Conv α β] (z : Cartesian α) (w : Cartesian β) (a : β) (c : α) (e : Panic) :
    (Returns (Conv.fromNum z.re : Prog β) a → Panics (Conv.fromNum z.im : Prog β) e →
      Panics (Conv.fromNum z : Prog (Cartesian β)) e) ∧
    (Panics (Conv.toNum w.re : Prog α) e → Panics (Conv.toNum w : Prog (Cartesian α)) e) ∧
    (Returns (Conv.toNum w.re : Prog α) c → Panics (Conv.toNum w.im : Prog α) e →
      Panics (Conv.toNum w : Prog (Cartesian α)) e) :=
  ⟨fun h h' => h.bind_panics h'.bind, fun h => h.bind, fun h h' => h.bind_panics h'.bind⟩

/-! ## C87: the NaN angle -/

/-- C87, NaN angle: phase wrapping ends at once and the conversion does what sine and cosine of NaN do. -/
theorem C87_nan {f : Format} [MixedSinCos (Flt f)] (mag s c : Flt f) (h : Returns (MixedSinCos.sincos (Flt.nan : Flt f)) (s, c)) :
    Returns (ops.toCartesian (⟨mag, .nan⟩ : Polar (Flt f))) ⟨mag.mul c, mag.mul s⟩ :=
  C34_nan.bind (h.bind (.of_eq rfl))

end MixedNum
