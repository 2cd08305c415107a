import Verif.Lemmas.Extremes
import Verif.Props.Polar
import Verif.Props.Div
import Verif.Props.Mul
import Verif.Props.ComplexFloat
import Verif.Props.FloatConv
import Verif.Props.ConjFixed
import Verif.Props.DivExact
import Verif.Props.Misc
import Verif.Props.Order
import Verif.Props.AddSub
import Verif.Lemmas.Run
import Verif.Lemmas.Case
/-! # Further cases of C11, C14, C18, C19, C22, C64, C67, C82 and C113 -/

namespace MixedNum
variable {m : Mode} {s : Bool} {W F : ℕ} {f g : Format}
open Flt

/-! ## C11 -/

/-- C11, floats divided by an integer zero of any type: both parts become the largest finite float. -/
theorem C11_float_int_zero (z : Cartesian (Flt f)) (r : PInt m s W) (h : r.val = 0) :
    Returns (z.divScalar r)
      ⟨.fin false (2 ^ f.emax - pow2 (f.emax - f.p)), .fin false (2 ^ f.emax - pow2 (f.emax - f.p))⟩ := by
  refine .of_eq ?_
  simp only [Cartesian.divScalar, PInt.beq_def, PInt.zero_val, h, decide_true, if_true]; rfl

example := C11_float_int_zero (f := F32) ⟨.fin true 3, .nan⟩ (i .checked true 8 0) rfl

/-- C11: the free function `div_scalar_cartesian` divides fixed-point numbers like the operator does, zero included. -/
theorem C11_free_function_fixed (z : Cartesian (Fixed m s W F)) (r : Fixed m s W F) :
    (r.val = 0 → ∃ c, Returns (ops.divScalarCartesian z r) c ∧ c.re.val = greatest s W ∧ c.im.val = greatest s W) ∧
    (r.val ≠ 0 → ops.divScalarCartesian z r =
      (do let re ← NumOps.div z.re r; let im ← NumOps.div z.im r; pure ⟨re, im⟩)) := by
  simp only [greatest_eq]
  have h0 : (Lit.ofI32 0 : Prog (Fixed m s W F)) = pure (Fixed.mkv 0 (fits_zero s W)) := by
    show Fixed.fit _ = _
    rw [Fixed.fit_of_fits (by simpa using fits_zero s W)]; congr 1; ext; simp
  constructor
  · intro h
    exact ⟨_, .of_eq (by
      simp only [ops.divScalarCartesian, h0, pure_bind, Fixed.beq_def, Fixed.mkv_val, h, decide_true, if_true]; rfl), rfl, rfl⟩
  · intro h
    simp [ops.divScalarCartesian, h0, h]

/-- C11: the free function `div_scalar_cartesian` on floats: `±0` gives the largest finite float in both parts, any other divisor
(infinities and NaN included) divides both parts. -/
theorem C11_free_function_float (z : Cartesian (Flt f)) (r : Flt f) :
    (r.beq (.fin false 0) = true → Returns (ops.divScalarCartesian z r)
      ⟨.fin false (2 ^ f.emax - pow2 (f.emax - f.p)), .fin false (2 ^ f.emax - pow2 (f.emax - f.p))⟩) ∧
    (r.beq (.fin false 0) = false → Returns (ops.divScalarCartesian z r) ⟨z.re.div r, z.im.div r⟩) := by
  have h0 : (Lit.ofI32 0 : Prog (Flt f)) = pure (.fin false 0) := by
    show pure (ofExact false ((0:ℤ):ℚ)) = _
    rw [Int.cast_zero]; unfold ofExact; rw [if_pos rfl]
  constructor <;> intro h <;> refine .of_eq ?_ <;> simp only [ops.divScalarCartesian, h0, pure_bind, Flt.beq_def, h] <;> rfl

example : Returns (ops.divScalarCartesian ⟨fx .checked true 8 4 3, fx .checked true 8 4 (-4)⟩ (fx .checked true 8 4 0))
    ⟨fx .checked true 8 4 127, fx .checked true 8 4 127⟩ := .of_eq rfl
example : (Flt.fin true 0 : Flt F32).beq (.fin false 0) = true ∧ (Flt.fin true 2 : Flt F32).beq (.fin false 0) = false := by
  decide +kernel

/-! ## C14 and C123 -/

/-- C14, integers without overflow checks: `conj` is additive. -/
theorem C14_add_wrapping (hW : 0 < W) (z w : Cartesian (PInt .wrapping true W)) :
    (do let c ← z.add w; c.conj) = (do let a ← z.conj; let b ← w.conj; a.add b) := by
  simp only [Cartesian.conj, Cartesian.new, Cartesian.add, PInt.neg_def, PInt.add_def, PInt.fit_wrapping, pure_bind, PInt.mkv_val]
  congr 1
  refine cart_ext_modEq hW (Int.ModEq.refl _) ?_
  refine (wrapInt_modEq hW _).trans (Int.ModEq.trans ?_ (wrapInt_modEq hW _).symm)
  refine ((wrapInt_modEq hW _).neg).trans (Int.ModEq.trans ?_ ((wrapInt_modEq hW _).add (wrapInt_modEq hW _)).symm)
  rw [neg_add]

/-- C14, integers without overflow checks: `conj` is its own inverse, the minimum included. -/
theorem C14_involutive_wrapping (hW : 0 < W) (z : Cartesian (PInt .wrapping true W)) : (do let c ← z.conj; c.conj) = pure z := by
  simp only [Cartesian.conj, Cartesian.new, PInt.neg_def, PInt.fit_wrapping, pure_bind, PInt.mkv_val]
  congr 1
  refine cart_ext_modEq hW (Int.ModEq.refl _) ?_
  refine (wrapInt_modEq hW _).trans ?_
  simpa using (wrapInt_modEq (s := true) hW (-z.im.val)).neg

/-- C14, integers with overflow checks: a conjugate that is returned is exact, and conjugating it again returns the number itself. -/
theorem C14_involutive_checked (z c : Cartesian (PInt .checked true W)) (h : Returns z.conj c) :
    c.re = z.re ∧ c.im.val = -z.im.val ∧ Returns c.conj z := by
  by_cases hf : Fits true W (-z.im.val)
  · have e : z.conj = pure ⟨z.re, PInt.mkv _ hf⟩ := by
      simp [Cartesian.conj, Cartesian.new, PInt.fit_of_fits hf]
    rw [e] at h
    obtain rfl := h.unique (.of_eq rfl)
    refine ⟨rfl, rfl, .of_eq ?_⟩
    have hz : Fits true W (-(-z.im.val)) := by rw [neg_neg]; exact z.im.fits
    simp only [Cartesian.conj, Cartesian.new, PInt.neg_def, PInt.mkv_val, PInt.fit_of_fits hz, pure_bind]
    congr 1
    cases z with | mk re im => congr 1; ext; simp
  · have e : z.conj = Prog.fail .overflow := by
      simp [Cartesian.conj, PInt.fit_checked hf]
    rw [e] at h
    obtain ⟨N, hN⟩ := h
    exact absurd (hN N le_rfl) (by simp)

example := C14_involutive_checked ⟨i .checked true 8 3, i .checked true 8 (-5)⟩ ⟨i .checked true 8 3, i .checked true 8 5⟩ (by run 0)

/-- Reading off the conjugate of a checked integer. -/
theorem conj_ok {z c : Cartesian (PInt .checked true W)} {n : ℕ} (h : z.conj n = .ok c) : c.re.val = z.re.val ∧ c.im.val = -z.im.val := by
  obtain ⟨a, ha, h⟩ := Prog.bind_ok_inv h
  cases h
  by_cases hf : Fits true W (-z.im.val)
  · rw [PInt.neg_def, PInt.fit_of_fits hf] at ha; cases ha; exact ⟨rfl, rfl⟩
  · rw [PInt.neg_def, PInt.fit_checked hf] at ha; simp at ha

/-- C14, integers with overflow checks: where both sides return, the conjugate of a sum or product is the sum or product of the
conjugates. -/
theorem C14_hom_checked (z w c c' : Cartesian (PInt .checked true W)) :
    (Returns (do (← z.add w).conj) c → Returns (do (← z.conj).add (← w.conj)) c' → c = c') ∧
    (Returns (do (← z.mul w).conj) c → Returns (do (← z.conj).mul (← w.conj)) c' → c = c') := by
  have ext : ∀ {a b : Cartesian (PInt .checked true W)}, a.re.val = b.re.val → a.im.val = b.im.val → a = b := by
    rintro ⟨⟨a, _⟩, ⟨b, _⟩⟩ ⟨⟨c, _⟩, ⟨d, _⟩⟩ h1 h2
    cases h1; cases h2; rfl
  have fitok : ∀ n x r, (PInt.fit x : Prog (PInt .checked true W)) n = .ok r → r.val = x := by
    intro n x r hr
    by_cases hf : Fits true W x
    · rw [PInt.fit_of_fits hf] at hr; cases hr; rfl
    · rw [PInt.fit_checked hf] at hr; simp at hr
  have addok : ∀ {n} {a b c : Cartesian (PInt .checked true W)}, a.add b n = .ok c →
      c.re.val = a.re.val + b.re.val ∧ c.im.val = a.im.val + b.im.val := by
    intro n a b c h
    obtain ⟨p, hp, h⟩ := Prog.bind_ok_inv h
    obtain ⟨q, hq, h⟩ := Prog.bind_ok_inv h
    cases h
    exact ⟨fitok _ _ _ hp, fitok _ _ _ hq⟩
  have mulok : ∀ {n} {a b c : Cartesian (PInt .checked true W)}, a.mul b n = .ok c →
      c.re.val = a.re.val * b.re.val - a.im.val * b.im.val ∧ c.im.val = a.re.val * b.im.val + a.im.val * b.re.val := by
    intro n a b c h
    obtain ⟨p1, h1, h⟩ := Prog.bind_ok_inv h
    obtain ⟨p2, h2, h⟩ := Prog.bind_ok_inv h
    obtain ⟨p3, h3, h⟩ := Prog.bind_ok_inv h
    obtain ⟨p4, h4, h⟩ := Prog.bind_ok_inv h
    obtain ⟨p5, h5, h⟩ := Prog.bind_ok_inv h
    obtain ⟨p6, h6, h⟩ := Prog.bind_ok_inv h
    cases h
    refine ⟨(fitok _ _ _ h3).trans ?_, (fitok _ _ _ h6).trans ?_⟩
    · rw [fitok _ _ _ h1, fitok _ _ _ h2]
    · rw [fitok _ _ _ h4, fitok _ _ _ h5]
  constructor
  all_goals
    rintro ⟨N, hN⟩ ⟨M, hM⟩
    have h := hN (max N M) (le_max_left _ _)
    have h' := hM (max N M) (le_max_right _ _)
    obtain ⟨a, ha, h⟩ := Prog.bind_ok_inv h
    obtain ⟨u, hu, h'⟩ := Prog.bind_ok_inv h'
    obtain ⟨v, hv, h'⟩ := Prog.bind_ok_inv h'
    have c1 := conj_ok h; have c2 := conj_ok hu; have c3 := conj_ok hv
  · have a1 := addok ha; have a2 := addok h'
    refine ext ?_ ?_
    · rw [c1.1, a1.1, a2.1, c2.1, c3.1]
    · rw [c1.2, a1.2, a2.2, c2.2, c3.2]; ring
  · have a1 := mulok ha; have a2 := mulok h'
    refine ext ?_ ?_
    · rw [c1.1, a1.1, a2.1, c2.1, c3.1, c2.2, c3.2]; ring
    · rw [c1.2, a1.2, a2.2, c2.1, c3.1, c2.2, c3.2]; ring

example : Returns (do (← Cartesian.mul ⟨i .checked true 8 3, i .checked true 8 (-5)⟩ ⟨i _ _ _ 7, i _ _ _ 4⟩).conj)
      ⟨i .checked true 8 41, i .checked true 8 23⟩ ∧
    Returns (do (← Cartesian.conj ⟨i .checked true 8 3, i .checked true 8 (-5)⟩).mul (← Cartesian.conj ⟨i _ _ _ 7, i _ _ _ 4⟩))
      ⟨i .checked true 8 41, i .checked true 8 23⟩ := ⟨.of_eq rfl, .of_eq rfl⟩
example : Returns (Cartesian.conj ⟨i .checked true 8 3, i .checked true 8 (-5)⟩) ⟨i .checked true 8 3, i .checked true 8 5⟩ := .of_eq rfl

/-! ## C18 -/

/-- C18, exact reals: whatever the sine/cosine routine `sc` computes, `to_cartesian` calls it once, at an angle in [-π, π) on the same
angle. -/
theorem C18_sincos_argument_real (sc : ℝ → Prog (ℝ × ℝ)) (q : Polar ℝ) :
    ∃ r : ℝ, -Real.pi ≤ r ∧ r < Real.pi ∧ (∃ k : ℤ, r = q.ang + k * (2 * Real.pi)) ∧
      SameOutcome (@ops.toCartesian _ _ _ _ _ _ ⟨sc⟩ q)
        (do let t ← sc r; let re ← NumOps.mul q.mag t.2; let im ← NumOps.mul q.mag t.1; pure ⟨re, im⟩) := by
  obtain ⟨r, hr, h1, h2, k, hk⟩ := wrapReal.spec q.ang
  exact ⟨r, h1, h2, ⟨k, hk⟩, sameOutcome_of_wrap hr⟩

/-! ## C19 -/

/-- C19: if `mag` panics, `to_polar` (called either way) panics in the same way, and likewise if it never returns. -/
theorem C19_to_polar_failure {α : Type} [NumOps α] [MixedPowi α] [MixedSqrt α] [MixedAtan α] (z : Cartesian α) :
    (∀ e, Panics z.mag e → Panics z.toPolar e ∧ Panics (ops.toPolar z) e ∧ Panics (Polar.newFromCartesian z.re z.im) e) ∧
    (Diverges z.mag → Diverges z.toPolar) := by
  constructor
  · rintro e ⟨N, hN⟩
    have : Panics (ops.toPolar z) e := ⟨N, fun n hn => Prog.bind_apply_panic (hN n hn)⟩
    exact ⟨this, this, this⟩
  · intro h n
    exact Prog.bind_apply_timeout (h n)

/-- A case of C19: with 4 integer and 4 fraction bits the squared magnitude of 6.25 + 6.25i overflows, and so does the conversion. -/
example : Panics (Cartesian.mag ⟨fx .checked true 8 4 100, fx .checked true 8 4 100⟩) .overflow := .of_eq rfl

/-! ## C22 -/

/-- C22, floats: any other divisor divides the magnitude and keeps the angle. -/
theorem C22_float_nonzero (p : Polar (Flt f)) (t : Flt f) (h : t.beq (.fin false 0) = false) :
    Returns (p.divScalar t) ⟨p.mag.div t, p.ang⟩ := by
  refine .of_eq ?_
  simp only [Polar.divScalar, Flt.beq_def, Flt.zero_def, h]; rfl

example := C22_float_nonzero (f := F32) ⟨.fin true 3, .inf true⟩ .nan rfl

/-! ## C82 -/

/-- C82: integer scalars of every type are converted by correct rounding; `+ - * /` with a (non-zero) scalar whose conversion is finite
then round correctly, and `+ -` leave the imaginary part alone. -/
theorem C82_scalar_int (hf : f.Wide) (z : Cartesian (Flt f)) (h1 : z.re.IsFinite) (h2 : z.im.IsFinite) (t : PInt m s W) :
    ∃ r : Flt f, RoundsTo r t.val ∧
      (r.IsFinite →
        (∃ c, Returns (z.addScalar t) c ∧ RoundsTo c.re (z.re.val + r.val) ∧ c.im = z.im) ∧
        (∃ c, Returns (z.subScalar t) c ∧ RoundsTo c.re (z.re.val - r.val) ∧ c.im = z.im) ∧
        (∃ c, Returns (z.mulScalar t) c ∧ RoundsTo c.re (z.re.val * r.val) ∧ RoundsTo c.im (z.im.val * r.val)) ∧
        (t.val ≠ 0 → r.val ≠ 0 →
          ∃ c, Returns (z.divScalar t) c ∧ RoundsTo c.re (z.re.val / r.val) ∧ RoundsTo c.im (z.im.val / r.val))) := by
  obtain ⟨zr, zi⟩ := z
  refine ⟨ofExact false t.val, ofExact_rounds hf _ _, ?_⟩
  generalize hr : (ofExact false (t.val : ℚ) : Flt f) = r
  have hc : (Conv.fromNum t : Prog (Flt f)) = pure r := by rw [← hr]; rfl
  rintro ⟨b', n', rfl⟩
  obtain ⟨s1, m1, rfl⟩ := h1; obtain ⟨s2, m2, rfl⟩ := h2
  have e : (Flt.fin b' n' : Flt f).neg.val = -(Flt.fin b' n' : Flt f).val := by cases b' <;> simp [Flt.neg, Flt.val]
  refine ⟨⟨⟨(Flt.fin s1 m1).add (.fin b' n'), .fin s2 m2⟩, .of_eq ?_, ofExact_rounds hf _ _, rfl⟩,
    ⟨⟨(Flt.fin s1 m1).sub (.fin b' n'), .fin s2 m2⟩, .of_eq ?_, ?_, rfl⟩,
    ⟨⟨(Flt.fin s1 m1).mul (.fin b' n'), (Flt.fin s2 m2).mul (.fin b' n')⟩, .of_eq ?_, ofExact_rounds hf _ _,
      ofExact_rounds hf _ _⟩, ?_⟩
  · unfold Cartesian.addScalar; rw [hc]; rfl
  · unfold Cartesian.subScalar; rw [hc]; rfl
  · rw [sub_eq_add_neg, ← e]; exact ofExact_rounds hf _ _
  · unfold Cartesian.mulScalar; rw [hc]; rfl
  · intro h0 h0'
    have hb : MixedCmp.beq t MixedZero.zero = false := by
      rw [PInt.beq_def]; exact decide_eq_false h0
    have hd : ∀ x : Flt f, x.IsFinite → RoundsTo (x.div (.fin b' n')) (x.val / (Flt.fin b' n' : Flt f).val) := by
      rintro x ⟨s, m, rfl⟩
      have hn : n' ≠ 0 := by rintro rfl; apply h0'; cases b' <;> simp [Flt.val]
      show RoundsTo (if n' = 0 then _ else _) _
      rw [if_neg hn]; exact ofExact_rounds hf _ _
    refine ⟨⟨_, _⟩, .of_eq ?_, hd _ ⟨_, _, rfl⟩, hd _ ⟨_, _, rfl⟩⟩
    unfold Cartesian.divScalar
    rw [hb, hc]; rfl

example : Returns (Cartesian.mulScalar (⟨.fin false (3/2), .fin true (1/4)⟩ : Cartesian (Flt F32)) (i .checked true 8 (-3)))
    ⟨.fin true (9/2), .fin false (3/4)⟩ := by
  refine .of_eq ?_
  exact congrArg (pure : Cartesian (Flt F32) → Prog (Cartesian (Flt F32))) (by decide +kernel)

/-! ## C64 -/

/-- C64: integers and fixed-point numbers compare as their values do, so that they meet the hypothesis `CmpBy` of the theorems on complex numbers. -/
theorem C64_components (a b : PInt m s W) (x y : Fixed m s W F) :
    (MixedCmp.lt a b = true ↔ a.val < b.val) ∧ (MixedCmp.le a b = true ↔ a.val ≤ b.val) ∧ (MixedCmp.beq a b = true ↔ a = b) ∧
    (MixedCmp.lt x y = true ↔ x.val < y.val) ∧ (MixedCmp.le x y = true ↔ x.val ≤ y.val) ∧ (MixedCmp.beq x y = true ↔ x = y) :=
  ⟨decide_eq_true_iff, decide_eq_true_iff, decide_eq_true_iff.trans PInt.cmpBy.inj.eq_iff,
    decide_eq_true_iff, decide_eq_true_iff, decide_eq_true_iff.trans Fixed.cmpBy.inj.eq_iff⟩

example : MixedCmp.le (i .checked true 8 (-3)) (i .checked true 8 (-3)) = true ∧ MixedCmp.beq (i .checked true 8 (-3)) (i .checked true 8 3) = false := by
  decide

/-- C64: `<=` is `<` or `==`, on both complex types. -/
theorem C64_le {α L : Type} [MixedCmp α] [LinearOrder L] {v : α → L} (h : CmpBy v) (a b : Cartesian α) (p q : Polar α) :
    (MixedCmp.le a b = true ↔ MixedCmp.lt a b = true ∨ a = b) ∧ (MixedCmp.le p q = true ↔ MixedCmp.lt p q = true ∨ p = q) := by
  constructor
  · rw [(C64_order h a b a p q p).2.1]
    show (a.partialCmp b == some .lt || a.partialCmp b == some .eq) = true ↔ _
    obtain ⟨a1, a2⟩ := a; obtain ⟨b1, b2⟩ := b
    simp only [Cartesian.partialCmp, h.partialCmp, Cartesian.mk.injEq, ← h.inj.eq_iff (a := a1), ← h.inj.eq_iff (a := a2)]
    rcases lt_trichotomy (v a1) (v b1) with h1 | h1 | h1
    · rw [(cmp_eq_lt_iff _ _).mpr h1]; simp [h1]
    · rw [(cmp_eq_eq_iff _ _).mpr h1]; simp [h1, cmp_eq_lt_iff]
    · rw [(cmp_eq_gt_iff _ _).mpr h1]; simp [h1.not_gt, h1.ne']
  · rw [(C64_order h a b a p q p).2.2.2.2.2.1]
    show (p.partialCmp q == some .lt || p.partialCmp q == some .eq) = true ↔ _
    obtain ⟨a1, a2⟩ := p; obtain ⟨b1, b2⟩ := q
    simp only [Polar.partialCmp, h.partialCmp, Polar.mk.injEq, ← h.inj.eq_iff (a := a1), ← h.inj.eq_iff (a := a2)]
    rcases lt_trichotomy (v a1) (v b1) with h1 | h1 | h1
    · rw [(cmp_eq_lt_iff _ _).mpr h1]; simp [h1]
    · rw [(cmp_eq_eq_iff _ _).mpr h1]; simp [h1, cmp_eq_lt_iff]
    · rw [(cmp_eq_gt_iff _ _).mpr h1]; simp [h1.not_gt, h1.ne']

example : MixedCmp.le (⟨i .checked true 8 1, i .checked true 8 9⟩ : Cartesian (PInt .checked true 8))
    ⟨i .checked true 8 1, i .checked true 8 9⟩ = true := by decide

/-! ## C67 -/

/-- C67, every integer type, 128 bits included: the conversion to a float rounds to nearest, so that an integer from the overflow
threshold on becomes an infinity. -/
theorem C67_rounds (hf : f.Wide) (x : PInt m s W) :
    (∃ y : Flt f, Returns (Conv.fromNum x) y ∧ RoundsTo y x.val) ∧ (∃ y : Flt f, Returns (Conv.toNum x) y ∧ RoundsTo y x.val) :=
  ⟨⟨_, .of_eq rfl, ofExact_rounds hf _ _⟩, ⟨_, .of_eq rfl, ofExact_rounds hf _ _⟩⟩

/-- C67: the conversion keeps the order, on every integer type. -/
theorem C67_mono_all (hf : f.Wide) (x y : PInt m s W) (h : x.val ≤ y.val) :
    ∃ a b : Flt f, Returns (Conv.fromNum x) a ∧ Returns (Conv.fromNum y) b ∧ MixedCmp.le a b = true :=
  ⟨_, _, .of_eq rfl, .of_eq rfl, ofExact_mono hf.one_le _ _ (by exact_mod_cast h)⟩

example := C67_mono_all wide_F32 (i .checked true 32 (-123456789)) (i .checked true 32 123456789) (by decide)

/-- C67: the only overflow among the crate's types is `u128` to `f32`: the largest `u128` becomes infinity, the largest and the
smallest `i128` stay finite. -/
theorem C67_u128 : Returns (Conv.fromNum (i .checked false 128 (2 ^ 128 - 1)) : Prog (Flt F32)) (.inf false) ∧
    Returns (Conv.fromNum (i .checked true 128 (2 ^ 127 - 1)) : Prog (Flt F32)) (.fin false (2 ^ 127)) ∧
    Returns (Conv.fromNum (i .checked true 128 (-2 ^ 127)) : Prog (Flt F32)) (.fin true (2 ^ 127)) := by
  refine ⟨.of_eq ?_, .of_eq ?_, .of_eq ?_⟩ <;>
  exact congrArg (pure : Flt F32 → Prog (Flt F32)) (by decide +kernel)

/-! ## C113 -/

/-- C113, fixed point without overflow checks: a divisor whose doubled square (rounded down) is a multiple of the modulus panics; otherwise
the rounded products, sums and quotients are reduced on the way. -/
theorem C113_fixed_wrapping (hW : 0 < W) (z w : Cartesian (Fixed .wrapping s W F)) :
    let ac := z.re.val * w.re.val / 2 ^ F
    let bc := z.im.val * w.re.val / 2 ^ F
    let cc := w.re.val * w.re.val / 2 ^ F
    ((2:ℤ) ^ W ∣ 2 * cc → Panics (z.div w) .divByZero) ∧
    (¬ (2:ℤ) ^ W ∣ 2 * cc → ∃ q n n' d, Returns (z.div w) q ∧ IsReduction s W (ac + bc) n ∧
      IsReduction s W (bc - ac) n' ∧ IsReduction s W (2 * cc) d ∧ IsReduction s W ((n * 2 ^ F).tdiv d) q.re.val ∧
      IsReduction s W ((n' * 2 ^ F).tdiv d) q.im.val) := by
  intro ac bc cc
  set A := wrapInt s W ac with hA
  set B := wrapInt s W bc with hB
  set C := wrapInt s W cc with hC
  set n := wrapInt s W (A + B) with hn
  set n' := wrapInt s W (B - A) with hn'
  set d := wrapInt s W (C + C) with hd
  have eA := wrapInt_modEq (s := s) hW ac
  have eB := wrapInt_modEq (s := s) hW bc
  have eC := wrapInt_modEq (s := s) hW cc
  have en : n ≡ ac + bc [ZMOD 2 ^ W] := (wrapInt_modEq hW _).trans (eA.add eB)
  have en' : n' ≡ bc - ac [ZMOD 2 ^ W] := (wrapInt_modEq hW _).trans (eB.sub eA)
  have ed : d ≡ 2 * cc [ZMOD 2 ^ W] := by
    rw [two_mul]; exact (wrapInt_modEq hW _).trans (eC.add eC)
  have run : z.div w = (do
      let re ← NumOps.div (Fixed.mkv n (fits_wrapInt ..)) (Fixed.mkv d (fits_wrapInt ..))
      let im ← NumOps.div (Fixed.mkv n' (fits_wrapInt ..)) (Fixed.mkv d (fits_wrapInt ..))
      pure ⟨re, im⟩) := by
    simp only [Cartesian.div, Fixed.sq_eq, Fixed.mul_def, Fixed.add_def, Fixed.sub_def, Fixed.fit_wrapping, pure_bind, Fixed.mkv_val]
    rfl
  have fd : Fits s W d := fits_wrapInt _ _ _
  have key : d = 0 ↔ (2:ℤ) ^ W ∣ 2 * cc := by
    constructor
    · intro h; rw [h] at ed; exact Int.modEq_zero_iff_dvd.mp ed.symm
    · intro h; exact eq_of_modEq_of_fits hW fd (fits_zero s W) (ed.trans (Int.modEq_zero_iff_dvd.mpr h))
  rw [run]
  refine ⟨fun h => .of_eq ?_, fun h => ?_⟩
  · rw [Fixed.div_def, if_pos (by rw [Fixed.mkv_val]; exact key.mpr h), Prog.fail_bind]
  · have d0 : d ≠ 0 := fun h' => h (key.mp h')
    have d1 : ∀ x : Fixed .wrapping s W F,
        NumOps.div x (Fixed.mkv d fd) = pure (Fixed.mkv (wrapInt s W ((x.val * 2 ^ F).tdiv d)) (fits_wrapInt ..)) := by
      intro x
      rw [Fixed.div_def, if_neg (by rw [Fixed.mkv_val]; exact d0), Fixed.fit_wrapping, Fixed.mkv_val]
    refine ⟨⟨_, _⟩, n, n', d, .of_eq (by rw [d1, pure_bind, d1, pure_bind]), ⟨inRange_iff.mpr (fits_wrapInt ..), en⟩,
      ⟨inRange_iff.mpr (fits_wrapInt ..), en'⟩, ⟨inRange_iff.mpr fd, ed⟩, ⟨inRange_iff.mpr (fits_wrapInt ..), wrapInt_modEq hW _⟩,
      ⟨inRange_iff.mpr (fits_wrapInt ..), wrapInt_modEq hW _⟩⟩

/-- C113: in release builds dividing by 16 on a type with 8 integer and 8 fraction bits is a division by zero: the square is 256. -/
example (z : Cartesian (Fixed .wrapping true 16 8)) : Panics (z.div ⟨fx _ _ _ _ 4096, fx _ _ _ _ 0⟩) .divByZero :=
  (C113_fixed_wrapping (by norm_num) z ⟨fx _ _ _ _ 4096, fx _ _ _ _ 0⟩).1 (by decide)
example : Returns (Cartesian.div ⟨fx .wrapping true 16 8 300, fx _ _ _ _ 70⟩ ⟨fx .wrapping true 16 8 512, fx _ _ _ _ 1⟩)
    ⟨fx .wrapping true 16 8 92, fx _ _ _ _ (-57)⟩ := .of_eq rfl

/-- C93: negation flips the sign flag of everything but NaN, zeros and infinities included, keeps the absolute value, and undoes itself;
`conj` does the same to the imaginary part. -/
theorem C93_neg (x y : Flt f) (hx : x ≠ .nan) :
    ∃ v, Returns (MixedNumSigned.neg x) v ∧ MixedReal.isNegative v = !(MixedReal.isNegative x) ∧
      v.val = -x.val ∧ (v.IsFinite ↔ x.IsFinite) ∧ v ≠ .nan ∧ Returns (MixedNumSigned.neg v) x ∧ Returns (Cartesian.conj ⟨y, x⟩) ⟨y, v⟩ := by
  cases x with
  | nan => exact absurd rfl hx
  | inf s =>
    refine ⟨.inf (!s), .of_eq rfl, rfl, by simp [Flt.val], ?_, by simp, .of_eq ?_, .of_eq rfl⟩
    · constructor <;> rintro ⟨_, _, h⟩ <;> cases h
    · show (pure (Flt.inf (!!s)) : Prog (Flt f)) = _
      rw [Bool.not_not]
  | fin s m =>
    refine ⟨.fin (!s) m, .of_eq rfl, rfl, ?_, ⟨fun _ => ⟨_, _, rfl⟩, fun _ => ⟨_, _, rfl⟩⟩, by simp, .of_eq ?_, .of_eq rfl⟩
    · cases s <;> simp [Flt.val]
    · show (pure (Flt.fin (!!s) m) : Prog (Flt f)) = _
      rw [Bool.not_not]

example := C93_neg (.fin false 0 : Flt F32) .nan (by simp)

end MixedNum
