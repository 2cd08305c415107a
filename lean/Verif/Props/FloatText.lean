import Verif.Lemmas.PartText
import Verif.Props.Display
import Verif.Props.ExactFloat
import Verif.Props.AddSub
import Verif.Lemmas.Run
import Verif.Lemmas.Case
/-! # C128: the text of a complex float or fixed-point number determines it -/

namespace MixedNum
variable {m : Mode} {s : Bool} {W F : ℕ} {f : Format}
open Flt

theorem neg_valid {x : Flt f} (h : x.Valid) : x.neg.Valid := by cases x <;> exact h

/-- The absolute value that is printed. -/
theorem fmtAbs_flt (hf : f.Wide) {x : Flt f} (hx : x.Valid) :
    fmtAbs x = pure (if x.lt (.fin false 0) then x.neg else x) ∧
    (x.lt (.fin false 0) = true → x.neg.Plus) ∧
    (x.lt (.fin false 0) = false → x.Plus ∨ x = .fin true 0) := by
  cases x with
  | nan => exact ⟨rfl, by simp [Flt.lt], fun _ => .inl trivial⟩
  | inf t => cases t <;> exact ⟨rfl, by simp [Flt.lt, Flt.neg, Flt.Plus], by simp [Flt.lt, Flt.Plus]⟩
  | fin t a =>
    obtain ⟨_, _, e, ha, hv, -⟩ := is_of_valid hx
    cases e
    have hl : (Flt.fin t a : Flt f).lt (.fin false 0) = decide (t = true ∧ 0 < a) := by
      cases t <;> simp [Flt.lt, Flt.val, ha]
    refine ⟨?_, ?_, ?_⟩
    · unfold fmtAbs
      show (if (Flt.fin t a : Flt f).lt (.fin false 0) = true then _ else _) = _
      split_ifs with h
      · rw [hl] at h
        obtain ⟨rfl, h'⟩ := of_decide_eq_true h
        show pure ((Flt.fin false 0 : Flt f).add (Flt.fin false a)) = pure (Flt.fin false a)
        rcases (add_zero_same hf false (x := .fin false a) hx).2 with e | ⟨_, _, -, e⟩
        · rw [e]
        · cases e; exact absurd h' (lt_irrefl _)
      · rfl
    · intro h
      rw [hl] at h
      obtain ⟨rfl, h⟩ := of_decide_eq_true h
      rfl
    · intro h
      rw [hl] at h
      have h := of_decide_eq_false h
      cases t
      · exact .inl rfl
      · right
        have : ¬0 < a := fun h' => h ⟨rfl, h'⟩
        rw [le_antisymm (not_lt.mp this) ha]

/-- C128, floats: every complex number is printed, infinities and NaN included, and no two different ones alike - not even those
that differ in the sign of a zero -, under `{}`, `{:e}`, `{:E}` with every width and sign flag, with and without `std`. -/
theorem C128_float (hf : f.Wide) (std : Bool) (g : FmtSpec) (r : Option ℕ → Flt f → List Char) (hr : FloatText (r g.precision))
    (z w : Cartesian (Flt f)) (hz : z.re.Valid ∧ z.im.Valid) (hw : w.re.Valid ∧ w.im.Valid) :
    ∃ t u, Returns (writeComplex std g [] r z) t ∧ Returns (writeComplex std g [] r w) u ∧ (t = u → z = w) := by
  refine ⟨_, _, .of_eq (writeComplex_of std g [] r z _ _ (fmtAbs_flt hf hz.1).1 (fmtAbs_flt hf hz.2).1),
    .of_eq (writeComplex_of std g [] r w _ _ (fmtAbs_flt hf hw.1).1 (fmtAbs_flt hf hw.2).1), fun h => ?_⟩
  have ok : ∀ x : Flt f, x.Valid → OkPart (x.lt (.fin false 0)) (r g.precision (if x.lt (.fin false 0) then x.neg else x)) := by
    intro x hx
    obtain ⟨-, h1, h2⟩ := fmtAbs_flt hf hx
    cases hl : x.lt (.fin false 0) with
    | true => exact .inl (hr.plain _ (neg_valid hx) (h1 hl))
    | false =>
      rcases h2 hl with h | h
      · exact .inl (hr.plain _ hx h)
      · refine .inr ⟨rfl, _, ?_, hr.plain (.fin false 0) (by subst h; exact hx) rfl⟩
        rw [h]; exact hr.negZero
  have inj : ∀ x y : Flt f, x.Valid → y.Valid →
      signed (x.lt (.fin false 0)) (r g.precision (if x.lt (.fin false 0) then x.neg else x)) =
      signed (y.lt (.fin false 0)) (r g.precision (if y.lt (.fin false 0) then y.neg else y)) → x = y := by
    -- read the sign, then the text
    have cases' : ∀ x : Flt f, x.Valid → (∃ v : Flt f, v.Valid ∧ v.Plus ∧ x = v.neg ∧
        signed (x.lt (.fin false 0)) (r g.precision (if x.lt (.fin false 0) then x.neg else x)) = '-' :: r g.precision v) ∨
        (x.Plus ∧ signed (x.lt (.fin false 0)) (r g.precision (if x.lt (.fin false 0) then x.neg else x)) = r g.precision x) := by
      intro x hx
      obtain ⟨-, h1, h2⟩ := fmtAbs_flt hf hx
      cases hl : x.lt (.fin false 0) with
      | true => exact .inl ⟨x.neg, neg_valid hx, h1 hl, by cases x <;> simp [Flt.neg], rfl⟩
      | false =>
        rcases h2 hl with h | h
        · exact .inr ⟨h, rfl⟩
        · refine .inl ⟨.fin false 0, by subst h; exact hx, rfl, by rw [h]; rfl, ?_⟩
          subst h; exact hr.negZero
    have nominus : ∀ v u : Flt f, u.Valid → u.Plus → '-' :: r g.precision v ≠ r g.precision u := by
      intro v u hu hp e
      obtain ⟨c, k, e', -, h2, -⟩ := (hr.plain u hu hp).head
      exact h2 (List.cons.inj (e.trans e')).1.symm
    intro x y hx hy e
    rcases cases' x hx with ⟨v, v1, v2, rfl, v4⟩ | ⟨x2, x3⟩ <;> rcases cases' y hy with ⟨u, u1, u2, rfl, u4⟩ | ⟨y2, y3⟩
    · rw [v4, u4] at e
      rw [hr.inj v u v1 u1 v2 u2 (List.cons.inj e).2]
    · rw [v4, y3] at e; exact absurd e (nominus v y hy y2)
    · rw [x3, u4] at e; exact absurd e.symm (nominus u x hx x2)
    · rw [x3, y3] at e; exact hr.inj x y hx hy x2 y2 e
  obtain ⟨h1, h2⟩ := layout_inj std g (ok _ hz.1) (ok _ hw.1) h
  rcases z with ⟨a, b⟩; rcases w with ⟨c, d⟩
  rw [inj a c hz.1 hw.1 h1, inj b d hz.2 hw.2 h2]

example (r : Option ℕ → Flt F32 → List Char) (hr : FloatText (r none)) := C128_float wide_F32 false {} r hr
  ⟨.fin false 3, .fin true (1 / 2)⟩ ⟨.inf true, .nan⟩ ⟨by is_float 3 0, by is_float 1 (-1)⟩ ⟨trivial, trivial⟩

/-- C128: a minus zero as imaginary part is printed with two signs, as in `1+-0i`; the real part `-0` with one. -/
theorem C128_minus_zero (r : Option ℕ → Flt f → List Char) (hr : FloatText (r none)) (x : Flt f) (hx : x.Valid) (hp : x.Plus) :
    Returns (writeComplex false {} [] r ⟨x, .fin true 0⟩) (r none x ++ "+-".toList ++ r none (.fin false 0) ++ ['i']) ∧
    Returns (writeComplex false {} [] r ⟨.fin true 0, x⟩) ('-' :: r none (.fin false 0) ++ "+".toList ++ r none x ++ ['i']) := by
  have hl : x.lt (.fin false 0) = false := by
    cases x with
    | nan => rfl
    | inf t => cases hp; rfl
    | fin t a =>
      cases hp
      obtain ⟨_, _, e, ha, -⟩ := is_of_valid hx
      cases e
      simp [Flt.lt, Flt.val, ha]
  have h0 : (Flt.fin true 0 : Flt f).lt (.fin false 0) = false := by simp [Flt.lt, Flt.val]
  have a1 : fmtAbs x = pure x := by
    unfold fmtAbs
    show (if x.lt (.fin false 0) = true then _ else _) = _
    rw [hl]; rfl
  have a2 : fmtAbs (Flt.fin true 0 : Flt f) = pure (.fin true 0) := by
    unfold fmtAbs
    show (if (Flt.fin true 0 : Flt f).lt (.fin false 0) = true then _ else _) = _
    rw [h0]; rfl
  have b1 : MixedCmp.lt x MixedZero.zero = false := hl
  have b2 : MixedCmp.lt (Flt.fin true 0 : Flt f) MixedZero.zero = false := h0
  constructor
  · refine .of_eq ((writeComplex_of false {} [] r _ _ _ a1 a2).trans ?_)
    simp only [b1, b2]
    simp [fmtComplex, fmtReIm, hr.negZero]
  · refine .of_eq ((writeComplex_of false {} [] r _ _ _ a2 a1).trans ?_)
    simp only [b1, b2]
    simp [fmtComplex, fmtReIm, hr.negZero]

example (r : Option ℕ → Flt F32 → List Char) (hr : FloatText (r none)) := C128_minus_zero r hr (.fin false 3) (by is_float 3 0) rfl

/-- The absolute value that is printed, fixed point. -/
theorem fmtAbs_fixed {x : Fixed m s W F} (h : x.val ≠ -(2 ^ (W - 1)) ∨ s = false) :
    ∃ a : Fixed m s W F, fmtAbs x = pure a ∧ a.val = |x.val| := by
  unfold fmtAbs
  have hl : MixedCmp.lt x MixedZero.zero = decide (x.val < 0) := by
    show decide (x.val < (MixedZero.zero : Fixed m s W F).val) = _
    rw [Fixed.zero_val]
  rw [hl]
  by_cases hx : x.val < 0
  · have hf : Fits s W (0 - x.val) := by
      have h1 := x.fits
      cases s with
      | false => exact absurd hx (not_lt.mpr h1.1)
      | true =>
        have h2 : x.val ≠ -(2 ^ (W - 1)) := by rcases h with h | h; exacts [h, by cases h]
        have h3 : -(2 ^ (W - 1)) ≤ x.val := h1.1
        have h4 : (0:ℤ) < 2 ^ (W - 1) := by positivity
        constructor
        · show -(2 ^ (W - 1)) ≤ 0 - x.val
          linarith
        · show 0 - x.val < 2 ^ (W - 1)
          have := lt_of_le_of_ne h3 (Ne.symm h2)
          linarith
    refine ⟨_, by rw [if_pos (by simpa using hx), Fixed.sub_def, Fixed.zero_val]; exact Fixed.fit_of_fits hf, ?_⟩
    rw [Fixed.mkv_val, abs_of_neg hx]; ring
  · exact ⟨x, by rw [if_neg (by simpa using hx)], (abs_of_nonneg (not_lt.mp hx)).symm⟩

/-- C128, fixed point: every complex number without a part of the smallest value is printed, and no two different ones alike. -/
theorem C128_fixed (std : Bool) (g : FmtSpec) (r : Option ℕ → Fixed m s W F → List Char) (hr : FixedText (r g.precision))
    (z w : Cartesian (Fixed m s W F))
    (hz : (z.re.val ≠ -(2 ^ (W - 1)) ∧ z.im.val ≠ -(2 ^ (W - 1))) ∨ s = false)
    (hw : (w.re.val ≠ -(2 ^ (W - 1)) ∧ w.im.val ≠ -(2 ^ (W - 1))) ∨ s = false) :
    ∃ t u, Returns (writeComplex std g [] r z) t ∧ Returns (writeComplex std g [] r w) u ∧ (t = u → z = w) := by
  obtain ⟨a, a1, a2⟩ := fmtAbs_fixed (hz.imp_left And.left)
  obtain ⟨b, b1, b2⟩ := fmtAbs_fixed (hz.imp_left And.right)
  obtain ⟨c, c1, c2⟩ := fmtAbs_fixed (hw.imp_left And.left)
  obtain ⟨d, d1, d2⟩ := fmtAbs_fixed (hw.imp_left And.right)
  refine ⟨_, _, .of_eq (writeComplex_of std g [] r z _ _ a1 b1), .of_eq (writeComplex_of std g [] r w _ _ c1 d1), fun h => ?_⟩
  have lt0 : ∀ x : Fixed m s W F, MixedCmp.lt x MixedZero.zero = decide (x.val < 0) := by
    intro x
    show decide (x.val < (MixedZero.zero : Fixed m s W F).val) = _
    rw [Fixed.zero_val]
  have nn : ∀ {x y : Fixed m s W F}, x.val = |y.val| → 0 ≤ x.val := fun h => h ▸ abs_nonneg _
  obtain ⟨h1, h2⟩ := layout_inj std g (.inl (hr.plain _ (nn a2))) (.inl (hr.plain _ (nn c2))) h
  have key : ∀ x y p q : Fixed m s W F, p.val = |x.val| → q.val = |y.val| →
      signed (MixedCmp.lt x MixedZero.zero) (r g.precision p) = signed (MixedCmp.lt y MixedZero.zero) (r g.precision q) → x = y := by
    intro x y p q hp hq e
    rw [lt0, lt0] at e
    obtain ⟨c1, k1, e1, -, n1, -⟩ := (hr.plain p (nn hp)).head
    obtain ⟨c2, k2, e2, -, n2, -⟩ := (hr.plain q (nn hq)).head
    have main : r g.precision p = r g.precision q → (x.val < 0 ↔ y.val < 0) → x = y := by
      intro e h
      have e := congrArg (fun t : Fixed m s W F => t.val) (hr.inj p q (nn hp) (nn hq) e)
      simp only [hp, hq] at e
      apply Fixed.ext
      by_cases hx : x.val < 0
      · rw [abs_of_neg hx, abs_of_neg (h.mp hx)] at e; linarith
      · rw [abs_of_nonneg (not_lt.mp hx), abs_of_nonneg (not_lt.mp (fun h' => hx (h.mpr h')))] at e; exact e
    by_cases hx : x.val < 0 <;> by_cases hy : y.val < 0 <;> simp only [hx, hy, decide_true, decide_false, signed, if_true] at e
    · exact main (List.cons.inj e).2 (by simp [hx, hy])
    · exact absurd (List.cons.inj (e.trans e2)).1.symm n2
    · exact absurd (List.cons.inj (e.symm.trans e1)).1.symm n1
    · exact main e (by simp [hx, hy])
  rcases z with ⟨z1, z2⟩; rcases w with ⟨w1, w2⟩
  exact congrArg₂ Cartesian.mk (key _ _ _ _ a2 c2 h1) (key _ _ _ _ b2 d2 h2)

example (r : Option ℕ → Fixed .checked true 16 8 → List Char) (hr : FixedText (r none)) := C128_fixed false {} r hr
  ⟨fx .checked true 16 8 768, fx .checked true 16 8 (-1024)⟩ ⟨fx .checked true 16 8 (-768), fx .checked true 16 8 1⟩ (by decide) (by decide)

/-- C128, fixed point: with overflow checks a part of the smallest value makes printing panic. -/
theorem C128_fixed_min (std : Bool) (g : FmtSpec) (pre : List Char) (r : Option ℕ → Fixed .checked true W F → List Char)
    (z : Cartesian (Fixed .checked true W F)) (h : z.re.val = -(2 ^ (W - 1)) ∨ z.im.val = -(2 ^ (W - 1))) :
    Panics (writeComplex std g pre r z) .overflow := by
  have key : ∀ x : Fixed .checked true W F, x.val = -(2 ^ (W - 1)) → (fmtAbs x : Prog (Fixed .checked true W F)) = Prog.fail .overflow := by
    intro x hx
    have h4 : (0:ℤ) < 2 ^ (W - 1) := by positivity
    unfold fmtAbs
    have hl : MixedCmp.lt x MixedZero.zero = true := by
      show decide (x.val < (MixedZero.zero : Fixed .checked true W F).val) = _
      rw [Fixed.zero_val, hx]; simp
    rw [if_pos hl, Fixed.sub_def, Fixed.zero_val]
    refine Fixed.fit_checked fun h => ?_
    have : 0 - x.val < 2 ^ (W - 1) := h.2
    rw [hx] at this; linarith
  refine .of_eq ?_
  unfold writeComplex
  by_cases h1 : z.re.val = -(2 ^ (W - 1))
  · rw [key _ h1, Prog.fail_bind]
  · obtain ⟨a, ha, -⟩ := fmtAbs_fixed (.inl h1)
    rw [ha, pure_bind, key _ (h.resolve_left h1), Prog.fail_bind]

/-- The hypothesis holds on 16 bits of an imaginary part with raw value -32768. -/
example (std : Bool) (g : FmtSpec) (r : Option ℕ → Fixed .checked true 16 8 → List Char) :=
  C128_fixed_min std g [] r ⟨fx .checked true 16 8 5, fx .checked true 16 8 (-32768)⟩ (.inr rfl)

/-! ## Texts that meet the hypotheses -/

theorem plain_ones (n : ℕ) : PlainText (List.replicate (n + 1) '1') := by
  have mem : ∀ c, c ∈ List.replicate (n + 1) '1' → c = '1' := fun c h => List.eq_of_mem_replicate h
  refine ⟨⟨'1', _, List.replicate_succ, by decide, by decide, by decide⟩, ?_, ?_⟩
  · intro l a c r e hc
    have := mem c (by rw [e]; simp)
    subst this
    rcases hc with h | h <;> exact absurd h (by decide)
  · intro l
    constructor <;> intro e
    · exact absurd (mem 'e' (by rw [e]; simp)) (by decide)
    · exact absurd (mem 'E' (by rw [e]; simp)) (by decide)

/-- Some rendering of floats, as tally marks, meets the hypothesis of `C128_float`, and so does some of fixed point. -/
example : (∃ r : Flt F32 → List Char, FloatText r) ∧ ∃ r : Fixed .checked true 32 16 → List Char, FixedText r := by
  refine ⟨⟨fun x => match x with
    | .nan => List.replicate 1 '1'
    | .inf t => (if t then ['-'] else []) ++ List.replicate 2 '1'
    | .fin t a => (if t then ['-'] else []) ++ List.replicate (Encodable.encode a + 2 + 1) '1', ?_, ?_, ?_⟩,
    fun x => List.replicate (x.val.toNat + 1) '1', ?_, ?_⟩
  · intro x _ hx
    cases x with
    | nan => exact plain_ones 0
    | inf t => cases hx; exact plain_ones 1
    | fin t a => cases hx; exact plain_ones _
  · intro x y _ _ hx hy e
    have e := congrArg List.length e
    cases x <;> cases y <;> simp only [Flt.Plus] at hx hy <;> (try subst hx) <;> (try subst hy) <;>
      (simp at e ⊢; try assumption)
  · rfl
  · intro x _; exact plain_ones _
  · intro x y hx hy e
    have e := congrArg List.length e
    simp at e
    exact Fixed.ext (by omega)

end MixedNum
