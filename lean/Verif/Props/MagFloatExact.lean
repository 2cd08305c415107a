import Verif.Props.MagFloat
import Verif.Lemmas.Rounds
import Verif.Props.AddSub
import Verif.Lemmas.Run
import Verif.Lemmas.Case
/-! # C85: exactly when the float magnitude is lost -/

namespace MixedNum
variable {f : Format}
open Flt

/-- What rounds to zero: everything up to half the least subnormal, the tie included. -/
theorem rnd_eq_zero_iff (hf : f.Wide) {q : ℚ} (h0 : 0 ≤ q) : rnd f.p f.emin q = 0 ↔ 2 * q ≤ 2 ^ f.emin := by
  have hp := hf.p
  constructor
  · intro h
    have hr : Rep f.p f.emin (2 ^ f.emin) := ⟨1, f.emin, le_rfl, by
      rw [abs_one]; exact one_lt_pow₀ (by norm_num) (by omega), by simp⟩
    have h1 := rnd_nearest (p := f.p) (emin := f.emin) q hr
    rw [h, zero_sub, abs_neg, abs_of_nonneg h0] at h1
    by_contra hc
    push Not at hc
    have : |(2:ℚ) ^ f.emin - q| < q := abs_lt.mpr ⟨by linarith [two_zpow_pos f.emin], by linarith⟩
    linarith
  · intro h
    have hu := two_zpow_pos f.emin
    have e : rnd f.p f.emin (2 ^ f.emin / 2) = 0 := by
      have hq : (0:ℚ) < 2 ^ f.emin / 2 := by positivity
      have hu2 : ulpExp f.p f.emin (2 ^ f.emin / 2) = f.emin := by
        refine le_antisymm (ulpExp_le hq ?_ le_rfl) (le_max_right _ _)
        have := two_zpow_le (show f.emin ≤ f.emin + f.p by omega)
        linarith
      rw [rnd_nonneg_eq hq.le, roundTo_pos hq, hu2]
      have : (2:ℚ) ^ f.emin / 2 / 2 ^ f.emin = 1 / 2 := by field_simp
      rw [this, show roundHalfEven (1 / 2) = 0 by decide +kernel]; simp
    have h1 := rnd_mono (emin := f.emin) hf.one_le (show q ≤ 2 ^ f.emin / 2 by linarith)
    have h2 := rep_le_rnd (emin := f.emin) hf.one_le h0 Rep.zero
    linarith

theorem rnd_nonneg (hf : f.Wide) {q : ℚ} (h0 : 0 ≤ q) : 0 ≤ rnd f.p f.emin q := rep_le_rnd hf.one_le h0 Rep.zero

/-- The argument of the root: finite with the doubly rounded sum, or `+∞`. -/
theorem mag_arg (hf : f.Wide) {x y : Flt f} (h1 : x.IsFinite) (h2 : y.IsFinite) :
    let P := rnd f.p f.emin (x.val ^ 2); let Q := rnd f.p f.emin (y.val ^ 2)
    (x.val ^ 2 < threshold f ∧ y.val ^ 2 < threshold f ∧ P + Q < threshold f ∧
      Is ((x.mul x).add (y.mul y)) (rnd f.p f.emin (P + Q))) ∨
    ((threshold f ≤ x.val ^ 2 ∨ threshold f ≤ y.val ^ 2 ∨ threshold f ≤ P + Q) ∧
      (x.mul x).add (y.mul y) = .inf false) := by
  intro P Q
  obtain ⟨s, a, rfl⟩ := h1; obtain ⟨t, b, rfl⟩ := h2
  have fits : ∀ {z : Bool} {q : ℚ}, 0 ≤ q → q < threshold f → Is (ofExact z q : Flt f) (rnd f.p f.emin q) := by
    intro z q h0 h
    refine is_ofExact hf.one_le z ?_
    rw [abs_of_nonneg (rnd_nonneg hf h0)]; exact rnd_below hf h
  have over : ∀ {z : Bool} {q : ℚ}, 0 ≤ q → threshold f ≤ q → (ofExact z q : Flt f) = .inf false := by
    intro z q h0 h
    rcases ofExact_cases hf.one_le z q with h2 | ⟨-, h2⟩
    · have h3 := h2.lt_max
      rw [abs_of_nonneg (rnd_nonneg hf h0)] at h3
      have := rnd_mono (emin := f.emin) hf.one_le h
      rw [rnd_threshold hf] at this
      linarith
    · rw [h2, decide_eq_false (not_lt.mpr h0)]
  have sqr : ∀ (s : Bool) (a : ℚ), (Flt.fin s a : Flt f).mul (.fin s a) = ofExact (xor s s) ((Flt.fin s a : Flt f).val ^ 2) := by
    intro s a; rw [sq]; rfl
  rw [sqr s a, sqr t b]
  have hP : 0 ≤ P := rnd_nonneg hf (sq_nonneg _)
  have hQ : 0 ≤ Q := rnd_nonneg hf (sq_nonneg _)
  have na := sq_nonneg (Flt.fin s a : Flt f).val; have nb := sq_nonneg (Flt.fin t b : Flt f).val
  rcases lt_or_ge ((Flt.fin s a : Flt f).val ^ 2) (threshold f) with ha | ha
  · have iP := fits (z := xor s s) na ha
    obtain ⟨s', m', eP⟩ := iP.fin
    rcases lt_or_ge ((Flt.fin t b : Flt f).val ^ 2) (threshold f) with hb | hb
    · have iQ := fits (z := xor t t) nb hb
      obtain ⟨t', n', eQ⟩ := iQ.fin
      have ev : P + Q = (Flt.fin s' m' : Flt f).val + (Flt.fin t' n' : Flt f).val := by
        rw [← eP, ← eQ, iP.val, iQ.val]
      rw [eP, eQ]
      rcases lt_or_ge (P + Q) (threshold f) with hs | hs
      · refine .inl ⟨ha, hb, hs, ?_⟩
        have := fits (z := s' && t') (add_nonneg hP hQ) hs
        rw [ev] at this ⊢; exact this
      · refine .inr ⟨.inr (.inr hs), ?_⟩
        have := over (z := s' && t') (add_nonneg hP hQ) hs
        rw [ev] at this; exact this
    · refine .inr ⟨.inr (.inl hb), ?_⟩
      rw [over nb hb, eP]; rfl
  · refine .inr ⟨.inl ha, ?_⟩
    rw [over na ha]
    rcases lt_or_ge ((Flt.fin t b : Flt f).val ^ 2) (threshold f) with hb | hb
    · obtain ⟨t', n', eQ⟩ := (fits (z := xor t t) nb hb).fin
      rw [eQ]; rfl
    · rw [over nb hb]; rfl

/-- When the finite sum of the rounded squares is zero. -/
theorem mag_arg_zero (hf : f.Wide) {a b : ℚ} :
    rnd f.p f.emin (rnd f.p f.emin (a ^ 2) + rnd f.p f.emin (b ^ 2)) = 0 ↔ 2 * a ^ 2 ≤ 2 ^ f.emin ∧ 2 * b ^ 2 ≤ 2 ^ f.emin := by
  rw [← rnd_eq_zero_iff hf (sq_nonneg a), ← rnd_eq_zero_iff hf (sq_nonneg b)]
  have ha := rnd_nonneg hf (sq_nonneg a); have hb := rnd_nonneg hf (sq_nonneg b)
  have r := fun q => rep_rnd (p := f.p) (emin := f.emin) hf.one_le q
  constructor
  · intro h
    have h1 := rep_le_rnd (emin := f.emin) hf.one_le (le_add_of_nonneg_right hb) (r (a ^ 2))
    have h2 := rep_le_rnd (emin := f.emin) hf.one_le (le_add_of_nonneg_left ha) (r (b ^ 2))
    exact ⟨by linarith, by linarith⟩
  · rintro ⟨h1, h2⟩
    rw [h1, h2, add_zero]; exact rnd_rep Rep.zero

/-- The threshold of overflow, with the relative size of a last place. -/
theorem threshold_eq (f : Format) : threshold f = (1 - uq f / 2) * 2 ^ f.emax := by
  unfold threshold uq
  rw [show (f.emax : ℤ) - f.p - 1 = f.emax + (-(f.p : ℤ)) + -1 by ring, two_zpow_add, two_zpow_add, zpow_natCast]
  norm_num; ring

theorem emin_small (hf : f.Wide) : (2:ℚ) ^ f.emin ≤ uq f / 8 * 2 ^ f.emax := by
  have hp := hf.p; have h1 := hf.emin; have h2 := hf.emax
  have : uq f / 8 * 2 ^ f.emax = (2:ℚ) ^ (-(f.p:ℤ) + f.emax + -3) := by
    unfold uq
    rw [two_zpow_add, two_zpow_add, zpow_natCast]; norm_num; ring
  rw [this]
  exact two_zpow_le (by omega)

theorem rnd_sum_le (hf : f.Wide) (a b : ℚ) :
    |rnd f.p f.emin (a ^ 2) + rnd f.p f.emin (b ^ 2) - (a ^ 2 + b ^ 2)| ≤ uq f * (a ^ 2 + b ^ 2) + uq f / 8 * 2 ^ f.emax := by
  have h1 := abs_rnd_le (p := f.p) (emin := f.emin) (a ^ 2); have h2 := abs_rnd_le (p := f.p) (emin := f.emin) (b ^ 2)
  rw [abs_of_nonneg (sq_nonneg a)] at h1; rw [abs_of_nonneg (sq_nonneg b)] at h2
  have h3 := emin_small hf
  rw [show rnd f.p f.emin (a ^ 2) + rnd f.p f.emin (b ^ 2) - (a ^ 2 + b ^ 2) =
    (rnd f.p f.emin (a ^ 2) - a ^ 2) + (rnd f.p f.emin (b ^ 2) - b ^ 2) by ring]
  refine (abs_add_le _ _).trans ?_
  unfold uq at *
  linarith

/-- C85, exactly when the magnitude is lost to zero: both squares are at most half the least subnormal. -/
theorem C85_zero_iff [MixedSqrt (Flt f)] {ε : ℝ} (hf : f.Wide) (hs : SqrtWithin f ε) (hε : ε < 1)
    (hi : ∀ v, Returns (MixedSqrt.sqrt (.inf false : Flt f)) v → ¬v.IsFinite)
    (z : Cartesian (Flt f)) (h1 : z.re.IsFinite) (h2 : z.im.IsFinite) :
    (∃ v : Flt f, Returns z.mag v ∧ v.IsFinite ∧ v.val = 0) ↔
      2 * z.re.val ^ 2 ≤ 2 ^ f.emin ∧ 2 * z.im.val ^ 2 ≤ 2 ^ f.emin := by
  obtain ⟨x, y⟩ := z
  simp only at h1 h2
  have e : (Cartesian.mag ⟨x, y⟩ : Prog (Flt f)) = MixedSqrt.sqrt ((x.mul x).add (y.mul y)) := rfl
  have n1 := rnd_nonneg hf (sq_nonneg x.val); have n2 := rnd_nonneg hf (sq_nonneg y.val)
  have n3 := rnd_nonneg hf (add_nonneg n1 n2)
  have hu := uq_pos (f := f)
  rw [e, ← mag_arg_zero hf]
  rcases mag_arg hf h1 h2 with ⟨-, -, -, h⟩ | ⟨h, h'⟩
  · obtain ⟨r, a1, -, a3, a4⟩ := hs _ h.valid h.fin (by rw [h.val]; exact n3)
    rw [h.val] at a4
    constructor
    · rintro ⟨v, b1, b2, b3⟩
      rw [b1.unique a1] at b3
      rw [b3] at a4
      by_contra hc
      have hpos := Real.sqrt_pos.mpr (by exact_mod_cast lt_of_le_of_ne n3 (Ne.symm hc) :
        (0:ℝ) < (rnd f.p f.emin (rnd f.p f.emin (x.val ^ 2) + rnd f.p f.emin (y.val ^ 2)) : ℚ))
      rw [Rat.cast_zero, zero_sub, abs_neg, abs_of_pos hpos] at a4
      nlinarith
    · intro h0
      refine ⟨r, a1, a3, ?_⟩
      rw [h0] at a4
      simp only [Rat.cast_zero, Real.sqrt_zero, sub_zero, mul_zero] at a4
      exact_mod_cast abs_eq_zero.mp (le_antisymm a4 (abs_nonneg _))
  · rw [h']
    constructor
    · rintro ⟨v, b1, b2, -⟩
      exact absurd b2 (hi v b1)
    · intro h0
      have ⟨c1, c2⟩ := (mag_arg_zero hf).mp h0
      have c3 := emin_small hf
      have c4 := threshold_eq f
      have c5 := (abs_le.mp (rnd_sum_le hf x.val y.val)).2
      have hu' := uq_le hf
      have hm : (0:ℚ) < 2 ^ f.emax := by positivity
      have : uq f / 8 * 2 ^ f.emax ≤ 1 / 80 * 2 ^ f.emax := mul_le_mul_of_nonneg_right (by linarith) hm.le
      have : (1 - uq f / 2) * 2 ^ f.emax ≥ 9 / 10 * 2 ^ f.emax := mul_le_mul_of_nonneg_right (by linarith) hm.le
      have : uq f * (x.val ^ 2 + y.val ^ 2) ≤ 1 * (x.val ^ 2 + y.val ^ 2) :=
        mul_le_mul_of_nonneg_right (by linarith) (by positivity)
      exfalso
      rcases h with h | h | h <;> linarith

/-- C85, when the magnitude is not lost to infinity: the true sum of squares is at most `(1 - 2·2^-p)·2^emax`. -/
theorem C85_finite [MixedSqrt (Flt f)] {ε : ℝ} (hf : f.Wide) (hs : SqrtWithin f ε) (hε : ε ≤ 1)
    (z : Cartesian (Flt f)) (h1 : z.re.IsFinite) (h2 : z.im.IsFinite)
    (h : z.re.val ^ 2 + z.im.val ^ 2 ≤ (1 - 2 / 2 ^ f.p) * 2 ^ f.emax) : ∃ v : Flt f, Returns z.mag v ∧ v.IsFinite ∧ 0 ≤ v.val := by
  obtain ⟨x, y⟩ := z
  simp only at h1 h2 h
  have n1 := rnd_nonneg hf (sq_nonneg x.val); have n2 := rnd_nonneg hf (sq_nonneg y.val)
  have hu := uq_pos (f := f); have hu' := uq_le hf
  have hm : (0:ℚ) < 2 ^ f.emax := by positivity
  have e1 : (2:ℚ) / 2 ^ f.p = 2 * uq f := by unfold uq; rw [zpow_neg, zpow_natCast]; ring
  rw [e1] at h
  have c4 := threshold_eq f
  have c5 := (abs_le.mp (rnd_sum_le hf x.val y.val)).2
  have c6 : uq f * (x.val ^ 2 + y.val ^ 2) ≤ uq f * 2 ^ f.emax :=
    mul_le_mul_of_nonneg_left (h.trans (by nlinarith)) hu.le
  have c7 : 0 < uq f * 2 ^ f.emax := by positivity
  have sx := sq_nonneg x.val; have sy := sq_nonneg y.val
  rcases mag_arg hf h1 h2 with ⟨-, -, -, g⟩ | ⟨g, -⟩
  · obtain ⟨r, a1, -, a3, a4⟩ := hs _ g.valid g.fin (by rw [g.val]; exact rnd_nonneg hf (add_nonneg n1 n2))
    refine ⟨r, a1, a3, ?_⟩
    have := (abs_le.mp a4).1
    have hr := Real.sqrt_nonneg ((((x.mul x).add (y.mul y)).val : ℚ) : ℝ)
    have : (0:ℝ) ≤ r.val := by nlinarith
    exact_mod_cast this
  · exfalso
    rcases g with g | g | g <;> nlinarith

example [MixedSqrt (Flt F32)] (h : SqrtWithin F32 (1 / 2 ^ 23)) := C85_finite wide_F32 h (by norm_num) ⟨.fin false (2 ^ 60), .fin true 4⟩ ⟨_, _, rfl⟩ ⟨_, _, rfl⟩
  (by norm_num [Flt.val, F32])

/-- C85, when it is: the true sum of squares is at least `(1 + 2^-p)·2^emax`. Sums between the bounds of this and
`C85_finite`, 3 parts in `2^p` apart, go either way. -/
theorem C85_infinite [MixedSqrt (Flt f)] (hf : f.Wide) (z : Cartesian (Flt f)) (h1 : z.re.IsFinite) (h2 : z.im.IsFinite)
    (h : (1 + 1 / 2 ^ f.p) * 2 ^ f.emax ≤ z.re.val ^ 2 + z.im.val ^ 2) : z.mag = MixedSqrt.sqrt (.inf false) := by
  obtain ⟨x, y⟩ := z
  simp only at h1 h2 h
  have hu := uq_pos (f := f); have hu' := uq_le hf
  have hm : (0:ℚ) < 2 ^ f.emax := by positivity
  have e1 : (1:ℚ) / 2 ^ f.p = uq f := by unfold uq; rw [zpow_neg, zpow_natCast]; ring
  rw [e1] at h
  have c4 := threshold_eq f
  have c5 := (abs_le.mp (rnd_sum_le hf x.val y.val)).1
  rcases mag_arg hf h1 h2 with ⟨-, -, g, -⟩ | ⟨-, g⟩
  · exfalso
    have c6 : (1 - uq f) * ((1 + uq f) * 2 ^ f.emax) ≤ (1 - uq f) * (x.val ^ 2 + y.val ^ 2) :=
      mul_le_mul_of_nonneg_left h (by linarith)
    have c7 : uq f * (uq f * 2 ^ f.emax) ≤ 1 / 10 * (uq f * 2 ^ f.emax) :=
      mul_le_mul_of_nonneg_right (by linarith) (by positivity)
    have c8 : 0 < uq f * 2 ^ f.emax := by positivity
    nlinarith
  · show MixedSqrt.sqrt ((x.mul x).add (y.mul y)) = _
    rw [g]

example [MixedSqrt (Flt F32)] := C85_infinite wide_F32 ⟨.fin false (2 ^ 65), .fin true 4⟩ ⟨_, _, rfl⟩ ⟨_, _, rfl⟩ (by norm_num [Flt.val, F32])

/-- C85, the part that holds, on the widest domain: the sum of squares in range and one square above half the least subnormal.
What is missing: the other finite numbers whose magnitude is a float; for those `C85_zero_iff` and `C85_infinite` say that the
magnitude is lost. -/
theorem C85_partial [MixedSqrt (Flt f)] {ε : ℝ} (hf : f.Wide) (hs : SqrtWithin f ε) (hε : ε < 1)
    (hi : ∀ v, Returns (MixedSqrt.sqrt (.inf false : Flt f)) v → ¬v.IsFinite)
    (z : Cartesian (Flt f)) (h1 : z.re.IsFinite) (h2 : z.im.IsFinite)
    (hlo : 2 ^ f.emin < 2 * z.re.val ^ 2 ∨ 2 ^ f.emin < 2 * z.im.val ^ 2)
    (hhi : z.re.val ^ 2 + z.im.val ^ 2 ≤ (1 - 2 / 2 ^ f.p) * 2 ^ f.emax) :
    ∃ v : Flt f, Returns z.mag v ∧ v.IsFinite ∧ 0 < v.val := by
  obtain ⟨v, a1, a2, a3⟩ := C85_finite hf hs hε.le z h1 h2 hhi
  refine ⟨v, a1, a2, lt_of_le_of_ne a3 fun h0 => ?_⟩
  obtain ⟨g1, g2⟩ := (C85_zero_iff hf hs hε hi z h1 h2).mp ⟨v, a1, a2, h0.symm⟩
  rcases hlo with h | h <;> linarith

/-- The hypotheses hold of parts near both ends: `2^-74` (its square is just above half the least subnormal, `2^-150`) with 0,
and `2^63` with `2^63`; and the bound of `C85_zero_iff` is met by `2^-75`. -/
example : (2:ℚ) ^ F32.emin < 2 * (Flt.fin false (1 / 2 ^ 74) : Flt F32).val ^ 2 ∧
    2 * (Flt.fin false (1 / 2 ^ 75) : Flt F32).val ^ 2 ≤ 2 ^ F32.emin ∧
    (Flt.fin false (2 ^ 63) : Flt F32).val ^ 2 + (Flt.fin false (2 ^ 63) : Flt F32).val ^ 2 ≤ (1 - 2 / 2 ^ F32.p) * 2 ^ F32.emax ∧
    (1 + 1 / 2 ^ F32.p) * 2 ^ F32.emax ≤
      (Flt.fin false (12 * 2 ^ 60) : Flt F32).val ^ 2 + (Flt.fin true (12 * 2 ^ 60) : Flt F32).val ^ 2 := by
  refine ⟨?_, ?_, ?_, ?_⟩ <;> norm_num [Flt.val, F32]

/-- The crate's own root returns nothing on `+∞`, so it meets the hypothesis of `C85_zero_iff`. -/
example (hf : f.Wide) : ∀ v, Returns (niirf (.i32 .checked) (.inf false : Flt f) 2) v → ¬v.IsFinite :=
  fun _ h => absurd h fun h => h.not_panics (C71_counterexample_debug hf false 2)

end MixedNum
