import Verif.Props.AtanFixed
import Verif.Props.AddSub
import Verif.Lemmas.Run
/-! # C104, C105: exactly when polynomial atan2 and atan on fixed point return, and their accuracy there -/

namespace MixedNum
variable {m : Mode} {W F : ℕ}

namespace Fixed

theorem fits_aRaw (h : F + 3 ≤ W) : Fits true W (aRaw F) := by
  have hP : (1:ℤ) ≤ 2 ^ F := one_le_pow₀ (by norm_num)
  obtain ⟨a0, a1⟩ := aRaw_bounds F
  exact fits_abs_lt (K := 2) h (by linarith) (by linarith)

/-- The quotient when its denominator is not representable. -/
theorem poly1_overflow (h : F + 3 ≤ W) (y x : Fixed .checked true W F) (hd : ¬ Fits true W (denRaw F x.val y.val)) :
    atanPoly1 y x = Prog.fail .overflow := by
  unfold atanPoly1
  refine (ends_fit_checked _).bind_fail fun n _ => ?_
  rw [powi_two, powi_two]
  refine (ends_fit_checked _).bind_fail fun sx hsx => ?_
  rw [ofF64_def, show roundHalfEven ((9 / 32 : ℚ) * 2 ^ F) = aRaw F from rfl, fit_of_fits (fits_aRaw h), pure_bind]
  refine (ends_fit_checked _).bind_fail fun sy hsy => ?_
  rw [mul_def]
  refine (ends_fit_checked _).bind_fail fun t ht => ?_
  rw [add_def, val_of_fit_checked hsx, val_of_fit_checked ht, val_of_fit_checked hsy, mkv_val]
  rw [show x.val * x.val / 2 ^ F + aRaw F * (y.val * y.val / 2 ^ F) / 2 ^ F = denRaw F x.val y.val from rfl,
    fit_checked hd, Prog.fail_bind]

theorem abs_max_min {a b : ℤ} (h : |b| ≤ |a|) : max |a| |b| * max |a| |b| = a * a ∧ min |a| |b| * min |a| |b| = b * b := by
  rw [max_eq_left h, min_eq_right h, abs_mul_abs_self, abs_mul_abs_self]; exact ⟨rfl, rfl⟩

/-- The denominator in terms of the larger and the smaller coordinate. -/
def denBig (F : ℕ) (a x y : ℤ) : ℤ :=
  max |x| |y| * max |x| |y| / 2 ^ F + a * (min |x| |y| * min |x| |y| / 2 ^ F) / 2 ^ F

theorem denBig_left {x y : ℤ} (h : |y| ≤ |x|) : denBig F (aRaw F) x y = denRaw F x y := by
  unfold denBig denRaw; rw [(abs_max_min h).1, (abs_max_min h).2]

theorem denBig_right {x y : ℤ} (h : |x| ≤ |y|) : denBig F (aRaw F) x y = denRaw F y x := by
  unfold denBig denRaw; rw [max_comm, min_comm, (abs_max_min h).1, (abs_max_min h).2]

theorem lit_aRaw (h : F + 3 ≤ W) {a : Fixed m true W F} (ha : (Lit.ofF64 (9 / 32) : Prog (Fixed m true W F)) = pure a) :
    a.val = aRaw F := by
  rw [ofF64_def, show roundHalfEven ((9 / 32 : ℚ) * 2 ^ F) = aRaw F from rfl, fit_of_fits (fits_aRaw h)] at ha
  rw [← Prog.pure_inj ha]; rfl

theorem fits_iff_lt {n : ℤ} (h : 0 ≤ n) : Fits true W n ↔ n < 2 ^ (W - 1) := by
  rw [fits_signed]
  have : (0:ℤ) < 2 ^ (W - 1) := by positivity
  constructor
  · exact fun h => h.2
  · intro h; constructor <;> omega

theorem den_nonneg {b s : ℤ} (hs : |s| ≤ |b|) : 0 ≤ denRaw F b s := by
  have := (den_bounds F hs).1
  have : 0 ≤ b * b / 2 ^ F := Int.ediv_nonneg (mul_self_nonneg b) (by positivity)
  omega

theorem max_sq (x y : ℤ) (c : ℤ) : c ≤ max |x| |y| * max |x| |y| ↔ c ≤ x * x ∨ c ≤ y * y := by
  rcases le_total |y| |x| with h | h
  · rw [(abs_max_min h).1]
    have := sq_le_of_abs h
    constructor
    · exact .inl
    · rintro (h | h) <;> omega
  · rw [max_comm, (abs_max_min h).1]
    have := sq_le_of_abs h
    constructor
    · exact .inr
    · rintro (h | h) <;> omega

/-- `atan2` when a coordinate is the minimum. -/
theorem atan2_abs_overflow (y x : Fixed .checked true W F) (h : ¬ (Fits true W |y.val| ∧ Fits true W |x.val|)) :
    atan2Poly y x = Prog.fail .overflow := by
  unfold atan2Poly
  refine (ends_fit_checked _).bind_fail fun ya hya => ?_
  have hy : Fits true W |y.val| := by rw [← val_of_fit_checked hya]; exact ya.fits
  have hx : ¬ Fits true W |x.val| := fun hx => h ⟨hy, hx⟩
  rw [abs_def, fit_checked hx, Prog.fail_bind]

/-- `atan2` when the denominator is not representable. -/
theorem atan2_den_overflow (h : F + 3 ≤ W) (y x : Fixed .checked true W F) (hfy : Fits true W |y.val|)
    (hfx : Fits true W |x.val|) (hx : x.val ≠ 0) (hy : y.val ≠ 0)
    (hd : ¬ Fits true W (denBig F (aRaw F) x.val y.val)) : atan2Poly y x = Prog.fail .overflow := by
  obtain ⟨ph, pi, z, nh, np, d, -, -, -, -, -, -, e⟩ := atan2_step h y x hfy hfx
  rw [e]
  have p1 : |y.val| ≤ |x.val| → atanPoly1 y x = Prog.fail .overflow := fun hc =>
    poly1_overflow h y x (by rwa [← denBig_left hc])
  have p2 : |x.val| ≤ |y.val| → atanPoly1 x y = Prog.fail .overflow := fun hc =>
    poly1_overflow h x y (by rwa [← denBig_right hc])
  rw [if_neg hy, if_neg hx, if_neg hx]
  split_ifs with h1 h2 h3 h4 h5 h6 h7
  · exact p1 h3.le
  · rw [p2 (not_lt.mp h3), Prog.fail_bind]
  · rw [p2 h4, Prog.fail_bind]
  · rw [p1 (not_le.mp h4).le, Prog.fail_bind]
  · exact p1 h6.le
  · rw [p2 (not_lt.mp h6), Prog.fail_bind]
  · rw [p2 h7, Prog.fail_bind]
  · rw [p1 (not_le.mp h7).le, Prog.fail_bind]

theorem denBig_nonneg (x y : ℤ) : 0 ≤ denBig F (aRaw F) x y := by
  rcases le_total |y| |x| with h | h
  · rw [denBig_left h]; exact den_nonneg h
  · rw [denBig_right h]; exact den_nonneg h

/-- The three outcomes. -/
theorem atan2_cases (h : F + 3 ≤ W) (y x : Fixed .checked true W F) :
    ((∃ v, atan2Poly y x = pure v) ∧ Fits true W |y.val| ∧ Fits true W |x.val| ∧
      (x.val = 0 ∨ y.val = 0 ∨
        (2 ^ F ≤ max |x.val| |y.val| * max |x.val| |y.val| ∧ denBig F (aRaw F) x.val y.val < 2 ^ (W - 1)))) ∨
    (atan2Poly y x = Prog.fail .divByZero ∧ x.val ≠ 0 ∧ y.val ≠ 0 ∧
      ¬ 2 ^ F ≤ max |x.val| |y.val| * max |x.val| |y.val|) ∨
    (atan2Poly y x = Prog.fail .overflow ∧ (¬ (Fits true W |y.val| ∧ Fits true W |x.val|) ∨
      (x.val ≠ 0 ∧ y.val ≠ 0 ∧ 2 ^ F ≤ max |x.val| |y.val| * max |x.val| |y.val| ∧
        ¬ denBig F (aRaw F) x.val y.val < 2 ^ (W - 1)))) := by
  by_cases hf : Fits true W |y.val| ∧ Fits true W |x.val|
  swap
  · exact .inr (.inr ⟨atan2_abs_overflow y x hf, .inl hf⟩)
  have ret : x.val = 0 ∨ y.val = 0 ∨ (2 ^ F ≤ max |x.val| |y.val| * max |x.val| |y.val| ∧
      denBig F (aRaw F) x.val y.val < 2 ^ (W - 1)) → ∃ v, atan2Poly y x = pure v := fun hc => by
    obtain ⟨v, hv, -⟩ := atan2_value h y x hf.1 hf.2
      (fun h1 h2 h3 => (fits_iff_lt (den_nonneg h3.le)).mpr (by rw [← denBig_left h3.le]; tauto))
      (fun h1 h2 h3 => (fits_iff_lt (den_nonneg h3)).mpr (by rw [← denBig_right h3]; tauto))
      (by rw [max_sq] at hc; tauto)
    exact ⟨v, hv⟩
  by_cases hx : x.val = 0
  · exact .inl ⟨ret (.inl hx), hf.1, hf.2, .inl hx⟩
  by_cases hy : y.val = 0
  · exact .inl ⟨ret (.inr (.inl hy)), hf.1, hf.2, .inr (.inl hy)⟩
  by_cases hs : 2 ^ F ≤ max |x.val| |y.val| * max |x.val| |y.val|
  swap
  · have hs' := hs
    rw [max_sq, not_or, not_le, not_le] at hs'
    refine .inr (.inl ⟨?_, hx, hy, hs⟩)
    obtain ⟨ph, pi, z, nh, np, d, -, -, -, -, -, -, e⟩ := atan2_step h y x hf.1 hf.2
    rw [e]
    have p1 : |y.val| ≤ |x.val| → atanPoly1 y x = Prog.fail .divByZero := fun hc => poly1_panics h y x hc hs'.1
    have p2 : |x.val| ≤ |y.val| → atanPoly1 x y = Prog.fail .divByZero := fun hc => poly1_panics h x y hc hs'.2
    rw [if_neg hy, if_neg hx, if_neg hx]
    split_ifs with h1 h2 h3 h4 h5 h6 h7
    · exact p1 h3.le
    · rw [p2 (not_lt.mp h3), Prog.fail_bind]
    · rw [p2 h4, Prog.fail_bind]
    · rw [p1 (not_le.mp h4).le, Prog.fail_bind]
    · exact p1 h6.le
    · rw [p2 (not_lt.mp h6), Prog.fail_bind]
    · rw [p2 h7, Prog.fail_bind]
    · rw [p1 (not_le.mp h7).le, Prog.fail_bind]
  by_cases hd : denBig F (aRaw F) x.val y.val < 2 ^ (W - 1)
  · exact .inl ⟨ret (.inr (.inr ⟨hs, hd⟩)), hf.1, hf.2, .inr (.inr ⟨hs, hd⟩)⟩
  · refine .inr (.inr ⟨atan2_den_overflow h y x hf.1 hf.2 hx hy ?_, .inr ⟨hx, hy, hs, hd⟩⟩)
    rw [fits_iff_lt (denBig_nonneg _ _)]; exact hd

end Fixed

/-! ## C104

Stored integers: `x`, `y` the operands, `a` the constant 0.28125 in the type, `M` and `n` the larger and the smaller
absolute value. -/

/-- C104, value: where nothing overflows and the larger square is at least one unit, `atan2` returns with error at most
0.00492 + 3 ulp + 7 ulp / M². Both overflow modes. -/
theorem C104_accuracy (h : F + 3 ≤ W) (y x a : Fixed m true W F)
    (ha : (Lit.ofF64 (9 / 32) : Prog (Fixed m true W F)) = pure a)
    (hy : |y.val| < 2 ^ (W - 1)) (hx : |x.val| < 2 ^ (W - 1))
    (hD : 2 ^ F ≤ max |x.val| |y.val| * max |x.val| |y.val|)
    (hR : max |x.val| |y.val| * max |x.val| |y.val| / 2 ^ F +
      a.val * (min |x.val| |y.val| * min |x.val| |y.val| / 2 ^ F) / 2 ^ F < 2 ^ (W - 1)) :
    ∃ v : Fixed m true W F, Returns (atan2Poly y x) v ∧
      |(v.val : ℝ) / 2 ^ F - Complex.arg ⟨x.val / 2 ^ F, y.val / 2 ^ F⟩| ≤
        0.00492 + (3 + 7 / (max |(x.val : ℝ) / 2 ^ F| |(y.val : ℝ) / 2 ^ F|) ^ 2) / 2 ^ F := by
  have hD' := (Fixed.max_sq _ _ _).mp hD
  have hR' : Fixed.denBig F a.val x.val y.val < 2 ^ (W - 1) := hR
  rw [Fixed.lit_aRaw h ha] at hR'
  obtain ⟨v, hv, hA⟩ := Fixed.atan2_value h y x ((Fixed.fits_iff_lt (abs_nonneg _)).mpr hy)
    ((Fixed.fits_iff_lt (abs_nonneg _)).mpr hx)
    (fun _ _ hc => (Fixed.fits_iff_lt (Fixed.den_nonneg hc.le)).mpr (by rwa [← Fixed.denBig_left hc.le]))
    (fun _ _ hc => (Fixed.fits_iff_lt (Fixed.den_nonneg hc)).mpr (by rwa [← Fixed.denBig_right hc])) (by tauto)
  exact ⟨v, .of_eq hv, hA.accuracy hD'⟩

example := C104_accuracy (m := .wrapping) (W := 32) (F := 16) (by decide) (fx .wrapping true 32 16 (3 * 2 ^ 16)) (fx .wrapping true 32 16 (-2 ^ 18))
  (fx .wrapping true 32 16 18432) (by kernel_rfl) (by decide) (by decide) (by decide) (by decide)

/-- C104, when: with overflow checks, `atan2` returns exactly if both operands differ from the minimum and one of them
is zero or the larger square is at least one unit and the denominator is representable. -/
theorem C104_returns (h : F + 3 ≤ W) (y x a : Fixed .checked true W F)
    (ha : (Lit.ofF64 (9 / 32) : Prog (Fixed .checked true W F)) = pure a) :
    (∃ v, Returns (atan2Poly y x) v) ↔ |y.val| < 2 ^ (W - 1) ∧ |x.val| < 2 ^ (W - 1) ∧
      (x.val = 0 ∨ y.val = 0 ∨ (2 ^ F ≤ max |x.val| |y.val| * max |x.val| |y.val| ∧
        max |x.val| |y.val| * max |x.val| |y.val| / 2 ^ F +
          a.val * (min |x.val| |y.val| * min |x.val| |y.val| / 2 ^ F) / 2 ^ F < 2 ^ (W - 1))) := by
  have ea := Fixed.lit_aRaw h ha
  have fy := Fixed.fits_iff_lt (W := W) (abs_nonneg y.val)
  have fx := Fixed.fits_iff_lt (W := W) (abs_nonneg x.val)
  rw [ea, ← fy, ← fx]
  show _ ↔ _ ∧ _ ∧ (_ ∨ _ ∨ (_ ∧ Fixed.denBig F (Fixed.aRaw F) x.val y.val < _))
  rcases Fixed.atan2_cases h y x with ⟨⟨v, hv⟩, h1, h2, h3⟩ | ⟨hv, h1, h2, h3⟩ | ⟨hv, h1⟩
  · exact ⟨fun _ => ⟨h1, h2, h3⟩, fun _ => ⟨v, .of_eq hv⟩⟩
  · refine ⟨fun ⟨v, hr⟩ => (hr.not_panics (.of_eq hv)).elim, fun hc => ?_⟩
    exfalso; tauto
  · refine ⟨fun ⟨v, hr⟩ => (hr.not_panics (.of_eq hv)).elim, fun hc => ?_⟩
    exfalso; tauto

example := (C104_returns (W := 32) (F := 16) (by decide) (fx .checked true 32 16 (3 * 2 ^ 16)) (fx .checked true 32 16 (-2 ^ 18))
  (fx .checked true 32 16 18432) (by kernel_rfl)).mpr (by decide)

/-- C104, how it fails: with overflow checks `atan2` panics for a division by zero exactly if both operands are non-zero
and both squares round to zero; in every other failing case it panics for overflow. -/
theorem C104_panics (h : F + 3 ≤ W) (y x : Fixed .checked true W F) :
    (Panics (atan2Poly y x) .divByZero ↔ x.val ≠ 0 ∧ y.val ≠ 0 ∧ x.val * x.val < 2 ^ F ∧ y.val * y.val < 2 ^ F) ∧
      ((∃ v, Returns (atan2Poly y x) v) ∨ Panics (atan2Poly y x) .divByZero ∨ Panics (atan2Poly y x) .overflow) := by
  constructor
  · constructor
    · intro hp
      rcases Fixed.atan2_cases h y x with ⟨⟨v, hv⟩, -⟩ | ⟨hv, h1, h2, h3⟩ | ⟨hv, -⟩
      · exact ((Returns.of_eq hv).not_panics hp).elim
      · rw [Fixed.max_sq, not_or, not_le, not_le] at h3; exact ⟨h1, h2, h3.1, h3.2⟩
      · obtain ⟨N, hN⟩ := hp
        have e := hN N le_rfl
        rw [hv] at e; cases e
    · rintro ⟨h1, h2, h3, h4⟩
      exact C43_counterexample h y x h1 h2 h3 h4
  · rcases Fixed.atan2_cases h y x with ⟨⟨v, hv⟩, -⟩ | ⟨hv, -⟩ | ⟨hv, -⟩
    · exact .inl ⟨v, .of_eq hv⟩
    · exact .inr (.inl (.of_eq hv))
    · exact .inr (.inr (.of_eq hv))

example : (28 + 3 ≤ 32) ∧ max |(fx .checked true 32 28 (2 ^ 29)).val| |(fx .checked true 32 28 (-2 ^ 28)).val| = 2 ^ 29 ∧
    (2 ^ 29 * 2 ^ 29 / 2 ^ 28 + 9 * 2 ^ 23 * (2 ^ 28 * 2 ^ 28 / 2 ^ 28) / 2 ^ 28 : ℤ) < 2 ^ 31 := by decide

/-! ## C105 -/

/-- The constant one. -/
theorem Fixed.one_eq (h : F + 3 ≤ W) : ∃ o : Fixed m true W F, (MixedOne.one : Prog (Fixed m true W F)) = pure o ∧ o.val = 2 ^ F := by
  have hP : (1:ℤ) ≤ 2 ^ F := one_le_pow₀ (by norm_num)
  have hf : Fits true W (1 * 2 ^ F) := fits_abs_lt (K := 2) h (by linarith) (by linarith)
  exact ⟨mkv _ hf, fit_of_fits hf, by rw [mkv_val, one_mul]⟩

/-- The condition of `atan2` at abscissa one. -/
theorem Fixed.one_condition (h : F + 3 ≤ W) (x : ℤ) : |(2:ℤ) ^ F| < 2 ^ (W - 1) ∧
    2 ^ F ≤ max |(2:ℤ) ^ F| |x| * max |(2:ℤ) ^ F| |x| ∧
    (Fixed.denBig F (Fixed.aRaw F) (2 ^ F) x < 2 ^ (W - 1) ↔
      |x| < 2 ^ F ∨ x * x / 2 ^ F + Fixed.aRaw F < 2 ^ (W - 1)) := by
  have hP : (1:ℤ) ≤ 2 ^ F := one_le_pow₀ (by norm_num)
  have hW := Fixed.pow_le_of_bits (F := F) (k := 2) (W := W) (by omega)
  have e1 : |(2:ℤ) ^ F| = 2 ^ F := abs_of_pos (by omega)
  obtain ⟨a0, a1⟩ := Fixed.aRaw_bounds F
  refine ⟨by rw [e1]; linarith, ?_, ?_⟩
  · rw [Fixed.max_sq]; left; nlinarith
  · rcases lt_or_ge |x| (2 ^ F) with hc | hc
    · have hd : Fixed.denBig F (Fixed.aRaw F) (2 ^ F) x < 2 ^ (W - 1) := by
        have hs : |x| ≤ |(2:ℤ) ^ F| := by rw [e1]; exact hc.le
        rw [Fixed.denBig_left hs]
        have := (Fixed.den_bounds F hs).2
        rw [Int.mul_ediv_cancel _ (by positivity)] at this
        linarith
      exact ⟨fun _ => .inl hc, fun _ => hd⟩
    · have hs : |(2:ℤ) ^ F| ≤ |x| := by rw [e1]; exact hc
      rw [Fixed.denBig_right hs]
      unfold Fixed.denRaw
      rw [Int.mul_ediv_cancel _ (by positivity : (2:ℤ) ^ F ≠ 0), Int.mul_ediv_cancel _ (by positivity : (2:ℤ) ^ F ≠ 0)]
      exact ⟨.inr, fun h => h.resolve_left (by omega)⟩

/-- C105, when: with overflow checks `atan(x)` returns exactly if x is not the minimum and either |x| < 1 or
x² + 0.28125 is representable. -/
theorem C105_returns (h : F + 3 ≤ W) (x a : Fixed .checked true W F)
    (ha : (Lit.ofF64 (9 / 32) : Prog (Fixed .checked true W F)) = pure a) :
    (∃ v, Returns (atanPoly x) v) ↔ |x.val| < 2 ^ (W - 1) ∧
      (|x.val| < 2 ^ F ∨ x.val * x.val / 2 ^ F + a.val < 2 ^ (W - 1)) := by
  obtain ⟨o, ho, vo⟩ := Fixed.one_eq (m := .checked) h
  obtain ⟨c1, c2, c3⟩ := Fixed.one_condition h x.val
  rw [C44_def x o ho, C104_returns h x o a ha, vo, Fixed.lit_aRaw h ha, ← c3]
  have hP : (2:ℤ) ^ F ≠ 0 := by positivity
  constructor
  · rintro ⟨h1, -, h2⟩
    refine ⟨h1, ?_⟩
    rcases h2 with h2 | h2 | h2
    · exact absurd h2 hP
    · rw [c3]; left; rw [h2, abs_zero]; positivity
    · exact h2.2
  · rintro ⟨h1, h2⟩
    exact ⟨h1, c1, .inr (.inr ⟨c2, h2⟩)⟩

example := (C105_returns (W := 32) (F := 16) (by decide) (fx .checked true 32 16 (3 * 2 ^ 16)) (fx .checked true 32 16 18432) (by kernel_rfl)).mpr (by decide)

/-- C105, how it fails: it panics for overflow, never for a division by zero. -/
theorem C105_panics (h : F + 3 ≤ W) (x : Fixed .checked true W F) :
    (∃ v, Returns (atanPoly x) v) ∨ Panics (atanPoly x) .overflow := by
  obtain ⟨o, ho, vo⟩ := Fixed.one_eq (m := .checked) h
  obtain ⟨c1, c2, c3⟩ := Fixed.one_condition h x.val
  rw [C44_def x o ho]
  rcases Fixed.atan2_cases h x o with ⟨⟨v, hv⟩, -⟩ | ⟨-, -, -, hs⟩ | ⟨hv, -⟩
  · exact .inl ⟨v, .of_eq hv⟩
  · rw [vo] at hs; exact absurd c2 hs
  · exact .inr (.of_eq hv)

/-- C105, value: where it does not overflow it is within 0.00492 rad and 10 units in the last place. -/
theorem C105_accuracy (h : F + 3 ≤ W) (x a : Fixed m true W F)
    (ha : (Lit.ofF64 (9 / 32) : Prog (Fixed m true W F)) = pure a) (hx : |x.val| < 2 ^ (W - 1))
    (hR : |x.val| < 2 ^ F ∨ x.val * x.val / 2 ^ F + a.val < 2 ^ (W - 1)) :
    ∃ v : Fixed m true W F, Returns (atanPoly x) v ∧
      |(v.val : ℝ) / 2 ^ F - Real.arctan (x.val / 2 ^ F)| ≤ 0.00492 + 10 / 2 ^ F := by
  obtain ⟨o, ho, vo⟩ := Fixed.one_eq (m := m) h
  obtain ⟨c1, c2, c3⟩ := Fixed.one_condition h x.val
  rw [Fixed.lit_aRaw h ha, ← c3] at hR
  obtain ⟨v, hv, e⟩ := C104_accuracy h x o a ha hx (by rw [vo]; exact c1) (by rw [vo]; exact c2)
    (by rw [vo, Fixed.lit_aRaw h ha]; exact hR)
  rw [C44_def x o ho]
  refine ⟨v, hv, ?_⟩
  have e1 : ((o.val : ℤ) : ℝ) / 2 ^ F = 1 := by rw [vo]; push_cast; exact div_self (by positivity)
  rw [e1, arg_one_right, abs_one] at e
  refine e.trans ?_
  have hM : (1:ℝ) ≤ max 1 |(x.val:ℝ) / 2 ^ F| ^ 2 := one_le_pow₀ (le_max_left _ _)
  have h7 : 7 / max 1 |(x.val:ℝ) / 2 ^ F| ^ 2 ≤ 7 := div_le_self (by norm_num) hM
  have : (3 + 7 / max 1 |(x.val:ℝ) / 2 ^ F| ^ 2) / 2 ^ F ≤ 10 / 2 ^ F :=
    div_le_div_of_nonneg_right (by linarith) (by positivity)
  linarith

example := C105_accuracy (m := .wrapping) (W := 32) (F := 16) (by decide) (fx .wrapping true 32 16 (3 * 2 ^ 16)) (fx .wrapping true 32 16 18432) (by kernel_rfl)
  (by decide) (by decide)

/-- C105 is false as "atan of every number returns": on every signed type with checks, the largest number overflows. -/
theorem C105_counterexample (h : F + 3 ≤ W) (x : Fixed .checked true W F) (hx : x.val = 2 ^ (W - 1) - 1) :
    Panics (atanPoly x) .overflow := by
  refine (C105_panics h x).resolve_left fun hr => ?_
  have hP : (1:ℤ) ≤ 2 ^ F := one_le_pow₀ (by norm_num)
  have hW := Fixed.pow_le_of_bits (F := F) (k := 2) (W := W) (by omega)
  obtain ⟨a0, a1⟩ := Fixed.aRaw_bounds F
  have ha : (Lit.ofF64 (9 / 32) : Prog (Fixed .checked true W F)) = pure (Fixed.mkv _ (Fixed.fits_aRaw h)) :=
    Fixed.fit_of_fits _
  obtain ⟨-, hc⟩ := (C105_returns h x _ ha).mp hr
  have h3 : 3 * 2 ^ F ≤ x.val := by rw [hx]; linarith
  have hx0 : 0 ≤ x.val := by omega
  have h4 : 3 * x.val ≤ x.val * x.val / 2 ^ F := by
    rw [Int.le_ediv_iff_mul_le (by positivity)]; nlinarith
  rcases hc with hc | hc
  · rw [abs_of_nonneg hx0] at hc; omega
  · rw [Fixed.mkv_val] at hc; omega

/-- C105: full property `∀ x, ∃ v, Returns (atanPoly x) v` on every signed type with overflow checks. It holds for all
x with 2x² ≤ 2^(W-F-1). Missing: larger x, where the square of x is not representable. -/
theorem C105_partial (h : F + 3 ≤ W) (x : Fixed m true W F) (hx : 2 * (x.val * x.val) ≤ 2 ^ (W - 1) * 2 ^ F) :
    ∃ v : Fixed m true W F, Returns (atanPoly x) v ∧
      |(v.val : ℝ) / 2 ^ F - Real.arctan (x.val / 2 ^ F)| ≤ 0.00492 + 10 / 2 ^ F := by
  have hP : (1:ℤ) ≤ 2 ^ F := one_le_pow₀ (by norm_num)
  have hW := Fixed.pow_le_of_bits (F := F) (k := 2) (W := W) (by omega)
  obtain ⟨a0, a1⟩ := Fixed.aRaw_bounds F
  have ha : (Lit.ofF64 (9 / 32) : Prog (Fixed m true W F)) = pure (Fixed.mkv _ (Fixed.fits_aRaw h)) :=
    Fixed.fit_of_fits _
  refine C105_accuracy h x _ ha ?_ ?_
  · by_contra hc
    have hc := not_lt.mp hc
    have h2 : (2:ℤ) ^ (W - 1) * 2 ^ (W - 1) ≤ |x.val| * |x.val| := mul_self_le_mul_self (by positivity) hc
    rw [abs_mul_abs_self] at h2
    nlinarith
  · right
    have h1 : x.val * x.val / 2 ^ F * 2 ^ F ≤ x.val * x.val := Int.ediv_mul_le _ (by positivity)
    have h2 : 2 * (x.val * x.val / 2 ^ F) ≤ 2 ^ (W - 1) := by
      refine le_of_mul_le_mul_right (a := 2 ^ F) ?_ (by positivity)
      linarith
    rw [Fixed.mkv_val]
    linarith

example : (16 + 3 ≤ 32) ∧ 2 * ((fx .checked true 32 16 (-(100 * 2 ^ 16))).val * (fx .checked true 32 16 (-(100 * 2 ^ 16))).val) ≤
    2 ^ (32 - 1) * 2 ^ 16 := by decide

end MixedNum
