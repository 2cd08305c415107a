import Verif.Lemmas.SqrtRun
import Verif.Props.AddSub
import Verif.Lemmas.Run
/-! # C49, C50: the NIIRF square root on signed fixed point -/

namespace MixedNum
variable {m : Mode} {W F : ℕ}

namespace Fixed

theorem fits_signed_of {K : ℕ} (hK : F + K + 1 ≤ W) {c : ℤ} (h0 : 0 ≤ c) (hc : c < 2 ^ K) : Fits true W (c * 2 ^ F) := by
  have h := pow_le_of_bits (k := K) hK
  have hP : (0:ℤ) < 2 ^ F := by positivity
  rw [fits_signed]
  have : 0 ≤ c * 2 ^ F := by positivity
  constructor <;> nlinarith

theorem sqrt_normalised {cn : Counter} (hcn : cn.Upto W) (hF : 2 ≤ F) {K : ℕ} (hK : F + K + 1 = W) (hK2 : 2 ≤ K) (h16 : F < 4 → 4 ≤ K) {x x' t : Fixed m true W F}
    {k : ℤ} (hx : x.val ≠ 0) (ha : MixedAbs.abs x = pure x') (hn : Returns (niirfNormalize cn x') (t, k))
    (h1 : 2 ^ F ≤ 4 * t.val) (h2 : t.val < 2 ^ F) (hN : Normal x'.val t.val k) (hkW : |k| ≤ W) :
    ∃ z, Returns (niirf cn x 2) z ∧ |(z.val : ℝ) * u F - Real.sqrt (x'.val * u F)| ≤
      (996 / 1000000 + 2 * ((ulps F + 1) * u F)) * Real.sqrt (x'.val * u F) + (ulps F / 2 + 1) * u F := by
  have hu := u_pos F
  refine niirf_close hcn hF hx ha hn h1 h2 hN hkW
    (fits_signed_of hK.le (by norm_num) (lt_of_lt_of_le (by norm_num) (pow_le_pow_right₀ (by norm_num) hK2)))
    (M := 2 ^ K) (fun n _ h => fits_of_abs hK.le h) ?_ (scale_bound hF ?_ fun h => ?_) (.inr ⟨rfl, by omega⟩)
  · have := x'.fits
    rw [fits_signed] at this
    have h3 : (x'.val : ℝ) < 2 ^ (W - 1) := by exact_mod_cast this.2
    rw [show W - 1 = K + F by omega, pow_add] at h3
    calc (x'.val : ℝ) * u F < 2 ^ K * 2 ^ F * u F := mul_lt_mul_of_pos_right h3 hu
      _ = 2 ^ K := by rw [mul_assoc, pow_mul_u, mul_one]
  · calc (2:ℝ) ≤ 2 ^ 2 := by norm_num
      _ ≤ 2 ^ K := pow_le_pow_right₀ (by norm_num) hK2
  · calc (16:ℝ) = 2 ^ 4 := by norm_num
      _ ≤ 2 ^ K := pow_le_pow_right₀ (by norm_num) (h16 h)

theorem abs_signed {x : Fixed m true W F} (h : Fits true W |x.val|) :
    ∃ x' : Fixed m true W F, MixedAbs.abs x = pure x' ∧ x'.val = |x.val| := ⟨mkv _ h, fit_of_fits h, rfl⟩

theorem sqrt_signed {cn : Counter} (hcn : cn.Upto W) (hF : 2 ≤ F) (hW : 8 ≤ W) (hK : F + 4 ≤ W) {x : Fixed m true W F} (hx : x.val ≠ 0)
    (hm : Fits true W |x.val|) :
    ∃ z, Returns (niirf cn x 2) z ∧ |(z.val : ℝ) * u F - Real.sqrt (|(x.val : ℝ)| * u F)| ≤
      (996 / 1000000 + 2 * ((ulps F + 1) * u F)) * Real.sqrt (|(x.val : ℝ)| * u F) + (ulps F / 2 + 1) * u F := by
  obtain ⟨x', ha, va⟩ := abs_signed hm
  have h4 : Fits true W (4 * 2 ^ F) := fits_signed_of (K := 3) (by omega) (by norm_num) (by norm_num)
  have hx' : 0 < x'.val := by rw [va]; exact abs_pos.mpr hx
  obtain ⟨t, k, hn, h1, h2, hN, hkW⟩ := normalize_fixed hcn hF h4 hx'
  have := sqrt_normalised hcn hF (K := W - F - 1) (by omega) (by omega) (by omega) hx ha hn h1 h2 hN hkW
  rw [va] at this; push_cast at this; exact this

theorem div_pow_eq (n : ℝ) : n / 2 ^ F = n * u F := by unfold u; ring

end Fixed
open Fixed

/-! ## C49 -/

/-- C49: on every signed fixed-point type of 8 to 128 bits with at least four integer bits (sign included) and at least
two fraction bits, `mixed_sqrt` of a positive number returns, and the result is within 0.1% + 12 units of relative
error and 4 units in the last place of the true root. -/
theorem C49_accuracy (hF : 2 ≤ F) (hW : 8 ≤ W) (hW' : W ≤ 128) (hK : F + 4 ≤ W) (x : Fixed m true W F) (hx : 0 < x.val) :
    ∃ z, Returns (MixedSqrt.sqrt x) z ∧ |(z.val : ℝ) / 2 ^ F - Real.sqrt (x.val / 2 ^ F)| ≤
      (1 / 1000 + 12 / 2 ^ F) * Real.sqrt (x.val / 2 ^ F) + 4 / 2 ^ F := by
  obtain ⟨z, hz, hb⟩ := sqrt_signed (Counter.upto_width m hW') hF hW hK hx.ne' (by rw [abs_of_pos hx]; exact x.fits)
  refine ⟨z, hz, ?_⟩
  rw [abs_of_pos (show (0:ℝ) < x.val by exact_mod_cast hx)] at hb
  simp only [div_pow_eq]
  have hu := u_pos F
  have hC : ulps F ≤ 5 := by unfold ulps; split_ifs <;> norm_num
  have hCu := mul_le_mul_of_nonneg_right hC hu.le
  have hX := Real.sqrt_nonneg (x.val * u F)
  refine hb.trans (add_le_add (mul_le_mul_of_nonneg_right ?_ hX) ?_) <;> linarith

example := C49_accuracy (by decide) (by decide) (by decide) (by decide) (fx .checked true 16 8 700) (by decide)

/-- C49, with at least eight fraction bits: 0.1% + 4.5 units of relative error and 2 units in the last place. -/
theorem C49_fine (hF : 8 ≤ F) (hW : W ≤ 128) (hK : F + 4 ≤ W) (x : Fixed m true W F) (hx : 0 < x.val) :
    ∃ z, Returns (MixedSqrt.sqrt x) z ∧ |(z.val : ℝ) / 2 ^ F - Real.sqrt (x.val / 2 ^ F)| ≤
      (1 / 1000 + 4.5 / 2 ^ F) * Real.sqrt (x.val / 2 ^ F) + 2 / 2 ^ F := by
  obtain ⟨z, hz, hb⟩ := sqrt_signed (Counter.upto_width m hW) (by omega) (by omega) hK hx.ne' (by rw [abs_of_pos hx]; exact x.fits)
  refine ⟨z, hz, ?_⟩
  rw [abs_of_pos (show (0:ℝ) < x.val by exact_mod_cast hx)] at hb
  simp only [div_pow_eq]
  have hu := u_pos F
  have hC : ulps F = 5 / 4 := by unfold ulps; rw [if_neg (by omega), if_neg (by omega)]
  rw [hC] at hb
  have hX := Real.sqrt_nonneg (x.val * u F)
  refine hb.trans (add_le_add (mul_le_mul_of_nonneg_right ?_ hX) ?_) <;> norm_num <;> linarith

/-- C49, negative numbers: the root of the absolute value is computed, whenever that is representable. -/
theorem C49_negative (hF : 2 ≤ F) (hW : 8 ≤ W) (hW' : W ≤ 128) (hK : F + 4 ≤ W) (x : Fixed m true W F) (hx : x.val < 0)
    (hm : -(2 ^ (W - 1)) < x.val) :
    ∃ z, Returns (MixedSqrt.sqrt x) z ∧ |(z.val : ℝ) / 2 ^ F - Real.sqrt (-x.val / 2 ^ F)| ≤
      (1 / 1000 + 12 / 2 ^ F) * Real.sqrt (-x.val / 2 ^ F) + 4 / 2 ^ F := by
  obtain ⟨z, hz, hb⟩ := sqrt_signed (Counter.upto_width m hW') hF hW hK hx.ne (by rw [abs_of_neg hx, fits_signed]; constructor <;> omega)
  refine ⟨z, hz, ?_⟩
  rw [abs_of_neg (show (x.val:ℝ) < 0 by exact_mod_cast hx)] at hb
  simp only [div_pow_eq]
  have hu := u_pos F
  have hC : ulps F ≤ 5 := by unfold ulps; split_ifs <;> norm_num
  have hCu := mul_le_mul_of_nonneg_right hC hu.le
  have hX := Real.sqrt_nonneg (-x.val * u F)
  refine hb.trans (add_le_add (mul_le_mul_of_nonneg_right ?_ hX) ?_) <;> linarith

example := C49_negative (by decide) (by decide) (by decide) (by decide) (fx .checked true 16 8 (-700)) (by decide) (by decide)

/-- C49, zero. -/
theorem C49_zero {s : Bool} (x : Fixed m s W F) (hx : x.val = 0) : ∃ z, Returns (MixedSqrt.sqrt x) z ∧ z.val = 0 := by
  refine ⟨MixedZero.zero, .of_eq ?_, rfl⟩
  show niirf (.i32 m) x 2 = _
  unfold niirf
  rw [if_pos (by rw [beq_def, zero_val, decide_eq_true hx])]

example : ∃ z, Returns (MixedSqrt.sqrt (fx .checked true 32 16 (2 ^ 17))) z ∧
    |(z.val : ℝ) / 2 ^ 16 - Real.sqrt (((fx .checked true 32 16 (2 ^ 17)).val : ℝ) / 2 ^ 16)| ≤
      (1 / 1000 + 4.5 / 2 ^ 16) * Real.sqrt (((fx .checked true 32 16 (2 ^ 17)).val : ℝ) / 2 ^ 16) + 2 / 2 ^ 16 :=
  C49_fine (by norm_num) (by norm_num) (by norm_num) _ (by decide)

/-! ## C50 -/

namespace Fixed

theorem normalize_panics {cn : Counter} (hcn : cn.Upto 1) (hF : 2 ≤ F) (hW : F + 3 = W) {x : Fixed .checked true W F}
    (h : 4 * x.val < 2 ^ F ∨ 2 ^ F ≤ x.val) : Panics (niirfNormalize cn x) .overflow := by
  have hP : (0:ℤ) < 2 ^ F := by positivity
  have h1 : Fits true W (2 ^ F) := by
    have := fits_signed_of (W := W) (F := F) (K := 2) (by omega) (c := 1) (by norm_num) (by norm_num)
    rwa [one_mul] at this
  have h4 : ¬ Fits true W (4 * 2 ^ F) := by
    rw [fits_signed, show W - 1 = F + 2 by omega, pow_add]; omega
  obtain ⟨q, hq, vq⟩ := lit_eq (m := .checked) h1 (q := 1 / 4) (by norm_num) (by norm_num)
  obtain ⟨o, ho, vo⟩ := lit_eq (m := .checked) h1 (q := 1) (by norm_num) (by norm_num)
  have e4 : (Lit.ofI32 4 : Prog (Fixed .checked true W F)) = Prog.fail .overflow := fit_checked h4
  have lq := lit_quarter hF
  rw [← vq] at lq
  rw [lit_one] at vo
  unfold niirfNormalize
  by_cases hlt : x.val < q.val
  · refine Panics.bind (whileLoop_panic ?_ ?_)
    · simp only [hq, pure_bind, lt_def]; rw [decide_eq_true hlt]
    · rw [hcn _ (by norm_num), pure_bind, e4, Prog.fail_bind]
  · refine Returns.bind_panics (whileLoop_done ?_) (whileLoop_panic ?_ ?_)
    · simp only [hq, pure_bind, lt_def]; rw [decide_eq_false hlt]
    · simp only [ho, pure_bind, le_def]; rw [decide_eq_true (by omega)]
    · rw [hcn _ (by norm_num), pure_bind, e4, Prog.fail_bind]

theorem niirf_panics {cn : Counter} {s : Bool} {x x' : Fixed .checked s W F} {n : ℕ} {e : Panic} (hx : x.val ≠ 0)
    (ha : MixedAbs.abs x = pure x') (hn : Panics (niirfNormalize cn x') e) : Panics (niirf cn x n) e := by
  unfold niirf
  rw [if_neg (by rw [beq_def, zero_val, decide_eq_false hx]; exact Bool.false_ne_true), ha, pure_bind]
  exact hn.bind

end Fixed

/-- C50 is false on the signed types with three integer bits (F = W - 3), which are supported: the literal 4 overflows,
so every positive number outside [0.25, 1) panics in checked builds, whatever the iteration count. -/
theorem C50_counterexample (hF : 2 ≤ F) (hW : F + 3 = W) (x : Fixed .checked true W F) (hx : 0 < x.val)
    (h : 4 * x.val < 2 ^ F ∨ 2 ^ F ≤ x.val) : Panics (MixedSqrt.sqrt x) .overflow := by
  obtain ⟨x', ha, va⟩ := abs_signed (x := x) (by rw [abs_of_pos hx]; exact x.fits)
  rw [abs_of_pos hx] at va
  exact niirf_panics hx.ne' ha (normalize_panics (Counter.upto_i32 _ (by norm_num)) hF hW (by rw [va]; exact h))

example : Panics (MixedSqrt.sqrt (fx .checked true 32 29 (2 ^ 29))) .overflow :=
  C50_counterexample (by norm_num) (by norm_num) _ (by decide) (by decide)

/-- C50 on the types of 8 to 128 bits with F = W - 3: within [0.25, 1) the root is returned with the accuracy of C49. -/
theorem C50_normalised_partial (hW : F + 3 = W) (h8 : 8 ≤ W) (h128 : W ≤ 128) (x : Fixed m true W F) (h1 : 2 ^ F ≤ 4 * x.val)
    (h2 : x.val < 2 ^ F) :
    ∃ z, Returns (MixedSqrt.sqrt x) z ∧ |(z.val : ℝ) / 2 ^ F - Real.sqrt (x.val / 2 ^ F)| ≤
      (1 / 1000 + 8 / 2 ^ F) * Real.sqrt (x.val / 2 ^ F) + 2.5 / 2 ^ F := by
  have hP : (0:ℤ) < 2 ^ F := by positivity
  have hx : 0 < x.val := by omega
  obtain ⟨x', ha, va⟩ := abs_signed (x := x) (by rw [abs_of_pos hx]; exact x.fits)
  rw [abs_of_pos hx] at va
  have f1 : Fits true W (2 ^ F) := by
    have := fits_signed_of (W := W) (F := F) (K := 2) (by omega) (c := 1) (by norm_num) (by norm_num)
    rwa [one_mul] at this
  obtain ⟨z, hz, hb⟩ := sqrt_normalised (Counter.upto_width m h128) (K := 2) (by omega) (by omega) le_rfl (by omega) hx.ne' ha
    (normalize_done _ (by omega) f1 (by rw [va]; exact h1) (by rw [va]; exact h2)) (by rw [va]; exact h1)
    (by rw [va]; exact h2) (.inl ⟨le_refl _, by simp⟩) (by simp)
  refine ⟨z, hz, ?_⟩
  rw [va] at hb
  simp only [div_pow_eq]
  have hu := u_pos F
  have hC : ulps F ≤ 3 := by unfold ulps; rw [if_neg (by omega)]; split_ifs <;> norm_num
  have hCu := mul_le_mul_of_nonneg_right hC hu.le
  have hX := Real.sqrt_nonneg (x.val * u F)
  refine hb.trans (add_le_add (mul_le_mul_of_nonneg_right ?_ hX) ?_) <;> norm_num <;> linarith

example := C50_normalised_partial (by decide) (by decide) (by decide) (fx .checked true 16 13 5000) (by decide) (by decide)

/-- C50, the exact domain on types with F = W - 3 in checked builds. -/
theorem C50_domain (hW : F + 3 = W) (h8 : 8 ≤ W) (h128 : W ≤ 128) (x : Fixed .checked true W F) (hx : 0 < x.val) :
    (∃ z, Returns (MixedSqrt.sqrt x) z) ↔ 2 ^ F ≤ 4 * x.val ∧ x.val < 2 ^ F := by
  constructor
  · rintro ⟨z, hz⟩
    by_contra hc
    exact hz.not_panics (C50_counterexample (by omega) hW x hx (by omega))
  · rintro ⟨h1, h2⟩
    obtain ⟨z, hz, -⟩ := C50_normalised_partial hW h8 h128 x h1 h2
    exact ⟨z, hz⟩

example := C50_domain (F := 5) (W := 8) rfl le_rfl (by norm_num) (fx .checked true 8 5 20) (by decide)

end MixedNum
