import Mathlib.Tactic.IntervalCases
import Verif.Lemmas.Real
import Verif.Lemmas.Counter
import Verif.Lemmas.SqrtCore
/-! The NIIRF square root with exact real arithmetic. -/

namespace MixedNum
namespace Niirf

theorem y0_sub_bound {r : ℝ} (h1 : 1 / 2 ≤ r) (h2 : r ≤ 1) : |y0 r - r| ≤ 20834 / 1000000 := by
  unfold y0
  rw [abs_le]; constructor
  · nlinarith [sq_nonneg (r - 3 / 4)]
  · nlinarith [mul_nonneg (show 0 ≤ r - 1 / 2 by linarith) (show 0 ≤ 1 - r by linarith)]

/-- How errors in the factor and in the incoming error propagate through a pass. -/
theorem pass_near {b b' r e e' δb δe : ℝ} (hr : 0 ≤ r) (hr1 : r ≤ 1) (hb : 1 / 2 ≤ b ∧ b ≤ 97 / 100)
    (hq : |1 - b * (2 * r + e)| ≤ 97 / 1000) (hb' : |b' - b| ≤ δb) (he' : |e' - e| ≤ δe) (h3 : |e'| ≤ 3 / 100) :
    |pass b' r e' - pass b r e| ≤ 13 / 100 * δe + 7 / 100 * δb := by
  have e1 : pass b' r e' - pass b r e = (e' - e) * ((1 - b * (2 * r + e)) - b * e') - (b' - b) * (e' * (2 * r + e')) := by
    unfold pass; ring
  have h4 := abs_le.mp h3
  have h5 : |(1 - b * (2 * r + e)) - b * e'| ≤ 13 / 100 := by
    have : |b * e'| ≤ 97 / 100 * (3 / 100) := by
      rw [abs_mul, abs_of_pos (by linarith [hb.1] : 0 < b)]
      exact mul_le_mul hb.2 h3 (abs_nonneg _) (by norm_num)
    calc _ ≤ |1 - b * (2 * r + e)| + |b * e'| := abs_sub _ _
      _ ≤ _ := by linarith
  have h6 : |e' * (2 * r + e')| ≤ 7 / 100 := by
    rw [abs_mul]
    have : |2 * r + e'| ≤ 2 + 3 / 100 := by rw [abs_le]; constructor <;> linarith
    calc |e'| * |2 * r + e'| ≤ 3 / 100 * (2 + 3 / 100) := mul_le_mul h3 this (abs_nonneg _) (by norm_num)
      _ ≤ _ := by norm_num
  rw [e1]
  calc _ ≤ |(e' - e) * ((1 - b * (2 * r + e)) - b * e')| + |(b' - b) * (e' * (2 * r + e'))| := abs_sub _ _
    _ ≤ δe * (13 / 100) + δb * (7 / 100) := by
      rw [abs_mul, abs_mul]
      exact add_le_add (mul_le_mul he' h5 (abs_nonneg _) ((abs_nonneg _).trans he'))
        (mul_le_mul hb' h6 (abs_nonneg _) ((abs_nonneg _).trans hb'))
    _ = _ := by ring

theorem pass_eq (b r y : ℝ) : b * (r ^ 2 - y ^ 2) + y = r + pass b r (y - r) := by unfold pass; ring

/-! ### The table and the start value -/

theorem f64_close : ∀ q ∈ [(0.961914 : ℚ), 0.840332, 0.782715, 0.734869, 0.691406, 0.654297, 0.622070, 0.595215,
    0.573731, 0.556152, 0.516113, 0.502930, 0.354167], |f64Round q - q| ≤ 1 / 10 ^ 15 := by decide +kernel

/-- The factor for a normalised argument. -/
noncomputable def betaV (t : ℝ) : ℝ :=
  if t < 5 / 16 then (f64Round 0.961914 : ℚ) else if t < 6 / 16 then (f64Round 0.840332 : ℚ)
  else if t < 7 / 16 then (f64Round 0.782715 : ℚ) else if t < 8 / 16 then (f64Round 0.734869 : ℚ)
  else if t < 9 / 16 then (f64Round 0.691406 : ℚ) else if t < 10 / 16 then (f64Round 0.654297 : ℚ)
  else if t < 11 / 16 then (f64Round 0.622070 : ℚ) else if t < 12 / 16 then (f64Round 0.595215 : ℚ)
  else if t < 13 / 16 then (f64Round 0.573731 : ℚ) else if t < 14 / 16 then (f64Round 0.556152 : ℚ)
  else if t < 15 / 16 then (f64Round 0.516113 : ℚ) else (f64Round 0.502930 : ℚ)

theorem beta_real (t : ℝ) : beta t = pure (betaV t) := by
  unfold beta betaV
  simp only [RealI.ofF64_def, pure_bind, RealI.lt_def, decide_eq_true_eq]
  push_cast
  simp only [apply_ite (pure : ℝ → Prog ℝ)]

theorem real_close {q : ℚ} (h : |f64Round q - q| ≤ 1 / 10 ^ 15) : |((f64Round q : ℚ) : ℝ) - (q : ℝ)| ≤ 1 / 10 ^ 15 := by
  have := (Rat.cast_le (K := ℝ)).mpr h
  push_cast at this; exact this

theorem pick {r : ℝ} {q0 q1 q2 q3 q4 q5 q6 q7 q8 q9 q10 q11 : ℝ}
    (h1 : 1 / 4 ≤ r ^ 2) (h2 : r ^ 2 < 1)
    (d0 : |q0 - 0.961914| ≤ 1 / 10 ^ 15)
    (d1 : |q1 - 0.840332| ≤ 1 / 10 ^ 15)
    (d2 : |q2 - 0.782715| ≤ 1 / 10 ^ 15)
    (d3 : |q3 - 0.734869| ≤ 1 / 10 ^ 15)
    (d4 : |q4 - 0.691406| ≤ 1 / 10 ^ 15)
    (d5 : |q5 - 0.654297| ≤ 1 / 10 ^ 15)
    (d6 : |q6 - 0.622070| ≤ 1 / 10 ^ 15)
    (d7 : |q7 - 0.595215| ≤ 1 / 10 ^ 15)
    (d8 : |q8 - 0.573731| ≤ 1 / 10 ^ 15)
    (d9 : |q9 - 0.556152| ≤ 1 / 10 ^ 15)
    (d10 : |q10 - 0.516113| ≤ 1 / 10 ^ 15)
    (d11 : |q11 - 0.502930| ≤ 1 / 10 ^ 15) :
    ∃ b, Region r b ∧ |(if r ^ 2 < 5 / 16 then q0 else if r ^ 2 < 6 / 16 then q1 else if r ^ 2 < 7 / 16 then q2
      else if r ^ 2 < 8 / 16 then q3 else if r ^ 2 < 9 / 16 then q4 else
      if r ^ 2 < 10 / 16 then q5 else if r ^ 2 < 11 / 16 then q6 else if r ^ 2 < 12 / 16 then q7
      else if r ^ 2 < 13 / 16 then q8 else if r ^ 2 < 14 / 16 then q9 else if r ^ 2 < 15 / 16 then q10 else q11) - b| ≤ 1 / 10 ^ 15 := by
  have h1' : 4 / 16 ≤ r ^ 2 := le_trans (by norm_num) h1
  have h2' : r ^ 2 < 16 / 16 := lt_of_lt_of_le h2 (by norm_num)
  unfold Region
  by_cases g0 : r ^ 2 < 5 / 16
  · rw [if_pos g0]; exact ⟨_, .inl ⟨g0, h1', rfl⟩, d0⟩
  rw [if_neg g0]
  by_cases g1 : r ^ 2 < 6 / 16
  · rw [if_pos g1]; exact ⟨_, .inr (.inl ⟨g1, not_lt.mp g0, rfl⟩), d1⟩
  rw [if_neg g1]
  by_cases g2 : r ^ 2 < 7 / 16
  · rw [if_pos g2]; exact ⟨_, .inr (.inr (.inl ⟨g2, not_lt.mp g1, rfl⟩)), d2⟩
  rw [if_neg g2]
  by_cases g3 : r ^ 2 < 8 / 16
  · rw [if_pos g3]; exact ⟨_, .inr (.inr (.inr (.inl ⟨g3, not_lt.mp g2, rfl⟩))), d3⟩
  rw [if_neg g3]
  by_cases g4 : r ^ 2 < 9 / 16
  · rw [if_pos g4]; exact ⟨_, .inr (.inr (.inr (.inr (.inl ⟨g4, not_lt.mp g3, rfl⟩)))), d4⟩
  rw [if_neg g4]
  by_cases g5 : r ^ 2 < 10 / 16
  · rw [if_pos g5]; exact ⟨_, .inr (.inr (.inr (.inr (.inr (.inl ⟨g5, not_lt.mp g4, rfl⟩))))), d5⟩
  rw [if_neg g5]
  by_cases g6 : r ^ 2 < 11 / 16
  · rw [if_pos g6]; exact ⟨_, .inr (.inr (.inr (.inr (.inr (.inr (.inl ⟨g6, not_lt.mp g5, rfl⟩)))))), d6⟩
  rw [if_neg g6]
  by_cases g7 : r ^ 2 < 12 / 16
  · rw [if_pos g7]; exact ⟨_, .inr (.inr (.inr (.inr (.inr (.inr (.inr (.inl ⟨g7, not_lt.mp g6, rfl⟩))))))), d7⟩
  rw [if_neg g7]
  by_cases g8 : r ^ 2 < 13 / 16
  · rw [if_pos g8]; exact ⟨_, .inr (.inr (.inr (.inr (.inr (.inr (.inr (.inr (.inl ⟨g8, not_lt.mp g7, rfl⟩)))))))), d8⟩
  rw [if_neg g8]
  by_cases g9 : r ^ 2 < 14 / 16
  · rw [if_pos g9]; exact ⟨_, .inr (.inr (.inr (.inr (.inr (.inr (.inr (.inr (.inr (.inl ⟨g9, not_lt.mp g8, rfl⟩))))))))), d9⟩
  rw [if_neg g9]
  by_cases g10 : r ^ 2 < 15 / 16
  · rw [if_pos g10]; exact ⟨_, .inr (.inr (.inr (.inr (.inr (.inr (.inr (.inr (.inr (.inr (.inl ⟨g10, not_lt.mp g9, rfl⟩)))))))))), d10⟩
  rw [if_neg g10]
  exact ⟨_, .inr (.inr (.inr (.inr (.inr (.inr (.inr (.inr (.inr (.inr (.inr ⟨h2', not_lt.mp g10, rfl⟩)))))))))), d11⟩

theorem betaV_region {r : ℝ} (h1 : 1 / 4 ≤ r ^ 2) (h2 : r ^ 2 < 1) :
    ∃ b, Region r b ∧ |betaV (r ^ 2) - b| ≤ 1 / 10 ^ 15 := by
  have hc : ∀ (q : ℚ) (c : ℝ), q ∈ [(0.961914 : ℚ), 0.840332, 0.782715, 0.734869, 0.691406, 0.654297, 0.622070, 0.595215,
      0.573731, 0.556152, 0.516113, 0.502930, 0.354167] → (q : ℝ) = c → |((f64Round q : ℚ) : ℝ) - c| ≤ 1 / 10 ^ 15 :=
    fun q c h e => e ▸ real_close (f64_close q h)
  exact pick h1 h2
    (hc 0.961914 _ (by simp) (by norm_num))
    (hc 0.840332 _ (by simp) (by norm_num))
    (hc 0.782715 _ (by simp) (by norm_num))
    (hc 0.734869 _ (by simp) (by norm_num))
    (hc 0.691406 _ (by simp) (by norm_num))
    (hc 0.654297 _ (by simp) (by norm_num))
    (hc 0.622070 _ (by simp) (by norm_num))
    (hc 0.595215 _ (by simp) (by norm_num))
    (hc 0.573731 _ (by simp) (by norm_num))
    (hc 0.556152 _ (by simp) (by norm_num))
    (hc 0.516113 _ (by simp) (by norm_num))
    (hc 0.502930 _ (by simp) (by norm_num))

theorem start_close : |((f64Round 0.354167 : ℚ) : ℝ) - 354167 / 1000000| ≤ 1 / 10 ^ 15 := by
  have hc := f64_close 0.354167 (by simp)
  have := real_close hc
  push_cast at this; norm_num at this ⊢; exact this

/-! ### The loops -/

theorem normalize_real {X : ℝ} (hX : 0 < X) :
    ∃ t : ℝ, ∃ k : ℤ, Returns (niirfNormalize .exact X) (t, k) ∧ 1 / 4 ≤ t ∧ t < 1 ∧ X = t * 4 ^ k := by
  unfold niirfNormalize
  have h4 : (4:ℝ) ≠ 0 := by norm_num
  obtain ⟨s, hs, ⟨i1, i2⟩, hc⟩ := whileLoop_total (σ := ℝ × ℤ)
    (c := fun s => do pure (MixedCmp.lt s.1 (← Lit.ofF64 (1/4))))
    (b := fun s => do pure (← NumOps.mul s.1 (← Lit.ofI32 4), s.2 - 1))
    (fun s => 0 < s.1 ∧ X = s.1 * 4 ^ s.2) (fun s => ⌊1 / s.1⌋₊) (by
      rintro ⟨a, k⟩ ⟨h1, h2⟩
      simp only [RealI.ofF64_def, RealI.ofI32_def, RealI.mul_def, pure_bind, RealI.lt_def] at h1 h2 ⊢
      push_cast
      by_cases h : a < 1 / 4
      · refine .inr ⟨by simp only [h, decide_true], _, rfl, ⟨by positivity, ?_⟩, ?_⟩
        · rw [h2, zpow_sub_one₀ h4]; field_simp
        · have h5 : 4 < 1 / a := by rw [lt_div_iff₀ h1]; linarith
          have h6 := Nat.lt_floor_add_one (1 / a)
          rw [Nat.floor_lt (by positivity)]
          have : 1 / (a * 4) = 1 / a / 4 := by field_simp
          rw [this]; linarith
      · exact .inl (by simp only [h, decide_false])) (X, 0) ⟨hX, by simp⟩
  have hs1 : 1 / 4 ≤ s.1 := by
    simp only [RealI.ofF64_def, pure_bind, RealI.lt_def] at hc
    have := Prog.pure_inj hc
    push_cast at this
    simpa using this
  obtain ⟨s', hs', ⟨j1, j2⟩, hc'⟩ := whileLoop_total (σ := ℝ × ℤ)
    (c := fun s => do pure (MixedCmp.le (← Lit.ofF64 1) s.1))
    (b := fun s => do pure (← NumOps.div s.1 (← Lit.ofI32 4), s.2 + 1))
    (fun s => 1 / 4 ≤ s.1 ∧ X = s.1 * 4 ^ s.2) (fun s => ⌊s.1⌋₊) (by
      rintro ⟨a, k⟩ ⟨h1, h2⟩
      simp only [RealI.ofF64_def, RealI.ofI32_def, pure_bind, RealI.le_def] at h1 h2 ⊢
      push_cast
      by_cases h : 1 ≤ a
      · refine .inr ⟨by simp only [h, decide_true], (a / 4, k + 1), by rw [RealI.div_ne _ h4]; rfl,
          ⟨by simp only []; linarith, ?_⟩, ?_⟩
        · simp only []; rw [h2, zpow_add_one₀ h4]; field_simp
        · have h6 := Nat.lt_floor_add_one a
          have h7 : 1 ≤ ⌊a⌋₊ := (Nat.one_le_floor_iff a).mpr h
          have h8 : (1:ℝ) ≤ ⌊a⌋₊ := by exact_mod_cast h7
          simp only []
          rw [Nat.floor_lt (by positivity)]; linarith
      · exact .inl (by simp only [h, decide_false])) s ⟨hs1, i2⟩
  refine ⟨s'.1, s'.2, hs.bind hs', j1, ?_, j2⟩
  simp only [RealI.ofF64_def, pure_bind, RealI.le_def] at hc'
  have := Prog.pure_inj hc'
  push_cast at this
  simpa using this

theorem normal_unique {t t' : ℝ} {k k' : ℤ} (h1 : 1 / 4 ≤ t) (h2 : t < 1) (h1' : 1 / 4 ≤ t') (h2' : t' < 1)
    (h : t * 4 ^ k = t' * 4 ^ k') : t = t' ∧ k = k' := by
  have key : ∀ {t t' : ℝ} {k k' : ℤ}, 1 / 4 ≤ t' → t < 1 → t * 4 ^ k = t' * 4 ^ k' → k' ≤ k := by
    intro t t' k k' h1 h2 h
    by_contra hc
    have hc : k + 1 ≤ k' := by omega
    have p : (0:ℝ) < 4 ^ k := by positivity
    have : (4:ℝ) ^ (k + 1) ≤ 4 ^ k' := zpow_le_zpow_right₀ (by norm_num) hc
    rw [zpow_add_one₀ (by norm_num)] at this
    have h3 : t' * (4 ^ k * 4) ≤ t' * 4 ^ k' := mul_le_mul_of_nonneg_left this (by linarith)
    nlinarith
  have hk : k = k' := le_antisymm (key h1 h2' h.symm) (key h1' h2 h)
  subst hk
  exact ⟨mul_right_cancel₀ (by positivity) h, rfl⟩

theorem iter_real (t : ℝ) : ∀ (k : ℕ) (y : ℝ),
    niirfIter t k y = pure ((fun y => betaV t * (t - y ^ 2) + y)^[k] y)
  | 0, y => rfl
  | k + 1, y => by
    rw [niirfIter, beta_real]
    simp only [pure_bind, RealI.powi_two, RealI.sub_def, RealI.mul_def, RealI.add_def]
    rw [iter_real t k, Function.iterate_succ_apply]

theorem denormalize_real (y : ℝ) (k : ℤ) : Returns (niirfDenormalize .exact y k) (y * 2 ^ k) := by
  rw [denormalize_eq (Counter.upto_exact |k|) y le_rfl]
  unfold denormalizeExact
  have h2 : (2:ℝ) ≠ 0 := by norm_num
  obtain ⟨s, hs, hi, hc⟩ := whileLoop_total (σ := ℝ × ℤ)
    (c := fun s => pure (s.2.natAbs != 0))
    (b := fun s => do
      if 0 < s.2 then pure (← NumOps.mul s.1 (← Lit.ofI32 2), s.2 - 1)
      else if s.2 < 0 then pure (← NumOps.div s.1 (← Lit.ofI32 2), s.2 + 1)
      else pure s)
    (fun s => s.1 * 2 ^ s.2 = y * 2 ^ k) (fun s => s.2.natAbs) (by
      rintro ⟨a, j⟩ h
      simp only [RealI.ofI32_def, RealI.mul_def, pure_bind] at h ⊢
      push_cast
      rcases lt_trichotomy j 0 with hj | rfl | hj
      · refine .inr ⟨?_, (a / 2, j + 1), ?_, ?_, ?_⟩
        · congr 1; simp; omega
        · rw [if_neg (by omega), if_pos hj, RealI.div_ne _ h2]; rfl
        · simp only []; rw [← h, zpow_add_one₀ h2]; field_simp
        · simp only []; omega
      · exact .inl rfl
      · refine .inr ⟨?_, (a * 2, j - 1), ?_, ?_, ?_⟩
        · congr 1; simp; omega
        · rw [if_pos hj]
        · simp only []; rw [← h, zpow_sub_one₀ h2]; field_simp
        · simp only []; omega) (y, k) rfl
  have h0 : s.2 = 0 := by
    have := Prog.pure_inj hc
    simpa using this
  rw [h0, zpow_zero, mul_one] at hi
  exact hs.bind (.of_eq (by rw [hi]))

/-- The normalised root estimate after `n` iterations (`n - 1` passes). -/
noncomputable def est (t : ℝ) (n : ℕ) : ℝ :=
  (fun y => betaV t * (t - y ^ 2) + y)^[n - 1] (2 * t / 3 + (f64Round 0.354167 : ℚ))

theorem niirf_real {x t : ℝ} {k : ℤ} (h1 : 1 / 4 ≤ t) (h2 : t < 1) (hx : |x| = t * 4 ^ k) (n : ℕ) :
    Returns (niirf .exact x n) (est t n * 2 ^ k) := by
  have hp : 0 < |x| := by rw [hx]; positivity
  have hx0 : x ≠ 0 := abs_pos.mp hp
  obtain ⟨t', k', hn, h1', h2', hx'⟩ := normalize_real hp
  obtain ⟨rfl, rfl⟩ := normal_unique h1 h2 h1' h2' (hx.symm.trans hx')
  unfold niirf
  simp only [RealI.beq_def, RealI.zero_def, hx0, decide_false, RealI.abs_def, pure_bind]
  refine hn.bind ?_
  simp only [RealI.ofI32_def, RealI.ofF64_def, pure_bind, RealI.mul_def, RealI.add_def]
  push_cast
  rw [RealI.div_ne _ (by norm_num), pure_bind, iter_real, pure_bind]
  exact denormalize_real _ _

/-- Every non-zero real has a normal form. -/
theorem exists_normal {x : ℝ} (hx : x ≠ 0) : ∃ t : ℝ, ∃ k : ℤ, 1 / 4 ≤ t ∧ t < 1 ∧ |x| = t * 4 ^ k := by
  obtain ⟨t, k, -, h⟩ := normalize_real (abs_pos.mpr hx)
  exact ⟨t, k, h⟩

theorem sqrt_normal {x t : ℝ} {k : ℤ} (h1 : 1 / 4 ≤ t) (hx : |x| = t * 4 ^ k) : Real.sqrt |x| = Real.sqrt t * 2 ^ k := by
  have : (4:ℝ) ^ k = (2 ^ k) ^ 2 := by
    rw [show (4:ℝ) = 2 * 2 by norm_num, mul_zpow, sq]
  rw [hx, Real.sqrt_mul (by linarith), this, Real.sqrt_sq (by positivity)]

/-- The error of the estimate. -/
theorem est_error {t : ℝ} (h1 : 1 / 4 ≤ t) (h2 : t < 1) (n : ℕ) :
    (|est t n - Real.sqrt t| ≤ 20835 / 1000000 * (1 / 10) ^ (n - 1)) ∧
    (2 ≤ n → |est t n - Real.sqrt t| ≤ 996 / 1000000 * Real.sqrt t * (1 / 10) ^ (n - 2) ∧
      |est t n - Real.sqrt t| ≤ 711 / 1000000 * (1 / 10) ^ (n - 2)) := by
  set r := Real.sqrt t with hr
  have hr2 : r ^ 2 = t := Real.sq_sqrt (by linarith)
  have hr0 : 0 ≤ r := Real.sqrt_nonneg t
  have hrl : 1 / 2 ≤ r := by rw [hr, Real.le_sqrt (by norm_num) (by linarith)]; linarith
  have hru : r ≤ 1 := by nlinarith
  obtain ⟨b, hreg, hb⟩ := betaV_region (r := r) (by rw [hr2]; exact h1) (by rw [hr2]; exact h2)
  rw [hr2] at hb
  obtain ⟨⟨c1, c2, c3⟩, c4, c5⟩ := region_all hr0 hreg
  set b' := betaV t
  -- iterates
  let e : ℕ → ℝ := fun j => (fun y => b' * (t - y ^ 2) + y)^[j] (2 * t / 3 + (f64Round 0.354167 : ℚ)) - r
  have hstep : ∀ j, e (j + 1) = pass b' r (e j) := fun j => by
    simp only [e, Function.iterate_succ_apply']
    rw [← hr2, pass_eq]; ring
  have hb0 := abs_le.mp hb
  have hq : ∀ x, |x| ≤ 21 / 1000 → |1 - b' * (2 * r + x)| ≤ 98 / 1000 := fun x hx => by
    have h := abs_le.mp (c3 x hx)
    have hx := abs_le.mp hx
    have h4 : |(b' - b) * (2 * r + x)| ≤ 1 / 10 ^ 15 * 3 := by
      rw [abs_mul]
      refine mul_le_mul hb ?_ (abs_nonneg _) (by norm_num)
      rw [abs_le]; constructor <;> linarith
    have h5 := abs_le.mp h4
    rw [abs_le]; constructor <;> norm_num at h5 <;> linarith
  have e0 : |e 0 - (y0 r - r)| ≤ 1 / 10 ^ 15 := by
    have : e 0 - (y0 r - r) = (f64Round 0.354167 : ℚ) - 354167 / 1000000 := by
      simp only [e, Function.iterate_zero, id, y0]; rw [hr2]; ring
    rw [this]; exact start_close
  have y0b := y0_sub_bound hrl hru
  have e0b : |e 0| ≤ 20835 / 1000000 := by
    have := abs_le.mp e0; have := abs_le.mp y0b
    rw [abs_le]; constructor <;> norm_num at * <;> linarith
  have contract : ∀ j, |e j| ≤ 21 / 1000 → |e (j + 1)| ≤ |e j| * (1 / 10) := fun j hj => by
    rw [hstep]; unfold pass; rw [abs_mul]
    exact mul_le_mul_of_nonneg_left ((hq _ hj).trans (by norm_num)) (abs_nonneg _)
  have geo : ∀ j, |e j| ≤ 20835 / 1000000 * (1 / 10) ^ j := fun j => by
    induction j with
    | zero => simpa using e0b
    | succ j ih =>
      have hj : |e j| ≤ 21 / 1000 := by
        have : ((1:ℝ) / 10) ^ j ≤ 1 := pow_le_one₀ (by norm_num) (by norm_num)
        refine ih.trans (by linarith)
      refine (contract j hj).trans ?_
      rw [pow_succ]; linarith
  have e1 : |e 1 - pass b r (y0 r - r)| ≤ 2 / 10 ^ 16 * 1 := by
    rw [hstep 0]
    refine (pass_near hr0 hru ⟨c4, c5⟩ (c3 _ (y0b.trans (by norm_num))) hb e0 (e0b.trans (by norm_num))).trans ?_
    norm_num
  have geo1 : ∀ C : ℝ, |e 1| ≤ C → ∀ j, |e (j + 1)| ≤ C * (1 / 10) ^ j := fun C hC j => by
    induction j with
    | zero => simpa using hC
    | succ j ih =>
      have hj : |e (j + 1)| ≤ 21 / 1000 := by
        have : ((1:ℝ) / 10) ^ (j + 1) ≤ 1 := pow_le_one₀ (by norm_num) (by norm_num)
        exact (geo (j + 1)).trans (by linarith)
      refine (contract (j + 1) hj).trans ?_
      rw [pow_succ]; linarith
  refine ⟨geo (n - 1), fun hn => ?_⟩
  have hn' : n - 1 = (n - 2) + 1 := by omega
  have hest : est t n - r = e (n - 2 + 1) := by rw [← hn']; rfl
  rw [hest]
  have tri : |e 1| ≤ |pass b r (y0 r - r)| + 2 / 10 ^ 16 := by
    calc |e 1| = |pass b r (y0 r - r) + (e 1 - pass b r (y0 r - r))| := by congr 1; ring
      _ ≤ _ := (abs_add_le _ _).trans (by linarith)
  refine ⟨?_, ?_⟩
  · exact geo1 _ (tri.trans (by norm_num at *; linarith)) _
  · exact geo1 _ (tri.trans (by norm_num at *; linarith)) _

end Niirf
end MixedNum
