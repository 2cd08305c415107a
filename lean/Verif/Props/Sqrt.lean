import Mathlib.Analysis.SpecificLimits.Basic
import Verif.Lemmas.SqrtReal
/-! # C45 - C48: the NIIRF square root with exact real arithmetic -/

namespace MixedNum
open Niirf Filter Topology

theorem Niirf.rel_error {x : ℝ} (hx : x ≠ 0) {n : ℕ} (hn : 2 ≤ n) : ∃ y, Returns (niirf .exact x n) y ∧
    |y - Real.sqrt (|x|)| ≤ 996 / 1000000 * (1 / 10) ^ (n - 2) * Real.sqrt (|x|) := by
  obtain ⟨t, k, h1, h2, h⟩ := exists_normal hx
  refine ⟨_, niirf_real h1 h2 h n, ?_⟩
  have := ((est_error h1 h2 n).2 hn).1
  have p : (0:ℝ) < 2 ^ k := by positivity
  rw [sqrt_normal h1 h, ← sub_mul, abs_mul, abs_of_pos p]
  calc _ ≤ (996 / 1000000 * Real.sqrt t * (1 / 10) ^ (n - 2)) * 2 ^ k := mul_le_mul_of_nonneg_right this p.le
    _ = _ := by ring

/-- **C45.** Two iterations give a relative error below 0.1%. -/
theorem C45_accuracy {x : ℝ} (hx : 0 < x) : ∃ y, Returns (niirf .exact x 2) y ∧ |y - Real.sqrt x| < 1 / 1000 * Real.sqrt x := by
  obtain ⟨y, h, hy⟩ := rel_error hx.ne' (le_refl 2)
  rw [abs_of_pos hx] at hy
  have := Real.sqrt_pos.mpr hx
  exact ⟨y, h, by norm_num at hy; linarith⟩

/-- **C45**, the value at zero. -/
theorem C45_zero (n : ℕ) : Returns (niirf .exact (0:ℝ) n) 0 := .of_eq (by unfold niirf; simp)

example : ∃ y, Returns (niirf .exact (2:ℝ) 2) y ∧ |y - Real.sqrt 2| < 1 / 1000 * Real.sqrt 2 := C45_accuracy (by norm_num)

/-- **C46** is false: at x = 0.501264 (the square of 0.708) the error exceeds 5e-4. -/
theorem C46_counterexample : ¬ ∀ x : ℝ, 1 / 4 ≤ x → x < 1 →
    ∃ y, Returns (niirf .exact x 2) y ∧ |y - Real.sqrt x| ≤ 5 / 10000 := by
  intro h
  obtain ⟨y, hy, hb⟩ := h 0.501264 (by norm_num) (by norm_num)
  have h2 := niirf_real (x := 0.501264) (t := 0.501264) (k := 0) (by norm_num) (by norm_num)
    (by rw [abs_of_pos (by norm_num)]; norm_num) 2
  have := hy.unique h2
  have hs : Real.sqrt 0.501264 = 0.708 := by
    rw [show (0.501264:ℝ) = 0.708 ^ 2 by norm_num, Real.sqrt_sq (by norm_num)]
  have hq : betaV 0.501264 = (f64Round 0.691406 : ℚ) := by
    unfold betaV
    rw [if_neg (by norm_num), if_neg (by norm_num), if_neg (by norm_num), if_neg (by norm_num), if_pos (by norm_num)]
  rw [hs, this] at hb
  unfold est at hb
  rw [hq] at hb
  have d1 := abs_le.mp (real_close (f64_close 0.691406 (by simp)))
  have d2 := abs_le.mp start_close
  rw [show ((0.691406 : ℚ) : ℝ) = 0.691406 by norm_num] at d1
  generalize ((f64Round 0.691406 : ℚ) : ℝ) = q at *
  generalize ((f64Round 0.354167 : ℚ) : ℝ) = c at *
  simp only [Nat.add_one_sub_one, Function.iterate_one, zpow_zero, mul_one] at hb
  have hb := (abs_le.mp hb).1
  obtain ⟨z, hz⟩ : ∃ z, z = 2 * 0.501264 / 3 + c := ⟨_, rfl⟩
  rw [← hz] at hb
  have z1 : 0.688342 ≤ z := by rw [hz]; norm_num at d2 ⊢; linarith
  have z2 : z ≤ 0.688344 := by rw [hz]; norm_num at d2 ⊢; linarith
  have q1 : q ≤ 0.691407 := by norm_num at d1 ⊢; linarith
  have w : 0.501264 - z ^ 2 ≤ 0.02745 := by nlinarith
  have w0 : 0 ≤ 0.501264 - z ^ 2 := by nlinarith
  have : q * (0.501264 - z ^ 2) ≤ 0.691407 * 0.02745 := mul_le_mul q1 w w0 (by norm_num)
  norm_num at *
  linarith

/-- **C46**, what does hold on the normalised range: two iterations give 7.2e-4, three or more give 5e-4.
Missing compared to C46: the bound 5e-4 with two iterations, which is false. -/
theorem C46_partial {x : ℝ} (h1 : 1 / 4 ≤ x) (h2 : x < 1) :
    (∃ y, Returns (niirf .exact x 2) y ∧ |y - Real.sqrt x| ≤ 72 / 100000) ∧
    ∀ n, 3 ≤ n → ∃ y, Returns (niirf .exact x n) y ∧ |y - Real.sqrt x| < 5 / 10000 := by
  have hx : |x| = x * 4 ^ (0:ℤ) := by rw [abs_of_pos (by linarith)]; simp
  refine ⟨⟨_, niirf_real h1 h2 hx 2, ?_⟩, fun n hn => ⟨_, niirf_real h1 h2 hx n, ?_⟩⟩
  · have := ((est_error h1 h2 2).2 le_rfl).2
    rw [zpow_zero, mul_one]; norm_num at this ⊢; linarith
  · have h := ((est_error h1 h2 n).2 (by omega)).2
    have : ((1:ℝ) / 10) ^ (n - 2) ≤ (1 / 10) ^ 1 := pow_le_pow_of_le_one (by norm_num) (by norm_num) (by omega)
    rw [zpow_zero, mul_one]; norm_num at this h ⊢; linarith

example : ∃ y, Returns (niirf .exact (0.501264:ℝ) 3) y ∧ |y - Real.sqrt 0.501264| < 5 / 10000 :=
  (C46_partial (by norm_num) (by norm_num)).2 3 le_rfl

/-- **C47**, sign: the square root routine ignores the sign of its argument. -/
theorem C47_neg (x : ℝ) (n : ℕ) : niirf .exact (-x) n = niirf .exact x n := by
  unfold niirf
  simp only [RealI.beq_def, RealI.zero_def, neg_eq_zero, RealI.abs_def, abs_neg]

/-- **C47**, scaling: quadrupling the argument doubles the result exactly. -/
theorem C47_scale (x : ℝ) (n : ℕ) : ∃ y, Returns (niirf .exact x n) y ∧ Returns (niirf .exact (4 * x) n) (2 * y) := by
  by_cases hx : x = 0
  · subst hx
    exact ⟨0, C45_zero n, by simpa using C45_zero n⟩
  obtain ⟨t, k, h1, h2, h⟩ := exists_normal hx
  refine ⟨_, niirf_real h1 h2 h n, ?_⟩
  have := niirf_real (x := 4 * x) (k := k + 1) h1 h2 (by
    rw [abs_mul, h, zpow_add_one₀ (by norm_num)]; norm_num; ring) n
  rw [zpow_add_one₀ (by norm_num)] at this
  convert this using 1; ring

example : ∃ y, Returns (niirf .exact (3:ℝ) 2) y ∧ Returns (niirf .exact (12:ℝ) 2) (2 * y) := by
  have := C47_scale 3 2; norm_num at this; exact this

/-- **C48**, rate: every further iteration gains at least a factor ten. -/
theorem C48_rate {x : ℝ} (hx : 0 < x) (n : ℕ) : ∃ y, Returns (niirf .exact x n) y ∧
    |y - Real.sqrt x| ≤ 42 / 1000 * (1 / 10) ^ (n - 1) * Real.sqrt x := by
  obtain ⟨t, k, h1, h2, h⟩ := exists_normal hx.ne'
  refine ⟨_, niirf_real h1 h2 h n, ?_⟩
  have he := (est_error h1 h2 n).1
  have p : (0:ℝ) < 2 ^ k := by positivity
  have hs := sqrt_normal h1 h
  rw [abs_of_pos hx] at hs
  have hr : 1 / 2 ≤ Real.sqrt t := by rw [Real.le_sqrt (by norm_num) (by linarith)]; linarith
  rw [hs, ← sub_mul, abs_mul, abs_of_pos p, ← mul_assoc]
  refine mul_le_mul_of_nonneg_right (he.trans ?_) p.le
  have : (0:ℝ) < (1 / 10) ^ (n - 1) := by positivity
  nlinarith

/-- **C48**, convergence: the results tend to the square root. -/
theorem C48_tendsto {x : ℝ} (hx : 0 < x) : ∃ f : ℕ → ℝ, (∀ n, Returns (niirf .exact x n) (f n)) ∧
    Tendsto f atTop (𝓝 (Real.sqrt x)) := by
  choose f hf hb using C48_rate hx
  refine ⟨f, hf, ?_⟩
  rw [tendsto_iff_dist_tendsto_zero, ← tendsto_add_atTop_iff_nat 1]
  refine squeeze_zero (g := fun n => 42 / 1000 * (1 / 10) ^ n * Real.sqrt x) (fun _ => dist_nonneg)
    (fun n => by rw [Real.dist_eq]; exact hb (n + 1)) ?_
  have := (tendsto_pow_atTop_nhds_zero_of_lt_one (r := (1 / 10 : ℝ)) (by norm_num) (by norm_num)).const_mul
    (42 / 1000) |>.mul_const (Real.sqrt x)
  simpa using this

example : ∃ y, Returns (niirf .exact (2:ℝ) 5) y ∧ |y - Real.sqrt 2| ≤ 42 / 1000 * (1 / 10) ^ 4 * Real.sqrt 2 :=
  C48_rate (by norm_num) 5

end MixedNum
