import Verif.Props.Sqrt
import Verif.Props.Monotone
import Mathlib.Analysis.Calculus.Deriv.MeanValue
/-! # The error of the square root after two iterations, row by row -/

namespace MixedNum
open Niirf

theorem row0 {r : ℝ} (h1 : 50000 / 100000 ≤ r) (h2 : r ≤ 55902 / 100000) : |pass 0.961914 r (y0 r - r)| ≤ 499 / 1000000 := by
  have a : 0 ≤ r - 50000 / 100000 := by linarith
  have b : 0 ≤ 55902 / 100000 - r := by linarith
  have p0 := pow_nonneg b 4
  have p1 := mul_nonneg a (pow_nonneg b 3)
  have p2 := mul_nonneg (pow_nonneg a 2) (pow_nonneg b 2)
  have p3 := mul_nonneg (pow_nonneg a 3) b
  have p4 := pow_nonneg a 4
  unfold pass y0; rw [abs_le]; constructor <;> norm_num <;> linarith

theorem row1 {r : ℝ} (h1 : 55901 / 100000 ≤ r) (h2 : r ≤ 61238 / 100000) : |pass 0.840332 r (y0 r - r)| ≤ 499 / 1000000 := by
  have a : 0 ≤ r - 55901 / 100000 := by linarith
  have b : 0 ≤ 61238 / 100000 - r := by linarith
  have p0 := pow_nonneg b 4
  have p1 := mul_nonneg a (pow_nonneg b 3)
  have p2 := mul_nonneg (pow_nonneg a 2) (pow_nonneg b 2)
  have p3 := mul_nonneg (pow_nonneg a 3) b
  have p4 := pow_nonneg a 4
  unfold pass y0; rw [abs_le]; constructor <;> norm_num <;> linarith

theorem row2 {r : ℝ} (h1 : 61237 / 100000 ≤ r) (h2 : r ≤ 66144 / 100000) : |pass 0.782715 r (y0 r - r)| ≤ 499 / 1000000 := by
  have a : 0 ≤ r - 61237 / 100000 := by linarith
  have b : 0 ≤ 66144 / 100000 - r := by linarith
  have p0 := pow_nonneg b 4
  have p1 := mul_nonneg a (pow_nonneg b 3)
  have p2 := mul_nonneg (pow_nonneg a 2) (pow_nonneg b 2)
  have p3 := mul_nonneg (pow_nonneg a 3) b
  have p4 := pow_nonneg a 4
  unfold pass y0; rw [abs_le]; constructor <;> norm_num <;> linarith

theorem row3 {r : ℝ} (h1 : 66143 / 100000 ≤ r) (h2 : r ≤ 70711 / 100000) : pass 0.734869 r (y0 r - r) ≤ 499 / 1000000 := by
  have a : 0 ≤ r - 66143 / 100000 := by linarith
  have b : 0 ≤ 70711 / 100000 - r := by linarith
  have p0 := pow_nonneg b 4
  have p1 := mul_nonneg a (pow_nonneg b 3)
  have p2 := mul_nonneg (pow_nonneg a 2) (pow_nonneg b 2)
  have p3 := mul_nonneg (pow_nonneg a 3) b
  have p4 := pow_nonneg a 4
  unfold pass y0; norm_num; linarith

theorem row4 {r : ℝ} (h1 : 70710 / 100000 ≤ r) (h2 : r ≤ 75000 / 100000) : pass 0.691406 r (y0 r - r) ≤ 499 / 1000000 := by
  have a : 0 ≤ r - 70710 / 100000 := by linarith
  have b : 0 ≤ 75000 / 100000 - r := by linarith
  have p0 := pow_nonneg b 4
  have p1 := mul_nonneg a (pow_nonneg b 3)
  have p2 := mul_nonneg (pow_nonneg a 2) (pow_nonneg b 2)
  have p3 := mul_nonneg (pow_nonneg a 3) b
  have p4 := pow_nonneg a 4
  unfold pass y0; norm_num; linarith

theorem row5 {r : ℝ} (h1 : 75000 / 100000 ≤ r) (h2 : r ≤ 79057 / 100000) : pass 0.654297 r (y0 r - r) ≤ 499 / 1000000 := by
  have a : 0 ≤ r - 75000 / 100000 := by linarith
  have b : 0 ≤ 79057 / 100000 - r := by linarith
  have p0 := pow_nonneg b 4
  have p1 := mul_nonneg a (pow_nonneg b 3)
  have p2 := mul_nonneg (pow_nonneg a 2) (pow_nonneg b 2)
  have p3 := mul_nonneg (pow_nonneg a 3) b
  have p4 := pow_nonneg a 4
  unfold pass y0; norm_num; linarith

theorem row6 {r : ℝ} (h1 : 79056 / 100000 ≤ r) (h2 : r ≤ 82916 / 100000) : pass 0.622070 r (y0 r - r) ≤ 499 / 1000000 := by
  have a : 0 ≤ r - 79056 / 100000 := by linarith
  have b : 0 ≤ 82916 / 100000 - r := by linarith
  have p0 := pow_nonneg b 4
  have p1 := mul_nonneg a (pow_nonneg b 3)
  have p2 := mul_nonneg (pow_nonneg a 2) (pow_nonneg b 2)
  have p3 := mul_nonneg (pow_nonneg a 3) b
  have p4 := pow_nonneg a 4
  unfold pass y0; norm_num; linarith

theorem row7 {r : ℝ} (h1 : 82915 / 100000 ≤ r) (h2 : r ≤ 86603 / 100000) : |pass 0.595215 r (y0 r - r)| ≤ 499 / 1000000 := by
  have a : 0 ≤ r - 82915 / 100000 := by linarith
  have b : 0 ≤ 86603 / 100000 - r := by linarith
  have p0 := pow_nonneg b 4
  have p1 := mul_nonneg a (pow_nonneg b 3)
  have p2 := mul_nonneg (pow_nonneg a 2) (pow_nonneg b 2)
  have p3 := mul_nonneg (pow_nonneg a 3) b
  have p4 := pow_nonneg a 4
  unfold pass y0; rw [abs_le]; constructor <;> norm_num <;> linarith

theorem row8 {r : ℝ} (h1 : 86602 / 100000 ≤ r) (h2 : r ≤ 90139 / 100000) : |pass 0.573731 r (y0 r - r)| ≤ 499 / 1000000 := by
  have a : 0 ≤ r - 86602 / 100000 := by linarith
  have b : 0 ≤ 90139 / 100000 - r := by linarith
  have p0 := pow_nonneg b 4
  have p1 := mul_nonneg a (pow_nonneg b 3)
  have p2 := mul_nonneg (pow_nonneg a 2) (pow_nonneg b 2)
  have p3 := mul_nonneg (pow_nonneg a 3) b
  have p4 := pow_nonneg a 4
  unfold pass y0; rw [abs_le]; constructor <;> norm_num <;> linarith

theorem row9 {r : ℝ} (h1 : 90138 / 100000 ≤ r) (h2 : r ≤ 93542 / 100000) : |pass 0.556152 r (y0 r - r)| ≤ 499 / 1000000 := by
  have a : 0 ≤ r - 90138 / 100000 := by linarith
  have b : 0 ≤ 93542 / 100000 - r := by linarith
  have p0 := pow_nonneg b 4
  have p1 := mul_nonneg a (pow_nonneg b 3)
  have p2 := mul_nonneg (pow_nonneg a 2) (pow_nonneg b 2)
  have p3 := mul_nonneg (pow_nonneg a 3) b
  have p4 := pow_nonneg a 4
  unfold pass y0; rw [abs_le]; constructor <;> norm_num <;> linarith

theorem row10 {r : ℝ} (h1 : 93541 / 100000 ≤ r) (h2 : r ≤ 96825 / 100000) : |pass 0.516113 r (y0 r - r)| ≤ 499 / 1000000 := by
  have a : 0 ≤ r - 93541 / 100000 := by linarith
  have b : 0 ≤ 96825 / 100000 - r := by linarith
  have p0 := pow_nonneg b 4
  have p1 := mul_nonneg a (pow_nonneg b 3)
  have p2 := mul_nonneg (pow_nonneg a 2) (pow_nonneg b 2)
  have p3 := mul_nonneg (pow_nonneg a 3) b
  have p4 := pow_nonneg a 4
  unfold pass y0; rw [abs_le]; constructor <;> norm_num <;> linarith

theorem row11 {r : ℝ} (h1 : 96824 / 100000 ≤ r) (h2 : r ≤ 100000 / 100000) : |pass 0.502930 r (y0 r - r)| ≤ 499 / 1000000 := by
  have a : 0 ≤ r - 96824 / 100000 := by linarith
  have b : 0 ≤ 100000 / 100000 - r := by linarith
  have p0 := pow_nonneg b 4
  have p1 := mul_nonneg a (pow_nonneg b 3)
  have p2 := mul_nonneg (pow_nonneg a 2) (pow_nonneg b 2)
  have p3 := mul_nonneg (pow_nonneg a 3) b
  have p4 := pow_nonneg a 4
  unfold pass y0; rw [abs_le]; constructor <;> norm_num <;> linarith

theorem rise3 {r : ℝ} (h1 : 66143 / 100000 ≤ r) (h2 : r ≤ 70711 / 100000) :
    1 / 1000 ≤ 0.734869 * (2 * r - 8 / 3 * r * (2 / 3 * r ^ 2 + 354167 / 1000000)) + 4 / 3 * r - 1 := by
  have a : 0 ≤ r - 66143 / 100000 := by linarith
  have b : 0 ≤ 70711 / 100000 - r := by linarith
  have p0 := pow_nonneg b 3
  have p1 := mul_nonneg a (pow_nonneg b 2)
  have p2 := mul_nonneg (pow_nonneg a 2) b
  have p3 := pow_nonneg a 3
  norm_num; linarith

theorem rise4 {r : ℝ} (h1 : 70710 / 100000 ≤ r) (h2 : r ≤ 75000 / 100000) :
    1 / 1000 ≤ 0.691406 * (2 * r - 8 / 3 * r * (2 / 3 * r ^ 2 + 354167 / 1000000)) + 4 / 3 * r - 1 := by
  have a : 0 ≤ r - 70710 / 100000 := by linarith
  have b : 0 ≤ 75000 / 100000 - r := by linarith
  have p0 := pow_nonneg b 3
  have p1 := mul_nonneg a (pow_nonneg b 2)
  have p2 := mul_nonneg (pow_nonneg a 2) b
  have p3 := pow_nonneg a 3
  norm_num; linarith

theorem rise5 {r : ℝ} (h1 : 75000 / 100000 ≤ r) (h2 : r ≤ 79057 / 100000) :
    1 / 1000 ≤ 0.654297 * (2 * r - 8 / 3 * r * (2 / 3 * r ^ 2 + 354167 / 1000000)) + 4 / 3 * r - 1 := by
  have a : 0 ≤ r - 75000 / 100000 := by linarith
  have b : 0 ≤ 79057 / 100000 - r := by linarith
  have p0 := pow_nonneg b 3
  have p1 := mul_nonneg a (pow_nonneg b 2)
  have p2 := mul_nonneg (pow_nonneg a 2) b
  have p3 := pow_nonneg a 3
  norm_num; linarith

theorem rise6 {r : ℝ} (h1 : 79056 / 100000 ≤ r) (h2 : r ≤ 82916 / 100000) :
    1 / 1000 ≤ 0.622070 * (2 * r - 8 / 3 * r * (2 / 3 * r ^ 2 + 354167 / 1000000)) + 4 / 3 * r - 1 := by
  have a : 0 ≤ r - 79056 / 100000 := by linarith
  have b : 0 ≤ 82916 / 100000 - r := by linarith
  have p0 := pow_nonneg b 3
  have p1 := mul_nonneg a (pow_nonneg b 2)
  have p2 := mul_nonneg (pow_nonneg a 2) b
  have p3 := pow_nonneg a 3
  norm_num; linarith

/-- The error after two iterations, as a function of the root `r`, with factor `b` and start constant `c`. -/
noncomputable def twoErr (b c r : ℝ) : ℝ := b * (r ^ 2 - (2 * r ^ 2 / 3 + c) ^ 2) + (2 * r ^ 2 / 3 + c) - r

theorem est_twoErr {r : ℝ} : est (r ^ 2) 2 - r = twoErr (betaV (r ^ 2)) ((f64Round 0.354167 : ℚ) : ℝ) r := by
  rw [est_two]; rfl

theorem hasDerivAt_twoErr (b c r : ℝ) : HasDerivAt (twoErr b c) (b * (2 * r - 8 / 3 * r * (2 / 3 * r ^ 2 + c)) + 4 / 3 * r - 1) r := by
  have h2 : HasDerivAt (fun r : ℝ => r ^ 2) (2 * r) r := by simpa using hasDerivAt_pow 2 r
  have hy : HasDerivAt (fun r : ℝ => 2 * r ^ 2 / 3 + c) (4 / 3 * r) r := by
    refine (((h2.const_mul 2).div_const 3).add_const c).congr_deriv ?_; ring
  have h := (((h2.sub (hy.pow 2)).const_mul b).add hy).sub (hasDerivAt_id r)
  refine h.congr_deriv ?_
  simp only [Nat.cast_ofNat, pow_one, Nat.add_one_sub_one]; ring

theorem continuous_twoErr (b c : ℝ) : Continuous (twoErr b c) :=
  continuous_iff_continuousAt.mpr fun r => (hasDerivAt_twoErr b c r).continuousAt

/-- Decimal constants in place of their binary neighbours. -/
theorem twoErr_near {b b' c c' r : ℝ} (hr : 0 ≤ r) (hr1 : r ≤ 1) (hb : 0 ≤ b ∧ b ≤ 1) (hb' : |b' - b| ≤ 1 / 10 ^ 15)
    (hc : 0 ≤ c ∧ c ≤ 1 / 2) (hc' : |c' - c| ≤ 1 / 10 ^ 15) : |twoErr b' c' r - twoErr b c r| ≤ 1 / 10 ^ 13 := by
  have e : twoErr b' c' r - twoErr b c r =
      (b' - b) * (r ^ 2 - (2 * r ^ 2 / 3 + c') ^ 2) + (c' - c) * (1 - b * (4 * r ^ 2 / 3 + c' + c)) := by
    unfold twoErr; ring
  have g := abs_le.mp hc'
  norm_num at g
  have r2 : 0 ≤ r ^ 2 ∧ r ^ 2 ≤ 1 := ⟨by positivity, pow_le_one₀ hr hr1⟩
  have y1 : 0 ≤ 2 * r ^ 2 / 3 + c' + 1 / 10 ∧ 2 * r ^ 2 / 3 + c' ≤ 2 := by constructor <;> linarith
  have k1 : |r ^ 2 - (2 * r ^ 2 / 3 + c') ^ 2| ≤ 10 := by
    rw [abs_le]; constructor <;> nlinarith
  have k2 : |1 - b * (4 * r ^ 2 / 3 + c' + c)| ≤ 10 := by
    have w : |4 * r ^ 2 / 3 + c' + c| ≤ 5 := by rw [abs_le]; constructor <;> linarith
    have : |b * (4 * r ^ 2 / 3 + c' + c)| ≤ 1 * 5 := by
      rw [abs_mul, abs_of_nonneg hb.1]; exact mul_le_mul hb.2 w (abs_nonneg _) (by norm_num)
    have := abs_le.mp this
    rw [abs_le]; constructor <;> linarith
  rw [e]
  calc _ ≤ |(b' - b) * (r ^ 2 - (2 * r ^ 2 / 3 + c') ^ 2)| + |(c' - c) * (1 - b * (4 * r ^ 2 / 3 + c' + c))| := abs_add_le _ _
    _ ≤ 1 / 10 ^ 15 * 10 + 1 / 10 ^ 15 * 10 := by
      rw [abs_mul, abs_mul]
      exact add_le_add (mul_le_mul hb' k1 (abs_nonneg _) (by norm_num)) (mul_le_mul hc' k2 (abs_nonneg _) (by norm_num))
    _ ≤ _ := by norm_num

theorem twoErr_pass (b r : ℝ) : twoErr b (354167 / 1000000) r = pass b r (y0 r - r) := by
  unfold twoErr pass y0; ring

/-- The slope is positive with the binary constants too. -/
theorem twoErr_rise {b b' c c' lo hi : ℝ} (h0 : 0 ≤ lo) (h1 : hi ≤ 1) (hb : 0 ≤ b ∧ b ≤ 1) (hb' : |b' - b| ≤ 1 / 10 ^ 15)
    (hc : 0 ≤ c ∧ c ≤ 1 / 2) (hc' : |c' - c| ≤ 1 / 10 ^ 15)
    (h : ∀ r, lo ≤ r → r ≤ hi → 1 / 1000 ≤ b * (2 * r - 8 / 3 * r * (2 / 3 * r ^ 2 + c)) + 4 / 3 * r - 1) :
    StrictMonoOn (twoErr b' c') (Set.Icc lo hi) := by
  refine strictMonoOn_of_deriv_pos (convex_Icc _ _) (continuous_twoErr _ _).continuousOn fun r hr => ?_
  rw [interior_Icc] at hr
  rw [(hasDerivAt_twoErr b' c' r).deriv]
  have hr0 : 0 ≤ r := h0.trans hr.1.le
  have hr1 : r ≤ 1 := hr.2.le.trans h1
  have hd := h r hr.1.le hr.2.le
  have e : b' * (2 * r - 8 / 3 * r * (2 / 3 * r ^ 2 + c')) + 4 / 3 * r - 1 =
      (b * (2 * r - 8 / 3 * r * (2 / 3 * r ^ 2 + c)) + 4 / 3 * r - 1) +
      ((b' - b) * (2 * r - 8 / 3 * r * (2 / 3 * r ^ 2 + c')) - (c' - c) * (b * (8 / 3 * r))) := by ring
  have g := abs_le.mp hc'
  norm_num at g
  have r2 : 0 ≤ r ^ 2 ∧ r ^ 2 ≤ 1 := ⟨by positivity, pow_le_one₀ hr0 hr1⟩
  have k0 : |2 / 3 * r ^ 2 + c'| ≤ 2 := by rw [abs_le]; constructor <;> linarith
  have k1 : |2 * r - 8 / 3 * r * (2 / 3 * r ^ 2 + c')| ≤ 10 := by
    have : |8 / 3 * r * (2 / 3 * r ^ 2 + c')| ≤ 8 / 3 * 2 := by
      rw [abs_mul, abs_of_nonneg (by positivity)]
      exact mul_le_mul (by linarith) k0 (abs_nonneg _) (by norm_num)
    have := abs_le.mp this
    rw [abs_le]; constructor <;> linarith
  have k2 : |b * (8 / 3 * r)| ≤ 10 := by
    rw [abs_of_nonneg (mul_nonneg hb.1 (by positivity))]
    nlinarith [hb.1, hb.2]
  have k3 : |(b' - b) * (2 * r - 8 / 3 * r * (2 / 3 * r ^ 2 + c')) - (c' - c) * (b * (8 / 3 * r))| ≤ 1 / 10 ^ 15 * 10 + 1 / 10 ^ 15 * 10 := by
    refine (abs_sub _ _).trans ?_
    rw [abs_mul, abs_mul (c' - c)]
    exact add_le_add (mul_le_mul hb' k1 (abs_nonneg _) (by norm_num)) (mul_le_mul hc' k2 (abs_nonneg _) (by norm_num))
  have k4 := (abs_le.mp k3).1
  rw [e]
  norm_num at k4 hd ⊢
  linarith

/-- Where the error crosses -5e-4 within a row. -/
theorem twoErr_cross {b b' c' lo hi q1 q2 : ℝ} (h0 : 0 ≤ lo) (h1 : hi ≤ 1) (hb : 0 ≤ b ∧ b ≤ 1) (hb' : |b' - b| ≤ 1 / 10 ^ 15)
    (hc' : |c' - 354167 / 1000000| ≤ 1 / 10 ^ 15)
    (h : ∀ r, lo ≤ r → r ≤ hi → 1 / 1000 ≤ b * (2 * r - 8 / 3 * r * (2 / 3 * r ^ 2 + 354167 / 1000000)) + 4 / 3 * r - 1)
    (hq1 : lo ≤ q1) (hq : q1 ≤ q2) (hq2 : q2 ≤ hi)
    (v1 : pass b q1 (y0 q1 - q1) < -(5 / 10000) - 1 / 10 ^ 12) (v2 : -(5 / 10000) + 1 / 10 ^ 12 < pass b q2 (y0 q2 - q2)) :
    ∃ a, q1 < a ∧ a < q2 ∧ ∀ r, lo ≤ r → r ≤ hi → (-(5 / 10000) ≤ twoErr b' c' r ↔ a ≤ r) := by
  have near : ∀ r, lo ≤ r → r ≤ hi → |twoErr b' c' r - pass b r (y0 r - r)| ≤ 1 / 10 ^ 13 := fun r g1 g2 => by
    rw [← twoErr_pass]; exact twoErr_near (h0.trans g1) (g2.trans h1) hb hb' (by norm_num) hc'
  have m := twoErr_rise h0 h1 hb hb' (by norm_num) hc' h
  have w1 : twoErr b' c' q1 < -(5 / 10000) := by
    have := (abs_le.mp (near q1 hq1 (hq.trans hq2))).2
    norm_num at this v1 ⊢; linarith
  have w2 : -(5 / 10000) < twoErr b' c' q2 := by
    have := (abs_le.mp (near q2 (hq1.trans hq) hq2)).1
    norm_num at this v2 ⊢; linarith
  obtain ⟨a, ⟨a1, a2⟩, a3⟩ := intermediate_value_Icc hq (continuous_twoErr b' c').continuousOn ⟨w1.le, w2.le⟩
  refine ⟨a, lt_of_le_of_ne a1 (by rintro rfl; exact w1.ne a3), lt_of_le_of_ne a2 (by rintro rfl; exact w2.ne' a3), fun r g1 g2 => ?_⟩
  rw [← a3]
  exact m.le_iff_le ⟨hq1.trans a1, a2.trans hq2⟩ ⟨g1, g2⟩

theorem sq_row {r : ℝ} (hr : 0 ≤ r) {l u : ℝ} (hl : 0 ≤ l) (hu : 0 ≤ u) (h1 : l ^ 2 ≤ r ^ 2) (h2 : r ^ 2 ≤ u ^ 2) : l ≤ r ∧ r ≤ u :=
  ⟨(sq_le_sq₀ hl hr).mp h1, (sq_le_sq₀ hr hu).mp h2⟩

theorem est_row {r : ℝ} (h0 : 0 ≤ r) (h1 : r ≤ 1) {b : ℝ} (hb : 0 ≤ b ∧ b ≤ 1) (h : |betaV (r ^ 2) - b| ≤ 1 / 10 ^ 15) :
    |est (r ^ 2) 2 - r - pass b r (y0 r - r)| ≤ 1 / 10 ^ 13 := by
  rw [est_twoErr, ← twoErr_pass]; exact twoErr_near h0 h1 hb h (by norm_num) start_close

theorem est_good {r : ℝ} (h0 : 0 ≤ r) (h1 : r ≤ 1) {b : ℝ} (hb : 0 ≤ b ∧ b ≤ 1) (h : |betaV (r ^ 2) - b| ≤ 1 / 10 ^ 15)
    (g : |pass b r (y0 r - r)| ≤ 499 / 1000000) : |est (r ^ 2) 2 - r| ≤ 5 / 10000 := by
  have k1 := abs_le.mp (est_row h0 h1 hb h); have k2 := abs_le.mp g
  norm_num at k1 k2 ⊢
  rw [abs_le]; constructor <;> linarith

theorem est_top {r : ℝ} (h0 : 0 ≤ r) (h1 : r ≤ 1) {b : ℝ} (hb : 0 ≤ b ∧ b ≤ 1) (h : |betaV (r ^ 2) - b| ≤ 1 / 10 ^ 15)
    (g : pass b r (y0 r - r) ≤ 499 / 1000000) : |est (r ^ 2) 2 - r| ≤ 5 / 10000 ↔ -(5 / 10000) ≤ est (r ^ 2) 2 - r := by
  have k1 := abs_le.mp (est_row h0 h1 hb h)
  rw [abs_le]
  refine ⟨fun h => h.1, fun h => ⟨h, ?_⟩⟩
  norm_num at k1 ⊢; linarith

theorem dec_close (q : ℚ) (c : ℝ) (h : q ∈ [(0.961914 : ℚ), 0.840332, 0.782715, 0.734869, 0.691406, 0.654297, 0.622070, 0.595215,
    0.573731, 0.556152, 0.516113, 0.502930, 0.354167]) (e : (q : ℝ) = c) : |((f64Round q : ℚ) : ℝ) - c| ≤ 1 / 10 ^ 15 :=
  e ▸ real_close (f64_close q h)

theorem beta0 {r : ℝ} (_l : 4 / 16 ≤ r ^ 2) (u : r ^ 2 < 5 / 16) : betaV (r ^ 2) = ((f64Round 0.961914 : ℚ) : ℝ) := by
  unfold betaV; rw [if_pos (show r ^ 2 < 5 / 16 by linarith)]

theorem two0 {r : ℝ} (hr0 : 0 ≤ r) (l : 4 / 16 ≤ r ^ 2) (u : r ^ 2 < 5 / 16) : |est (r ^ 2) 2 - r| ≤ 5 / 10000 := by
  have hr1 : r ≤ 1 := by nlinarith
  have hb : |betaV (r ^ 2) - 0.961914| ≤ 1 / 10 ^ 15 := by rw [beta0 l u]; exact dec_close 0.961914 _ (by simp) (by norm_num)
  obtain ⟨k1, k2⟩ := sq_row hr0 (l := 50000 / 100000) (u := 55902 / 100000) (by norm_num) (by norm_num)
    (by norm_num at l ⊢; linarith) (by norm_num at u ⊢; linarith)
  exact est_good hr0 hr1 (by norm_num) hb (row0 k1 k2)

theorem beta1 {r : ℝ} (l : 5 / 16 ≤ r ^ 2) (u : r ^ 2 < 6 / 16) : betaV (r ^ 2) = ((f64Round 0.840332 : ℚ) : ℝ) := by
  unfold betaV; rw [if_neg (show ¬ r ^ 2 < 5 / 16 by linarith), if_pos (show r ^ 2 < 6 / 16 by linarith)]

theorem two1 {r : ℝ} (hr0 : 0 ≤ r) (l : 5 / 16 ≤ r ^ 2) (u : r ^ 2 < 6 / 16) : |est (r ^ 2) 2 - r| ≤ 5 / 10000 := by
  have hr1 : r ≤ 1 := by nlinarith
  have hb : |betaV (r ^ 2) - 0.840332| ≤ 1 / 10 ^ 15 := by rw [beta1 l u]; exact dec_close 0.840332 _ (by simp) (by norm_num)
  obtain ⟨k1, k2⟩ := sq_row hr0 (l := 55901 / 100000) (u := 61238 / 100000) (by norm_num) (by norm_num)
    (by norm_num at l ⊢; linarith) (by norm_num at u ⊢; linarith)
  exact est_good hr0 hr1 (by norm_num) hb (row1 k1 k2)

theorem beta2 {r : ℝ} (l : 6 / 16 ≤ r ^ 2) (u : r ^ 2 < 7 / 16) : betaV (r ^ 2) = ((f64Round 0.782715 : ℚ) : ℝ) := by
  unfold betaV; rw [if_neg (show ¬ r ^ 2 < 5 / 16 by linarith), if_neg (show ¬ r ^ 2 < 6 / 16 by linarith), if_pos (show r ^ 2 < 7 / 16 by linarith)]

theorem two2 {r : ℝ} (hr0 : 0 ≤ r) (l : 6 / 16 ≤ r ^ 2) (u : r ^ 2 < 7 / 16) : |est (r ^ 2) 2 - r| ≤ 5 / 10000 := by
  have hr1 : r ≤ 1 := by nlinarith
  have hb : |betaV (r ^ 2) - 0.782715| ≤ 1 / 10 ^ 15 := by rw [beta2 l u]; exact dec_close 0.782715 _ (by simp) (by norm_num)
  obtain ⟨k1, k2⟩ := sq_row hr0 (l := 61237 / 100000) (u := 66144 / 100000) (by norm_num) (by norm_num)
    (by norm_num at l ⊢; linarith) (by norm_num at u ⊢; linarith)
  exact est_good hr0 hr1 (by norm_num) hb (row2 k1 k2)

theorem beta3 {r : ℝ} (l : 7 / 16 ≤ r ^ 2) (u : r ^ 2 < 8 / 16) : betaV (r ^ 2) = ((f64Round 0.734869 : ℚ) : ℝ) := by
  unfold betaV; rw [if_neg (show ¬ r ^ 2 < 5 / 16 by linarith), if_neg (show ¬ r ^ 2 < 6 / 16 by linarith), if_neg (show ¬ r ^ 2 < 7 / 16 by linarith), if_pos (show r ^ 2 < 8 / 16 by linarith)]

theorem two3 : ∃ a : ℝ, 0.6676 < a ∧ a < 0.6678 ∧ ∀ r : ℝ, 0 ≤ r → 7 / 16 ≤ r ^ 2 → r ^ 2 < 8 / 16 →
    (|est (r ^ 2) 2 - r| ≤ 5 / 10000 ↔ a ^ 2 ≤ r ^ 2) := by
  obtain ⟨a, a1, a2, a3⟩ := twoErr_cross (b := 0.734869) (lo := 66143 / 100000) (hi := 70711 / 100000) (q1 := 0.6676) (q2 := 0.6678)
    (by norm_num) (by norm_num) (by norm_num) (dec_close 0.734869 _ (by simp) (by norm_num)) start_close (fun r => rise3)
    (by norm_num) (by norm_num) (by norm_num) (by unfold pass y0; norm_num) (by unfold pass y0; norm_num)
  refine ⟨a, a1, a2, fun r hr0 l u => ?_⟩
  have a0 : 0 ≤ a := by norm_num at a1; linarith
  have hr1 : r ≤ 1 := by nlinarith
  have hb : |betaV (r ^ 2) - 0.734869| ≤ 1 / 10 ^ 15 := by rw [beta3 l u]; exact dec_close 0.734869 _ (by simp) (by norm_num)
  obtain ⟨k1, k2⟩ := sq_row hr0 (l := 66143 / 100000) (u := 70711 / 100000) (by norm_num) (by norm_num)
    (by norm_num at l ⊢; linarith) (by norm_num at u ⊢; linarith)
  rw [est_top hr0 hr1 (by norm_num) hb (row3 k1 k2), est_twoErr, beta3 l u, a3 r k1 k2, sq_le_sq₀ a0 hr0]

theorem beta4 {r : ℝ} (l : 8 / 16 ≤ r ^ 2) (u : r ^ 2 < 9 / 16) : betaV (r ^ 2) = ((f64Round 0.691406 : ℚ) : ℝ) := by
  unfold betaV; rw [if_neg (show ¬ r ^ 2 < 5 / 16 by linarith), if_neg (show ¬ r ^ 2 < 6 / 16 by linarith), if_neg (show ¬ r ^ 2 < 7 / 16 by linarith), if_neg (show ¬ r ^ 2 < 8 / 16 by linarith), if_pos (show r ^ 2 < 9 / 16 by linarith)]

theorem two4 : ∃ a : ℝ, 0.7151 < a ∧ a < 0.7152 ∧ ∀ r : ℝ, 0 ≤ r → 8 / 16 ≤ r ^ 2 → r ^ 2 < 9 / 16 →
    (|est (r ^ 2) 2 - r| ≤ 5 / 10000 ↔ a ^ 2 ≤ r ^ 2) := by
  obtain ⟨a, a1, a2, a3⟩ := twoErr_cross (b := 0.691406) (lo := 70710 / 100000) (hi := 75000 / 100000) (q1 := 0.7151) (q2 := 0.7152)
    (by norm_num) (by norm_num) (by norm_num) (dec_close 0.691406 _ (by simp) (by norm_num)) start_close (fun r => rise4)
    (by norm_num) (by norm_num) (by norm_num) (by unfold pass y0; norm_num) (by unfold pass y0; norm_num)
  refine ⟨a, a1, a2, fun r hr0 l u => ?_⟩
  have a0 : 0 ≤ a := by norm_num at a1; linarith
  have hr1 : r ≤ 1 := by nlinarith
  have hb : |betaV (r ^ 2) - 0.691406| ≤ 1 / 10 ^ 15 := by rw [beta4 l u]; exact dec_close 0.691406 _ (by simp) (by norm_num)
  obtain ⟨k1, k2⟩ := sq_row hr0 (l := 70710 / 100000) (u := 75000 / 100000) (by norm_num) (by norm_num)
    (by norm_num at l ⊢; linarith) (by norm_num at u ⊢; linarith)
  rw [est_top hr0 hr1 (by norm_num) hb (row4 k1 k2), est_twoErr, beta4 l u, a3 r k1 k2, sq_le_sq₀ a0 hr0]

theorem beta5 {r : ℝ} (l : 9 / 16 ≤ r ^ 2) (u : r ^ 2 < 10 / 16) : betaV (r ^ 2) = ((f64Round 0.654297 : ℚ) : ℝ) := by
  unfold betaV; rw [if_neg (show ¬ r ^ 2 < 5 / 16 by linarith), if_neg (show ¬ r ^ 2 < 6 / 16 by linarith), if_neg (show ¬ r ^ 2 < 7 / 16 by linarith), if_neg (show ¬ r ^ 2 < 8 / 16 by linarith), if_neg (show ¬ r ^ 2 < 9 / 16 by linarith), if_pos (show r ^ 2 < 10 / 16 by linarith)]

theorem two5 : ∃ a : ℝ, 0.7562 < a ∧ a < 0.7563 ∧ ∀ r : ℝ, 0 ≤ r → 9 / 16 ≤ r ^ 2 → r ^ 2 < 10 / 16 →
    (|est (r ^ 2) 2 - r| ≤ 5 / 10000 ↔ a ^ 2 ≤ r ^ 2) := by
  obtain ⟨a, a1, a2, a3⟩ := twoErr_cross (b := 0.654297) (lo := 75000 / 100000) (hi := 79057 / 100000) (q1 := 0.7562) (q2 := 0.7563)
    (by norm_num) (by norm_num) (by norm_num) (dec_close 0.654297 _ (by simp) (by norm_num)) start_close (fun r => rise5)
    (by norm_num) (by norm_num) (by norm_num) (by unfold pass y0; norm_num) (by unfold pass y0; norm_num)
  refine ⟨a, a1, a2, fun r hr0 l u => ?_⟩
  have a0 : 0 ≤ a := by norm_num at a1; linarith
  have hr1 : r ≤ 1 := by nlinarith
  have hb : |betaV (r ^ 2) - 0.654297| ≤ 1 / 10 ^ 15 := by rw [beta5 l u]; exact dec_close 0.654297 _ (by simp) (by norm_num)
  obtain ⟨k1, k2⟩ := sq_row hr0 (l := 75000 / 100000) (u := 79057 / 100000) (by norm_num) (by norm_num)
    (by norm_num at l ⊢; linarith) (by norm_num at u ⊢; linarith)
  rw [est_top hr0 hr1 (by norm_num) hb (row5 k1 k2), est_twoErr, beta5 l u, a3 r k1 k2, sq_le_sq₀ a0 hr0]

theorem beta6 {r : ℝ} (l : 10 / 16 ≤ r ^ 2) (u : r ^ 2 < 11 / 16) : betaV (r ^ 2) = ((f64Round 0.622070 : ℚ) : ℝ) := by
  unfold betaV; rw [if_neg (show ¬ r ^ 2 < 5 / 16 by linarith), if_neg (show ¬ r ^ 2 < 6 / 16 by linarith), if_neg (show ¬ r ^ 2 < 7 / 16 by linarith), if_neg (show ¬ r ^ 2 < 8 / 16 by linarith), if_neg (show ¬ r ^ 2 < 9 / 16 by linarith), if_neg (show ¬ r ^ 2 < 10 / 16 by linarith), if_pos (show r ^ 2 < 11 / 16 by linarith)]

theorem two6 : ∃ a : ℝ, 0.7930 < a ∧ a < 0.7931 ∧ ∀ r : ℝ, 0 ≤ r → 10 / 16 ≤ r ^ 2 → r ^ 2 < 11 / 16 →
    (|est (r ^ 2) 2 - r| ≤ 5 / 10000 ↔ a ^ 2 ≤ r ^ 2) := by
  obtain ⟨a, a1, a2, a3⟩ := twoErr_cross (b := 0.622070) (lo := 79056 / 100000) (hi := 82916 / 100000) (q1 := 0.7930) (q2 := 0.7931)
    (by norm_num) (by norm_num) (by norm_num) (dec_close 0.622070 _ (by simp) (by norm_num)) start_close (fun r => rise6)
    (by norm_num) (by norm_num) (by norm_num) (by unfold pass y0; norm_num) (by unfold pass y0; norm_num)
  refine ⟨a, a1, a2, fun r hr0 l u => ?_⟩
  have a0 : 0 ≤ a := by norm_num at a1; linarith
  have hr1 : r ≤ 1 := by nlinarith
  have hb : |betaV (r ^ 2) - 0.622070| ≤ 1 / 10 ^ 15 := by rw [beta6 l u]; exact dec_close 0.622070 _ (by simp) (by norm_num)
  obtain ⟨k1, k2⟩ := sq_row hr0 (l := 79056 / 100000) (u := 82916 / 100000) (by norm_num) (by norm_num)
    (by norm_num at l ⊢; linarith) (by norm_num at u ⊢; linarith)
  rw [est_top hr0 hr1 (by norm_num) hb (row6 k1 k2), est_twoErr, beta6 l u, a3 r k1 k2, sq_le_sq₀ a0 hr0]

theorem beta7 {r : ℝ} (l : 11 / 16 ≤ r ^ 2) (u : r ^ 2 < 12 / 16) : betaV (r ^ 2) = ((f64Round 0.595215 : ℚ) : ℝ) := by
  unfold betaV; rw [if_neg (show ¬ r ^ 2 < 5 / 16 by linarith), if_neg (show ¬ r ^ 2 < 6 / 16 by linarith), if_neg (show ¬ r ^ 2 < 7 / 16 by linarith), if_neg (show ¬ r ^ 2 < 8 / 16 by linarith), if_neg (show ¬ r ^ 2 < 9 / 16 by linarith), if_neg (show ¬ r ^ 2 < 10 / 16 by linarith), if_neg (show ¬ r ^ 2 < 11 / 16 by linarith), if_pos (show r ^ 2 < 12 / 16 by linarith)]

theorem two7 {r : ℝ} (hr0 : 0 ≤ r) (l : 11 / 16 ≤ r ^ 2) (u : r ^ 2 < 12 / 16) : |est (r ^ 2) 2 - r| ≤ 5 / 10000 := by
  have hr1 : r ≤ 1 := by nlinarith
  have hb : |betaV (r ^ 2) - 0.595215| ≤ 1 / 10 ^ 15 := by rw [beta7 l u]; exact dec_close 0.595215 _ (by simp) (by norm_num)
  obtain ⟨k1, k2⟩ := sq_row hr0 (l := 82915 / 100000) (u := 86603 / 100000) (by norm_num) (by norm_num)
    (by norm_num at l ⊢; linarith) (by norm_num at u ⊢; linarith)
  exact est_good hr0 hr1 (by norm_num) hb (row7 k1 k2)

theorem beta8 {r : ℝ} (l : 12 / 16 ≤ r ^ 2) (u : r ^ 2 < 13 / 16) : betaV (r ^ 2) = ((f64Round 0.573731 : ℚ) : ℝ) := by
  unfold betaV; rw [if_neg (show ¬ r ^ 2 < 5 / 16 by linarith), if_neg (show ¬ r ^ 2 < 6 / 16 by linarith), if_neg (show ¬ r ^ 2 < 7 / 16 by linarith), if_neg (show ¬ r ^ 2 < 8 / 16 by linarith), if_neg (show ¬ r ^ 2 < 9 / 16 by linarith), if_neg (show ¬ r ^ 2 < 10 / 16 by linarith), if_neg (show ¬ r ^ 2 < 11 / 16 by linarith), if_neg (show ¬ r ^ 2 < 12 / 16 by linarith), if_pos (show r ^ 2 < 13 / 16 by linarith)]

theorem two8 {r : ℝ} (hr0 : 0 ≤ r) (l : 12 / 16 ≤ r ^ 2) (u : r ^ 2 < 13 / 16) : |est (r ^ 2) 2 - r| ≤ 5 / 10000 := by
  have hr1 : r ≤ 1 := by nlinarith
  have hb : |betaV (r ^ 2) - 0.573731| ≤ 1 / 10 ^ 15 := by rw [beta8 l u]; exact dec_close 0.573731 _ (by simp) (by norm_num)
  obtain ⟨k1, k2⟩ := sq_row hr0 (l := 86602 / 100000) (u := 90139 / 100000) (by norm_num) (by norm_num)
    (by norm_num at l ⊢; linarith) (by norm_num at u ⊢; linarith)
  exact est_good hr0 hr1 (by norm_num) hb (row8 k1 k2)

theorem beta9 {r : ℝ} (l : 13 / 16 ≤ r ^ 2) (u : r ^ 2 < 14 / 16) : betaV (r ^ 2) = ((f64Round 0.556152 : ℚ) : ℝ) := by
  unfold betaV; rw [if_neg (show ¬ r ^ 2 < 5 / 16 by linarith), if_neg (show ¬ r ^ 2 < 6 / 16 by linarith), if_neg (show ¬ r ^ 2 < 7 / 16 by linarith), if_neg (show ¬ r ^ 2 < 8 / 16 by linarith), if_neg (show ¬ r ^ 2 < 9 / 16 by linarith), if_neg (show ¬ r ^ 2 < 10 / 16 by linarith), if_neg (show ¬ r ^ 2 < 11 / 16 by linarith), if_neg (show ¬ r ^ 2 < 12 / 16 by linarith), if_neg (show ¬ r ^ 2 < 13 / 16 by linarith), if_pos (show r ^ 2 < 14 / 16 by linarith)]

theorem two9 {r : ℝ} (hr0 : 0 ≤ r) (l : 13 / 16 ≤ r ^ 2) (u : r ^ 2 < 14 / 16) : |est (r ^ 2) 2 - r| ≤ 5 / 10000 := by
  have hr1 : r ≤ 1 := by nlinarith
  have hb : |betaV (r ^ 2) - 0.556152| ≤ 1 / 10 ^ 15 := by rw [beta9 l u]; exact dec_close 0.556152 _ (by simp) (by norm_num)
  obtain ⟨k1, k2⟩ := sq_row hr0 (l := 90138 / 100000) (u := 93542 / 100000) (by norm_num) (by norm_num)
    (by norm_num at l ⊢; linarith) (by norm_num at u ⊢; linarith)
  exact est_good hr0 hr1 (by norm_num) hb (row9 k1 k2)

theorem beta10 {r : ℝ} (l : 14 / 16 ≤ r ^ 2) (u : r ^ 2 < 15 / 16) : betaV (r ^ 2) = ((f64Round 0.516113 : ℚ) : ℝ) := by
  unfold betaV; rw [if_neg (show ¬ r ^ 2 < 5 / 16 by linarith), if_neg (show ¬ r ^ 2 < 6 / 16 by linarith), if_neg (show ¬ r ^ 2 < 7 / 16 by linarith), if_neg (show ¬ r ^ 2 < 8 / 16 by linarith), if_neg (show ¬ r ^ 2 < 9 / 16 by linarith), if_neg (show ¬ r ^ 2 < 10 / 16 by linarith), if_neg (show ¬ r ^ 2 < 11 / 16 by linarith), if_neg (show ¬ r ^ 2 < 12 / 16 by linarith), if_neg (show ¬ r ^ 2 < 13 / 16 by linarith), if_neg (show ¬ r ^ 2 < 14 / 16 by linarith), if_pos (show r ^ 2 < 15 / 16 by linarith)]

theorem two10 {r : ℝ} (hr0 : 0 ≤ r) (l : 14 / 16 ≤ r ^ 2) (u : r ^ 2 < 15 / 16) : |est (r ^ 2) 2 - r| ≤ 5 / 10000 := by
  have hr1 : r ≤ 1 := by nlinarith
  have hb : |betaV (r ^ 2) - 0.516113| ≤ 1 / 10 ^ 15 := by rw [beta10 l u]; exact dec_close 0.516113 _ (by simp) (by norm_num)
  obtain ⟨k1, k2⟩ := sq_row hr0 (l := 93541 / 100000) (u := 96825 / 100000) (by norm_num) (by norm_num)
    (by norm_num at l ⊢; linarith) (by norm_num at u ⊢; linarith)
  exact est_good hr0 hr1 (by norm_num) hb (row10 k1 k2)

theorem beta11 {r : ℝ} (l : 15 / 16 ≤ r ^ 2) (u : r ^ 2 < 16 / 16) : betaV (r ^ 2) = ((f64Round 0.502930 : ℚ) : ℝ) := by
  unfold betaV; rw [if_neg (show ¬ r ^ 2 < 5 / 16 by linarith), if_neg (show ¬ r ^ 2 < 6 / 16 by linarith), if_neg (show ¬ r ^ 2 < 7 / 16 by linarith), if_neg (show ¬ r ^ 2 < 8 / 16 by linarith), if_neg (show ¬ r ^ 2 < 9 / 16 by linarith), if_neg (show ¬ r ^ 2 < 10 / 16 by linarith), if_neg (show ¬ r ^ 2 < 11 / 16 by linarith), if_neg (show ¬ r ^ 2 < 12 / 16 by linarith), if_neg (show ¬ r ^ 2 < 13 / 16 by linarith), if_neg (show ¬ r ^ 2 < 14 / 16 by linarith), if_neg (show ¬ r ^ 2 < 15 / 16 by linarith)]

theorem two11 {r : ℝ} (hr0 : 0 ≤ r) (l : 15 / 16 ≤ r ^ 2) (u : r ^ 2 < 16 / 16) : |est (r ^ 2) 2 - r| ≤ 5 / 10000 := by
  have hr1 : r ≤ 1 := by nlinarith
  have hb : |betaV (r ^ 2) - 0.502930| ≤ 1 / 10 ^ 15 := by rw [beta11 l u]; exact dec_close 0.502930 _ (by simp) (by norm_num)
  obtain ⟨k1, k2⟩ := sq_row hr0 (l := 96824 / 100000) (u := 100000 / 100000) (by norm_num) (by norm_num)
    (by norm_num at l ⊢; linarith) (by norm_num at u ⊢; linarith)
  exact est_good hr0 hr1 (by norm_num) hb (row11 k1 k2)

end MixedNum
