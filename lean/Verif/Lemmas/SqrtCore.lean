import Mathlib.Data.Real.Basic
import Mathlib.Analysis.Real.Sqrt
import Mathlib.Tactic.Linarith
import Mathlib.Tactic.Positivity
import Mathlib.Tactic.NormNum
/-! One pass of the NIIRF iteration on the normalised range, with decimal constants, as a function of the root `r`.
Generated by tools/gen_sqrt.py. -/

namespace MixedNum
namespace Niirf

/-- The start value. -/
noncomputable def y0 (r : ℝ) : ℝ := 2 / 3 * r ^ 2 + 354167 / 1000000
/-- The error after a pass with factor `b`, from the error `e`. -/
noncomputable def pass (b r e : ℝ) : ℝ := e * (1 - b * (2 * r + e))

/-- `r` is the root of a number in the region of the table where the factor is `b`. -/
def Region (r b : ℝ) : Prop :=
  (r ^ 2 < 5 / 16 ∧ 4 / 16 ≤ r ^ 2 ∧ b = 0.961914) ∨
  (r ^ 2 < 6 / 16 ∧ 5 / 16 ≤ r ^ 2 ∧ b = 0.840332) ∨
  (r ^ 2 < 7 / 16 ∧ 6 / 16 ≤ r ^ 2 ∧ b = 0.782715) ∨
  (r ^ 2 < 8 / 16 ∧ 7 / 16 ≤ r ^ 2 ∧ b = 0.734869) ∨
  (r ^ 2 < 9 / 16 ∧ 8 / 16 ≤ r ^ 2 ∧ b = 0.691406) ∨
  (r ^ 2 < 10 / 16 ∧ 9 / 16 ≤ r ^ 2 ∧ b = 0.654297) ∨
  (r ^ 2 < 11 / 16 ∧ 10 / 16 ≤ r ^ 2 ∧ b = 0.622070) ∨
  (r ^ 2 < 12 / 16 ∧ 11 / 16 ≤ r ^ 2 ∧ b = 0.595215) ∨
  (r ^ 2 < 13 / 16 ∧ 12 / 16 ≤ r ^ 2 ∧ b = 0.573731) ∨
  (r ^ 2 < 14 / 16 ∧ 13 / 16 ≤ r ^ 2 ∧ b = 0.556152) ∨
  (r ^ 2 < 15 / 16 ∧ 14 / 16 ≤ r ^ 2 ∧ b = 0.516113) ∨
  (r ^ 2 < 16 / 16 ∧ 15 / 16 ≤ r ^ 2 ∧ b = 0.502930)

theorem region0 {r : ℝ} (h1 : 50000 / 100000 ≤ r) (h2 : r ≤ 55902 / 100000) :
    |pass 0.961914 r (y0 r - r)| ≤ 995 / 1000000 * r ∧ |pass 0.961914 r (y0 r - r)| ≤ 71 / 100000 ∧
    ∀ e, |e| ≤ 21 / 1000 → |1 - 0.961914 * (2 * r + e)| ≤ 97 / 1000 := by
  have a : 0 ≤ r - 50000 / 100000 := by linarith
  have b : 0 ≤ 55902 / 100000 - r := by linarith
  have p0 := pow_nonneg b 4
  have p1 := mul_nonneg a (pow_nonneg b 3)
  have p2 := mul_nonneg (pow_nonneg a 2) (pow_nonneg b 2)
  have p3 := mul_nonneg (pow_nonneg a 3) b
  have p4 := pow_nonneg a 4
  refine ⟨?_, ?_, fun e he => ?_⟩
  · unfold pass y0; rw [abs_le]; constructor <;> norm_num <;> linarith
  · unfold pass y0; rw [abs_le]; constructor <;> norm_num <;> linarith
  · have := abs_le.mp he
    rw [abs_le]; constructor <;> norm_num <;> linarith

theorem region1 {r : ℝ} (h1 : 55901 / 100000 ≤ r) (h2 : r ≤ 61238 / 100000) :
    |pass 0.840332 r (y0 r - r)| ≤ 995 / 1000000 * r ∧ |pass 0.840332 r (y0 r - r)| ≤ 71 / 100000 ∧
    ∀ e, |e| ≤ 21 / 1000 → |1 - 0.840332 * (2 * r + e)| ≤ 97 / 1000 := by
  have a : 0 ≤ r - 55901 / 100000 := by linarith
  have b : 0 ≤ 61238 / 100000 - r := by linarith
  have p0 := pow_nonneg b 4
  have p1 := mul_nonneg a (pow_nonneg b 3)
  have p2 := mul_nonneg (pow_nonneg a 2) (pow_nonneg b 2)
  have p3 := mul_nonneg (pow_nonneg a 3) b
  have p4 := pow_nonneg a 4
  refine ⟨?_, ?_, fun e he => ?_⟩
  · unfold pass y0; rw [abs_le]; constructor <;> norm_num <;> linarith
  · unfold pass y0; rw [abs_le]; constructor <;> norm_num <;> linarith
  · have := abs_le.mp he
    rw [abs_le]; constructor <;> norm_num <;> linarith

theorem region2 {r : ℝ} (h1 : 61237 / 100000 ≤ r) (h2 : r ≤ 66144 / 100000) :
    |pass 0.782715 r (y0 r - r)| ≤ 995 / 1000000 * r ∧ |pass 0.782715 r (y0 r - r)| ≤ 71 / 100000 ∧
    ∀ e, |e| ≤ 21 / 1000 → |1 - 0.782715 * (2 * r + e)| ≤ 97 / 1000 := by
  have a : 0 ≤ r - 61237 / 100000 := by linarith
  have b : 0 ≤ 66144 / 100000 - r := by linarith
  have p0 := pow_nonneg b 4
  have p1 := mul_nonneg a (pow_nonneg b 3)
  have p2 := mul_nonneg (pow_nonneg a 2) (pow_nonneg b 2)
  have p3 := mul_nonneg (pow_nonneg a 3) b
  have p4 := pow_nonneg a 4
  refine ⟨?_, ?_, fun e he => ?_⟩
  · unfold pass y0; rw [abs_le]; constructor <;> norm_num <;> linarith
  · unfold pass y0; rw [abs_le]; constructor <;> norm_num <;> linarith
  · have := abs_le.mp he
    rw [abs_le]; constructor <;> norm_num <;> linarith

theorem region3 {r : ℝ} (h1 : 66143 / 100000 ≤ r) (h2 : r ≤ 70711 / 100000) :
    |pass 0.734869 r (y0 r - r)| ≤ 995 / 1000000 * r ∧ |pass 0.734869 r (y0 r - r)| ≤ 71 / 100000 ∧
    ∀ e, |e| ≤ 21 / 1000 → |1 - 0.734869 * (2 * r + e)| ≤ 97 / 1000 := by
  have a : 0 ≤ r - 66143 / 100000 := by linarith
  have b : 0 ≤ 70711 / 100000 - r := by linarith
  have p0 := pow_nonneg b 4
  have p1 := mul_nonneg a (pow_nonneg b 3)
  have p2 := mul_nonneg (pow_nonneg a 2) (pow_nonneg b 2)
  have p3 := mul_nonneg (pow_nonneg a 3) b
  have p4 := pow_nonneg a 4
  refine ⟨?_, ?_, fun e he => ?_⟩
  · unfold pass y0; rw [abs_le]; constructor <;> norm_num <;> linarith
  · unfold pass y0; rw [abs_le]; constructor <;> norm_num <;> linarith
  · have := abs_le.mp he
    rw [abs_le]; constructor <;> norm_num <;> linarith

theorem region4 {r : ℝ} (h1 : 70710 / 100000 ≤ r) (h2 : r ≤ 75001 / 100000) :
    |pass 0.691406 r (y0 r - r)| ≤ 995 / 1000000 * r ∧ |pass 0.691406 r (y0 r - r)| ≤ 71 / 100000 ∧
    ∀ e, |e| ≤ 21 / 1000 → |1 - 0.691406 * (2 * r + e)| ≤ 97 / 1000 := by
  have a : 0 ≤ r - 70710 / 100000 := by linarith
  have b : 0 ≤ 75001 / 100000 - r := by linarith
  have p0 := pow_nonneg b 4
  have p1 := mul_nonneg a (pow_nonneg b 3)
  have p2 := mul_nonneg (pow_nonneg a 2) (pow_nonneg b 2)
  have p3 := mul_nonneg (pow_nonneg a 3) b
  have p4 := pow_nonneg a 4
  refine ⟨?_, ?_, fun e he => ?_⟩
  · unfold pass y0; rw [abs_le]; constructor <;> norm_num <;> linarith
  · unfold pass y0; rw [abs_le]; constructor <;> norm_num <;> linarith
  · have := abs_le.mp he
    rw [abs_le]; constructor <;> norm_num <;> linarith

theorem region5 {r : ℝ} (h1 : 75000 / 100000 ≤ r) (h2 : r ≤ 79057 / 100000) :
    |pass 0.654297 r (y0 r - r)| ≤ 995 / 1000000 * r ∧ |pass 0.654297 r (y0 r - r)| ≤ 71 / 100000 ∧
    ∀ e, |e| ≤ 21 / 1000 → |1 - 0.654297 * (2 * r + e)| ≤ 97 / 1000 := by
  have a : 0 ≤ r - 75000 / 100000 := by linarith
  have b : 0 ≤ 79057 / 100000 - r := by linarith
  have p0 := pow_nonneg b 4
  have p1 := mul_nonneg a (pow_nonneg b 3)
  have p2 := mul_nonneg (pow_nonneg a 2) (pow_nonneg b 2)
  have p3 := mul_nonneg (pow_nonneg a 3) b
  have p4 := pow_nonneg a 4
  refine ⟨?_, ?_, fun e he => ?_⟩
  · unfold pass y0; rw [abs_le]; constructor <;> norm_num <;> linarith
  · unfold pass y0; rw [abs_le]; constructor <;> norm_num <;> linarith
  · have := abs_le.mp he
    rw [abs_le]; constructor <;> norm_num <;> linarith

theorem region6 {r : ℝ} (h1 : 79056 / 100000 ≤ r) (h2 : r ≤ 82916 / 100000) :
    |pass 0.622070 r (y0 r - r)| ≤ 995 / 1000000 * r ∧ |pass 0.622070 r (y0 r - r)| ≤ 71 / 100000 ∧
    ∀ e, |e| ≤ 21 / 1000 → |1 - 0.622070 * (2 * r + e)| ≤ 97 / 1000 := by
  have a : 0 ≤ r - 79056 / 100000 := by linarith
  have b : 0 ≤ 82916 / 100000 - r := by linarith
  have p0 := pow_nonneg b 4
  have p1 := mul_nonneg a (pow_nonneg b 3)
  have p2 := mul_nonneg (pow_nonneg a 2) (pow_nonneg b 2)
  have p3 := mul_nonneg (pow_nonneg a 3) b
  have p4 := pow_nonneg a 4
  refine ⟨?_, ?_, fun e he => ?_⟩
  · unfold pass y0; rw [abs_le]; constructor <;> norm_num <;> linarith
  · unfold pass y0; rw [abs_le]; constructor <;> norm_num <;> linarith
  · have := abs_le.mp he
    rw [abs_le]; constructor <;> norm_num <;> linarith

theorem region7 {r : ℝ} (h1 : 82915 / 100000 ≤ r) (h2 : r ≤ 86603 / 100000) :
    |pass 0.595215 r (y0 r - r)| ≤ 995 / 1000000 * r ∧ |pass 0.595215 r (y0 r - r)| ≤ 71 / 100000 ∧
    ∀ e, |e| ≤ 21 / 1000 → |1 - 0.595215 * (2 * r + e)| ≤ 97 / 1000 := by
  have a : 0 ≤ r - 82915 / 100000 := by linarith
  have b : 0 ≤ 86603 / 100000 - r := by linarith
  have p0 := pow_nonneg b 4
  have p1 := mul_nonneg a (pow_nonneg b 3)
  have p2 := mul_nonneg (pow_nonneg a 2) (pow_nonneg b 2)
  have p3 := mul_nonneg (pow_nonneg a 3) b
  have p4 := pow_nonneg a 4
  refine ⟨?_, ?_, fun e he => ?_⟩
  · unfold pass y0; rw [abs_le]; constructor <;> norm_num <;> linarith
  · unfold pass y0; rw [abs_le]; constructor <;> norm_num <;> linarith
  · have := abs_le.mp he
    rw [abs_le]; constructor <;> norm_num <;> linarith

theorem region8 {r : ℝ} (h1 : 86602 / 100000 ≤ r) (h2 : r ≤ 90139 / 100000) :
    |pass 0.573731 r (y0 r - r)| ≤ 995 / 1000000 * r ∧ |pass 0.573731 r (y0 r - r)| ≤ 71 / 100000 ∧
    ∀ e, |e| ≤ 21 / 1000 → |1 - 0.573731 * (2 * r + e)| ≤ 97 / 1000 := by
  have a : 0 ≤ r - 86602 / 100000 := by linarith
  have b : 0 ≤ 90139 / 100000 - r := by linarith
  have p0 := pow_nonneg b 4
  have p1 := mul_nonneg a (pow_nonneg b 3)
  have p2 := mul_nonneg (pow_nonneg a 2) (pow_nonneg b 2)
  have p3 := mul_nonneg (pow_nonneg a 3) b
  have p4 := pow_nonneg a 4
  refine ⟨?_, ?_, fun e he => ?_⟩
  · unfold pass y0; rw [abs_le]; constructor <;> norm_num <;> linarith
  · unfold pass y0; rw [abs_le]; constructor <;> norm_num <;> linarith
  · have := abs_le.mp he
    rw [abs_le]; constructor <;> norm_num <;> linarith

theorem region9 {r : ℝ} (h1 : 90138 / 100000 ≤ r) (h2 : r ≤ 93542 / 100000) :
    |pass 0.556152 r (y0 r - r)| ≤ 995 / 1000000 * r ∧ |pass 0.556152 r (y0 r - r)| ≤ 71 / 100000 ∧
    ∀ e, |e| ≤ 21 / 1000 → |1 - 0.556152 * (2 * r + e)| ≤ 97 / 1000 := by
  have a : 0 ≤ r - 90138 / 100000 := by linarith
  have b : 0 ≤ 93542 / 100000 - r := by linarith
  have p0 := pow_nonneg b 4
  have p1 := mul_nonneg a (pow_nonneg b 3)
  have p2 := mul_nonneg (pow_nonneg a 2) (pow_nonneg b 2)
  have p3 := mul_nonneg (pow_nonneg a 3) b
  have p4 := pow_nonneg a 4
  refine ⟨?_, ?_, fun e he => ?_⟩
  · unfold pass y0; rw [abs_le]; constructor <;> norm_num <;> linarith
  · unfold pass y0; rw [abs_le]; constructor <;> norm_num <;> linarith
  · have := abs_le.mp he
    rw [abs_le]; constructor <;> norm_num <;> linarith

theorem region10 {r : ℝ} (h1 : 93541 / 100000 ≤ r) (h2 : r ≤ 96825 / 100000) :
    |pass 0.516113 r (y0 r - r)| ≤ 995 / 1000000 * r ∧ |pass 0.516113 r (y0 r - r)| ≤ 71 / 100000 ∧
    ∀ e, |e| ≤ 21 / 1000 → |1 - 0.516113 * (2 * r + e)| ≤ 97 / 1000 := by
  have a : 0 ≤ r - 93541 / 100000 := by linarith
  have b : 0 ≤ 96825 / 100000 - r := by linarith
  have p0 := pow_nonneg b 4
  have p1 := mul_nonneg a (pow_nonneg b 3)
  have p2 := mul_nonneg (pow_nonneg a 2) (pow_nonneg b 2)
  have p3 := mul_nonneg (pow_nonneg a 3) b
  have p4 := pow_nonneg a 4
  refine ⟨?_, ?_, fun e he => ?_⟩
  · unfold pass y0; rw [abs_le]; constructor <;> norm_num <;> linarith
  · unfold pass y0; rw [abs_le]; constructor <;> norm_num <;> linarith
  · have := abs_le.mp he
    rw [abs_le]; constructor <;> norm_num <;> linarith

theorem region11 {r : ℝ} (h1 : 96824 / 100000 ≤ r) (h2 : r ≤ 100000 / 100000) :
    |pass 0.502930 r (y0 r - r)| ≤ 995 / 1000000 * r ∧ |pass 0.502930 r (y0 r - r)| ≤ 71 / 100000 ∧
    ∀ e, |e| ≤ 21 / 1000 → |1 - 0.502930 * (2 * r + e)| ≤ 97 / 1000 := by
  have a : 0 ≤ r - 96824 / 100000 := by linarith
  have b : 0 ≤ 100000 / 100000 - r := by linarith
  have p0 := pow_nonneg b 4
  have p1 := mul_nonneg a (pow_nonneg b 3)
  have p2 := mul_nonneg (pow_nonneg a 2) (pow_nonneg b 2)
  have p3 := mul_nonneg (pow_nonneg a 3) b
  have p4 := pow_nonneg a 4
  refine ⟨?_, ?_, fun e he => ?_⟩
  · unfold pass y0; rw [abs_le]; constructor <;> norm_num <;> linarith
  · unfold pass y0; rw [abs_le]; constructor <;> norm_num <;> linarith
  · have := abs_le.mp he
    rw [abs_le]; constructor <;> norm_num <;> linarith

/-- All regions together. -/
theorem region_all {r b : ℝ} (hr : 0 ≤ r) (h : Region r b) :
    (|pass b r (y0 r - r)| ≤ 995 / 1000000 * r ∧ |pass b r (y0 r - r)| ≤ 71 / 100000 ∧
    ∀ e, |e| ≤ 21 / 1000 → |1 - b * (2 * r + e)| ≤ 97 / 1000) ∧ 1 / 2 ≤ b ∧ b ≤ 97 / 100 := by
  have lo : ∀ c : ℝ, 0 ≤ c → c ^ 2 ≤ r ^ 2 → c ≤ r := fun c _ h => (sq_le_sq₀ ‹0 ≤ c› hr).mp h
  have hi : ∀ c : ℝ, 0 ≤ c → r ^ 2 ≤ c ^ 2 → r ≤ c := fun c hc h => (sq_le_sq₀ hr hc).mp h
  rcases h with ⟨h2, h1, rfl⟩ | ⟨h2, h1, rfl⟩ | ⟨h2, h1, rfl⟩ | ⟨h2, h1, rfl⟩ | ⟨h2, h1, rfl⟩ | ⟨h2, h1, rfl⟩ | ⟨h2, h1, rfl⟩ | ⟨h2, h1, rfl⟩ | ⟨h2, h1, rfl⟩ | ⟨h2, h1, rfl⟩ | ⟨h2, h1, rfl⟩ | ⟨h2, h1, rfl⟩
  · exact ⟨region0 (lo _ (by norm_num) (by linarith)) (hi _ (by norm_num) (by linarith)), by norm_num, by norm_num⟩
  · exact ⟨region1 (lo _ (by norm_num) (by linarith)) (hi _ (by norm_num) (by linarith)), by norm_num, by norm_num⟩
  · exact ⟨region2 (lo _ (by norm_num) (by linarith)) (hi _ (by norm_num) (by linarith)), by norm_num, by norm_num⟩
  · exact ⟨region3 (lo _ (by norm_num) (by linarith)) (hi _ (by norm_num) (by linarith)), by norm_num, by norm_num⟩
  · exact ⟨region4 (lo _ (by norm_num) (by linarith)) (hi _ (by norm_num) (by linarith)), by norm_num, by norm_num⟩
  · exact ⟨region5 (lo _ (by norm_num) (by linarith)) (hi _ (by norm_num) (by linarith)), by norm_num, by norm_num⟩
  · exact ⟨region6 (lo _ (by norm_num) (by linarith)) (hi _ (by norm_num) (by linarith)), by norm_num, by norm_num⟩
  · exact ⟨region7 (lo _ (by norm_num) (by linarith)) (hi _ (by norm_num) (by linarith)), by norm_num, by norm_num⟩
  · exact ⟨region8 (lo _ (by norm_num) (by linarith)) (hi _ (by norm_num) (by linarith)), by norm_num, by norm_num⟩
  · exact ⟨region9 (lo _ (by norm_num) (by linarith)) (hi _ (by norm_num) (by linarith)), by norm_num, by norm_num⟩
  · exact ⟨region10 (lo _ (by norm_num) (by linarith)) (hi _ (by norm_num) (by linarith)), by norm_num, by norm_num⟩
  · exact ⟨region11 (lo _ (by norm_num) (by linarith)) (hi _ (by norm_num) (by linarith)), by norm_num, by norm_num⟩

end Niirf
end MixedNum
