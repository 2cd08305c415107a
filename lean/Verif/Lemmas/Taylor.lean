import Mathlib.Analysis.SpecialFunctions.Trigonometric.Deriv
import Mathlib.Analysis.Calculus.Deriv.MeanValue
import Mathlib.Analysis.Calculus.Deriv.Pow
/-! Taylor polynomials of sine and cosine bracket the functions. -/

namespace MixedNum
open Finset

/-- `x - x³/3! + …`, `n` terms. -/
noncomputable def sinT (n : ℕ) (x : ℝ) : ℝ := ∑ k ∈ range n, (-1) ^ k * x ^ (2 * k + 1) / (2 * k + 1).factorial
/-- `1 - x²/2! + …`, `n` terms. -/
noncomputable def cosT (n : ℕ) (x : ℝ) : ℝ := ∑ k ∈ range n, (-1) ^ k * x ^ (2 * k) / (2 * k).factorial

theorem nonneg_of_deriv_nonneg {f f' : ℝ → ℝ} (h0 : f 0 = 0) (hd : ∀ x, HasDerivAt f (f' x) x)
    (hn : ∀ x, 0 ≤ x → 0 ≤ f' x) {x : ℝ} (hx : 0 ≤ x) : 0 ≤ f x := by
  have hm : MonotoneOn f (Set.Ici 0) := by
    refine monotoneOn_of_deriv_nonneg (convex_Ici 0) (fun y _ => (hd y).continuousAt.continuousWithinAt)
      (fun y _ => (hd y).differentiableAt.differentiableWithinAt) ?_
    intro y hy
    rw [interior_Ici, Set.mem_Ioi] at hy
    rw [(hd y).deriv]; exact hn y hy.le
  have := hm (Set.mem_Ici.mpr le_rfl) (Set.mem_Ici.mpr hx) hx
  rwa [h0] at this

theorem hasDerivAt_sinT (n : ℕ) (x : ℝ) : HasDerivAt (sinT n) (cosT n x) x := by
  unfold sinT cosT
  refine HasDerivAt.fun_sum fun k _ => ?_
  have h := (((hasDerivAt_pow (2 * k + 1) x).const_mul ((-1 : ℝ) ^ k)).div_const ((2 * k + 1).factorial : ℝ))
  refine h.congr_deriv ?_
  rw [Nat.factorial_succ]; push_cast
  have : ((2 * k).factorial : ℝ) ≠ 0 := by positivity
  field_simp

theorem hasDerivAt_cosT (n : ℕ) (x : ℝ) : HasDerivAt (cosT (n + 1)) (-sinT n x) x := by
  unfold sinT cosT
  simp_rw [sum_range_succ', ← sum_neg_distrib]
  have h0 : HasDerivAt (fun x : ℝ => (-1 : ℝ) ^ 0 * x ^ (2 * 0) / (2 * 0).factorial) 0 x := by
    simpa using hasDerivAt_const x (1 : ℝ)
  have hs : HasDerivAt (fun x : ℝ => ∑ k ∈ range n, (-1 : ℝ) ^ (k + 1) * x ^ (2 * (k + 1)) / (2 * (k + 1)).factorial)
      (∑ k ∈ range n, -((-1 : ℝ) ^ k * x ^ (2 * k + 1) / (2 * k + 1).factorial)) x := by
    refine HasDerivAt.fun_sum fun k _ => ?_
    have h := (((hasDerivAt_pow (2 * (k + 1)) x).const_mul ((-1 : ℝ) ^ (k + 1))).div_const
      ((2 * (k + 1)).factorial : ℝ))
    refine h.congr_deriv ?_
    rw [show 2 * (k + 1) = (2 * k + 1) + 1 by ring, Nat.factorial_succ, pow_succ (-1 : ℝ)]; push_cast
    have : ((2 * k + 1).factorial : ℝ) ≠ 0 := by positivity
    field_simp
  exact (hs.fun_add h0).congr_deriv (add_zero _)

theorem taylor_alternate (n : ℕ) : (∀ x : ℝ, 0 ≤ x → 0 ≤ (-1) ^ (n + 1) * (Real.cos x - cosT (n + 1) x)) ∧
    ∀ x : ℝ, 0 ≤ x → 0 ≤ (-1) ^ (n + 1) * (Real.sin x - sinT (n + 1) x) := by
  have toSin : ∀ n, (∀ x : ℝ, 0 ≤ x → 0 ≤ (-1) ^ (n + 1) * (Real.cos x - cosT (n + 1) x)) →
      ∀ x : ℝ, 0 ≤ x → 0 ≤ (-1) ^ (n + 1) * (Real.sin x - sinT (n + 1) x) := by
    intro n h x hx
    refine nonneg_of_deriv_nonneg (f := fun x => (-1) ^ (n + 1) * (Real.sin x - sinT (n + 1) x))
      (f' := fun x => (-1) ^ (n + 1) * (Real.cos x - cosT (n + 1) x)) ?_ ?_ h hx
    · simp [sinT]
    · exact fun y => ((Real.hasDerivAt_sin y).sub (hasDerivAt_sinT _ y)).const_mul _
  induction n with
  | zero =>
    have h : ∀ x : ℝ, 0 ≤ x → 0 ≤ (-1) ^ (0 + 1) * (Real.cos x - cosT (0 + 1) x) := by
      intro x _; simp [cosT]; exact Real.cos_le_one x
    exact ⟨h, toSin 0 h⟩
  | succ n ih =>
    have h : ∀ x : ℝ, 0 ≤ x → 0 ≤ (-1) ^ (n + 1 + 1) * (Real.cos x - cosT (n + 1 + 1) x) := by
      intro x hx
      refine nonneg_of_deriv_nonneg (f := fun x => (-1) ^ (n + 1 + 1) * (Real.cos x - cosT (n + 1 + 1) x))
        (f' := fun x => (-1) ^ (n + 1) * (Real.sin x - sinT (n + 1) x)) ?_ ?_ ih.2 hx
      · simp [cosT, sum_range_succ']
      · intro y
        refine (((Real.hasDerivAt_cos y).sub (hasDerivAt_cosT _ y)).const_mul _).congr_deriv ?_
        ring
    exact ⟨h, toSin _ h⟩

/-- The polynomial of `trigonometry::sin`, expanded. -/
theorem sinT_five (x : ℝ) : sinT 5 x = x - x ^ 3 / 6 + x ^ 5 / 120 - x ^ 7 / 5040 + x ^ 9 / 362880 := by
  simp [sinT, sum_range_succ, Nat.factorial]; ring

theorem sinT_six (x : ℝ) : sinT 6 x = sinT 5 x - x ^ 11 / 39916800 := by
  rw [sinT, sum_range_succ, ← sinT]; norm_num [Nat.factorial]; ring

theorem sinT_neg (n : ℕ) (x : ℝ) : sinT n (-x) = -sinT n x := by
  unfold sinT
  rw [← sum_neg_distrib]
  refine sum_congr rfl fun k _ => ?_
  rw [Odd.neg_pow ⟨k, rfl⟩]; ring

/-- Error of the degree-9 polynomial. -/
theorem abs_sinT_five_sub (x : ℝ) : |sinT 5 x - Real.sin x| ≤ |x| ^ 11 / 39916800 := by
  have key : ∀ x : ℝ, 0 ≤ x → |sinT 5 x - Real.sin x| ≤ |x| ^ 11 / 39916800 := by
    intro x hx
    have h1 := (taylor_alternate 4).2 x hx
    have h2 := (taylor_alternate 5).2 x hx
    rw [sinT_six] at h2
    rw [abs_of_nonneg hx, abs_le]; norm_num at h1 h2
    have : 0 ≤ x ^ 11 := by positivity
    constructor <;> linarith
  rcases le_total 0 x with h | h
  · exact key x h
  · have := key (-x) (by linarith)
    rw [sinT_neg, Real.sin_neg, abs_neg x] at this
    rwa [show -sinT 5 x - -Real.sin x = -(sinT 5 x - Real.sin x) by ring, abs_neg] at this

end MixedNum
