import Verif.Lemmas.FloatSqrt
/-! Float arithmetic as real arithmetic with errors, measured in `η = 2^-p`. -/

namespace MixedNum
namespace Flt
variable {f : Format}

/-- Half the distance from 1 to the next float. -/
noncomputable def eta (f : Format) : ℝ := 2 ^ (-(f.p:ℤ))

theorem eta_pos : 0 < eta f := zpow_pos (by norm_num) _
theorem eta_le (hf : f.Wide) : eta f ≤ 6 / 10 ^ 8 := by
  have hp := hf.p
  have : eta f ≤ (2:ℝ) ^ (-24 : ℤ) := zpow_le_zpow_right₀ (by norm_num) (by omega)
  norm_num at this ⊢; linarith

/-- `x` is a finite float within `c η` of `A`. -/
def Near (x : Flt f) (A c : ℝ) : Prop := ∃ q, Is x q ∧ |(q:ℝ) - A| ≤ c * eta f

theorem Is.near {x : Flt f} {q : ℚ} (h : Is x q) : Near x q 0 := ⟨q, h, by simp⟩

theorem Near.mono {x : Flt f} {A c d : ℝ} (h : Near x A c) (hcd : c ≤ d) : Near x A d := by
  obtain ⟨q, h1, h2⟩ := h
  exact ⟨q, h1, h2.trans (mul_le_mul_of_nonneg_right hcd eta_pos.le)⟩

theorem Near.neg {x : Flt f} {A c : ℝ} (h : Near x A c) : Near x.neg (-A) c := by
  obtain ⟨q, h1, h2⟩ := h
  refine ⟨-q, h1.neg, ?_⟩
  push_cast; rw [show -(q:ℝ) - -A = -(q - A) by ring, abs_neg]; exact h2

theorem Near.bound {x : Flt f} (hf : f.Wide) {A c : ℝ} (h : Near x A c) :
    ∃ q, Is x q ∧ |(q:ℝ) - A| ≤ c * eta f ∧ |(q:ℝ) - A| ≤ c / 10 ^ 7 := by
  obtain ⟨q, h1, h2⟩ := h
  have hc : 0 ≤ c := by
    by_contra hc
    have := mul_neg_of_neg_of_pos (not_le.mp hc) (eta_pos (f := f))
    linarith [abs_nonneg ((q:ℝ) - A)]
  refine ⟨q, h1, h2, h2.trans ?_⟩
  rw [div_eq_mul_one_div]
  refine mul_le_mul_of_nonneg_left ((eta_le hf).trans (by norm_num)) hc

/-- Rounding a number close to `A`. -/
theorem round_near (hf : f.Wide) {q : ℚ} {A c M : ℝ} (h : |(q:ℝ) - A| ≤ c * eta f) (hM : |A| + c / 10 ^ 7 + 1 / 10 ^ 8 ≤ M)
    (hM' : M ≤ 1000000) : |rnd f.p f.emin q| < 2 ^ f.emax ∧ |((rnd f.p f.emin q : ℚ) : ℝ) - A| ≤ (c + M) * eta f := by
  have he := eta_pos (f := f); have hel := eta_le hf
  have hc : 0 ≤ c := by
    by_contra hc
    have := mul_neg_of_neg_of_pos (not_le.mp hc) he
    linarith [abs_nonneg ((q:ℝ) - A)]
  have hce : c * eta f ≤ c / 10 ^ 7 := by
    rw [div_eq_mul_one_div]; exact mul_le_mul_of_nonneg_left (hel.trans (by norm_num)) hc
  have hqA : |(q:ℝ)| ≤ |A| + c / 10 ^ 7 := by
    have := abs_sub_abs_le_abs_sub (q:ℝ) A; linarith
  have := hf.p; have := hf.emin; have := hf.emax
  constructor
  · refine abs_rnd_lt hf.one_le (e := 20) ?_ (by omega) (by omega)
    rw [← Rat.cast_le (K := ℝ)]; push_cast
    have : |(q:ℝ)| ≤ 1000000 := by norm_num at hM ⊢; linarith
    linarith
  · have h1 := cast_abs_le (abs_rnd_le (p := f.p) (emin := f.emin) q)
    push_cast at h1
    have e1 : (2:ℝ) ^ (-(f.p:ℤ)) = eta f := rfl
    have e2 : (2:ℝ) ^ f.emin / 2 ≤ 1 / 10 ^ 8 * eta f := by
      have : (2:ℝ) ^ f.emin ≤ 2 ^ (-(f.p:ℤ) + -(f.p:ℤ) + -4) := zpow_le_zpow_right₀ (by norm_num) (by omega)
      rw [zpow_add₀ (by norm_num), zpow_add₀ (by norm_num), e1] at this
      have h3 := mul_le_mul_of_nonneg_right hel he.le
      norm_num at this h3 ⊢; linarith
    rw [e1] at h1
    have h2 := mul_le_mul_of_nonneg_right hqA he.le
    have h3 := mul_le_mul_of_nonneg_right hM he.le
    have h4 := abs_sub_le (((rnd f.p f.emin q : ℚ) : ℝ)) q A
    rw [add_mul] at h2 h3 ⊢
    rw [add_mul] at h3
    linarith

theorem Near.add (hf : f.Wide) {x y : Flt f} {A B a b U M : ℝ} (hx : Near x A a) (hy : Near y B b)
    (hU : |A + B| ≤ U) (hM : U + (a + b) / 10 ^ 7 + 1 / 10 ^ 8 ≤ M) (hM' : M ≤ 1000000) : Near (x.add y) (A + B) (a + b + M) := by
  obtain ⟨q, hq, e1⟩ := hx
  obtain ⟨r, hr, e2⟩ := hy
  obtain ⟨h1, h2⟩ := round_near hf (q := q + r) (A := A + B) (c := a + b) (by
    push_cast
    rw [show (q:ℝ) + r - (A + B) = (q - A) + (r - B) by ring, add_mul]
    exact (abs_add_le _ _).trans (add_le_add e1 e2)) (by linarith) hM'
  exact ⟨_, hq.add hf.one_le hr h1, h2⟩

theorem Near.sub (hf : f.Wide) {x y : Flt f} {A B a b U M : ℝ} (hx : Near x A a) (hy : Near y B b)
    (hU : |A - B| ≤ U) (hM : U + (a + b) / 10 ^ 7 + 1 / 10 ^ 8 ≤ M) (hM' : M ≤ 1000000) :
    Near (x.sub y) (A - B) (a + b + M) := by
  rw [sub_eq_add_neg] at hU ⊢
  exact hx.add hf hy.neg hU hM hM'

/-- `U`, `V` bound the factors, `c` the error of the exact product of the approximations. -/
theorem Near.mul (hf : f.Wide) {x y : Flt f} {A B a b U V c M : ℝ} (hx : Near x A a) (hy : Near y B b)
    (hU : |A| ≤ U) (hV : |B| ≤ V) (hc : U * b + V * a + a * b / 10 ^ 7 ≤ c)
    (hM : U * V + c / 10 ^ 7 + 1 / 10 ^ 8 ≤ M) (hM' : M ≤ 1000000) : Near (x.mul y) (A * B) (c + M) := by
  obtain ⟨q, hq, e1, f1⟩ := hx.bound hf
  obtain ⟨r, hr, e2, -⟩ := hy.bound hf
  have he := eta_pos (f := f)
  obtain ⟨h1, h2⟩ := round_near hf (q := q * r) (A := A * B) (c := c) (by
    push_cast
    rw [show (q:ℝ) * r - A * B = A * (r - B) + B * (q - A) + (q - A) * (r - B) by ring]
    have t1 : |A * ((r:ℝ) - B)| ≤ U * (b * eta f) := by
      rw [abs_mul]; exact mul_le_mul hU e2 (abs_nonneg _) ((abs_nonneg _).trans hU)
    have t2 : |B * ((q:ℝ) - A)| ≤ V * (a * eta f) := by
      rw [abs_mul]; exact mul_le_mul hV e1 (abs_nonneg _) ((abs_nonneg _).trans hV)
    have t3 : |((q:ℝ) - A) * (r - B)| ≤ a / 10 ^ 7 * (b * eta f) := by
      rw [abs_mul]; exact mul_le_mul f1 e2 (abs_nonneg _) ((abs_nonneg _).trans f1)
    have t4 := mul_le_mul_of_nonneg_right hc he.le
    refine (abs_add_le _ _).trans ?_
    have := abs_add_le (A * ((r:ℝ) - B)) (B * (q - A))
    rw [show U * b + V * a + a * b / 10 ^ 7 = U * b + V * a + a / 10 ^ 7 * b by ring, add_mul, add_mul] at t4
    linarith) (by
    rw [abs_mul]
    have := mul_le_mul hU hV (abs_nonneg _) ((abs_nonneg _).trans hU)
    linarith) hM'
  exact ⟨_, hq.mul hf.one_le hr h1, h2⟩

/-- Division by an exact number. -/
theorem Near.div_exact (hf : f.Wide) {x y : Flt f} {A a U M : ℝ} {n : ℚ} (hx : Near x A a) (hy : Is y n) (hn : 0 < n)
    (hU : |A| ≤ U) (hM : U / n + a / n / 10 ^ 7 + 1 / 10 ^ 8 ≤ M) (hM' : M ≤ 1000000) : Near (x.div y) (A / n) (a / n + M) := by
  obtain ⟨q, hq, e1⟩ := hx
  have hn' : (0:ℝ) < n := by exact_mod_cast hn
  obtain ⟨h1, h2⟩ := round_near hf (q := q / n) (A := A / n) (c := a / n) (by
    push_cast
    rw [← sub_div, abs_div, abs_of_pos hn', div_mul_eq_mul_div]
    exact div_le_div_of_nonneg_right e1 hn'.le) (by
    rw [abs_div, abs_of_pos hn']
    have := div_le_div_of_nonneg_right hU hn'.le
    linarith) hM'
  exact ⟨_, hq.div hf.one_le hy hn.ne' h1, h2⟩

/-- Integer literals. -/
theorem lit_int (hf : f.Wide) {n : ℤ} (h : |n| ≤ 2 ^ 24) : Is (ofExact false n : Flt f) n :=
  is_int hf.ok false (h.trans (pow_le_pow_right₀ (by norm_num) hf.p))

end Flt
end MixedNum
