import Verif.Lemmas.Arctan
import Mathlib.Analysis.SpecialFunctions.Trigonometric.Bounds
/-! # The argument of a point near the unit circle -/

namespace MixedNum

/-- A point within `δ` of `(cos x, sin x)` in each coordinate has the argument `x` within `3 δ`, up to whole turns. -/
theorem arg_near {a b x δ : ℝ} (hδ : δ ≤ 1 / 10) (hb : |b - Real.sin x| ≤ δ) (ha : |a - Real.cos x| ≤ δ) :
    ∃ k : ℤ, |Complex.arg ⟨a, b⟩ - x - 2 * Real.pi * k| ≤ 3 * δ ∧ (|x| ≤ 2.84 → k = 0) ∧ (|x| ≤ Real.pi → |k| ≤ 1) ∧
      (|x| ≤ 3.14 → δ ≤ 0.0004 → k = 0) := by
  have h0 : 0 ≤ δ := (abs_nonneg _).trans hb
  obtain ⟨s, hs⟩ : ∃ s, s = Real.sin x := ⟨_, rfl⟩
  obtain ⟨c, hc⟩ : ∃ c, c = Real.cos x := ⟨_, rfl⟩
  have q : s ^ 2 + c ^ 2 = 1 := by rw [hs, hc]; exact Real.sin_sq_add_cos_sq x
  obtain ⟨g, hg⟩ : ∃ g, g = b - s := ⟨_, rfl⟩
  obtain ⟨d, hd⟩ : ∃ d, d = a - c := ⟨_, rfl⟩
  rw [← hs, ← hg] at hb
  rw [← hc, ← hd] at ha
  have g2 : g ^ 2 ≤ δ ^ 2 := by rw [← sq_abs]; exact pow_le_pow_left₀ (abs_nonneg _) hb 2
  have d2 : d ^ 2 ≤ δ ^ 2 := by rw [← sq_abs]; exact pow_le_pow_left₀ (abs_nonneg _) ha 2
  have id : (g * c - d * s) ^ 2 + (d * c + g * s) ^ 2 = d ^ 2 + g ^ 2 := by
    have : (g * c - d * s) ^ 2 + (d * c + g * s) ^ 2 = (s ^ 2 + c ^ 2) * (d ^ 2 + g ^ 2) := by ring
    rw [this, q, one_mul]
  have hi : |g * c - d * s| ≤ 1.415 * δ := by
    refine abs_le_of_sq_le_sq ?_ (by positivity)
    have := sq_nonneg (d * c + g * s); have := sq_nonneg δ
    rw [mul_pow]; norm_num; linarith
  have hr : |d * c + g * s| ≤ 1.415 * δ := by
    refine abs_le_of_sq_le_sq ?_ (by positivity)
    have := sq_nonneg (g * c - d * s); have := sq_nonneg δ
    rw [mul_pow]; norm_num; linarith
  -- the point turned back by `x`
  obtain ⟨w, hw⟩ : ∃ w : ℂ, w = ⟨1 + (d * c + g * s), g * c - d * s⟩ := ⟨_, rfl⟩
  have hre : w.re = 1 + (d * c + g * s) := by rw [hw]
  have him : w.im = g * c - d * s := by rw [hw]
  have hre' : 0.858 ≤ w.re := by
    rw [hre]; have := (abs_le.mp hr).1; norm_num at this ⊢; linarith
  have hw0 : w ≠ 0 := by rintro h; rw [h] at hre'; norm_num at hre'
  have hz : (⟨a, b⟩ : ℂ) = w * (Complex.cos x + Complex.sin x * Complex.I) := by
    rw [← Complex.ofReal_cos, ← Complex.ofReal_sin, ← hs, ← hc]
    apply Complex.ext
    · simp only [Complex.mul_re, Complex.add_re, Complex.ofReal_re, Complex.add_im, Complex.ofReal_im, Complex.I_re,
        Complex.I_im, Complex.mul_im, hre, him]
      linear_combination -hd + (-d) * q
    · simp only [Complex.mul_re, Complex.add_re, Complex.ofReal_re, Complex.add_im, Complex.ofReal_im, Complex.I_re,
        Complex.I_im, Complex.mul_im, hre, him]
      linear_combination -hg + (-g) * q
  have harg : (Complex.arg ⟨a, b⟩ : Real.Angle) = ((Complex.arg w + x : ℝ) : Real.Angle) := by
    have e1 := Complex.arg_cos_add_sin_mul_I_coe_angle (x : Real.Angle)
    rw [Real.Angle.cos_coe, Real.Angle.sin_coe, Complex.ofReal_cos, Complex.ofReal_sin] at e1
    rw [hz, Complex.arg_mul_coe_angle hw0, e1, Real.Angle.coe_add]
    rw [← Complex.ofReal_cos, ← Complex.ofReal_sin, ← hs, ← hc]
    intro h
    have h1 := congrArg Complex.re h
    have h2 := congrArg Complex.im h
    simp at h1 h2
    rw [h1, h2] at q; norm_num at q
  obtain ⟨k, hk⟩ := Real.Angle.angle_eq_iff_two_pi_dvd_sub.mp harg
  have hn : w.re ≤ ‖w‖ := Complex.re_le_norm w
  have hlt : |Complex.arg w| ≤ 3 * δ := by
    have h1 := Real.mul_abs_le_abs_sin (Complex.abs_arg_le_pi_div_two_iff.mpr (by linarith : 0 ≤ w.re))
    rw [Complex.sin_arg, abs_div, abs_norm, him] at h1
    have h2 : |g * c - d * s| / ‖w‖ ≤ 1.415 * δ / 0.858 := by gcongr; linarith
    have h3 : 2 / Real.pi * |Complex.arg w| ≤ 1.415 * δ / 0.858 := h1.trans h2
    have hp := Real.pi_lt_d2
    rw [div_mul_eq_mul_div, div_le_iff₀ Real.pi_pos] at h3
    have h4 : 1.415 * δ / 0.858 * Real.pi ≤ 1.415 * δ / 0.858 * 3.15 := by gcongr
    norm_num at h4 h3
    linarith
  have e : Complex.arg ⟨a, b⟩ - x - 2 * Real.pi * k = Complex.arg w := by linarith
  have hA := Complex.abs_arg_le_pi ⟨a, b⟩
  have hp := Real.pi_gt_d4
  rw [abs_le] at hA
  have hk0 : ∀ B : ℝ, |x| ≤ B → B + 3 * δ < 3.1415 → k = 0 := by
    intro B hx hB
    have hx := abs_le.mp hx
    have hl := abs_le.mp hlt
    have h1 : (k : ℝ) < 1 := by
      by_contra h; push Not at h
      have : 2 * Real.pi ≤ 2 * Real.pi * k := le_mul_of_one_le_right (by positivity) h
      norm_num at hp hB; linarith
    have h2 : (-1 : ℝ) < k := by
      by_contra h; push Not at h
      have : 2 * Real.pi * k ≤ 2 * Real.pi * (-1) := by gcongr
      norm_num at hp hB; linarith
    have h1 : k < 1 := by exact_mod_cast h1
    have h2 : -1 < k := by exact_mod_cast h2
    omega
  refine ⟨k, by rw [e]; exact hlt, fun hx => hk0 _ hx (by norm_num; linarith), fun hx => ?_,
    fun hx hd => hk0 _ hx (by norm_num at hd ⊢; linarith)⟩
  have hx := abs_le.mp hx
  have hl := abs_le.mp hlt
  have h1 : (k : ℝ) < 2 := by
    by_contra h; push Not at h
    have : 2 * Real.pi * 2 ≤ 2 * Real.pi * k := by gcongr
    norm_num at hp; linarith
  have h2 : (-2 : ℝ) < k := by
    by_contra h; push Not at h
    have : 2 * Real.pi * k ≤ 2 * Real.pi * (-2) := by gcongr
    norm_num at hp; linarith
  have h1 : k < 2 := by exact_mod_cast h1
  have h2 : -2 < k := by exact_mod_cast h2
  rw [abs_le]; omega

theorem norm_mk (x y : ℝ) : ‖(⟨x, y⟩ : ℂ)‖ = Real.sqrt (x ^ 2 + y ^ 2) := by
  rw [Complex.norm_eq_sqrt_sq_add_sq]

theorem sin_arg_mk {x y : ℝ} : Real.sin (Complex.arg ⟨x, y⟩) = y / Real.sqrt (x ^ 2 + y ^ 2) := by
  rw [Complex.sin_arg, norm_mk]

theorem cos_arg_mk {x y : ℝ} (h : x ≠ 0 ∨ y ≠ 0) : Real.cos (Complex.arg ⟨x, y⟩) = x / Real.sqrt (x ^ 2 + y ^ 2) := by
  rw [Complex.cos_arg, norm_mk]
  intro e
  have h1 := congrArg Complex.re e
  have h2 := congrArg Complex.im e
  simp at h1 h2
  tauto

end MixedNum
