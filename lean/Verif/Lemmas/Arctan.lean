import Mathlib.Analysis.SpecialFunctions.Trigonometric.ArctanDeriv
import Mathlib.Analysis.SpecialFunctions.Complex.Arg
import Mathlib.Analysis.Calculus.Deriv.MeanValue
import Mathlib.Analysis.Real.Pi.Bounds
/-! The rational approximation of the arctangent used by the polynomial `atan2`, and the argument of a point. -/

namespace MixedNum

/-- `t / (1 + 9/32 t²)`. -/
noncomputable def ratan (t : ℝ) : ℝ := t / (1 + 9 / 32 * t ^ 2)

theorem ratan_den_pos (t : ℝ) : 0 < 1 + 9 / 32 * t ^ 2 := by positivity

theorem ratan_neg (t : ℝ) : ratan (-t) = -ratan t := by unfold ratan; rw [neg_sq, neg_div]

/-- The error of the approximation. -/
noncomputable def ratanErr (t : ℝ) : ℝ := ratan t - Real.arctan t

theorem ratanErr_neg (t : ℝ) : ratanErr (-t) = -ratanErr t := by
  unfold ratanErr; rw [ratan_neg, Real.arctan_neg]; ring

theorem hasDerivAt_ratanErr (t : ℝ) : HasDerivAt ratanErr
    (t ^ 2 * (5 / 32 - 369 / 1024 * t ^ 2) / ((1 + 9 / 32 * t ^ 2) ^ 2 * (1 + t ^ 2))) t := by
  have hd := ratan_den_pos t
  have h1 : HasDerivAt (fun t : ℝ => 1 + 9 / 32 * t ^ 2) (9 / 32 * (2 * t)) t := by
    have := ((hasDerivAt_pow 2 t).const_mul (9 / 32 : ℝ)).const_add 1
    simpa using this
  have h2 := (hasDerivAt_id t).div h1 hd.ne'
  have h3 := h2.sub (Real.hasDerivAt_arctan t)
  refine h3.congr_deriv ?_
  have : 1 + t ^ 2 ≠ 0 := by positivity
  simp only [id]
  field_simp
  ring

theorem deriv_ratanErr (t : ℝ) : deriv ratanErr t =
    t ^ 2 * (5 / 32 - 369 / 1024 * t ^ 2) / ((1 + 9 / 32 * t ^ 2) ^ 2 * (1 + t ^ 2)) := (hasDerivAt_ratanErr t).deriv

theorem continuous_ratanErr : Continuous ratanErr :=
  continuous_iff_continuousAt.mpr fun t => (hasDerivAt_ratanErr t).continuousAt

/-- Where the error peaks. -/
noncomputable def ratanTop : ℝ := Real.sqrt (160 / 369)

theorem ratanTop_sq : ratanTop ^ 2 = 160 / 369 := Real.sq_sqrt (by norm_num)
theorem ratanTop_pos : 0 < ratanTop := Real.sqrt_pos.mpr (by norm_num)
theorem ratanTop_lt : ratanTop < 0.6586 := by
  unfold ratanTop; rw [Real.sqrt_lt' (by norm_num)]; norm_num

theorem ratanErr_mono : MonotoneOn ratanErr (Set.Icc 0 ratanTop) := by
  refine monotoneOn_of_deriv_nonneg (convex_Icc _ _) continuous_ratanErr.continuousOn
    (fun t _ => (hasDerivAt_ratanErr t).differentiableAt.differentiableWithinAt) fun t ht => ?_
  rw [interior_Icc] at ht
  rw [deriv_ratanErr]
  have h2 : t ^ 2 ≤ 160 / 369 := by rw [← ratanTop_sq]; exact pow_le_pow_left₀ ht.1.le ht.2.le 2
  have : 0 ≤ 5 / 32 - 369 / 1024 * t ^ 2 := by linarith
  positivity

theorem ratanErr_anti : AntitoneOn ratanErr (Set.Ici ratanTop) := by
  refine antitoneOn_of_deriv_nonpos (convex_Ici _) continuous_ratanErr.continuousOn
    (fun t _ => (hasDerivAt_ratanErr t).differentiableAt.differentiableWithinAt) fun t ht => ?_
  rw [interior_Ici] at ht
  rw [deriv_ratanErr]
  have h2 : 160 / 369 ≤ t ^ 2 := by rw [← ratanTop_sq]; exact pow_le_pow_left₀ ratanTop_pos.le (le_of_lt ht) 2
  refine div_nonpos_of_nonpos_of_nonneg (mul_nonpos_of_nonneg_of_nonpos (by positivity) (by linarith)) (by positivity)

theorem arctan_lower {t : ℝ} (ht : 0 ≤ t) :
    t - t ^ 3 / 3 + t ^ 5 / 5 - t ^ 7 / 7 + t ^ 9 / 9 - t ^ 11 / 11 ≤ Real.arctan t := by
  let f : ℝ → ℝ := fun t => Real.arctan t - (t - t ^ 3 / 3 + t ^ 5 / 5 - t ^ 7 / 7 + t ^ 9 / 9 - t ^ 11 / 11)
  have hf : ∀ t, HasDerivAt f (t ^ 12 / (1 + t ^ 2)) t := by
    intro t
    have h := (((((hasDerivAt_id t).sub ((hasDerivAt_pow 3 t).div_const 3)).add ((hasDerivAt_pow 5 t).div_const 5)).sub
      ((hasDerivAt_pow 7 t).div_const 7)).add ((hasDerivAt_pow 9 t).div_const 9)).sub ((hasDerivAt_pow 11 t).div_const 11)
    refine ((Real.hasDerivAt_arctan t).sub h).congr_deriv ?_
    have : 1 + t ^ 2 ≠ 0 := by positivity
    field_simp
    push_cast
    ring
  have hm : Monotone f := by
    refine monotone_of_deriv_nonneg (fun t => (hf t).differentiableAt) fun t => ?_
    rw [(hf t).deriv]; positivity
  have := hm ht
  simp only [f, Real.arctan_zero] at this
  norm_num at this
  linarith

theorem ratanErr_one : ratanErr 1 = 32 / 41 - Real.pi / 4 := by
  unfold ratanErr ratan; rw [Real.arctan_one]; norm_num

theorem ratanErr_top : ratanErr ratanTop ≤ Real.pi / 4 - 32 / 41 := by
  have h := arctan_lower ratanTop_pos.le
  have hs := ratanTop_sq
  have hp := ratanTop_pos
  have hl := ratanTop_lt
  have hpi := Real.pi_gt_d4
  set c := ratanTop
  have e3 : c ^ 3 = c * (160 / 369) := by rw [← hs]; ring
  have e5 : c ^ 5 = c * (160 / 369) ^ 2 := by rw [← hs]; ring
  have e7 : c ^ 7 = c * (160 / 369) ^ 3 := by rw [← hs]; ring
  have e9 : c ^ 9 = c * (160 / 369) ^ 4 := by rw [← hs]; ring
  have e11 : c ^ 11 = c * (160 / 369) ^ 5 := by rw [← hs]; ring
  unfold ratanErr ratan
  rw [e3, e5, e7, e9, e11] at h
  rw [hs]
  norm_num at h hl hpi ⊢
  linarith

theorem ratanErr_zero : ratanErr 0 = 0 := by unfold ratanErr ratan; simp

/-- The sharp bound on the error. -/
theorem abs_ratanErr {t : ℝ} (h : |t| ≤ 1) : |ratanErr t| ≤ Real.pi / 4 - 32 / 41 := by
  have hpi := Real.pi_gt_d4
  have key : ∀ t : ℝ, 0 ≤ t → t ≤ 1 → |ratanErr t| ≤ Real.pi / 4 - 32 / 41 := by
    intro t h0 h1
    have htop := ratanErr_top
    have hp := ratanTop_pos
    have hl : ratanTop ≤ 1 := ratanTop_lt.le.trans (by norm_num)
    rcases le_total t ratanTop with hc | hc
    · have a := ratanErr_mono ⟨le_rfl, hp.le⟩ ⟨h0, hc⟩ h0
      have b := ratanErr_mono ⟨h0, hc⟩ ⟨hp.le, le_rfl⟩ hc
      rw [ratanErr_zero] at a
      rw [abs_of_nonneg a]; linarith
    · have a := ratanErr_anti (Set.mem_Ici.mpr le_rfl) (Set.mem_Ici.mpr hc) hc
      have b := ratanErr_anti (Set.mem_Ici.mpr hc) (Set.mem_Ici.mpr hl) h1
      rw [ratanErr_one] at b
      rw [abs_le]; constructor <;> linarith
  rcases le_total 0 t with h0 | h0
  · exact key t h0 ((le_abs_self t).trans h)
  · have := key (-t) (by linarith) ((neg_le_abs t).trans h)
    rwa [ratanErr_neg, abs_neg] at this

theorem abs_ratanErr_abs (t : ℝ) : |ratanErr (abs t)| = |ratanErr t| := by
  rcases abs_choice t with h | h <;> rw [h]
  rw [ratanErr_neg, abs_neg]

/-- A cubic bound on the error, up to its peak. -/
theorem abs_ratanErr_cubic {t : ℝ} (h0 : 0 ≤ t) (h1 : t ≤ ratanTop) : |ratanErr t| ≤ 5 / 96 * t ^ 3 := by
  have a := ratanErr_mono ⟨le_rfl, ratanTop_pos.le⟩ ⟨h0, h1⟩ h0
  rw [ratanErr_zero] at a
  rw [abs_of_nonneg a]
  let f : ℝ → ℝ := fun t => 5 / 96 * t ^ 3 - ratanErr t
  have hf : ∀ t, HasDerivAt f (5 / 32 * t ^ 2 - t ^ 2 * (5 / 32 - 369 / 1024 * t ^ 2) /
      ((1 + 9 / 32 * t ^ 2) ^ 2 * (1 + t ^ 2))) t := by
    intro t
    refine (((hasDerivAt_pow 3 t).const_mul (5 / 96 : ℝ)).sub (hasDerivAt_ratanErr t)).congr_deriv ?_
    push_cast; ring
  have hm : Monotone f := by
    refine monotone_of_deriv_nonneg (fun t => (hf t).differentiableAt) fun t => ?_
    rw [(hf t).deriv, sub_nonneg, div_le_iff₀ (by positivity)]
    have h2 : 0 ≤ t ^ 2 := sq_nonneg t
    have h3 : 1 ≤ (1 + 9 / 32 * t ^ 2) ^ 2 * (1 + t ^ 2) := by
      have h4 : 1 ≤ (1 + 9 / 32 * t ^ 2) ^ 2 := by nlinarith
      nlinarith
    nlinarith [mul_le_mul_of_nonneg_left h3 h2, mul_nonneg h2 h2]
  have := hm h0
  simp only [f, ratanErr_zero] at this
  norm_num at this; linarith

/-- The argument of a point above the real axis. -/
theorem arg_upper {x y : ℝ} (hy : 0 < y) : Complex.arg ⟨x, y⟩ = Real.pi / 2 - Real.arctan (x / y) := by
  have hs : 0 < Real.sqrt (1 + (x / y) ^ 2) := Real.sqrt_pos.mpr (by positivity)
  set θ := Real.pi / 2 - Real.arctan (x / y) with hθ
  have e : (⟨x, y⟩ : ℂ) = ((y * Real.sqrt (1 + (x / y) ^ 2) : ℝ) : ℂ) * (Complex.cos θ + Complex.sin θ * Complex.I) := by
    rw [← Complex.ofReal_cos, ← Complex.ofReal_sin, hθ, Real.cos_pi_div_two_sub, Real.sin_pi_div_two_sub, Real.sin_arctan,
      Real.cos_arctan]
    apply Complex.ext
    · simp; field_simp
    · simp; field_simp
  rw [e, Complex.arg_mul_cos_add_sin_mul_I (by positivity)]
  have h1 := Real.arctan_lt_pi_div_two (x / y)
  have h2 := Real.neg_pi_div_two_lt_arctan (x / y)
  constructor <;> rw [hθ] <;> linarith [Real.pi_pos]

/-- The argument of a point below the real axis. -/
theorem arg_lower {x y : ℝ} (hy : y < 0) : Complex.arg ⟨x, y⟩ = -(Real.pi / 2) - Real.arctan (x / y) := by
  have h := arg_upper (x := x) (y := -y) (by linarith)
  have e : (⟨x, y⟩ : ℂ) = (starRingEnd ℂ) ⟨x, -y⟩ := by apply Complex.ext <;> simp
  rw [e, Complex.arg_conj, if_neg, h, div_neg, Real.arctan_neg]
  · ring
  · rw [h]
    have h1 := Real.neg_pi_div_two_lt_arctan (x / -y)
    intro h; linarith

theorem arctan_flip_pos {x y : ℝ} (h : 0 < x / y) : Real.arctan (x / y) = Real.pi / 2 - Real.arctan (y / x) := by
  rw [← inv_div x y, Real.arctan_inv_of_pos h]; ring

theorem arctan_flip_neg {x y : ℝ} (h : x / y < 0) : Real.arctan (x / y) = -(Real.pi / 2) - Real.arctan (y / x) := by
  rw [← inv_div x y, Real.arctan_inv_of_neg h]; ring

end MixedNum
