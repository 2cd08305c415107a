import Verif.Spec.Libm
import Verif.Props.FloorFloat
import Verif.Props.RoundTrip
import Mathlib.Analysis.SpecialFunctions.Trigonometric.ArctanDeriv
/-! # C97: the methods that call `libm` or `cordic` -/

namespace MixedNum
variable {f : Format}
open Flt

/-! ## C97 -/

/-- C97: with `libm` functions within `δ` of the real functions, every float method approximates the function of its name. -/
theorem C97_libm [Libm f] {δ : ℝ} (h : LibmWithin f δ) (x : Flt f) (hx : x.Valid) (hfin : x.IsFinite) :
    (∃ r, Returns x.mixedSin r ∧ Approx δ r (Real.sin x.val)) ∧
    (∃ r, Returns x.mixedCos r ∧ Approx δ r (Real.cos x.val)) ∧
    (∃ s c : Flt f, Returns (MixedSinCos.sincos x) (s, c) ∧ Approx δ s (Real.sin x.val) ∧ Approx δ c (Real.cos x.val)) ∧
    (∃ r, Returns x.mixedTan r ∧ Approx δ r (Real.tan x.val)) ∧
    (∃ r, Returns x.mixedSinh r ∧ Approx δ r (Real.sinh x.val)) ∧
    (∃ r, Returns x.mixedCosh r ∧ Approx δ r (Real.cosh x.val)) ∧
    (∃ r, Returns x.mixedTanh r ∧ Approx δ r (Real.tanh x.val)) ∧
    (∃ r, Returns (MixedExp.exp x) r ∧ Approx δ r (Real.exp x.val)) ∧
    (∃ r, Returns x.mixedExp2 r ∧ Approx δ r ((2:ℝ) ^ (x.val : ℝ))) ∧
    (∃ r, Returns (MixedExp10.exp10 x) r ∧ Approx δ r ((10:ℝ) ^ (x.val : ℝ))) :=
  ⟨⟨_, .of_eq rfl, h.sin x hx hfin⟩, ⟨_, .of_eq rfl, h.cos x hx hfin⟩,
    ⟨_, _, .of_eq rfl, (h.sincos x hx hfin).1, (h.sincos x hx hfin).2⟩, ⟨_, .of_eq rfl, h.tan x hx hfin⟩,
    ⟨_, .of_eq rfl, h.sinh x hx hfin⟩, ⟨_, .of_eq rfl, h.cosh x hx hfin⟩, ⟨_, .of_eq rfl, h.tanh x hx hfin⟩,
    ⟨_, .of_eq rfl, h.exp x hx hfin⟩, ⟨_, .of_eq rfl, h.exp2 x hx hfin⟩, ⟨_, .of_eq rfl, h.exp10 x hx hfin⟩⟩

/-- C97: the inverse functions, on their domains. -/
theorem C97_libm_inverse [Libm f] {δ : ℝ} (h : LibmWithin f δ) (x : Flt f) (hx : x.Valid) (hfin : x.IsFinite) :
    (-1 ≤ x.val → x.val ≤ 1 → ∃ r, Returns x.mixedAsin r ∧ Approx δ r (Real.arcsin x.val)) ∧
    (-1 ≤ x.val → x.val ≤ 1 → ∃ r, Returns x.mixedAcos r ∧ Approx δ r (Real.arccos x.val)) ∧
    (∃ r, Returns x.mixedAtan r ∧ Approx δ r (Real.arctan x.val)) ∧
    (∃ r, Returns x.mixedAsinh r ∧ Approx δ r (Real.arsinh x.val)) ∧
    (1 ≤ x.val → ∃ r, Returns x.mixedAcosh r ∧ Approx δ r (Real.log (x.val + √((x.val : ℝ) ^ 2 - 1)))) ∧
    (-1 < x.val → x.val < 1 → ∃ r, Returns x.mixedAtanh r ∧ Approx δ r (1 / 2 * Real.log ((1 + x.val) / (1 - x.val)))) ∧
    (0 ≤ x.val → ∃ r : Flt f, Returns (MixedSqrt.sqrt x) r ∧ r.Valid ∧ r.IsFinite ∧
      |(r.val : ℝ) - √(x.val : ℝ)| ≤ δ * √(x.val : ℝ)) ∧
    (0 ≤ x.val → ∃ r, Returns x.mixedCbrt r ∧ Approx δ r ((x.val : ℝ) ^ (1 / 3 : ℝ))) ∧
    (x.val ≤ 0 → ∃ r, Returns x.mixedCbrt r ∧ Approx δ r (-(-x.val : ℝ) ^ (1 / 3 : ℝ))) ∧
    (0 < x.val → ∃ r, Returns x.mixedLog r ∧ Approx δ r (Real.log x.val)) ∧
    (0 < x.val → ∃ r, Returns x.mixedLog2 r ∧ Approx δ r (Real.logb 2 x.val)) ∧
    (0 < x.val → ∃ r, Returns (MixedLog10.log10 x) r ∧ Approx δ r (Real.logb 10 x.val)) := by
  refine ⟨fun a b => ⟨_, .of_eq rfl, h.asin x hx hfin _ ?_⟩, fun a b => ⟨_, .of_eq rfl, h.acos x hx hfin _ ?_⟩,
    ⟨_, .of_eq rfl, h.atan x hx hfin _ ?_⟩, ⟨_, .of_eq rfl, h.asinh x hx hfin _ (Real.sinh_arsinh _)⟩,
    fun a => ⟨_, .of_eq rfl, h.acosh x hx hfin _ ?_⟩, fun a b => ⟨_, .of_eq rfl, h.atanh x hx hfin _ ?_⟩,
    fun a => ⟨_, .of_eq rfl, h.sqrt x hx hfin _ (Real.sqrt_nonneg _) (Real.sq_sqrt (by exact_mod_cast a))⟩, fun a => ⟨_, .of_eq rfl, h.cbrt x hx hfin _ ?_⟩,
    fun a => ⟨_, .of_eq rfl, h.cbrt x hx hfin _ ?_⟩,
    fun a => ⟨_, .of_eq rfl, h.log x hx hfin _ ?_⟩, fun a => ⟨_, .of_eq rfl, h.log2 x hx hfin _ ?_⟩,
    fun a => ⟨_, .of_eq rfl, h.log10 x hx hfin _ ?_⟩⟩
  · exact ⟨Real.neg_pi_div_two_le_arcsin _, Real.arcsin_le_pi_div_two _,
      Real.sin_arcsin (by exact_mod_cast a) (by exact_mod_cast b)⟩
  · exact ⟨Real.arccos_nonneg _, Real.arccos_le_pi _, Real.cos_arccos (by exact_mod_cast a) (by exact_mod_cast b)⟩
  · exact ⟨Real.neg_pi_div_two_lt_arctan _, Real.arctan_lt_pi_div_two _, Real.tan_arctan _⟩
  · have a' : (1:ℝ) ≤ x.val := by exact_mod_cast a
    generalize (x.val : ℝ) = v at a'
    have hs : √(v ^ 2 - 1) ^ 2 = v ^ 2 - 1 := Real.sq_sqrt (by nlinarith)
    have h0 := Real.sqrt_nonneg (v ^ 2 - 1)
    generalize √(v ^ 2 - 1) = t at hs h0
    refine ⟨Real.log_nonneg (by linarith), ?_⟩
    rw [Real.cosh_eq, Real.exp_neg, Real.exp_log (by linarith)]
    have : v + t ≠ 0 := by linarith
    field_simp; nlinarith
  · have a' : (-1:ℝ) < x.val := by exact_mod_cast a
    have b' : (x.val : ℝ) < 1 := by exact_mod_cast b
    generalize (x.val : ℝ) = v at a' b'
    have hq : 0 < (1 + v) / (1 - v) := div_pos (by linarith) (by linarith)
    set t := 1 / 2 * Real.log ((1 + v) / (1 - v)) with ht
    have h1 : Real.exp t * Real.exp t = (1 + v) / (1 - v) := by
      rw [← Real.exp_add, ht, ← add_mul, show (1:ℝ) / 2 + 1 / 2 = 1 by norm_num, one_mul, Real.exp_log hq]
    have h2 := Real.exp_pos t
    show Real.tanh t = v
    rw [Real.tanh_eq_sinh_div_cosh, Real.sinh_eq, Real.cosh_eq, Real.exp_neg]
    generalize Real.exp t = E at h1 h2
    have h3 : (1 - v) ≠ 0 := by linarith
    rw [eq_div_iff h3] at h1
    have h4 : E + E⁻¹ ≠ 0 := by positivity
    rw [div_div_div_cancel_right₀ (by norm_num), div_eq_iff h4]
    field_simp
    nlinarith
  · have a' : (0:ℝ) ≤ x.val := by exact_mod_cast a
    show ((x.val : ℝ) ^ (1 / 3 : ℝ)) ^ 3 = x.val
    rw [← Real.rpow_natCast, ← Real.rpow_mul a']; norm_num
  · have a' : (0:ℝ) ≤ -x.val := by exact_mod_cast neg_nonneg.mpr a
    show (-(-x.val : ℝ) ^ (1 / 3 : ℝ)) ^ 3 = x.val
    rw [Odd.neg_pow (by decide), ← Real.rpow_natCast, ← Real.rpow_mul a']; norm_num
  · exact Real.exp_log (by exact_mod_cast a)
  · exact Real.rpow_logb (by norm_num) (by norm_num) (by exact_mod_cast a)
  · exact Real.rpow_logb (by norm_num) (by norm_num) (by exact_mod_cast a)

/-- C97: the two functions of two arguments take them in the documented order: `y.mixed_atan2(x)` is the argument of `x + iy`
and `b.mixed_pow(e)` is `b` to the power `e`. -/
theorem C97_libm_binary [Libm f] {δ : ℝ} (h : LibmWithin f δ) (y x : Flt f) (hy : y.Valid) (hx : x.Valid) (fy : y.IsFinite)
    (fx : x.IsFinite) :
    ((x.val ≠ 0 ∨ y.val ≠ 0) → ∃ r : Flt f, Returns (MixedAtan.atan2 y x) r ∧ Approx δ r (Complex.arg ⟨x.val, y.val⟩)) ∧
    (0 < y.val → ∃ r : Flt f, Returns (y.mixedPow x) r ∧ Approx δ r ((y.val : ℝ) ^ (x.val : ℝ))) :=
  ⟨fun a => ⟨_, .of_eq rfl, h.atan2 y x hy hx fy fx a⟩, fun a => ⟨_, .of_eq rfl, h.pow y x hy fy hx fx a⟩⟩

/-! ### What the accuracy theorems ask for -/

theorem LibmWithin.sqrtWithin [Libm f] {δ : ℝ} (h : LibmWithin f δ) : SqrtWithin f δ := fun x hx hfin h0 =>
  ⟨_, .of_eq rfl, h.sqrt x hx hfin _ (Real.sqrt_nonneg _) (Real.sq_sqrt (by exact_mod_cast h0))⟩

theorem LibmWithin.sinCosWithin [Libm f] {δ : ℝ} (hf : f.Wide) (h : LibmWithin f δ) (hδ : 0 ≤ δ) :
    SinCosWithin f (δ + 2 ^ f.emin) := by
  have hbig : (2:ℝ) ≤ 2 ^ f.emax := by
    calc (2:ℝ) = 2 ^ 1 := by norm_num
      _ ≤ _ := pow_le_pow_right₀ (by norm_num) (by have := hf.emax; omega)
  have key : ∀ {r : Flt f} {v : ℝ}, |v| ≤ 1 → Approx δ r v → (r.Valid ∧ r.IsFinite) ∧ |(r.val : ℝ) - v| ≤ δ + 2 ^ f.emin := by
    intro r v hv ha
    obtain ⟨a, b, c⟩ := ha (by linarith)
    exact ⟨⟨a, b⟩, c.trans (by nlinarith)⟩
  intro x hx hfin _
  obtain ⟨hs, hc⟩ := h.sincos x hx hfin
  obtain ⟨a1, a2⟩ := key (Real.abs_sin_le_one _) hs
  obtain ⟨b1, b2⟩ := key (Real.abs_cos_le_one _) hc
  exact ⟨_, _, .of_eq rfl, a1, b1, a2, b2⟩

theorem LibmWithin.atanWithin [Libm f] {δ : ℝ} (hf : f.Wide) (h : LibmWithin f δ) (hδ : 0 ≤ δ) :
    AtanWithin f (δ * Real.pi + 2 ^ f.emin) := by
  intro y x hy hx fy fx h0
  have hpi := Complex.abs_arg_le_pi ⟨x.val, y.val⟩
  have hbig : (8:ℝ) ≤ 2 ^ f.emax := by
    calc (8:ℝ) = 2 ^ 3 := by norm_num
      _ ≤ _ := pow_le_pow_right₀ (by norm_num) (by have := hf.emax; omega)
  obtain ⟨a, b, c⟩ := h.atan2 y x hy hx fy fx h0 (by linarith [Real.pi_le_four])
  exact ⟨_, .of_eq rfl, a, b, c.trans (by nlinarith)⟩

/-- C97: with `libm` within `δ`, converting to polar and back on `f32` and `f64` gives the number up to `6δ` and 17 half-units of
relative error. -/
theorem C97_round_trip [Libm f] {δ : ℝ} (hf : f.Wide) (h60 : f.p ≤ 60) (h : LibmWithin f δ) (hδ : 0 ≤ δ) (hδ' : δ ≤ 1 / 1000)
    (z : Cartesian (Flt f)) (h1 : z.re.IsFinite) (h2 : z.im.IsFinite)
    (v1 : z.re.Valid) (v2 : z.im.Valid) (hlo : (2:ℚ) ^ (f.emin + f.p) ≤ max (z.re.val ^ 2) (z.im.val ^ 2))
    (hhi : 2 * (z.re.val ^ 2 + z.im.val ^ 2) ≤ 2 ^ f.emax) :
    ∃ c : Cartesian (Flt f), Returns (do let q ← z.toPolar; q.toCartesian) c ∧ (c.re.Valid ∧ c.re.IsFinite) ∧
      (c.im.Valid ∧ c.im.IsFinite) ∧
      |(c.re.val : ℝ) - z.re.val| ≤ (6 * δ + 17 / 2 ^ f.p) * √((z.re.val : ℝ) ^ 2 + (z.im.val : ℝ) ^ 2) + 2 ^ f.emin ∧
      |(c.im.val : ℝ) - z.im.val| ≤ (6 * δ + 17 / 2 ^ f.p) * √((z.re.val : ℝ) ^ 2 + (z.im.val : ℝ) ^ 2) + 2 ^ f.emin := by
  have hp := hf.p; have hmin := hf.emin
  have hη : (2:ℝ) ^ f.emin ≤ 1 / 2 ^ f.p * (1 / 2 ^ 24) := by
    have : (2:ℝ) ^ f.emin ≤ 2 ^ (-(f.p:ℤ) + -24) := zpow_le_zpow_right₀ (by norm_num) (by omega)
    rw [zpow_add₀ (by norm_num), zpow_neg, zpow_natCast] at this
    rw [one_div]; refine this.trans (le_of_eq ?_); norm_num
  have hU : (0:ℝ) < 1 / 2 ^ f.p := by positivity
  have hU' : (1:ℝ) / 2 ^ f.p ≤ 1 / 2 ^ 24 := by
    apply one_div_le_one_div_of_le (by norm_num); exact pow_le_pow_right₀ (by norm_num) hp
  have hpi := Real.pi_lt_d2
  have hd : δ * Real.pi ≤ δ * 3.15 := mul_le_mul_of_nonneg_left hpi.le hδ
  have e17 : (17:ℝ) / 2 ^ f.p = 17 * (1 / 2 ^ f.p) := by ring
  have e16 : (16:ℝ) / 2 ^ f.p = 16 * (1 / 2 ^ f.p) := by ring
  have hη0 : (0:ℝ) < 2 ^ f.emin := zpow_pos (by norm_num) _
  obtain ⟨c, a1, a2, a3, a4, a5⟩ := C89_round_trip hf h60 h.sqrtWithin hδ (by linarith) (h.atanWithin hf hδ)
    (by norm_num at *; linarith) (h.sinCosWithin hf hδ) (by positivity) (by norm_num at *; linarith) z h1 h2 v1 v2 hlo hhi
  have hco : δ * Real.pi + 2 ^ f.emin + 51 / 50 * (δ + 2 ^ f.emin) + 101 / 100 * δ + 16 / 2 ^ f.p ≤ 6 * δ + 17 / 2 ^ f.p := by
    rw [e17, e16]; norm_num at *; linarith
  have hs := Real.sqrt_nonneg ((z.re.val : ℝ) ^ 2 + (z.im.val : ℝ) ^ 2)
  have := mul_le_mul_of_nonneg_right hco hs
  exact ⟨c, a1, a2, a3, a4.trans (by linarith), a5.trans (by linarith)⟩

/-! ### Functions meeting the bounds exist -/

/-- Some float is as near to a given real as correct rounding demands. -/
theorem approx_exists' (hf : f.Wide) (v : ℝ) : ∃ r : Flt f, Approx (1 / 2 ^ f.p) r v := by
  have hp := hf.p; have hmin := hf.emin; have hmax := hf.emax
  have hη := two_zpow_pos f.emin
  have hη' : (2:ℚ) ^ f.emin ≤ 1 := zpow_le_one_of_nonpos₀ (by norm_num) (by omega)
  have hu := uq_pos (f := f); have hu' := uq_le hf
  obtain ⟨q, h1, h2⟩ := exists_rat_btwn (show v < v + 2 ^ f.emin / 4 by
    have : (0:ℝ) < 2 ^ f.emin := zpow_pos (by norm_num) _
    linarith)
  refine ⟨ofExact false q, fun hv => ?_⟩
  have hr : |rnd f.p f.emin q - q| ≤ |q| * uq f + 2 ^ f.emin / 2 := abs_rnd_le _
  have hqv : |(q:ℝ) - v| ≤ 2 ^ f.emin / 4 := by rw [abs_le]; constructor <;> linarith
  have hqa : |(q:ℝ)| ≤ |v| + 2 ^ f.emin / 4 := by
    have := abs_sub_abs_le_abs_sub (q:ℝ) v; linarith
  have hbig : (1024:ℚ) ≤ 2 ^ f.emax := by
    calc (1024:ℚ) = 2 ^ 10 := by norm_num
      _ ≤ _ := pow_le_pow_right₀ (by norm_num) (by omega)
  have hq2 : 2 * |q| ≤ 2 ^ f.emax + 2 ^ f.emin / 2 := by
    have : (2:ℝ) * |(q:ℝ)| ≤ 2 ^ f.emax + 2 ^ f.emin / 2 := by linarith
    have h8 : ((2 * |q| : ℚ) : ℝ) ≤ ((2 ^ f.emax + 2 ^ f.emin / 2 : ℚ) : ℝ) := by push_cast; exact this
    exact_mod_cast h8
  have hlt : |rnd f.p f.emin q| < 2 ^ f.emax := by
    have := abs_sub_abs_le_abs_sub (rnd f.p f.emin q) q
    have : |q| * uq f ≤ |q| * (1 / 10 ^ 7) := mul_le_mul_of_nonneg_left hu' (abs_nonneg _)
    linarith
  have his := is_ofExact hf.one_le false hlt
  refine ⟨his.valid, his.fin, ?_⟩
  rw [his.val]
  have hr' : |((rnd f.p f.emin q : ℚ) : ℝ) - q| ≤ |(q:ℝ)| * (uq f : ℝ) + 2 ^ f.emin / 2 := by
    have h8 : ((|rnd f.p f.emin q - q| : ℚ) : ℝ) ≤ ((|q| * uq f + 2 ^ f.emin / 2 : ℚ) : ℝ) := by exact_mod_cast hr
    push_cast at h8; exact h8
  rw [uq_real] at hr'
  have hur : (0:ℝ) < 1 / 2 ^ f.p := by positivity
  have hur' : (1:ℝ) / 2 ^ f.p ≤ 1 / 10 ^ 7 := by
    rw [← uq_real]
    have h8 : ((uq f : ℚ) : ℝ) ≤ ((1 / 10 ^ 7 : ℚ) : ℝ) := by exact_mod_cast hu'
    push_cast at h8; exact h8
  generalize (1:ℝ) / 2 ^ f.p = U at *
  have hηr : (0:ℝ) < 2 ^ f.emin := zpow_pos (by norm_num) _
  generalize (2:ℝ) ^ f.emin = H at *
  have h3 := abs_sub_le ((rnd f.p f.emin q : ℚ) : ℝ) q v
  have h4 : |(q:ℝ)| * U ≤ (|v| + H / 4) * U := mul_le_mul_of_nonneg_right hqa hur.le
  have h5 : H * U ≤ H * (1 / 10 ^ 7) := mul_le_mul_of_nonneg_left hur' hηr.le
  nlinarith

theorem approx_exists (hf : f.Wide) (v : ℝ) : ∃ r : Flt f, Approx (2 / 2 ^ f.p) r v := by
  obtain ⟨r, hr⟩ := approx_exists' hf v
  refine ⟨r, fun hv => ⟨(hr hv).1, (hr hv).2.1, (hr hv).2.2.trans ?_⟩⟩
  gcongr; norm_num

/-- Positive floats are at least `2^emin`. -/
theorem pos_ge {v : ℚ} (h : Rep f.p f.emin v) (h0 : 0 < v) : 2 ^ f.emin ≤ v := by
  obtain ⟨n, e, h1, h2, rfl⟩ := h
  have he := two_zpow_pos e
  have hn : (0:ℚ) < n := by by_contra hc; nlinarith
  have hn1 : (1:ℚ) ≤ n := by exact_mod_cast (by exact_mod_cast hn : (0:ℤ) < n)
  have := two_zpow_le h1
  nlinarith

/-- The square root of a float, rounded. -/
theorem sqrt_exists (hf : f.Wide) (x : Flt f) : ∃ r : Flt f, x.Valid → x.IsFinite → ∀ v : ℝ, 0 ≤ v → v ^ 2 = x.val →
    r.Valid ∧ r.IsFinite ∧ |(r.val : ℝ) - v| ≤ 2 / 2 ^ f.p * v := by
  have hp := hf.p; have hmin := hf.emin; have hmax := hf.emax
  by_cases hz : x.val = 0
  · refine ⟨.fin false 0, fun _ _ v _ h => ⟨is_zero.valid, is_zero.fin, ?_⟩⟩
    have : v = 0 := by rw [hz] at h; simpa using h
    subst this; simp [Flt.val]
  obtain ⟨r, hr⟩ := approx_exists' hf (√(x.val : ℝ))
  refine ⟨r, fun hx hfin v h0 hv => ?_⟩
  have e : √(x.val : ℝ) = v := by rw [← hv]; exact Real.sqrt_sq h0
  rw [e] at hr
  have hi : Is x x.val := by obtain ⟨_, _, rfl⟩ := hfin; exact is_of_valid hx
  have hpos : 0 < x.val := by
    have : (0:ℝ) ≤ x.val := by rw [← hv]; positivity
    exact lt_of_le_of_ne (by exact_mod_cast this) (Ne.symm hz)
  have hge : (2:ℝ) ^ f.emin ≤ v ^ 2 := by
    have h8 : (((2:ℚ) ^ f.emin : ℚ) : ℝ) ≤ (x.val : ℝ) := Rat.cast_le.mpr (pos_ge hi.rep hpos)
    push_cast at h8; rw [hv]; exact h8
  have hlt : v ^ 2 < 2 ^ f.emax := by
    rw [hv]
    have := hi.lt_max
    rw [abs_of_pos hpos] at this
    exact_mod_cast this
  have hbig : (1024:ℝ) ≤ 2 ^ f.emax := by
    calc (1024:ℝ) = 2 ^ 10 := by norm_num
      _ ≤ _ := pow_le_pow_right₀ (by norm_num) (by omega)
  obtain ⟨r1, r2, r3⟩ := hr (by rw [abs_of_nonneg h0]; by_cases h : v ≤ 2 <;> nlinarith)
  refine ⟨r1, r2, r3.trans ?_⟩
  rw [abs_of_nonneg h0]
  -- `2^emin <= 2^-p v`
  have hU : (0:ℝ) < 1 / 2 ^ f.p := by positivity
  have h1 : (2:ℝ) ^ f.emin ≤ (1 / 2 ^ f.p) ^ 2 := by
    rw [← zpow_natCast (2:ℝ) f.p, one_div, ← zpow_neg, ← zpow_natCast, ← zpow_mul]
    exact zpow_le_zpow_right₀ (by norm_num) (by push_cast; omega)
  have hη : (0:ℝ) < 2 ^ f.emin := zpow_pos (by norm_num) _
  have h2 : (2:ℝ) ^ f.emin ≤ 1 / 2 ^ f.p * v := by
    refine le_of_sq_le_sq ?_ (by positivity)
    rw [mul_pow, pow_two ((2:ℝ) ^ f.emin)]
    exact mul_le_mul h1 hge hη.le (by positivity)
  have e2 : (2:ℝ) / 2 ^ f.p * v = 1 / 2 ^ f.p * v + 1 / 2 ^ f.p * v := by ring
  linarith

/-- Likewise for the solution of an equation with at most one. -/
theorem approxRoot_exists (hf : f.Wide) (P : ℝ → Prop) (h : ∀ v w, P v → P w → v = w) :
    ∃ r : Flt f, ApproxRoot (2 / 2 ^ f.p) r P := by
  by_cases hP : ∃ v, P v
  · obtain ⟨v, hv⟩ := hP
    obtain ⟨r, hr⟩ := approx_exists hf v
    exact ⟨r, fun w hw => h v w hv hw ▸ hr⟩
  · exact ⟨.nan, fun w hw => absurd ⟨w, hw⟩ hP⟩

theorem tanh_inj {v w : ℝ} (h : Real.tanh v = Real.tanh w) : v = w := by
  have key : ∀ t : ℝ, Real.exp (2 * t) * (1 - Real.tanh t) = 1 + Real.tanh t := by
    intro t
    have hc := Real.cosh_pos t
    have e : Real.exp (2 * t) = Real.exp t * Real.exp t := by rw [← Real.exp_add]; ring_nf
    rw [Real.tanh_eq_sinh_div_cosh, e]
    have h1 := Real.cosh_sub_sinh t
    have h2 := Real.cosh_add_sinh t
    have h3 : Real.exp t * Real.exp (-t) = 1 := by rw [← Real.exp_add]; simp
    field_simp
    rw [h1, h2, pow_two, mul_assoc, h3, mul_one]
  have h1 := key v; have h2 := key w
  rw [h] at h1
  have hne : 1 - Real.tanh w ≠ 0 := by
    intro e
    rw [e, mul_zero] at h2
    have : Real.tanh w = -1 := by linarith
    linarith
  have h3 := mul_right_cancel₀ hne (h1.trans h2.symm)
  have := Real.exp_injective h3
  linarith

/-- Correctly rounding functions meet the bounds with `δ = 2 * 2^-p`. -/
theorem libmWithin_exists (hf : f.Wide) : ∃ inst : Libm f, @LibmWithin f inst (2 / 2 ^ f.p) := by
  choose near hnear using approx_exists hf
  choose root hroot using approxRoot_exists hf
  have r1 : ∀ x : ℝ, ∀ v w, (-(Real.pi / 2) ≤ v ∧ v ≤ Real.pi / 2 ∧ Real.sin v = x) →
      (-(Real.pi / 2) ≤ w ∧ w ≤ Real.pi / 2 ∧ Real.sin w = x) → v = w :=
    fun x v w a b => Real.injOn_sin ⟨a.1, a.2.1⟩ ⟨b.1, b.2.1⟩ (a.2.2.trans b.2.2.symm)
  have r2 : ∀ x : ℝ, ∀ v w, (0 ≤ v ∧ v ≤ Real.pi ∧ Real.cos v = x) → (0 ≤ w ∧ w ≤ Real.pi ∧ Real.cos w = x) → v = w :=
    fun x v w a b => Real.injOn_cos ⟨a.1, a.2.1⟩ ⟨b.1, b.2.1⟩ (a.2.2.trans b.2.2.symm)
  have r3 : ∀ x : ℝ, ∀ v w, (-(Real.pi / 2) < v ∧ v < Real.pi / 2 ∧ Real.tan v = x) →
      (-(Real.pi / 2) < w ∧ w < Real.pi / 2 ∧ Real.tan w = x) → v = w :=
    fun x v w a b => Real.injOn_tan ⟨a.1, a.2.1⟩ ⟨b.1, b.2.1⟩ (a.2.2.trans b.2.2.symm)
  have r4 : ∀ x : ℝ, ∀ v w, Real.sinh v = x → Real.sinh w = x → v = w :=
    fun x v w a b => Real.sinh_injective (a.trans b.symm)
  have r5 : ∀ x : ℝ, ∀ v w, (0 ≤ v ∧ Real.cosh v = x) → (0 ≤ w ∧ Real.cosh w = x) → v = w :=
    fun x v w a b => Real.cosh_strictMonoOn.injOn a.1 b.1 (a.2.trans b.2.symm)
  have r6 : ∀ x : ℝ, ∀ v w, Real.tanh v = x → Real.tanh w = x → v = w := fun x v w a b => tanh_inj (a.trans b.symm)
  choose rt hrt using sqrt_exists hf
  have r8 : ∀ x : ℝ, ∀ v w : ℝ, v ^ 3 = x → w ^ 3 = x → v = w :=
    fun x v w a b => (Odd.strictMono_pow (by decide : Odd 3)).injective (a.trans b.symm)
  have r9 : ∀ x : ℝ, ∀ v w : ℝ, Real.exp v = x → Real.exp w = x → v = w :=
    fun x v w a b => Real.exp_injective (a.trans b.symm)
  have r10 : ∀ c : ℝ, 1 < c → ∀ x : ℝ, ∀ v w : ℝ, c ^ v = x → c ^ w = x → v = w :=
    fun c hc x v w a b => (Real.strictMono_rpow_of_base_gt_one hc).injective (a.trans b.symm)
  let inst : Libm f := {
    sin := fun x => near (Real.sin x.val)
    cos := fun x => near (Real.cos x.val)
    sincos := fun x => (near (Real.sin x.val), near (Real.cos x.val))
    tan := fun x => near (Real.tan x.val)
    asin := fun x => root _ (r1 x.val)
    acos := fun x => root _ (r2 x.val)
    atan := fun x => root _ (r3 x.val)
    atan2 := fun y x => near (Complex.arg ⟨x.val, y.val⟩)
    sinh := fun x => near (Real.sinh x.val)
    cosh := fun x => near (Real.cosh x.val)
    tanh := fun x => near (Real.tanh x.val)
    asinh := fun x => root _ (r4 x.val)
    acosh := fun x => root _ (r5 x.val)
    atanh := fun x => root _ (r6 x.val)
    sqrt := rt
    cbrt := fun x => root _ (r8 x.val)
    exp := fun x => near (Real.exp x.val)
    exp2 := fun x => near ((2:ℝ) ^ (x.val : ℝ))
    exp10 := fun x => near ((10:ℝ) ^ (x.val : ℝ))
    pow := fun b e => near ((b.val : ℝ) ^ (e.val : ℝ))
    log := fun x => root _ (r9 x.val)
    log2 := fun x => root _ (r10 2 (by norm_num) x.val)
    log10 := fun x => root _ (r10 10 (by norm_num) x.val) }
  refine ⟨inst, ?_⟩
  constructor
  case sincos => exact fun x _ _ => ⟨hnear _, hnear _⟩
  case sqrt => exact hrt
  case atan2 => exact fun y x _ _ _ _ _ => hnear _
  case pow => exact fun b e _ _ _ _ _ => hnear _
  all_goals first
    | exact fun x _ _ => hnear _
    | exact fun x _ _ => hroot _ _

example : ∃ _ : Libm F32, ∃ a b c : Flt F32, Returns (Flt.mixedTan (.fin true 4)) a ∧ Returns (MixedAtan.atan2 (.fin false 3) (.fin true 4)) b ∧
    Returns (Flt.mixedLog (.fin false 3)) c := by
  obtain ⟨inst, h⟩ := libmWithin_exists wide_F32
  obtain ⟨-, -, -, ⟨a, ha, -⟩, -⟩ := C97_libm h (.fin true 4) ⟨4, 0, by decide, by decide, by norm_num [pow2_eq], by norm_num⟩ ⟨_, _, rfl⟩
  obtain ⟨b, hb, -⟩ := (C97_libm_binary h (.fin false 3) (.fin true 4) ⟨3, 0, by decide, by decide, by norm_num [pow2_eq], by norm_num⟩ ⟨4, 0, by decide, by decide, by norm_num [pow2_eq], by norm_num⟩ ⟨_, _, rfl⟩ ⟨_, _, rfl⟩).1 (.inl (by norm_num [Flt.val]))
  obtain ⟨-, -, -, -, -, -, -, -, -, hl, -⟩ := C97_libm_inverse h (.fin false 3) ⟨3, 0, by decide, by decide, by norm_num [pow2_eq], by norm_num⟩ ⟨_, _, rfl⟩
  obtain ⟨c, hc, -⟩ := hl (by norm_num [Flt.val])
  exact ⟨inst, a, b, c, ha, hb, hc⟩

example : ∃ _ : Libm F32, ∃ c, Returns (do let q ← Cartesian.toPolar (⟨.fin false 3, .fin true 4⟩ : Cartesian (Flt F32)); q.toCartesian) c := by
  obtain ⟨inst, h⟩ := libmWithin_exists wide_F32
  obtain ⟨c, hc, -⟩ := C97_round_trip wide_F32 (by norm_num [F32]) h (by positivity) (by norm_num [F32]) ⟨.fin false 3, .fin true 4⟩ ⟨_, _, rfl⟩ ⟨_, _, rfl⟩ ⟨3, 0, by decide, by decide, by norm_num [pow2_eq], by norm_num⟩ ⟨4, 0, by decide, by decide, by norm_num [pow2_eq], by norm_num⟩
    (by norm_num [Flt.val, F32]) (by norm_num [Flt.val, F32])
  exact ⟨inst, c, hc⟩

example : ∃ inst : Libm F64, @LibmWithin F64 inst (2 / 2 ^ 53) := libmWithin_exists wide_F64

/-! ### Fixed point -/

section
variable {m : Mode} {W F : ℕ}

/-- C97: with `cordic` within `δ`, every method of the signed fixed-point types that calls it approximates the function of its
name. -/
theorem C97_cordic [Cordic m W F] {δ : ℝ} (h : CordicWithin m W F δ) (x : Fixed m true W F) :
    (|(x.val : ℝ) / 2 ^ F| ≤ 4 →
      FixedApprox δ x.mixedSin (Real.sin (x.val / 2 ^ F)) ∧ FixedApprox δ x.mixedCos (Real.cos (x.val / 2 ^ F)) ∧
      (F + 2 ≤ W → 1 ≤ F → ∃ s c : Fixed m true W F, Returns (MixedSinCos.sincos x) (s, c) ∧
        |(s.val : ℝ) / 2 ^ F - Real.sin (x.val / 2 ^ F)| ≤ δ ∧ |(c.val : ℝ) / 2 ^ F - Real.cos (x.val / 2 ^ F)| ≤ δ)) ∧
    (|(x.val : ℝ) / 2 ^ F| ≤ 1 →
      FixedApprox δ x.mixedAsin (Real.arcsin (x.val / 2 ^ F)) ∧ FixedApprox δ x.mixedAcos (Real.arccos (x.val / 2 ^ F))) ∧
    FixedApprox δ x.mixedAtan (Real.arctan (x.val / 2 ^ F)) ∧
    (∀ y : Fixed m true W F, (x.val ≠ 0 ∨ y.val ≠ 0) →
      FixedApprox δ (MixedAtan.atan2 y x) (Complex.arg ⟨x.val / 2 ^ F, y.val / 2 ^ F⟩)) ∧
    FixedApprox δ (MixedExp.exp x) (Real.exp (x.val / 2 ^ F)) :=
  ⟨fun a => ⟨h.sin x a, h.cos x a, fun b c => h.sinCos b c x a⟩,
    fun a => ⟨h.asin x _ (Real.neg_pi_div_two_le_arcsin _) (Real.arcsin_le_pi_div_two _)
        (Real.sin_arcsin (abs_le.mp a).1 (abs_le.mp a).2),
      h.acos x _ (Real.arccos_nonneg _) (Real.arccos_le_pi _) (Real.cos_arccos (abs_le.mp a).1 (abs_le.mp a).2)⟩,
    h.atan x _ (Real.neg_pi_div_two_lt_arctan _) (Real.arctan_lt_pi_div_two _) (Real.tan_arctan _),
    fun y a => h.atan2 y x a, h.exp x⟩

/-- Functions meeting the bounds exist: the true values rounded down. -/
theorem cordicWithin_exists : ∃ inst : Cordic m W F, @CordicWithin m W F inst (1 / 2 ^ F) := by
  have hpF : (0:ℝ) < 2 ^ F := by positivity
  have near : ∀ v : ℝ, ∃ P : Prog (Fixed m true W F), FixedApprox (1 / 2 ^ F) P v := by
    intro v
    by_cases hv : |v| * 2 ^ F + 1 < 2 ^ (W - 1)
    · have h1 := Int.floor_le (v * 2 ^ F); have h2 := Int.lt_floor_add_one (v * 2 ^ F)
      have h3 := neg_abs_le v; have h4 := le_abs_self v
      have hfit : Fits true W ⌊v * 2 ^ F⌋ := by
        have a : -(2:ℝ) ^ (W - 1) ≤ (⌊v * 2 ^ F⌋ : ℝ) := by nlinarith
        have b : (⌊v * 2 ^ F⌋ : ℝ) ≤ 2 ^ (W - 1) - 1 := by nlinarith
        have a' : -(2:ℤ) ^ (W - 1) ≤ ⌊v * 2 ^ F⌋ := by exact_mod_cast a
        have b' : ⌊v * 2 ^ F⌋ ≤ 2 ^ (W - 1) - 1 := by exact_mod_cast b
        exact ⟨a', lt_of_le_of_lt b' (sub_one_lt _)⟩
      refine ⟨pure (Fixed.mkv _ hfit), fun _ => ⟨_, .of_eq rfl, ?_⟩⟩
      rw [Fixed.mkv_val, abs_le]
      constructor
      · rw [le_sub_iff_add_le, le_div_iff₀ hpF, add_mul, neg_mul, one_div, inv_mul_cancel₀ hpF.ne']; linarith
      · rw [sub_le_iff_le_add, div_le_iff₀ hpF, add_mul, one_div, inv_mul_cancel₀ hpF.ne']; linarith
    · exact ⟨Prog.fail .overflow, fun h => absurd h hv⟩
  choose N hN using near
  let inst : Cordic m W F := {
    sin := fun x => N (Real.sin (x.val / 2 ^ F))
    cos := fun x => N (Real.cos (x.val / 2 ^ F))
    sinCos := fun x => do let s ← N (Real.sin (x.val / 2 ^ F)); let c ← N (Real.cos (x.val / 2 ^ F)); pure (s, c)
    asin := fun x => N (Real.arcsin (x.val / 2 ^ F))
    acos := fun x => N (Real.arccos (x.val / 2 ^ F))
    atan := fun x => N (Real.arctan (x.val / 2 ^ F))
    atan2 := fun y x => N (Complex.arg ⟨x.val / 2 ^ F, y.val / 2 ^ F⟩)
    exp := fun x => N (Real.exp (x.val / 2 ^ F)) }
  refine ⟨inst, ?_⟩
  constructor
  case sin => exact fun x _ => hN _
  case cos => exact fun x _ => hN _
  case asin =>
    intro x v a b e
    have : Real.arcsin (x.val / 2 ^ F) = v := by rw [← e]; exact Real.arcsin_sin a b
    exact this ▸ hN _
  case acos =>
    intro x v a b e
    have : Real.arccos (x.val / 2 ^ F) = v := by rw [← e]; exact Real.arccos_cos a b
    exact this ▸ hN _
  case atan =>
    intro x v a b e
    have : Real.arctan (x.val / 2 ^ F) = v := by rw [← e]; exact Real.arctan_tan a b
    exact this ▸ hN _
  case atan2 => exact fun y x _ => hN _
  case exp => exact fun x => hN _
  case sinCos =>
    intro hW hF x _
    have room : ∀ v : ℝ, |v| ≤ 1 → |v| * 2 ^ F + 1 < 2 ^ (W - 1) := by
      intro v hv
      have h1 : (2:ℝ) ^ (F + 1) ≤ 2 ^ (W - 1) := pow_le_pow_right₀ (by norm_num) (by omega)
      have h2 : (2:ℝ) ^ 1 ≤ 2 ^ F := pow_le_pow_right₀ (by norm_num) hF
      rw [pow_succ] at h1
      nlinarith
    obtain ⟨s, a1, a2⟩ := hN _ (room _ (Real.abs_sin_le_one (x.val / 2 ^ F)))
    obtain ⟨c, b1, b2⟩ := hN _ (room _ (Real.abs_cos_le_one (x.val / 2 ^ F)))
    exact ⟨s, c, a1.bind (b1.bind (.of_eq rfl)), a2, b2⟩

example : ∃ inst : Cordic .checked 32 16, @CordicWithin .checked 32 16 inst (1 / 2 ^ 16) := cordicWithin_exists

end

end MixedNum
