import Verif.Props.PolarFloat
import Verif.Props.PolarFixed
import Mathlib.Analysis.SpecialFunctions.Complex.Arg
import Verif.Props.AddSub
import Verif.Lemmas.Run
import Verif.Lemmas.Case
/-! # C89, C90: Cartesian to polar and back, with rounding -/

namespace MixedNum

/-- Real and imaginary part from norm and argument. -/
theorem re_im_of_arg (x y : ℝ) : √(x ^ 2 + y ^ 2) * Real.cos (Complex.arg ⟨x, y⟩) = x ∧
    √(x ^ 2 + y ^ 2) * Real.sin (Complex.arg ⟨x, y⟩) = y := by
  have hn : ‖(⟨x, y⟩ : ℂ)‖ = √(x ^ 2 + y ^ 2) := by
    rw [Complex.norm_def, Complex.normSq_mk]; congr 1; ring
  rw [← hn]
  exact ⟨Complex.norm_mul_cos_arg _, Complex.norm_mul_sin_arg _⟩

/-- How errors of magnitude, angle and back conversion combine. -/
theorem trip_error {c M N T T' e d B : ℝ} (h1 : |c - M * T| ≤ B) (h2 : |M - N| ≤ e) (hN : 0 ≤ N) (hT : |T| ≤ 1)
    (h3 : |T - T'| ≤ d) : |c - N * T'| ≤ B + e + N * d := by
  have a1 : |M * T - N * T| ≤ e := by
    rw [← sub_mul, abs_mul]
    calc |M - N| * |T| ≤ |M - N| * 1 := mul_le_mul_of_nonneg_left hT (abs_nonneg _)
      _ ≤ e := by linarith
  have a2 : |N * T - N * T'| ≤ N * d := by
    rw [← mul_sub, abs_mul, abs_of_nonneg hN]; exact mul_le_mul_of_nonneg_left h3 hN
  have b1 := abs_sub_le c (M * T) (N * T')
  have b2 := abs_sub_le (M * T) (N * T) (N * T')
  linarith

section
variable {f : Format}
open Flt

/-- The external two-argument arctangent (`libm`/`std`, not modelled) returns for all finite arguments that are not both zero,
within `δ` of the argument of the complex number. -/
def AtanWithin (f : Format) [MixedAtan (Flt f)] (δ : ℝ) : Prop :=
  ∀ y x : Flt f, y.Valid → x.Valid → y.IsFinite → x.IsFinite → (x.val ≠ 0 ∨ y.val ≠ 0) →
    ∃ a : Flt f, Returns (MixedAtan.atan2 y x) a ∧ a.Valid ∧ a.IsFinite ∧ |(a.val : ℝ) - Complex.arg ⟨x.val, y.val⟩| ≤ δ

/-- C89: converting to polar and back gives the number up to the errors of the external root, arctangent and `sincos` and 16
half-units of relative error. -/
theorem C89_round_trip [MixedSqrt (Flt f)] [MixedAtan (Flt f)] [MixedSinCos (Flt f)] {σ δ ε : ℝ} (hf : f.Wide) (h60 : f.p ≤ 60)
    (hs : SqrtWithin f σ) (hσ : 0 ≤ σ) (hσ' : σ ≤ 1 / 100) (ha : AtanWithin f δ) (hδ' : δ ≤ 1 / 100)
    (hc : SinCosWithin f ε) (hε : 0 ≤ ε) (hε' : ε ≤ 1) (z : Cartesian (Flt f)) (h1 : z.re.IsFinite) (h2 : z.im.IsFinite)
    (v1 : z.re.Valid) (v2 : z.im.Valid) (hlo : (2:ℚ) ^ (f.emin + f.p) ≤ max (z.re.val ^ 2) (z.im.val ^ 2))
    (hhi : 2 * (z.re.val ^ 2 + z.im.val ^ 2) ≤ 2 ^ f.emax) :
    ∃ c : Cartesian (Flt f), Returns (do let q ← z.toPolar; q.toCartesian) c ∧ (c.re.Valid ∧ c.re.IsFinite) ∧
      (c.im.Valid ∧ c.im.IsFinite) ∧
      |(c.re.val : ℝ) - z.re.val| ≤
        (δ + 51 / 50 * ε + 101 / 100 * σ + 16 / 2 ^ f.p) * √((z.re.val : ℝ) ^ 2 + (z.im.val : ℝ) ^ 2) + 2 ^ f.emin ∧
      |(c.im.val : ℝ) - z.im.val| ≤
        (δ + 51 / 50 * ε + 101 / 100 * σ + 16 / 2 ^ f.p) * √((z.re.val : ℝ) ^ 2 + (z.im.val : ℝ) ^ 2) + 2 ^ f.emin := by
  have hp := hf.p; have hmin := hf.emin; have hmax := hf.emax
  obtain ⟨v, m1, m2, m3, m4⟩ := C84_accuracy hf hs hσ z h1 h2 v1 v2 hlo hhi
  have hS : (0:ℚ) < z.re.val ^ 2 + z.im.val ^ 2 := by
    have := two_zpow_pos (f.emin + f.p)
    have hm : max (z.re.val ^ 2) (z.im.val ^ 2) ≤ z.re.val ^ 2 + z.im.val ^ 2 :=
      max_le (by nlinarith [sq_nonneg z.im.val]) (by nlinarith [sq_nonneg z.re.val])
    linarith
  obtain ⟨a, a1, a2, a3, a4⟩ := ha z.im z.re v2 v1 h2 h1 (by
    by_contra hc
    push Not at hc
    rw [hc.1, hc.2] at hS; norm_num at hS)
  have hu : (1:ℝ) / 2 ^ f.p ≤ 1 / 10 ^ 6 := by
    have : (2:ℝ) ^ 24 ≤ 2 ^ f.p := pow_le_pow_right₀ (by norm_num) hp
    exact one_div_le_one_div_of_le (by norm_num) (by norm_num at this ⊢; linarith)
  have hu0 : (0:ℝ) < 1 / 2 ^ f.p := by positivity
  have hpi := Real.pi_lt_d4
  have hang : |(a.val:ℝ)| ≤ 4 := by
    have := Complex.abs_arg_le_pi ⟨z.re.val, z.im.val⟩
    have := abs_sub_abs_le_abs_sub (a.val:ℝ) (Complex.arg ⟨z.re.val, z.im.val⟩)
    norm_num at hpi; linarith
  obtain ⟨e1, e2⟩ := re_im_of_arg (z.re.val:ℝ) (z.im.val:ℝ)
  have hN := Real.sqrt_nonneg ((z.re.val:ℝ) ^ 2 + (z.im.val:ℝ) ^ 2)
  have hNmax : √((z.re.val:ℝ) ^ 2 + (z.im.val:ℝ) ^ 2) ≤ 2 ^ f.emax / 5 := by
    rw [Real.sqrt_le_left (by positivity)]
    have hhi' : 2 * ((z.re.val:ℝ) ^ 2 + (z.im.val:ℝ) ^ 2) ≤ 2 ^ f.emax := by exact_mod_cast hhi
    have : (1024:ℝ) ≤ 2 ^ f.emax := by
      calc (1024:ℝ) = 2 ^ 10 := by norm_num
        _ ≤ _ := pow_le_pow_right₀ (by norm_num) (by omega)
    nlinarith
  rw [show (21:ℝ) / 10 / 2 ^ f.p = 21 / 10 * (1 / 2 ^ f.p) by ring] at m4
  rw [show (16:ℝ) / 2 ^ f.p = 16 * (1 / 2 ^ f.p) by ring]
  set N := √((z.re.val:ℝ) ^ 2 + (z.im.val:ℝ) ^ 2)
  have hv : |(v.val:ℝ)| ≤ 51 / 50 * N := by
    have := abs_sub_abs_le_abs_sub (v.val:ℝ) N
    rw [abs_of_nonneg hN] at this
    nlinarith
  obtain ⟨c, c1, c2, c3, c4, c5⟩ := C86_accuracy hf h60 hc hε' ⟨v, a⟩ m3 a3 m2 a2 (by
      show |(a.val:ℝ)| ≤ _
      have : (2:ℝ) ^ 24 ≤ 2 ^ f.p := pow_le_pow_right₀ (by norm_num) hp
      norm_num at this; linarith) (by
      show 4 * |v.val| ≤ _
      have : 4 * |(v.val:ℝ)| ≤ 2 ^ f.emax := by linarith
      exact_mod_cast this)
  change |(c.re.val:ℝ) - v.val * Real.cos a.val| ≤ |(v.val:ℝ)| * (ε + ((|(a.val:ℝ)| + 4) ^ 2 / 6 + 2) / 2 ^ f.p) + 2 ^ f.emin at c4
  change |(c.im.val:ℝ) - v.val * Real.sin a.val| ≤ |(v.val:ℝ)| * (ε + ((|(a.val:ℝ)| + 4) ^ 2 / 6 + 2) / 2 ^ f.p) + 2 ^ f.emin at c5
  have hB : |(v.val:ℝ)| * (ε + ((|(a.val:ℝ)| + 4) ^ 2 / 6 + 2) / 2 ^ f.p) ≤ 51 / 50 * N * (ε + 127 / 10 * (1 / 2 ^ f.p)) := by
    refine mul_le_mul hv ?_ (by positivity) (by positivity)
    have := pow_le_pow_left₀ (by positivity) (by linarith : |(a.val:ℝ)| + 4 ≤ 8) 2
    have h5 : (|(a.val:ℝ)| + 4) ^ 2 / 6 + 2 ≤ 127 / 10 := by norm_num at this ⊢; linarith
    rw [div_eq_mul_one_div _ ((2:ℝ) ^ f.p)]
    have := mul_le_mul_of_nonneg_right h5 hu0.le
    linarith
  have f1 := trip_error (T' := Real.cos (Complex.arg ⟨z.re.val, z.im.val⟩)) c4 m4 hN (Real.abs_cos_le_one _)
    ((Real.abs_cos_sub_cos_le _ _).trans a4)
  have f2 := trip_error (T' := Real.sin (Complex.arg ⟨z.re.val, z.im.val⟩)) c5 m4 hN (Real.abs_sin_le_one _)
    ((Real.abs_sin_sub_sin_le _ _).trans a4)
  rw [e1] at f1; rw [e2] at f2
  have hNu : 0 ≤ N * (1 / 2 ^ f.p) := by positivity
  have hr : Returns (z.toPolar) ⟨v, a⟩ := by
    have m1' : Returns (ops.abs z) v := m1
    exact m1'.bind (a1.bind (.of_eq rfl))
  refine ⟨c, hr.bind c1, c2, c3, f1.trans ?_, f2.trans ?_⟩ <;> nlinarith

example [MixedSqrt (Flt F32)] [MixedAtan (Flt F32)] [MixedSinCos (Flt F32)] (hs : SqrtWithin F32 (1 / 2 ^ 23)) (ha : AtanWithin F32 (1 / 2 ^ 22))
    (hc : SinCosWithin F32 (1 / 2 ^ 23)) := C89_round_trip wide_F32 (by decide) hs (by norm_num) (by norm_num) ha (by norm_num) hc (by norm_num) (by norm_num)
  ⟨.fin false 3, .fin true (1 / 2)⟩ ⟨_, _, rfl⟩ ⟨_, _, rfl⟩ (by is_float 3 0) (by is_float 1 (-1)) (by norm_num [Flt.val, F32]) (by norm_num [Flt.val, F32])

/-- An arctangent as C89 assumes exists: the true value rounded down to a multiple of `1/1024`. -/
theorem atanWithin_exists (hf : f.Wide) : ∃ inst : MixedAtan (Flt f), @AtanWithin f inst (1 / 1000) := by
  have hp := hf.p; have hmin := hf.emin; have hmax := hf.emax
  refine ⟨⟨fun y x => pure (ofExact false ((⌊Complex.arg ⟨x.val, y.val⟩ * 2 ^ 10⌋ : ℚ) / 2 ^ 10))⟩, ?_⟩
  intro y x _ _ _ _ _
  have harg := Complex.abs_arg_le_pi ⟨x.val, y.val⟩
  have hpi := Real.pi_lt_d4
  set t := Complex.arg ⟨x.val, y.val⟩
  have h1 := Int.floor_le (t * 2 ^ 10); have h2 := Int.lt_floor_add_one (t * 2 ^ 10)
  have h3 := abs_le.mp harg
  set n := ⌊t * 2 ^ 10⌋
  have hn : |n| < 2 ^ 13 := by
    have : |(n:ℝ)| < 2 ^ 13 := by rw [abs_lt]; norm_num at *; constructor <;> linarith
    exact_mod_cast this
  have hrep : rnd f.p f.emin ((n:ℚ) / 2 ^ 10) = (n:ℚ) / 2 ^ 10 :=
    rnd_rep ⟨n, -10, by omega, hn.trans_le (pow_le_pow_right₀ (by norm_num) (by omega)), by norm_num [div_eq_mul_inv]⟩
  have his : Is (ofExact false ((n:ℚ) / 2 ^ 10) : Flt f) ((n:ℚ) / 2 ^ 10) := by
    have := is_ofExact (f := f) (q := (n:ℚ) / 2 ^ 10) hf.one_le false (by
      rw [hrep]
      have h5 : |(n:ℚ)| < 2 ^ 13 := by exact_mod_cast hn
      have h6 : (2:ℚ) ^ 13 ≤ 2 ^ f.emax := pow_le_pow_right₀ (by norm_num) (by omega)
      rw [abs_div, abs_of_pos (by norm_num : (0:ℚ) < 2 ^ 10), div_lt_iff₀ (by norm_num)]
      linarith)
    rwa [hrep] at this
  refine ⟨_, .of_eq rfl, his.valid, his.fin, ?_⟩
  rw [his.val]
  push_cast
  rw [abs_le]
  norm_num at h1 h2 ⊢
  constructor <;> linarith

end

section
variable {m : Mode} {W F : ℕ}
open Fixed

/-- The external CORDIC arctangent (crate `cordic`, not modelled) returns for all arguments that are not both zero, within `δ`. -/
def FixedAtanWithin (at2 : Fixed m true W F → Fixed m true W F → Prog (Fixed m true W F)) (δ : ℝ) : Prop :=
  ∀ y x : Fixed m true W F, (x.val ≠ 0 ∨ y.val ≠ 0) → ∃ a, Returns (at2 y x) a ∧ |a.r - Complex.arg ⟨x.r, y.r⟩| ≤ δ

/-- C90: converting to polar and back on signed fixed point with at least 2 fraction bits. `N` is the true magnitude, `E` the
error of the magnitude by C72. -/
theorem C90_round_trip {K : ℕ} (hF : 2 ≤ F) (hW : 8 ≤ W) (hW' : W ≤ 128) (hK : F + K + 1 ≤ W) (h : F + 4 ≤ W) {δ ε : ℝ}
    (at2 : Fixed m true W F → Fixed m true W F → Prog (Fixed m true W F)) (ha : FixedAtanWithin at2 δ) (hδ' : δ ≤ 1 / 100)
    (sc : Fixed m true W F → Prog (Fixed m true W F × Fixed m true W F)) (hs : FixedSinCosWithin sc ε) (hε : 0 ≤ ε)
    (z : Cartesian (Fixed m true W F)) (h0 : z.re.val ≠ 0 ∨ z.im.val ≠ 0) (N E : ℝ) (hN : N = √(z.re.r ^ 2 + z.im.r ^ 2))
    (hE : E = (1 / 1000 + 12 / 2 ^ F) * N + 4 / 2 ^ F + √(2 / 2 ^ F))
    (hr : InRange true W (z.re.val * z.re.val / 2 ^ F + z.im.val * z.im.val / 2 ^ F))
    (hm : (N + E) * (1 + ε) + 1 / 2 ^ F < 2 ^ K) :
    ∃ c : Cartesian (Fixed m true W F),
      Returns (do let q ← @Cartesian.toPolar _ _ _ _ ⟨at2⟩ z; @Polar.toCartesian _ _ _ _ _ _ ⟨sc⟩ q) c ∧
      |c.re.r - z.re.r| ≤ (N + E) * (ε + 13 / 10 * (1 / 2 ^ F + 1 / 2 ^ 51)) + 1 / 2 ^ F + E + N * δ ∧
      |c.im.r - z.im.r| ≤ (N + E) * (ε + 13 / 10 * (1 / 2 ^ F + 1 / 2 ^ 51)) + 1 / 2 ^ F + E + N * δ := by
  obtain ⟨v, m1, m2⟩ := C72_accuracy hF hW hW' h z hr
  rw [← hN, ← hE] at m2
  obtain ⟨a, a1, a2⟩ := ha z.im z.re h0
  have n0 : 0 ≤ N := by rw [hN]; exact Real.sqrt_nonneg _
  have hv : |v.r| ≤ N + E := by
    have := abs_sub_abs_le_abs_sub v.r N
    rw [abs_of_nonneg n0] at this; linarith
  obtain ⟨c, c1, c2, c3⟩ := C88_accuracy hK h sc hs ⟨v, a⟩ (by
    show |v.r| * (1 + ε) + 1 / 2 ^ F < 2 ^ K
    have := mul_le_mul_of_nonneg_right hv (by linarith : 0 ≤ 1 + ε)
    linarith)
  have hpi := Real.pi_lt_d4
  have hang : |a.r| ≤ 4 := by
    have := Complex.abs_arg_le_pi ⟨z.re.r, z.im.r⟩
    have := abs_sub_abs_le_abs_sub a.r (Complex.arg ⟨z.re.r, z.im.r⟩)
    norm_num at hpi; linarith
  change |c.re.r - v.r * Real.cos a.r| ≤ |v.r| * (ε + (|a.r| / 5 + 1 / 2) * (1 / 2 ^ F + 1 / 2 ^ 51)) + 1 / 2 ^ F at c2
  change |c.im.r - v.r * Real.sin a.r| ≤ |v.r| * (ε + (|a.r| / 5 + 1 / 2) * (1 / 2 ^ F + 1 / 2 ^ 51)) + 1 / 2 ^ F at c3
  have hB : |v.r| * (ε + (|a.r| / 5 + 1 / 2) * (1 / 2 ^ F + 1 / 2 ^ 51)) ≤ (N + E) * (ε + 13 / 10 * (1 / 2 ^ F + 1 / 2 ^ 51)) := by
    refine mul_le_mul hv ?_ (by positivity) (by linarith [abs_nonneg v.r])
    have : (|a.r| / 5 + 1 / 2) * ((1:ℝ) / 2 ^ F + 1 / 2 ^ 51) ≤ 13 / 10 * (1 / 2 ^ F + 1 / 2 ^ 51) :=
      mul_le_mul_of_nonneg_right (by linarith) (by positivity)
    linarith
  obtain ⟨e1, e2⟩ := re_im_of_arg z.re.r z.im.r
  rw [← hN] at e1 e2
  have f1 := trip_error (T' := Real.cos (Complex.arg ⟨z.re.r, z.im.r⟩)) c2 m2 n0 (Real.abs_cos_le_one _)
    ((Real.abs_cos_sub_cos_le _ _).trans a2)
  have f2 := trip_error (T' := Real.sin (Complex.arg ⟨z.re.r, z.im.r⟩)) c3 m2 n0 (Real.abs_sin_le_one _)
    ((Real.abs_sin_sub_sin_le _ _).trans a2)
  rw [e1] at f1; rw [e2] at f2
  have hrp : Returns (@Cartesian.toPolar _ _ _ _ ⟨at2⟩ z) ⟨v, a⟩ := by
    have m1' : Returns (ops.abs z) v := m1
    exact m1'.bind (a1.bind (.of_eq rfl))
  exact ⟨c, hrp.bind c1, f1.trans (by linarith), f2.trans (by linarith)⟩

/-- The hypotheses hold on 32 bits with 16 fractional bits of `3+4i`. -/
example (at2 : Fixed .checked true 32 16 → Fixed .checked true 32 16 → Prog (Fixed .checked true 32 16)) (ha : FixedAtanWithin at2 (1 / 2 ^ 10))
    (sc : Fixed .checked true 32 16 → Prog (Fixed .checked true 32 16 × Fixed .checked true 32 16)) (hs : FixedSinCosWithin sc (1 / 2 ^ 10)) :=
  C90_round_trip (K := 15) (by decide) (by decide) (by decide) (by decide) (by decide) at2 ha (by norm_num) sc hs (by norm_num)
    ⟨fx .checked true 32 16 (3 * 2 ^ 16), fx .checked true 32 16 (4 * 2 ^ 16)⟩ (.inl (by decide)) 5 _
    (by
      have e1 : (fx .checked true 32 16 (3 * 2 ^ 16)).r = 3 := by
        rw [Fixed.r, show (fx .checked true 32 16 (3 * 2 ^ 16)).val = 3 * 2 ^ 16 by decide +kernel]; norm_num
      have e2 : (fx .checked true 32 16 (4 * 2 ^ 16)).r = 4 := by
        rw [Fixed.r, show (fx .checked true 32 16 (4 * 2 ^ 16)).val = 4 * 2 ^ 16 by decide +kernel]; norm_num
      simp only [e1, e2]; rw [show (3 ^ 2 + 4 ^ 2 : ℝ) = 5 ^ 2 by norm_num, Real.sqrt_sq (by norm_num)])
    rfl (by decide +kernel) (by
      have h2 : √((2:ℝ) / 2 ^ 16) ≤ 1 / 10 := by rw [Real.sqrt_le_left (by norm_num)]; norm_num
      norm_num at h2 ⊢; linarith)

/-- An arctangent as C90 assumes exists: the true value rounded down. -/
theorem fixedAtanWithin_exists (h : F + 4 ≤ W) :
    ∃ at2 : Fixed m true W F → Fixed m true W F → Prog (Fixed m true W F), FixedAtanWithin at2 (1 / 2 ^ F) := by
  have hu := u_pos F
  have hu1 := u_le_one F
  have hpu := pow_mul_u F
  have hpi := Real.pi_lt_d4
  have near : ∀ t : ℝ, |(⌊t * 2 ^ F⌋ : ℝ) * u F - t| ≤ u F := by
    intro t
    have h1 := Int.floor_le (t * 2 ^ F); have h2 := Int.lt_floor_add_one (t * 2 ^ F)
    have e : t = t * 2 ^ F * u F := by rw [mul_assoc, hpu, mul_one]
    rw [abs_le]; constructor <;> nlinarith
  have fits : ∀ t : ℝ, |t| ≤ Real.pi → Fits true W ⌊t * 2 ^ F⌋ := by
    intro t ht
    refine fits_of_abs (K := 3) (by omega) ?_
    have := abs_sub_abs_le_abs_sub ((⌊t * 2 ^ F⌋ : ℝ) * u F) t
    have := near t
    rw [show (2:ℝ) ^ 3 = 8 by norm_num]; norm_num at hpi; linarith
  refine ⟨fun y x => pure (mkv _ (fits _ (Complex.abs_arg_le_pi ⟨x.r, y.r⟩))), ?_⟩
  intro y x _
  refine ⟨_, .of_eq rfl, ?_⟩
  rw [r_eq, mkv_val]; exact near _

end
end MixedNum
