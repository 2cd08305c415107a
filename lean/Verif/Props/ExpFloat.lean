import Verif.Props.DbFloat
import Verif.Props.AddSub
import Verif.Lemmas.Run
import Verif.Lemmas.Case
/-! # C100: the complex exponential on floats and fixed point -/

namespace MixedNum
variable {f : Format}
open Flt

/-! ## C100 -/

/-- C100: `mixed_exp` on complex floats approximates the complex exponential, unless it overflows. -/
theorem C100_float [Libm f] {δ : ℝ} (hf : f.Wide) (h : LibmWithin f δ) (hδ : 0 ≤ δ) (hδ' : δ ≤ 1 / 100) (z : Cartesian (Flt f))
    (h1 : z.re.IsFinite) (h2 : z.im.IsFinite) (v1 : z.re.Valid) (v2 : z.im.Valid)
    (ho : 4 * Real.exp z.re.val ≤ 2 ^ f.emax) :
    ∃ c : Cartesian (Flt f), Returns z.exp c ∧ (c.re.Valid ∧ c.re.IsFinite) ∧ (c.im.Valid ∧ c.im.IsFinite) ∧
      |(c.re.val : ℝ) - (Complex.exp ⟨z.re.val, z.im.val⟩).re| ≤ (5 / 2 * δ + 2 / 2 ^ f.p) * Real.exp z.re.val + 2 * 2 ^ f.emin ∧
      |(c.im.val : ℝ) - (Complex.exp ⟨z.re.val, z.im.val⟩).im| ≤ (5 / 2 * δ + 2 / 2 ^ f.p) * Real.exp z.re.val + 2 * 2 ^ f.emin := by
  have hp := hf.p; have hmin := hf.emin; have hmax := hf.emax
  rw [Complex.exp_re, Complex.exp_im]
  show ∃ c : Cartesian (Flt f), _ ∧ _ ∧ _ ∧ |(c.re.val : ℝ) - Real.exp z.re.val * Real.cos z.im.val| ≤ _ ∧
    |(c.im.val : ℝ) - Real.exp z.re.val * Real.sin z.im.val| ≤ _
  have hη : (2:ℝ) ^ f.emin ≤ 1 / 2 ^ f.p * (1 / 2 ^ 24) := by
    have : (2:ℝ) ^ f.emin ≤ 2 ^ (-(f.p:ℤ) + -24) := zpow_le_zpow_right₀ (by norm_num) (by omega)
    rw [zpow_add₀ (by norm_num), zpow_neg, zpow_natCast] at this
    rw [one_div]; refine this.trans (le_of_eq ?_); norm_num
  have hη0 : (0:ℝ) < 2 ^ f.emin := zpow_pos (by norm_num) _
  have hU : (0:ℝ) < 1 / 2 ^ f.p := by positivity
  have hU' : (1:ℝ) / 2 ^ f.p ≤ 1 / 2 ^ 24 := by
    apply one_div_le_one_div_of_le (by norm_num); exact pow_le_pow_right₀ (by norm_num) hp
  have hbig : (1024:ℝ) ≤ 2 ^ f.emax := by
    calc (1024:ℝ) = 2 ^ 10 := by norm_num
      _ ≤ _ := pow_le_pow_right₀ (by norm_num) (by omega)
  rw [show (2:ℝ) / 2 ^ f.p = 2 * (1 / 2 ^ f.p) by ring]
  have hr := rnd_real (f := f)
  have hE := Real.exp_pos (z.re.val : ℝ)
  obtain ⟨x1, x2, x3⟩ := h.exp z.re v1 h1 (by rw [abs_of_pos hE]; linarith)
  rw [abs_of_pos hE] at x3
  obtain ⟨hs, hc⟩ := h.sincos z.im v2 h2
  generalize hS : Libm.exp z.re = S at *
  have iS : Is S S.val := by obtain ⟨_, _, e⟩ := x2; rw [e]; rw [e] at x1; exact is_of_valid x1
  -- one part
  have key : ∀ (t : Flt f) (T : ℝ), |T| ≤ 1 → Approx δ t T →
      ∃ v, Is (t.mul S) v ∧ |(v:ℝ) - Real.exp z.re.val * T| ≤
        (5 / 2 * δ + 2 * (1 / 2 ^ f.p)) * Real.exp z.re.val + 2 * 2 ^ f.emin := by
    intro t T hT ha
    obtain ⟨a1, a2, a3⟩ := ha (by linarith)
    have it : Is t t.val := by obtain ⟨_, _, rfl⟩ := a2; exact is_of_valid a1
    have hr := hr (t.val * S.val)
    rw [Rat.cast_mul] at hr
    generalize (1:ℝ) / 2 ^ f.p = U at *
    generalize (2:ℝ) ^ f.emin = H at *
    generalize Real.exp z.re.val = E at *
    have d1 : δ * |T| ≤ δ * 1 := mul_le_mul_of_nonneg_left hT hδ
    have b1 : |(t.val : ℝ) - T| ≤ δ + H := by linarith
    have dE : δ * E ≤ 1 / 100 * E := mul_le_mul_of_nonneg_right hδ' hE.le
    have b2 : |(S.val : ℝ)| ≤ 101 / 100 * E + H := by
      have := abs_sub_abs_le_abs_sub (S.val : ℝ) E
      rw [abs_of_pos hE] at this; linarith
    have b3 : |(t.val : ℝ) * S.val - E * T| ≤ (δ + H) * (101 / 100 * E + H) + (δ * E + H) := by
      rw [show (t.val : ℝ) * S.val - E * T = (t.val - T) * S.val + T * (S.val - E) by ring]
      refine (abs_add_le _ _).trans ?_
      rw [abs_mul, abs_mul]
      have c1 := mul_le_mul b1 b2 (abs_nonneg _) (by positivity)
      have c2 := mul_le_mul hT x3 (abs_nonneg _) (by norm_num)
      linarith
    have hHE : H * E ≤ U * (1 / 2 ^ 24) * E := mul_le_mul_of_nonneg_right hη hE.le
    have hUE : U * E ≤ 1 / 2 ^ 24 * E := mul_le_mul_of_nonneg_right hU' hE.le
    have hHH : H * H ≤ 1 / 2 ^ 24 * (1 / 2 ^ 24) * H := mul_le_mul_of_nonneg_right (by linarith) hη0.le
    have hdH : δ * H ≤ 1 / 100 * H := mul_le_mul_of_nonneg_right hδ' hη0.le
    have e1 : (δ + H) * (101 / 100 * E + H) = 101 / 100 * (δ * E) + δ * H + 101 / 100 * (H * E) + H * H := by ring
    have hUE0 := mul_pos hU hE
    have b4 : |(t.val : ℝ) * S.val - E * T| ≤ 201 / 100 * (δ * E) + 2 / 2 ^ 24 * (U * E) + 11 / 10 * H := by
      rw [e1] at b3; linarith
    have b5 : |(t.val : ℝ) * S.val| ≤ 103 / 100 * E + 11 / 10 * H := by
      have g1 := abs_sub_abs_le_abs_sub ((t.val : ℝ) * S.val) (E * T)
      have g2 : |E * T| ≤ E * 1 := by rw [abs_mul, abs_of_pos hE]; exact mul_le_mul_of_nonneg_left hT hE.le
      linarith
    have b6 : |(t.val : ℝ) * S.val| * U ≤ (103 / 100 * E + 11 / 10 * H) * U := mul_le_mul_of_nonneg_right b5 hU.le
    have hHU : H * U ≤ H * (1 / 2 ^ 24) := mul_le_mul_of_nonneg_left hU' hη0.le
    have b7 := abs_sub_le ((rnd f.p f.emin (t.val * S.val) : ℚ) : ℝ) (t.val * S.val) (E * T)
    have hlt : |rnd f.p f.emin (t.val * S.val)| < 2 ^ f.emax := by
      have g1 := abs_sub_abs_le_abs_sub ((rnd f.p f.emin (t.val * S.val) : ℚ) : ℝ) (t.val * S.val)
      have : |((rnd f.p f.emin (t.val * S.val) : ℚ) : ℝ)| < 2 ^ f.emax := by linarith
      exact_mod_cast this
    refine ⟨_, it.mul hf.one_le iS hlt, ?_⟩
    have hdE0 := mul_nonneg hδ hE.le
    have e2 : (5 / 2 * δ + 2 * U) * E = 5 / 2 * (δ * E) + 2 * (U * E) := by ring
    rw [e2]; linarith
  obtain ⟨c, c1, c2⟩ := key _ _ (Real.abs_cos_le_one z.im.val) hc
  obtain ⟨s, s1, s2⟩ := key _ _ (Real.abs_sin_le_one z.im.val) hs
  have hret : Returns z.exp ⟨(Libm.sincos z.im).2.mul S, (Libm.sincos z.im).1.mul S⟩ := by rw [← hS]; exact .of_eq rfl
  refine ⟨_, hret, ⟨c1.valid, c1.fin⟩, ⟨s1.valid, s1.fin⟩, ?_, ?_⟩
  · show |((((Libm.sincos z.im).2.mul S).val : ℚ) : ℝ) - _| ≤ _
    rw [c1.val]; exact c2
  · show |((((Libm.sincos z.im).1.mul S).val : ℚ) : ℝ) - _| ≤ _
    rw [s1.val]; exact s2

example [Libm F32] (h : LibmWithin F32 (2 / 2 ^ 24)) := C100_float wide_F32 h (by norm_num) (by norm_num) ⟨.fin false 0, .fin false 3⟩
  ⟨_, _, rfl⟩ ⟨_, _, rfl⟩ (by is_float 0 0) (by is_float 3 0) (by norm_num [Flt.val, F32])

section
variable {m : Mode} {W F : ℕ}
open Fixed

/-- C100: on signed fixed point, with the imaginary part within `[-4, 4]` (the code does not wrap it). -/
theorem C100_fixed [Cordic m W F] {δ : ℝ} {K : ℕ} (hK : F + K + 1 ≤ W) (hK1 : 1 ≤ K) (hF : 1 ≤ F) (h : CordicWithin m W F δ)
    (z : Cartesian (Fixed m true W F)) (hi : |(z.im.val : ℝ) / 2 ^ F| ≤ 4)
    (ho : (1 + δ) * (Real.exp (z.re.val / 2 ^ F) + δ) + 1 / 2 ^ F < 2 ^ K) :
    ∃ c : Cartesian (Fixed m true W F), Returns z.exp c ∧
      |(c.re.val : ℝ) / 2 ^ F - (Complex.exp ⟨z.re.val / 2 ^ F, z.im.val / 2 ^ F⟩).re| ≤
        δ * (Real.exp (z.re.val / 2 ^ F) + 1 + δ) + 1 / 2 ^ F ∧
      |(c.im.val : ℝ) / 2 ^ F - (Complex.exp ⟨z.re.val / 2 ^ F, z.im.val / 2 ^ F⟩).im| ≤
        δ * (Real.exp (z.re.val / 2 ^ F) + 1 + δ) + 1 / 2 ^ F := by
  rw [Complex.exp_re, Complex.exp_im]
  show ∃ c : Cartesian (Fixed m true W F), _ ∧
    |(c.re.val : ℝ) / 2 ^ F - Real.exp (z.re.val / 2 ^ F) * Real.cos (z.im.val / 2 ^ F)| ≤ _ ∧
    |(c.im.val : ℝ) / 2 ^ F - Real.exp (z.re.val / 2 ^ F) * Real.sin (z.im.val / 2 ^ F)| ≤ _
  obtain ⟨s, c, a1, a2, a3⟩ := h.sinCos (by omega) hF z.im hi
  have hδ : 0 ≤ δ := (abs_nonneg _).trans a2
  have hE := Real.exp_pos ((z.re.val : ℝ) / 2 ^ F)
  have hpF : (0:ℝ) < 2 ^ F := by positivity
  have hroom : |Real.exp ((z.re.val : ℝ) / 2 ^ F)| * 2 ^ F + 1 < 2 ^ (W - 1) := by
    rw [abs_of_pos hE]
    have h1 : (2:ℝ) ^ (K + F) ≤ 2 ^ (W - 1) := pow_le_pow_right₀ (by norm_num) (by omega)
    have h2 : (Real.exp ((z.re.val : ℝ) / 2 ^ F) + 1 / 2 ^ F) * 2 ^ F < 2 ^ K * 2 ^ F := by
      refine mul_lt_mul_of_pos_right (lt_of_le_of_lt ?_ ho) hpF
      nlinarith
    rw [add_mul, one_div, inv_mul_cancel₀ hpF.ne'] at h2
    rw [pow_add] at h1; linarith
  obtain ⟨S, b1, b2⟩ := h.exp z.re hroom
  generalize Real.exp ((z.re.val : ℝ) / 2 ^ F) = E at *
  have hu := u_pos F
  have e1 : (1:ℝ) / 2 ^ F = u F := rfl
  rw [e1] at ho ⊢
  have hS : |S.r| ≤ E + δ := by
    have := abs_sub_abs_le_abs_sub S.r E
    rw [abs_of_pos hE] at this
    have b2' : |S.r - E| ≤ δ := b2
    linarith
  have key : ∀ (t : Fixed m true W F) (T : ℝ), |T| ≤ 1 → |t.r - T| ≤ δ →
      ∃ p, NumOps.mul t S = pure p ∧ |p.r - E * T| ≤ δ * (E + 1 + δ) + u F := by
    intro t T hT ht
    have htr : |t.r| ≤ 1 + δ := by have := abs_sub_abs_le_abs_sub t.r T; linarith
    have hprod : |t.r * S.r| ≤ (1 + δ) * (E + δ) := by
      rw [abs_mul]; exact mul_le_mul htr hS (abs_nonneg _) (by linarith)
    obtain ⟨p, p1, p2, p3⟩ := mul_exact hK (a := t) (b := S) (by linarith)
    refine ⟨p, p1, ?_⟩
    have d : |t.r * S.r - E * T| ≤ δ * (E + 1 + δ) := by
      rw [show t.r * S.r - E * T = (t.r - T) * S.r + T * (S.r - E) by ring]
      refine (abs_add_le _ _).trans ?_
      rw [abs_mul, abs_mul]
      have c1 := mul_le_mul ht hS (abs_nonneg _) hδ
      have b2' : |S.r - E| ≤ δ := b2
      have c2 := mul_le_mul hT b2' (abs_nonneg _) (by norm_num)
      linarith
    have := abs_le.mp d
    rw [abs_le]; constructor <;> linarith
  obtain ⟨p, p1, p2⟩ := key c _ (Real.abs_cos_le_one _) a3
  obtain ⟨q, q1, q2⟩ := key s _ (Real.abs_sin_le_one _) a2
  refine ⟨⟨p, q⟩, ?_, p2, q2⟩
  refine a1.bind (b1.bind (.of_eq ?_))
  show (do let re' ← NumOps.mul c S; let im' ← NumOps.mul s S; pure (⟨re', im'⟩ : Cartesian _)) = _
  rw [p1, q1]; rfl

end

/-- e^(1 + i) fits easily. -/
example : 4 * Real.exp ((Flt.fin false 1 : Flt F32).val) ≤ 2 ^ F32.emax := by
  have := Real.exp_one_lt_d9
  norm_num [Flt.val, F32]; linarith

end MixedNum
