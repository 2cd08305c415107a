import Verif.Props.ExpFloat
import Verif.Props.ToAndFro
import Verif.Lemmas.ArgNear
import Verif.Props.AddSub
import Verif.Lemmas.Run
import Verif.Lemmas.Case
/-! # C176: size and angle of the exponential -/

namespace MixedNum
variable {m : Mode} {W F : ℕ} {f : Format}

/-- C176, exact reals: the polar form of `exp(z)` is `(e^re, im)`, the angle brought between `-π` and `π`. -/
theorem C176_real (z : Cartesian ℝ) : ∃ p, Returns (do let c ← z.exp; c.toPolar) p ∧ p.mag = Real.exp z.re ∧
    (-Real.pi < p.ang ∧ p.ang ≤ Real.pi) ∧ (∃ k : ℤ, p.ang = z.im + 2 * Real.pi * k) ∧
    (-Real.pi < z.im → z.im ≤ Real.pi → p.ang = z.im) := by
  obtain ⟨c, c1, c2⟩ := C23_exp z
  have e : c.toC = ((Real.exp z.re : ℝ) : ℂ) * Complex.exp (z.im * Complex.I) := by
    rw [c2, Complex.ofReal_exp, ← Complex.exp_add]
    congr 1
    apply Complex.ext <;> simp [Cartesian.toC]
  have h0 := Real.exp_pos z.re
  have hm : ‖c.toC‖ = Real.exp z.re := by
    rw [e, norm_mul, Complex.norm_exp_ofReal_mul_I, mul_one, Complex.norm_real, Real.norm_eq_abs, abs_of_pos h0]
  have ha : Complex.arg c.toC = toIocMod Real.two_pi_pos (-Real.pi) z.im := by
    rw [e, Complex.arg_real_mul _ h0, Complex.arg_exp_mul_I]
  refine ⟨⟨‖c.toC‖, Complex.arg c.toC⟩, c1.bind (.of_eq (toPolar_real c)), hm, Complex.arg_mem_Ioc _,
    ⟨-toIocDiv Real.two_pi_pos (-Real.pi) z.im, ?_⟩, fun h1 h2 => ?_⟩
  · show Complex.arg c.toC = _
    rw [ha]
    have := self_sub_toIocDiv_zsmul Real.two_pi_pos (-Real.pi) z.im
    rw [← this, zsmul_eq_mul]; push_cast; ring
  · show Complex.arg c.toC = _
    rw [ha, toIocMod_eq_self]
    exact ⟨h1, by linarith⟩

/-- A number near `E e^(ix)` has nearly that size and angle. -/
theorem near_polar {c : ℂ} {E x η : ℝ} (hE : 0 < E) (hη : η ≤ 1 / 10) (h1 : |c.re - E * Real.cos x| ≤ η * E) (h2 : |c.im - E * Real.sin x| ≤ η * E) :
    |‖c‖ - E| ≤ 3 / 2 * (η * E) ∧ ∃ k : ℤ, |Complex.arg c - x - 2 * Real.pi * k| ≤ 3 * η ∧ (|x| ≤ 2.84 → k = 0) := by
  refine ⟨?_, ?_⟩
  · have h3 := norm_three_halves h1 h2
    have e : (⟨c.re - E * Real.cos x, c.im - E * Real.sin x⟩ : ℂ) = c - (E : ℂ) * Complex.exp (x * Complex.I) := by
      apply Complex.ext
      · rw [Complex.sub_re, Complex.re_ofReal_mul, Complex.exp_ofReal_mul_I_re]
      · rw [Complex.sub_im, Complex.im_ofReal_mul, Complex.exp_ofReal_mul_I_im]
    rw [e] at h3
    have h4 := abs_norm_sub_norm_le c ((E : ℂ) * Complex.exp (x * Complex.I))
    rw [norm_mul, Complex.norm_exp_ofReal_mul_I, mul_one, Complex.norm_real, Real.norm_eq_abs, abs_of_pos hE] at h4
    exact h4.trans h3
  · have near : ∀ a t : ℝ, |a - E * t| ≤ η * E → |a / E - t| ≤ η := by
      intro a t h
      rw [show a / E - t = (a - E * t) / E by field_simp, abs_div, abs_of_pos hE, div_le_iff₀ hE]; exact h
    obtain ⟨k, k1, k2, -, -⟩ := arg_near hη (near _ _ h2) (near _ _ h1)
    have ea : Complex.arg c = Complex.arg ⟨c.re / E, c.im / E⟩ := by
      have : c = (E : ℂ) * ⟨c.re / E, c.im / E⟩ := by
        apply Complex.ext <;> simp <;> field_simp
      conv_lhs => rw [this]
      exact Complex.arg_real_mul _ hE
    rw [ea]
    exact ⟨k, k1, k2⟩

open Flt in
/-- C176, floats: size and angle of `exp(z)` up to the errors of the library functions and the rounding. -/
theorem C176_float [Libm f] {δ : ℝ} (hf : f.Wide) (h : LibmWithin f δ) (hδ : 0 ≤ δ) (hδ' : δ ≤ 1 / 100) (z : Cartesian (Flt f))
    (h1 : z.re.IsFinite) (h2 : z.im.IsFinite) (v1 : z.re.Valid) (v2 : z.im.Valid) (E η : ℝ) (hE : E = Real.exp z.re.val)
    (hη : η = 5 / 2 * δ + 2 / 2 ^ f.p + 2 * 2 ^ f.emin / E) (hη' : η ≤ 1 / 10) (hlo : 4 * (2:ℝ) ^ (f.emin + f.p) ≤ E ^ 2)
    (ho : 4 * E ≤ 2 ^ f.emax) (hhi : 4 * E ^ 2 ≤ 2 ^ f.emax) :
    ∃ p : Polar (Flt f), Returns (do let c ← z.exp; c.toPolar) p ∧ (p.mag.Valid ∧ p.mag.IsFinite) ∧ (p.ang.Valid ∧ p.ang.IsFinite) ∧
      |(p.mag.val : ℝ) - E| ≤ (3 / 2 * η + 23 / 20 * (21 / 10 / 2 ^ f.p + 101 / 100 * δ)) * E ∧
      ∃ k : ℤ, |(p.ang.val : ℝ) - z.im.val - 2 * Real.pi * k| ≤ δ * Real.pi + 2 ^ f.emin + 3 * η ∧ (|(z.im.val : ℝ)| ≤ 2.84 → k = 0) := by
  have hE0 : 0 < E := by rw [hE]; exact Real.exp_pos _
  obtain ⟨c, c1, c2, c3, c4, c5⟩ := C100_float hf h hδ hδ' z h1 h2 v1 v2 (by rw [← hE]; exact ho)
  have hη2 : (5 / 2 * δ + 2 / 2 ^ f.p) * E + 2 * 2 ^ f.emin = η * E := by
    rw [hη]; field_simp
  rw [← hE, hη2, Complex.exp_re, ← hE] at c4
  rw [← hE, hη2, Complex.exp_im, ← hE] at c5
  obtain ⟨n1, k, k1, k2⟩ := near_polar (c := c.fc) hE0 hη' c4 c5
  have hn : ‖c.fc‖ ^ 2 = (c.re.val : ℝ) ^ 2 + (c.im.val : ℝ) ^ 2 := by rw [norm_fc, Real.sq_sqrt (by positivity)]
  have hηE : η * E ≤ 1 / 10 * E := mul_le_mul_of_nonneg_right hη' hE0.le
  obtain ⟨n2, n3⟩ := abs_le.mp n1
  have l1 : (17 / 20 * E) ^ 2 ≤ ‖c.fc‖ ^ 2 := pow_le_pow_left₀ (by positivity) (by linarith) 2
  have l2 : ‖c.fc‖ ^ 2 ≤ (23 / 20 * E) ^ 2 := pow_le_pow_left₀ (norm_nonneg _) (by linarith) 2
  have e0 : (0:ℝ) < 2 ^ (f.emin + f.p) := by positivity
  have E2 : 0 ≤ E ^ 2 := sq_nonneg E
  have hmax : (2:ℝ) ^ (f.emin + f.p) ≤ max ((c.re.val : ℝ) ^ 2) ((c.im.val : ℝ) ^ 2) := by
    have := le_max_left ((c.re.val : ℝ) ^ 2) ((c.im.val : ℝ) ^ 2)
    have := le_max_right ((c.re.val : ℝ) ^ 2) ((c.im.val : ℝ) ^ 2)
    nlinarith
  obtain ⟨v, m1, m2, m3, m4⟩ := C84_accuracy hf h.sqrtWithin hδ c c2.2 c3.2 c2.1 c3.1 (by
      rw [← Rat.cast_le (K := ℝ)]; push_cast; exact hmax) (by
      have : 2 * ((c.re.val : ℝ) ^ 2 + (c.im.val : ℝ) ^ 2) ≤ 2 ^ f.emax := by nlinarith
      exact_mod_cast this)
  rw [← norm_fc] at m4
  obtain ⟨a, a1, a2, a3, a4⟩ := h.atanWithin hf hδ c.im c.re c3.1 c2.1 c3.2 c2.2 (by
    by_contra hc
    push Not at hc
    rw [hc.1, hc.2] at hmax
    norm_num at hmax
    linarith)
  have hr : Returns c.toPolar ⟨v, a⟩ := by
    have m1' : Returns (ops.abs c) v := m1
    exact m1'.bind (a1.bind (.of_eq rfl))
  refine ⟨⟨v, a⟩, c1.bind hr, ⟨m2, m3⟩, ⟨a2, a3⟩, ?_, k, ?_, k2⟩
  · have t := abs_sub_le (v.val : ℝ) ‖c.fc‖ E
    have hq : (0:ℝ) ≤ 21 / 10 / 2 ^ f.p + 101 / 100 * δ := by positivity
    have := mul_le_mul_of_nonneg_left (by linarith : ‖c.fc‖ ≤ 23 / 20 * E) hq
    show |(v.val : ℝ) - E| ≤ _
    nlinarith
  · change |(a.val : ℝ) - Complex.arg c.fc| ≤ _ at a4
    have := abs_add_le ((a.val : ℝ) - Complex.arg c.fc) (Complex.arg c.fc - z.im.val - 2 * Real.pi * k)
    rw [show (a.val : ℝ) - Complex.arg c.fc + (Complex.arg c.fc - z.im.val - 2 * Real.pi * k) = (a.val : ℝ) - z.im.val - 2 * Real.pi * k by ring] at this
    show |(a.val : ℝ) - z.im.val - 2 * Real.pi * k| ≤ _
    linarith

example [Libm F32] (h : LibmWithin F32 (2 / 2 ^ 24)) := C176_float Flt.wide_F32 h (by norm_num) (by norm_num) ⟨.fin false 0, .fin false 3⟩ ⟨_, _, rfl⟩ ⟨_, _, rfl⟩
  (by is_float 0 0) (by is_float 3 0) 1 _ (by simp [Flt.val]) rfl (by norm_num [F32]) (by norm_num [F32]) (by norm_num [F32]) (by norm_num [F32])

theorem CordicWithin.atanWithin [Cordic m W F] {δ : ℝ} (h : CordicWithin m W F δ) (hF : 1 ≤ F) (h4 : F + 4 ≤ W) :
    FixedAtanWithin (m := m) (W := W) (F := F) Cordic.atan2 δ := by
  intro y x h0
  refine h.atan2 y x h0 ?_
  have hpi := Real.pi_lt_d2
  have h1 := Complex.abs_arg_le_pi ⟨(x.val : ℝ) / 2 ^ F, (y.val : ℝ) / 2 ^ F⟩
  have h2 : (2:ℝ) ≤ 2 ^ F := by
    calc (2:ℝ) = 2 ^ 1 := by norm_num
      _ ≤ 2 ^ F := pow_le_pow_right₀ (by norm_num) hF
  have h3 : (2:ℝ) ^ F * 8 ≤ 2 ^ (W - 1) := by
    calc (2:ℝ) ^ F * 8 = 2 ^ (F + 3) := by rw [pow_add]; norm_num
      _ ≤ _ := pow_le_pow_right₀ (by norm_num) (by omega)
  have h5 := mul_le_mul_of_nonneg_right h1 (by positivity : (0:ℝ) ≤ 2 ^ F)
  norm_num at hpi
  nlinarith

open Fixed in
/-- C176, signed fixed point. -/
theorem C176_fixed [Cordic m W F] {δ : ℝ} {K : ℕ} (hF : 2 ≤ F) (hW : 8 ≤ W) (hW' : W ≤ 128) (hK : F + K + 1 ≤ W) (hK1 : 1 ≤ K) (h4 : F + 4 ≤ W)
    (h : CordicWithin m W F δ) (z : Cartesian (Fixed m true W F)) (hi : |z.im.r| ≤ 4) (E P : ℝ) (hE : E = Real.exp z.re.r)
    (hP : P = δ * (E + 1 + δ) + 1 / 2 ^ F) (hP' : P ≤ 1 / 10 * E) (ho : (1 + δ) * (E + δ) + 1 / 2 ^ F < 2 ^ K) (hhi : 3 / 2 * E ^ 2 < 2 ^ K) :
    ∃ p : Polar (Fixed m true W F), Returns (do let c ← z.exp; c.toPolar) p ∧
      |p.mag.r - E| ≤ 3 / 2 * P + (1 / 1000 + 12 / 2 ^ F) * (E + 3 / 2 * P) + 4 / 2 ^ F + √(2 / 2 ^ F) ∧
      ∃ k : ℤ, |p.ang.r - z.im.r - 2 * Real.pi * k| ≤ δ + 3 * P / E ∧ (|z.im.r| ≤ 2.84 → k = 0) := by
  have hE0 : 0 < E := by rw [hE]; exact Real.exp_pos _
  have hδ := h.atanWithin (by omega) h4
  obtain ⟨c, c1, c4, c5⟩ := C100_fixed hK hK1 (by omega) h z hi (by show (1 + δ) * (Real.exp z.re.r + δ) + 1 / 2 ^ F < 2 ^ K; rw [← hE]; exact ho)
  change |c.re.r - (Complex.exp ⟨z.re.r, z.im.r⟩).re| ≤ δ * (Real.exp z.re.r + 1 + δ) + 1 / 2 ^ F at c4
  change |c.im.r - (Complex.exp ⟨z.re.r, z.im.r⟩).im| ≤ δ * (Real.exp z.re.r + 1 + δ) + 1 / 2 ^ F at c5
  rw [← hE, ← hP, Complex.exp_re, ← hE] at c4
  rw [← hE, ← hP, Complex.exp_im, ← hE] at c5
  have hPE : P = P / E * E := (div_mul_cancel₀ _ hE0.ne').symm
  obtain ⟨n1, k, k1, k2⟩ := near_polar (c := c.c) (η := P / E) hE0 (by rw [div_le_iff₀ hE0]; exact hP') (by rw [← hPE]; exact c4) (by rw [← hPE]; exact c5)
  rw [← hPE] at n1
  have hn : ‖c.c‖ ^ 2 = c.re.r ^ 2 + c.im.r ^ 2 := by rw [norm_c, Real.sq_sqrt (by positivity)]
  obtain ⟨n2, n3⟩ := abs_le.mp n1
  have l2 : ‖c.c‖ ^ 2 ≤ (23 / 20 * E) ^ 2 := pow_le_pow_left₀ (norm_nonneg _) (by linarith) 2
  have hpos : 0 < ‖c.c‖ := by linarith
  obtain ⟨v, m1, m2⟩ := C72_accuracy hF hW hW' h4 c (squares_fit hK c (by nlinarith))
  rw [← norm_c] at m2
  obtain ⟨a, a1, a2⟩ := hδ c.im c.re (by
    by_contra hc
    push Not at hc
    have : ‖c.c‖ ^ 2 = 0 := by rw [hn, Fixed.r, Fixed.r, hc.1, hc.2]; simp
    nlinarith)
  have hr : Returns c.toPolar ⟨v, a⟩ := by
    have m1' : Returns (ops.abs c) v := m1
    exact m1'.bind (a1.bind (.of_eq rfl))
  refine ⟨⟨v, a⟩, c1.bind hr, ?_, k, ?_, k2⟩
  · have t := abs_sub_le v.r ‖c.c‖ E
    have hq : (0:ℝ) ≤ 1 / 1000 + 12 / 2 ^ F := by positivity
    have := mul_le_mul_of_nonneg_left (by linarith : ‖c.c‖ ≤ E + 3 / 2 * P) hq
    show |v.r - E| ≤ _
    linarith
  · change |a.r - Complex.arg c.c| ≤ _ at a2
    have := abs_add_le (a.r - Complex.arg c.c) (Complex.arg c.c - z.im.r - 2 * Real.pi * k)
    rw [show a.r - Complex.arg c.c + (Complex.arg c.c - z.im.r - 2 * Real.pi * k) = a.r - z.im.r - 2 * Real.pi * k by ring] at this
    show |a.r - z.im.r - 2 * Real.pi * k| ≤ _
    rw [mul_div_assoc]
    linarith

/-- C176: what a debug build returns, a release build returns. -/
theorem C176_release [Cordic .checked W F] [Cordic .wrapping W F] [CordicAlike W F] (z : Cartesian (Fixed .checked true W F)) :
    Agrees (Polar.releaseBy Fixed.release) (do let c ← z.exp; c.toPolar) (do let c ← (z.releaseBy Fixed.release).exp; c.toPolar) := by
  refine Sim.agrees_pol ?_
  exact (Sim.exp (R := To Fixed.release) (z := z) (z' := z.releaseBy Fixed.release) ⟨rfl, rfl⟩).bind fun _ _ h =>
    Sim.opsToPolar (R := To Fixed.release) h

/-- `exp(i)` in 32+32 bits: size one within a thousandth and a bit, angle one. -/
example [Cordic .checked 64 32] (h : CordicWithin .checked 64 32 (1 / 2 ^ 30)) :
    ∃ p : Polar (Fixed .checked true 64 32), Returns (do let c ← Cartesian.exp ⟨fx .checked true 64 32 0, fx .checked true 64 32 (2 ^ 32)⟩; c.toPolar) p ∧
      |p.mag.r - 1| ≤ 11 / 10000 ∧ |p.ang.r - 1| ≤ 1 / 10 ^ 7 := by
  have e1 : (fx .checked true 64 32 (2 ^ 32)).r = 1 := by
    rw [Fixed.r, show (fx .checked true 64 32 (2 ^ 32)).val = 2 ^ 32 by decide]; norm_num
  have e0 : (fx .checked true 64 32 0).r = 0 := by
    rw [Fixed.r, show (fx .checked true 64 32 0).val = 0 by decide]; norm_num
  obtain ⟨p, p1, p2, k, k1, k2⟩ := C176_fixed (K := 31) (by norm_num) (by norm_num) (by norm_num) (by norm_num) (by norm_num) (by norm_num) h
    ⟨fx .checked true 64 32 0, fx .checked true 64 32 (2 ^ 32)⟩ (by rw [e1]; norm_num) 1 _ (by rw [e0, Real.exp_zero]) rfl (by norm_num) (by norm_num)
    (by norm_num)
  rw [e1] at k1 k2
  rw [k2 (by norm_num)] at k1
  have hr : √(2 / 2 ^ 32 : ℝ) ≤ 1 / 2 ^ 15 := by rw [Real.sqrt_le_left (by positivity)]; norm_num
  refine ⟨p, p1, p2.trans ?_, ?_⟩
  · generalize √(2 / 2 ^ 32 : ℝ) = q at *
    norm_num at hr ⊢; linarith
  · simp only [Int.cast_zero, mul_zero, sub_zero] at k1
    refine k1.trans ?_
    norm_num

/-- `exp` of a number with real part zero on `f32`, library good to two half-units. -/
example : (5 / 2 * (2 / 2 ^ F32.p) + 2 / 2 ^ F32.p + 2 * 2 ^ F32.emin / 1 : ℝ) ≤ 1 / 10 ∧ 4 * (2:ℝ) ^ (F32.emin + F32.p) ≤ 1 ^ 2 ∧
    (4 * 1 : ℝ) ≤ 2 ^ F32.emax ∧ (4 * 1 ^ 2 : ℝ) ≤ 2 ^ F32.emax := by
  have he' : (2:ℝ) ^ F32.emin ≤ 2 ^ (-20 : ℤ) := zpow_le_zpow_right₀ (by norm_num) (by decide)
  have he2 : (2:ℝ) ^ (F32.emin + F32.p) ≤ 2 ^ (-20 : ℤ) := zpow_le_zpow_right₀ (by norm_num) (by decide)
  have h1 : (2:ℝ) ^ 20 ≤ 2 ^ F32.emax := pow_le_pow_right₀ (by norm_num) (by decide)
  have hu : (2:ℝ) / 2 ^ F32.p ≤ 1 / 100 := by norm_num [F32]
  generalize (2:ℝ) ^ (F32.emin + F32.p) = η' at *
  generalize (2:ℝ) ^ F32.emin = η at *
  generalize (2:ℝ) ^ F32.emax = M at *
  generalize (2:ℝ) / 2 ^ F32.p = q at *
  norm_num at he' he2 h1 ⊢
  refine ⟨?_, ?_, ?_⟩ <;> linarith

end MixedNum
