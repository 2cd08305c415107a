import Verif.Spec.PhaseDiff
import Verif.Props.RoundTrip
import Verif.Props.PolarMix
import Verif.Props.Phasor
import Verif.Props.Norm
import Verif.Props.Modes
import Verif.Lemmas.ArgNear
import Verif.Props.AddSub
import Verif.Lemmas.Run
/-! # C175: the angle between two numbers -/

namespace MixedNum
variable {m : Mode} {W F : ℕ} {f : Format}

/-- C175, exact reals: the difference of the angles up to a turn, always between `-π` and `π`. -/
theorem C175_real (z w : Cartesian ℝ) (hz : z.toC ≠ 0) (hw : w.toC ≠ 0) :
    ∃ v, Returns (phaseDiff z w) v ∧ (-Real.pi < v ∧ v ≤ Real.pi) ∧ ∃ k : ℤ, v = Complex.arg z.toC - Complex.arg w.toC + 2 * Real.pi * k := by
  have e : (⟨z.re * w.re - z.im * -w.im, z.re * -w.im + z.im * w.re⟩ : ℂ) = z.toC * (starRingEnd ℂ) w.toC := by
    apply Complex.ext <;> simp [Cartesian.toC]
  refine ⟨Complex.arg (z.toC * (starRingEnd ℂ) w.toC), .of_eq ?_, Complex.arg_mem_Ioc _, ?_⟩
  · rw [← e]; rfl
  · have hw' : (starRingEnd ℂ) w.toC ≠ 0 := by simpa using hw
    have h1 := Complex.arg_mul_coe_angle hz hw'
    rw [Complex.arg_conj_coe_angle, ← sub_eq_add_neg, ← Real.Angle.coe_sub, Real.Angle.angle_eq_iff_two_pi_dvd_sub] at h1
    obtain ⟨k, hk⟩ := h1
    exact ⟨k, by linarith⟩

example := C175_real ⟨3, 4⟩ ⟨-1, 1⟩ (by simp [Cartesian.toC, Complex.ext_iff]) (by simp [Cartesian.toC, Complex.ext_iff])

/-- C175, exact reals: a number turned by `θ`, at whatever size, is `θ` away. -/
theorem C175_turned (z w : Cartesian ℝ) (r θ : ℝ) (hr : 0 < r) (hw : w.toC ≠ 0) (h1 : -Real.pi < θ) (h2 : θ ≤ Real.pi)
    (h : z.toC = w.toC * phasor r θ) : Returns (phaseDiff z w) θ := by
  have e : (⟨z.re * w.re - z.im * -w.im, z.re * -w.im + z.im * w.re⟩ : ℂ) = z.toC * (starRingEnd ℂ) w.toC := by
    apply Complex.ext <;> simp [Cartesian.toC]
  have key : Complex.arg (z.toC * (starRingEnd ℂ) w.toC) = θ := by
    have e2 : z.toC * (starRingEnd ℂ) w.toC = ((r * ‖w.toC‖ ^ 2 : ℝ) : ℂ) * Complex.exp (θ * Complex.I) := by
      rw [h, phasor]
      have := Complex.mul_conj' w.toC
      push_cast
      rw [← this]; ring
    rw [e2, Complex.arg_real_mul _ (by have := norm_pos_iff.mpr hw; positivity), Complex.arg_exp_mul_I, toIocMod_eq_self]
    exact ⟨h1, by linarith⟩
  have h3 : Returns (phaseDiff z w) (Complex.arg (z.toC * (starRingEnd ℂ) w.toC)) := .of_eq (by rw [← e]; rfl)
  rwa [key] at h3

/-- The argument of a number that is nearly the product with a conjugate. -/
theorem arg_diff {z w p : ℂ} {η : ℝ} (hz : 0 < ‖z‖) (hw : 0 < ‖w‖) (hη : η ≤ 1 / 10)
    (hp : ‖p - z * (starRingEnd ℂ) w‖ ≤ η * (‖z‖ * ‖w‖)) :
    0 < ‖p‖ ∧ ∃ k : ℤ, |Complex.arg p - (Complex.arg z - Complex.arg w) - 2 * Real.pi * k| ≤ 3 * η ∧
      (|Complex.arg z - Complex.arg w| ≤ 2.84 → k = 0) := by
  set R := ‖z‖ * ‖w‖ with hR
  have R0 : 0 < R := mul_pos hz hw
  set x := Complex.arg z - Complex.arg w with hx
  have e : z * (starRingEnd ℂ) w = (R : ℂ) * Complex.exp (x * Complex.I) := by
    have a1 : z = ‖z‖ * Complex.exp (Complex.arg z * Complex.I) := (Complex.norm_mul_exp_arg_mul_I z).symm
    have a2 : (starRingEnd ℂ) w = ‖w‖ * Complex.exp (-(Complex.arg w * Complex.I)) := by
      conv_lhs => rw [← Complex.norm_mul_exp_arg_mul_I w]
      rw [map_mul, Complex.conj_ofReal, ← Complex.exp_conj, map_mul, Complex.conj_ofReal, Complex.conj_I]
      congr 2; ring
    rw [a2]
    conv_lhs => rw [a1]
    rw [hR, hx]
    push_cast
    rw [sub_mul, sub_eq_add_neg, Complex.exp_add]; ring
  have er : (z * (starRingEnd ℂ) w).re = R * Real.cos x := by
    rw [e, Complex.re_ofReal_mul, Complex.exp_ofReal_mul_I_re]
  have ei : (z * (starRingEnd ℂ) w).im = R * Real.sin x := by
    rw [e, Complex.im_ofReal_mul, Complex.exp_ofReal_mul_I_im]
  have b1 := (Complex.abs_re_le_norm (p - z * (starRingEnd ℂ) w)).trans hp
  have b2 := (Complex.abs_im_le_norm (p - z * (starRingEnd ℂ) w)).trans hp
  rw [Complex.sub_re, er] at b1
  rw [Complex.sub_im, ei] at b2
  have near : ∀ a t : ℝ, |a - R * t| ≤ η * R → |a / R - t| ≤ η := by
    intro a t h
    rw [show a / R - t = (a - R * t) / R by field_simp, abs_div, abs_of_pos R0, div_le_iff₀ R0]; exact h
  have hn : ‖z * (starRingEnd ℂ) w‖ = R := by rw [norm_mul, RCLike.norm_conj]
  refine ⟨?_, ?_⟩
  · have := norm_sub_norm_le (z * (starRingEnd ℂ) w) p
    rw [norm_sub_rev, hn] at this
    nlinarith
  · obtain ⟨k, k1, k2, -, -⟩ := arg_near hη (near _ _ b2) (near _ _ b1)
    have ea : Complex.arg p = Complex.arg ⟨p.re / R, p.im / R⟩ := by
      have : p = (R : ℂ) * ⟨p.re / R, p.im / R⟩ := by
        apply Complex.ext <;> simp <;> field_simp
      conv_lhs => rw [this]
      exact Complex.arg_real_mul _ R0
    rw [ea]
    exact ⟨k, k1, k2⟩

open Fixed in
/-- C175, signed fixed point: the difference of the angles up to a turn, off by the error of the arctangent and seven units divided by the
sizes of the numbers. -/
theorem C175_fixed {K : ℕ} (hK : F + K + 1 ≤ W) {δ η : ℝ} (at2 : Fixed m true W F → Fixed m true W F → Prog (Fixed m true W F))
    (ha : FixedAtanWithin at2 δ) (z w : Cartesian (Fixed m true W F)) (hz : 0 < ‖z.c‖) (hw : 0 < ‖w.c‖) (hw' : ‖w.c‖ < 2 ^ K)
    (hfit : 2 * ‖z.c‖ * ‖w.c‖ + 2 / 2 ^ F < 2 ^ K) (hη : η = 9 / 4 / 2 ^ F / (‖z.c‖ * ‖w.c‖)) (hη' : η ≤ 1 / 10) :
    ∃ v : Fixed m true W F, Returns (@phaseDiff _ _ _ ⟨at2⟩ z w) v ∧
      ∃ k : ℤ, |v.r - (Complex.arg z.c - Complex.arg w.c) - 2 * Real.pi * k| ≤ δ + 3 * η ∧ (|Complex.arg z.c - Complex.arg w.c| ≤ 2.84 → k = 0) := by
  have i1 : |w.im.r| ≤ ‖w.c‖ := Complex.abs_im_le_norm w.c
  have r1 : |w.re.r| ≤ ‖w.c‖ := Complex.abs_re_le_norm w.c
  have i2 : |z.im.r| ≤ ‖z.c‖ := Complex.abs_im_le_norm z.c
  have r2 : |z.re.r| ≤ ‖z.c‖ := Complex.abs_re_le_norm z.c
  have fn : Fits true W (-w.im.val) := fits_of_abs hK (by
    push_cast; rw [neg_mul, abs_neg, ← r_eq]; linarith)
  set c : Cartesian (Fixed m true W F) := ⟨w.re, mkv _ fn⟩ with hc
  have cr : c.im.r = -w.im.r := by rw [r_eq, r_eq, hc, mkv_val]; push_cast; ring
  have c1 : Returns w.conj c := .of_eq (by
    unfold Cartesian.conj
    show (do pure (Cartesian.new w.re (← fit (-w.im.val))) : Prog _) = _
    rw [fit_of_fits fn, pure_bind]; rfl)
  obtain ⟨p, p1, p2, p3⟩ := cmul_close hK z c (B := ‖w.c‖) r1 (by rw [cr, abs_neg]; exact i1) (by
    have := mul_le_mul_of_nonneg_right (by linarith : |z.re.r| + |z.im.r| ≤ 2 * ‖z.c‖) hw.le
    linarith)
  have cc : c.c = (starRingEnd ℂ) w.c := Complex.ext rfl cr
  have hR : 0 < ‖z.c‖ * ‖w.c‖ := mul_pos hz hw
  have hn : ‖p.c - z.c * (starRingEnd ℂ) w.c‖ ≤ η * (‖z.c‖ * ‖w.c‖) := by
    rw [hη, div_mul_cancel₀ _ hR.ne', ← cc]
    have q : (0:ℝ) < 1 / 2 ^ F := by positivity
    have e2 : (2:ℝ) / 2 ^ F = 2 * (1 / 2 ^ F) := by ring
    have e3 : (9 / 4:ℝ) / 2 ^ F = 9 / 4 * (1 / 2 ^ F) := by ring
    rw [e2] at p3; rw [e3]
    have h1 : (p.c - z.c * c.c).re = p.re.r - (z.re.r * c.re.r - z.im.r * c.im.r) := by simp [Cartesian.c]
    have h2 : (p.c - z.c * c.c).im = p.im.r - (z.re.r * c.im.r + z.im.r * c.re.r) := by simp [Cartesian.c]
    rw [Complex.norm_eq_sqrt_sq_add_sq, Real.sqrt_le_left (by positivity), h1, h2]
    have g1 := sq_le_sq' (abs_le.mp p2).1 (abs_le.mp p2).2
    have g2 := sq_le_sq' (abs_le.mp p3).1 (abs_le.mp p3).2
    nlinarith
  obtain ⟨pn, k, k1, k2⟩ := arg_diff hz hw hη' hn
  obtain ⟨v, v1, v2⟩ := ha p.im p.re (by
    by_contra h
    push Not at h
    have : p.c = 0 := Complex.ext (by simp [Cartesian.c, Fixed.r, h.1]) (by simp [Cartesian.c, Fixed.r, h.2])
    rw [this, norm_zero] at pn; exact lt_irrefl _ pn)
  refine ⟨v, c1.bind (p1.bind v1), k, ?_, k2⟩
  change |v.r - Complex.arg p.c| ≤ δ at v2
  have := abs_add_le (v.r - Complex.arg p.c) (Complex.arg p.c - (Complex.arg z.c - Complex.arg w.c) - 2 * Real.pi * k)
  rw [show v.r - Complex.arg p.c + (Complex.arg p.c - (Complex.arg z.c - Complex.arg w.c) - 2 * Real.pi * k) =
    v.r - (Complex.arg z.c - Complex.arg w.c) - 2 * Real.pi * k by ring] at this
  linarith

/-- C175: what a debug build returns, a release build returns. -/
theorem C175_release [Cordic .checked W F] [Cordic .wrapping W F] [CordicAlike W F] (z w : Cartesian (Fixed .checked true W F)) :
    Agrees Fixed.release (phaseDiff z w) (phaseDiff (z.releaseBy Fixed.release) (w.releaseBy Fixed.release)) := by
  refine Sim.agrees ?_
  exact (Sim.conj (R := To Fixed.release) (z := w) (z' := w.releaseBy Fixed.release) ⟨rfl, rfl⟩).bind fun _ _ h =>
    (Sim.mul (R := To Fixed.release) (z := z) (z' := z.releaseBy Fixed.release) ⟨rfl, rfl⟩ h).bind fun _ _ h' => Sim.arg h'

open Flt in
/-- C175, floats: off by the error of the arctangent and 15 half-units, plus the underflow term. -/
theorem C175_float [MixedAtan (Flt f)] {δ η : ℝ} (hf : f.Wide) (ha : AtanWithin f δ) (z w : Cartesian (Flt f))
    (hv : ((z.re.Valid ∧ z.re.IsFinite) ∧ z.im.Valid ∧ z.im.IsFinite) ∧ (w.re.Valid ∧ w.re.IsFinite) ∧ w.im.Valid ∧ w.im.IsFinite)
    (hz : 0 < ‖z.fc‖) (hw : 0 < ‖w.fc‖) (hfit : 4 * ‖z.fc‖ * ‖w.fc‖ ≤ 2 ^ f.emax)
    (hη : η = 5 / 2 ^ f.p + 4 * 2 ^ f.emin / (‖z.fc‖ * ‖w.fc‖)) (hη' : η ≤ 1 / 10) :
    ∃ v : Flt f, Returns (phaseDiff z w) v ∧ v.Valid ∧ v.IsFinite ∧
      ∃ k : ℤ, |(v.val : ℝ) - (Complex.arg z.fc - Complex.arg w.fc) - 2 * Real.pi * k| ≤ δ + 3 * η ∧
        (|Complex.arg z.fc - Complex.arg w.fc| ≤ 2.84 → k = 0) := by
  obtain ⟨⟨⟨v1, f1⟩, v2, f2⟩, ⟨v3, f3⟩, v4, f4⟩ := hv
  have i1 : |(w.im.val : ℝ)| ≤ ‖w.fc‖ := Complex.abs_im_le_norm w.fc
  have r1 : |(w.re.val : ℝ)| ≤ ‖w.fc‖ := Complex.abs_re_le_norm w.fc
  have i2 : |(z.im.val : ℝ)| ≤ ‖z.fc‖ := Complex.abs_im_le_norm z.fc
  have r2 : |(z.re.val : ℝ)| ≤ ‖z.fc‖ := Complex.abs_re_le_norm z.fc
  have hR : 0 < ‖z.fc‖ * ‖w.fc‖ := mul_pos hz hw
  have is4 : Is w.im w.im.val := by obtain ⟨_, _, e⟩ := f4; rw [e]; rw [e] at v4; exact is_of_valid v4
  have isn := is4.neg
  set c : Cartesian (Flt f) := ⟨w.re, w.im.neg⟩ with hc
  have c1 : Returns w.conj c := .of_eq rfl
  have cr : (c.im.val : ℝ) = -w.im.val := by rw [hc]; simp only; rw [isn.val]; push_cast; ring
  have cc : c.fc = (starRingEnd ℂ) w.fc := Complex.ext rfl cr
  have b : ∀ s t : ℝ, |s| ≤ ‖z.fc‖ → |t| ≤ ‖w.fc‖ → |s * t| ≤ ‖z.fc‖ * ‖w.fc‖ := fun s t hs ht => by
    rw [abs_mul]; exact mul_le_mul hs ht (abs_nonneg _) hz.le
  have ci : |(c.im.val : ℝ)| ≤ ‖w.fc‖ := by rw [cr, abs_neg]; exact i1
  have ok : ProdOk z c := ⟨⟨f1, v1⟩, ⟨f2, v2⟩, ⟨f3, v3⟩, ⟨isn.fin, isn.valid⟩, by
      have := b _ _ r2 r1; have := b _ _ i2 ci
      have : 2 * (|(z.re.val : ℝ) * c.re.val| + |(z.im.val : ℝ) * c.im.val|) ≤ 2 ^ f.emax := by
        change 2 * (|(z.re.val : ℝ) * w.re.val| + _) ≤ _; linarith
      exact_mod_cast this, by
      have := b _ _ r2 ci; have := b _ _ i2 r1
      have : 2 * (|(z.re.val : ℝ) * c.im.val| + |(z.im.val : ℝ) * c.re.val|) ≤ 2 ^ f.emax := by
        change 2 * (_ + |(z.im.val : ℝ) * w.re.val|) ≤ _; linarith
      exact_mod_cast this⟩
  obtain ⟨p, p1, p2, p3, -, -⟩ := C83_accuracy hf z c ok.re.1 ok.im.1 ok.re'.1 ok.im'.1 ok.re.2 ok.im.2 ok.re'.2 ok.im'.2 ok.hr ok.hi
  have hn := mul_near hf p1 ok
  rw [cc, RCLike.norm_conj] at hn
  obtain ⟨pn, k, k1, k2⟩ := arg_diff (η := η) hz hw hη' (hn.trans (le_of_eq (by rw [hη, add_mul, div_mul_cancel₀ _ hR.ne'])))
  obtain ⟨v, a1, a2, a3, a4⟩ := ha p.im p.re p3.1 p2.1 p3.2 p2.2 (by
    by_contra h
    push Not at h
    have : p.fc = 0 := Complex.ext (by simp [Cartesian.fc, h.1]) (by simp [Cartesian.fc, h.2])
    rw [this, norm_zero] at pn; exact lt_irrefl _ pn)
  refine ⟨v, c1.bind (p1.bind a1), a2, a3, k, ?_, k2⟩
  change |(v.val : ℝ) - Complex.arg p.fc| ≤ δ at a4
  have := abs_add_le ((v.val : ℝ) - Complex.arg p.fc) (Complex.arg p.fc - (Complex.arg z.fc - Complex.arg w.fc) - 2 * Real.pi * k)
  rw [show (v.val : ℝ) - Complex.arg p.fc + (Complex.arg p.fc - (Complex.arg z.fc - Complex.arg w.fc) - 2 * Real.pi * k) =
    (v.val : ℝ) - (Complex.arg z.fc - Complex.arg w.fc) - 2 * Real.pi * k by ring] at this
  linarith

/-- A quarter turn: from `1 + i` to `-2 + 2i`. -/
example : Returns (phaseDiff (⟨-2, 2⟩ : Cartesian ℝ) ⟨1, 1⟩) (Real.pi / 2) := by
  have hpi := Real.pi_pos
  refine C175_turned _ _ 2 (Real.pi / 2) (by norm_num) (fun h => ?_) (by linarith) (by linarith) ?_
  · have := congrArg Complex.re h; simp [Cartesian.toC] at this
  · rw [phasor]; push_cast; rw [Complex.exp_pi_div_two_mul_I]
    apply Complex.ext <;> simp [Cartesian.toC]

/-- `3 + 4i` against `5` in 32+32 bits. -/
example (at2 : Fixed .checked true 64 32 → Fixed .checked true 64 32 → Prog (Fixed .checked true 64 32)) (ha : FixedAtanWithin at2 (1 / 2 ^ 32)) :
    let z : Cartesian (Fixed .checked true 64 32) := ⟨fx .checked true 64 32 (3 * 2 ^ 32), fx .checked true 64 32 (4 * 2 ^ 32)⟩
    let w : Cartesian (Fixed .checked true 64 32) := ⟨fx .checked true 64 32 (5 * 2 ^ 32), fx .checked true 64 32 0⟩
    ∃ v : Fixed .checked true 64 32, Returns (@phaseDiff _ _ _ ⟨at2⟩ z w) v ∧ |v.r - Complex.arg ⟨3, 4⟩| ≤ 2 / 2 ^ 32 := by
  intro z w
  have e3 : z.re.r = 3 := by rw [Fixed.r, show z.re.val = 3 * 2 ^ 32 by decide]; norm_num
  have e4 : z.im.r = 4 := by rw [Fixed.r, show z.im.val = 4 * 2 ^ 32 by decide]; norm_num
  have e5 : w.re.r = 5 := by rw [Fixed.r, show w.re.val = 5 * 2 ^ 32 by decide]; norm_num
  have e0 : w.im.r = 0 := by rw [Fixed.r, show w.im.val = 0 by decide]; norm_num
  have hz : ‖z.c‖ = 5 := by
    rw [norm_c, e3, e4, show (3:ℝ) ^ 2 + 4 ^ 2 = 5 ^ 2 by norm_num]; exact Real.sqrt_sq (by norm_num)
  have hw : ‖w.c‖ = 5 := by
    rw [norm_c, e5, e0, show (5:ℝ) ^ 2 + 0 ^ 2 = 5 ^ 2 by norm_num]; exact Real.sqrt_sq (by norm_num)
  have zc : z.c = ⟨3, 4⟩ := Complex.ext e3 e4
  have wc : w.c = ((5:ℝ) : ℂ) := Complex.ext e5 e0
  obtain ⟨v, v1, k, k1, k2⟩ := C175_fixed (K := 31) (by norm_num) at2 ha z w (by rw [hz]; norm_num) (by rw [hw]; norm_num)
    (by rw [hw]; norm_num) (by rw [hz, hw]; norm_num) rfl (by rw [hz, hw]; norm_num)
  have aw : Complex.arg w.c = 0 := by rw [wc]; exact Complex.arg_ofReal_of_nonneg (by norm_num)
  have az : |Complex.arg z.c| ≤ Real.pi / 2 := Complex.abs_arg_le_pi_div_two_iff.mpr (by rw [zc]; norm_num)
  have hpi := Real.pi_lt_d2
  rw [aw, sub_zero] at k1 k2
  have k0 := k2 (by norm_num at hpi ⊢; linarith)
  rw [k0, hz, hw, zc] at k1
  refine ⟨v, v1, ?_⟩
  simp only [Int.cast_zero, mul_zero, sub_zero] at k1
  refine k1.trans ?_
  norm_num

/-- On `f32`: two numbers of size one. -/
example : (5 / 2 ^ F32.p + 4 * 2 ^ F32.emin / (1 * 1) : ℝ) ≤ 1 / 10 ∧ (4 * 1 * 1 : ℝ) ≤ 2 ^ F32.emax := by
  have he' : (2:ℝ) ^ F32.emin ≤ 2 ^ (-20 : ℤ) := zpow_le_zpow_right₀ (by norm_num) (by decide)
  have h1 : (2:ℝ) ^ 20 ≤ 2 ^ F32.emax := pow_le_pow_right₀ (by norm_num) (by decide)
  have hu : (5:ℝ) / 2 ^ F32.p ≤ 1 / 100 := by norm_num [F32]
  generalize (2:ℝ) ^ F32.emin = η at *
  generalize (2:ℝ) ^ F32.emax = M at *
  generalize (5:ℝ) / 2 ^ F32.p = q at *
  norm_num at he' h1 ⊢
  constructor <;> linarith

end MixedNum
