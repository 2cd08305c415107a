import Verif.Props.CPowFixed
/-! # C110: products of a Cartesian and a polar number on fixed point -/

namespace MixedNum
variable {m : Mode} {W F : ℕ}
open Fixed

/-- The product of `Cartesian` numbers in both modes, as long as everything is representable. -/
theorem cmul_close {K : ℕ} (hK : F + K + 1 ≤ W) (z c : Cartesian (Fixed m true W F)) {B : ℝ} (h1 : |c.re.r| ≤ B) (h2 : |c.im.r| ≤ B)
    (hfit : (|z.re.r| + |z.im.r|) * B + 2 / 2 ^ F < 2 ^ K) :
    ∃ w : Cartesian (Fixed m true W F), Returns (z.mul c) w ∧
      |w.re.r - (z.re.r * c.re.r - z.im.r * c.im.r)| ≤ 1 / 2 ^ F ∧
      |w.im.r - (z.re.r * c.im.r + z.im.r * c.re.r)| ≤ 2 / 2 ^ F := by
  have hu := u_pos F
  have e1 : (1:ℝ) / 2 ^ F = u F := rfl
  have e2 : (2:ℝ) / 2 ^ F = 2 * u F := by unfold u; ring
  rw [e2] at hfit
  rw [e1, e2]
  simp only [r_eq] at h1 h2 hfit ⊢
  have b1 := mul_le_mul_of_nonneg_left h1 (abs_nonneg (z.re.val * u F))
  have b2 := mul_le_mul_of_nonneg_left h2 (abs_nonneg (z.im.val * u F))
  have b3 := mul_le_mul_of_nonneg_left h2 (abs_nonneg (z.re.val * u F))
  have b4 := mul_le_mul_of_nonneg_left h1 (abs_nonneg (z.im.val * u F))
  rw [← abs_mul] at b1 b2 b3 b4
  have c1 := floor_mul_close F z.re.val c.re.val
  have c2 := floor_mul_close F z.im.val c.im.val
  have c3 := floor_mul_close F z.re.val c.im.val
  have c4 := floor_mul_close F z.im.val c.re.val
  generalize hP : z.re.val * c.re.val / 2 ^ F = P at c1
  generalize hQ : z.im.val * c.im.val / 2 ^ F = Q at c2
  generalize hR : z.re.val * c.im.val / 2 ^ F = R at c3
  generalize hS : z.im.val * c.re.val / 2 ^ F = S at c4
  have hz1 := abs_nonneg ((z.re.val : ℝ) * u F)
  have hz2 := abs_nonneg ((z.im.val : ℝ) * u F)
  have hB : 0 ≤ B := (abs_nonneg _).trans h1
  have z1 := mul_nonneg hz1 hB
  have z2 := mul_nonneg hz2 hB
  rw [add_mul] at hfit
  rw [abs_le] at b1 b2 b3 b4
  have f1 : Fits true W P := fits_of_abs hK (by rw [abs_lt]; constructor <;> linarith [c1.1, c1.2, b1.1, b1.2])
  have f2 : Fits true W Q := fits_of_abs hK (by rw [abs_lt]; constructor <;> linarith [c2.1, c2.2, b2.1, b2.2])
  have f3 : Fits true W R := fits_of_abs hK (by rw [abs_lt]; constructor <;> linarith [c3.1, c3.2, b3.1, b3.2])
  have f4 : Fits true W S := fits_of_abs hK (by rw [abs_lt]; constructor <;> linarith [c4.1, c4.2, b4.1, b4.2])
  have f5 : Fits true W (P - Q) := fits_of_abs hK (by
    push_cast; rw [sub_mul, abs_lt]
    constructor <;> linarith [c1.1, c1.2, b1.1, b1.2, c2.1, c2.2, b2.1, b2.2])
  have f6 : Fits true W (R + S) := fits_of_abs hK (by
    push_cast; rw [add_mul, abs_lt]
    constructor <;> linarith [c3.1, c3.2, b3.1, b3.2, c4.1, c4.2, b4.1, b4.2])
  refine ⟨⟨mkv _ f5, mkv _ f6⟩, .of_eq ?_, ?_, ?_⟩
  · simp only [Cartesian.mul, ops.mulCartesian, Fixed.mul_def, Fixed.add_def, Fixed.sub_def, hP, hQ, hR, hS, fit_of_fits f1,
      fit_of_fits f2, fit_of_fits f3, fit_of_fits f4, pure_bind, mkv_val, fit_of_fits f5, fit_of_fits f6]
  · simp only [mkv_val]; push_cast; rw [sub_mul, abs_le]; constructor <;> linarith [c1.1, c1.2, c2.1, c2.2]
  · simp only [mkv_val]; push_cast; rw [add_mul, abs_le]; constructor <;> linarith [c3.1, c3.2, c4.1, c4.2]

/-- The error of a product when one factor `(a, b)` is off by at most `B` in each part. -/
theorem prod_err {x y a b a' b' B : ℝ} (h1 : |a' - a| ≤ B) (h2 : |b' - b| ≤ B) :
    |(x * a' - y * b') - (x * a - y * b)| ≤ (|x| + |y|) * B ∧ |(x * b' + y * a') - (x * b + y * a)| ≤ (|x| + |y|) * B := by
  have g : ∀ p q d e : ℝ, |d| ≤ B → |e| ≤ B → |p * d + q * e| ≤ (|p| + |q|) * B := by
    intro p q d e hd he
    refine (abs_add_le _ _).trans ?_
    rw [abs_mul, abs_mul, add_mul]
    exact add_le_add (mul_le_mul_of_nonneg_left hd (abs_nonneg _)) (mul_le_mul_of_nonneg_left he (abs_nonneg _))
  constructor
  · have := g x (-y) _ _ h1 h2; rw [abs_neg] at this
    rwa [show x * a' - y * b' - (x * a - y * b) = x * (a' - a) + -y * (b' - b) by ring]
  · rw [show x * b' + y * a' - (x * b + y * a) = x * (b' - b) + y * (a' - a) by ring]
    exact g x y _ _ h2 h1

/-- C110: Cartesian times polar, also in assigning form. `B` is the error of the converted polar number by C88. -/
theorem C110_cartesian_polar {K : ℕ} (hK : F + K + 1 ≤ W) (h : F + 4 ≤ W) {ε : ℝ}
    (sc : Fixed m true W F → Prog (Fixed m true W F × Fixed m true W F)) (hs : FixedSinCosWithin sc ε)
    (z : Cartesian (Fixed m true W F)) (q : Polar (Fixed m true W F)) (B : ℝ)
    (hB : B = |q.mag.r| * (ε + (|q.ang.r| / 5 + 1 / 2) * (1 / 2 ^ F + 1 / 2 ^ 51)) + 1 / 2 ^ F)
    (hm : |q.mag.r| * (1 + ε) + 1 / 2 ^ F < 2 ^ K) (hfit : (|z.re.r| + |z.im.r|) * (|q.mag.r| + B) + 2 / 2 ^ F < 2 ^ K) :
    ∃ w : Cartesian (Fixed m true W F), Returns (@Cartesian.mulPolar _ _ _ _ _ _ ⟨sc⟩ z q) w ∧
      Returns (@Cartesian.mulAssignPolar _ _ _ _ _ _ ⟨sc⟩ z q) w ∧
      |w.re.r - ((⟨z.re.r, z.im.r⟩ : ℂ) * (q.mag.r * Complex.exp (q.ang.r * Complex.I))).re| ≤ (|z.re.r| + |z.im.r|) * B + 1 / 2 ^ F ∧
      |w.im.r - ((⟨z.re.r, z.im.r⟩ : ℂ) * (q.mag.r * Complex.exp (q.ang.r * Complex.I))).im| ≤ (|z.re.r| + |z.im.r|) * B + 2 / 2 ^ F := by
  obtain ⟨c, c1, c2, c3⟩ := C88_accuracy hK h sc hs q hm
  rw [← hB] at c2 c3
  have k1 : |q.mag.r * Real.cos q.ang.r| ≤ |q.mag.r| := by
    rw [abs_mul]; exact mul_le_of_le_one_right (abs_nonneg _) (Real.abs_cos_le_one _)
  have k2 : |q.mag.r * Real.sin q.ang.r| ≤ |q.mag.r| := by
    rw [abs_mul]; exact mul_le_of_le_one_right (abs_nonneg _) (Real.abs_sin_le_one _)
  obtain ⟨w, w1, w2, w3⟩ := cmul_close hK z c (B := |q.mag.r| + B)
    (by have := abs_sub_abs_le_abs_sub c.re.r (q.mag.r * Real.cos q.ang.r); linarith)
    (by have := abs_sub_abs_le_abs_sub c.im.r (q.mag.r * Real.sin q.ang.r); linarith) hfit
  obtain ⟨p1, p2⟩ := prod_err (x := z.re.r) (y := z.im.r) c2 c3
  refine ⟨w, c1.bind w1, ?_, ?_, ?_⟩
  · exact c1.bind w1
  · have e : ((⟨z.re.r, z.im.r⟩ : ℂ) * (q.mag.r * Complex.exp (q.ang.r * Complex.I))).re
        = z.re.r * (q.mag.r * Real.cos q.ang.r) - z.im.r * (q.mag.r * Real.sin q.ang.r) := by
      rw [Complex.mul_re, Complex.re_ofReal_mul, Complex.im_ofReal_mul, Complex.exp_ofReal_mul_I_re, Complex.exp_ofReal_mul_I_im]
    rw [e]
    have := abs_sub_le w.re.r (z.re.r * c.re.r - z.im.r * c.im.r) (z.re.r * (q.mag.r * Real.cos q.ang.r) - z.im.r * (q.mag.r * Real.sin q.ang.r))
    linarith
  · have e : ((⟨z.re.r, z.im.r⟩ : ℂ) * (q.mag.r * Complex.exp (q.ang.r * Complex.I))).im
        = z.re.r * (q.mag.r * Real.sin q.ang.r) + z.im.r * (q.mag.r * Real.cos q.ang.r) := by
      rw [Complex.mul_im, Complex.re_ofReal_mul, Complex.im_ofReal_mul, Complex.exp_ofReal_mul_I_re, Complex.exp_ofReal_mul_I_im]
    rw [e]
    have := abs_sub_le w.im.r (z.re.r * c.im.r + z.im.r * c.re.r) (z.re.r * (q.mag.r * Real.sin q.ang.r) + z.im.r * (q.mag.r * Real.cos q.ang.r))
    linarith

/-- C110: polar times Cartesian. `N` is the magnitude of the Cartesian factor, `E` the error of the computed one by C72. The angle
is the sum of the angles unless the number is too small for its magnitude to be told from zero. -/
theorem C110_polar_cartesian {K : ℕ} (hF : 2 ≤ F) (hW : 8 ≤ W) (hW' : W ≤ 128) (hK : F + K + 1 ≤ W) (h : F + 4 ≤ W) {δ : ℝ}
    (at2 : Fixed m true W F → Fixed m true W F → Prog (Fixed m true W F)) (ha : FixedAtanWithin at2 δ)
    (p : Polar (Fixed m true W F)) (z : Cartesian (Fixed m true W F)) (h0 : z.re.val ≠ 0 ∨ z.im.val ≠ 0) (N E : ℝ)
    (hN : N = √(z.re.r ^ 2 + z.im.r ^ 2)) (hE : E = (1 / 1000 + 12 / 2 ^ F) * N + 4 / 2 ^ F + √(2 / 2 ^ F))
    (hr : InRange true W (z.re.val * z.re.val / 2 ^ F + z.im.val * z.im.val / 2 ^ F))
    (hm : |p.mag.r| * (N + E) + 1 / 2 ^ F < 2 ^ K) (hang : |p.ang.r| + |Complex.arg ⟨z.re.r, z.im.r⟩| + δ < 2 ^ K) :
    ∃ c : Polar (Fixed m true W F), Returns (@Polar.mulCartesian _ _ _ _ _ _ ⟨at2⟩ p z) c ∧
      |c.mag.r - p.mag.r * N| ≤ |p.mag.r| * E + 1 / 2 ^ F ∧
      (p.mag.val ≠ 0 → E < N → |c.ang.r - (p.ang.r + Complex.arg ⟨z.re.r, z.im.r⟩)| ≤ δ) := by
  have hu := u_pos F
  have eu : (1:ℝ) / 2 ^ F = u F := rfl
  obtain ⟨v, m1, m2⟩ := C72_accuracy hF hW hW' h z hr
  rw [← hN, ← hE] at m2
  obtain ⟨a, a1, a2⟩ := ha z.im z.re h0
  have n0 : 0 ≤ N := by rw [hN]; exact Real.sqrt_nonneg _
  have hpol : Returns (@ops.toPolar _ _ _ _ ⟨at2⟩ z) ⟨v, a⟩ := m1.bind (a1.bind (.of_eq rfl))
  obtain ⟨t, ht, t0⟩ : ∃ t : Fixed m true W F, (Lit.ofI32 0 : Prog (Fixed m true W F)) = pure t ∧ t.val = 0 :=
    ⟨Fixed.mkv 0 (fits_zero _ W), by rw [Fixed.ofI32_def]; simp only [zero_mul]; exact Fixed.fit_of_fits _, rfl⟩
  by_cases hz : p.mag.val = 0 ∨ v.val = 0
  · refine ⟨⟨t, t⟩, hpol.bind (.of_eq ?_), ?_, ?_⟩
    · unfold ops.mulPolar
      rw [ht, pure_bind, if_pos (by simpa [t0] using hz)]
    · show |t.r - p.mag.r * N| ≤ _
      rw [r_eq t, t0, Int.cast_zero, zero_mul, zero_sub, abs_neg, abs_mul]
      have : 0 ≤ |p.mag.r| := abs_nonneg _
      rcases hz with hz | hz
      · rw [r_eq, hz]; simp
      · have : |N| ≤ E := by rw [r_eq, hz, Int.cast_zero, zero_mul, zero_sub, abs_neg] at m2; exact m2
        have := mul_le_mul_of_nonneg_left this (abs_nonneg p.mag.r)
        linarith
    · intro hp hEN
      exfalso
      rcases hz with hz | hz
      · exact hp hz
      · rw [r_eq, hz, Int.cast_zero, zero_mul, zero_sub, abs_neg, abs_of_nonneg n0] at m2; linarith
  · rw [not_or] at hz
    have fc := floor_mul_close F p.mag.val v.val
    simp only [← r_eq] at fc
    have hv : |v.r| ≤ N + E := by
      have := abs_sub_abs_le_abs_sub v.r N
      rw [abs_of_nonneg n0] at this; linarith
    have hb : |p.mag.r * v.r| ≤ |p.mag.r| * (N + E) := by rw [abs_mul]; exact mul_le_mul_of_nonneg_left hv (abs_nonneg _)
    have f1 : Fits true W (p.mag.val * v.val / 2 ^ F) := fits_of_abs hK (by
      rw [abs_le] at hb
      rw [abs_lt]; constructor <;> linarith [fc.1, fc.2, hb.1, hb.2])
    have har : |a.r| ≤ |Complex.arg ⟨z.re.r, z.im.r⟩| + δ := by
      have := abs_sub_abs_le_abs_sub a.r (Complex.arg ⟨z.re.r, z.im.r⟩)
      linarith
    have f2 : Fits true W (p.ang.val + a.val) := fits_of_abs hK (by
      push_cast; rw [add_mul, ← r_eq, ← r_eq]
      exact lt_of_le_of_lt (abs_add_le _ _) (by linarith))
    refine ⟨⟨mkv _ f1, mkv _ f2⟩, hpol.bind (.of_eq ?_), ?_, fun _ _ => ?_⟩
    · unfold ops.mulPolar
      rw [ht, pure_bind, if_neg (by simpa [t0] using hz), Fixed.mul_def, fit_of_fits f1, pure_bind, Fixed.add_def, fit_of_fits f2, pure_bind]
    · show |(mkv (m := m) (F := F) _ f1).r - _| ≤ _
      rw [r_eq, mkv_val, eu]
      have d1 : |p.mag.r * v.r - p.mag.r * N| ≤ |p.mag.r| * E := by
        rw [← mul_sub, abs_mul]; exact mul_le_mul_of_nonneg_left m2 (abs_nonneg _)
      rw [abs_le] at d1 ⊢
      constructor <;> linarith [fc.1, fc.2, d1.1, d1.2]
    · show |(mkv (m := m) (F := F) _ f2).r - _| ≤ _
      rw [r_eq, mkv_val]; push_cast; rw [add_mul, ← r_eq, ← r_eq]
      rwa [add_sub_add_left_eq_sub]

/-- A case of C110: (3 + 4i) times 2∠1, and 2∠1 times (3 + 4i), with 32 fraction bits. -/
example (at2 : Fixed .checked true 64 32 → Fixed .checked true 64 32 → Prog (Fixed .checked true 64 32))
    (ha : FixedAtanWithin at2 (1 / 2 ^ 32))
    (sc : Fixed .checked true 64 32 → Prog (Fixed .checked true 64 32 × Fixed .checked true 64 32))
    (hs : FixedSinCosWithin sc (1 / 2 ^ 32)) :
    let z : Cartesian (Fixed .checked true 64 32) := ⟨fx .checked true 64 32 (3 * 2 ^ 32), fx .checked true 64 32 (4 * 2 ^ 32)⟩
    let q : Polar (Fixed .checked true 64 32) := ⟨fx .checked true 64 32 (2 * 2 ^ 32), fx .checked true 64 32 (2 ^ 32)⟩
    (∃ w, Returns (@Cartesian.mulPolar _ _ _ _ _ _ ⟨sc⟩ z q) w ∧ |w.re.r - (6 * Real.cos 1 - 8 * Real.sin 1)| ≤ 1 / 10 ^ 7) ∧
    ∃ c, Returns (@Polar.mulCartesian _ _ _ _ _ _ ⟨at2⟩ q z) c ∧ |c.mag.r - 10| ≤ 1 / 50 ∧
      |c.ang.r - (1 + Complex.arg ⟨3, 4⟩)| ≤ 1 / 2 ^ 32 := by
  have e1 : (fx .checked true 64 32 (3 * 2 ^ 32)).r = 3 := by
    rw [r, show (fx .checked true 64 32 (3 * 2 ^ 32)).val = 3 * 2 ^ 32 by decide]; norm_num
  have e2 : (fx .checked true 64 32 (4 * 2 ^ 32)).r = 4 := by
    rw [r, show (fx .checked true 64 32 (4 * 2 ^ 32)).val = 4 * 2 ^ 32 by decide]; norm_num
  have e3 : (fx .checked true 64 32 (2 * 2 ^ 32)).r = 2 := by
    rw [r, show (fx .checked true 64 32 (2 * 2 ^ 32)).val = 2 * 2 ^ 32 by decide]; norm_num
  have e4 : (fx .checked true 64 32 (2 ^ 32)).r = 1 := by
    rw [r, show (fx .checked true 64 32 (2 ^ 32)).val = 2 ^ 32 by decide]; norm_num
  have hq : √((2:ℝ) / 2 ^ 32) ≤ 1 / 10000 := by rw [Real.sqrt_le_left (by norm_num)]; norm_num
  have h5 : √((3:ℝ) ^ 2 + 4 ^ 2) = 5 := by
    rw [show (3:ℝ) ^ 2 + 4 ^ 2 = 5 ^ 2 by norm_num]; exact Real.sqrt_sq (by norm_num)
  have hpi := Real.pi_lt_d4
  have harg := Complex.abs_arg_le_pi ⟨(3:ℝ), 4⟩
  intro z q
  constructor
  · obtain ⟨w, w1, -, w2, -⟩ := C110_cartesian_polar (K := 31) (by norm_num) (by norm_num) sc hs z q
      (2 * (1 / 2 ^ 32 + (1 / 5 + 1 / 2) * (1 / 2 ^ 32 + 1 / 2 ^ 51)) + 1 / 2 ^ 32)
      (by simp only [q, e3, e4]; norm_num) (by simp only [q, e3]; norm_num) (by simp only [z, q, e1, e2, e3]; norm_num)
    refine ⟨w, w1, ?_⟩
    have e : ((⟨z.re.r, z.im.r⟩ : ℂ) * (q.mag.r * Complex.exp (q.ang.r * Complex.I))).re = 6 * Real.cos 1 - 8 * Real.sin 1 := by
      rw [Complex.mul_re, Complex.re_ofReal_mul, Complex.im_ofReal_mul, Complex.exp_ofReal_mul_I_re, Complex.exp_ofReal_mul_I_im]
      simp only [z, q, e1, e2, e3, e4]; ring
    rw [e] at w2
    refine w2.trans ?_
    simp only [z, e1, e2]; norm_num
  · obtain ⟨c, c1, c2, c3⟩ := C110_polar_cartesian (K := 31) (by norm_num) (by norm_num) (by norm_num) (by norm_num) (by norm_num) at2 ha q z
      (by left; decide) 5 ((1 / 1000 + 12 / 2 ^ 32) * 5 + 4 / 2 ^ 32 + √(2 / 2 ^ 32)) (by simp only [z, e1, e2, h5]) rfl (by decide)
      (by simp only [q, e3]; norm_num at hq ⊢; linarith)
      (by simp only [z, q, e1, e2, e4]; norm_num at hpi ⊢; linarith)
    refine ⟨c, c1, ?_, ?_⟩
    · have : q.mag.r * 5 = 10 := by simp only [q, e3]; norm_num
      rw [this] at c2
      refine c2.trans ?_
      simp only [q, e3]; norm_num at hq ⊢; linarith
    · have := c3 (by decide) (by norm_num at hq ⊢; linarith)
      simp only [z, q, e1, e2, e4] at this
      exact this

end MixedNum
