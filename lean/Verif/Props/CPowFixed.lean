import Verif.Props.PowFixed
import Verif.Props.RoundTrip
/-! # C108: integer powers of complex numbers on fixed point -/

namespace MixedNum
variable {m : Mode} {W F : ℕ}
open Fixed

/-- Specification: `sc` returns sine and cosine within `ε` on the angles within `[-R, R]`. -/
def FixedSinCosOn (sc : Fixed m true W F → Prog (Fixed m true W F × Fixed m true W F)) (R ε : ℝ) : Prop :=
  ∀ x : Fixed m true W F, |x.r| ≤ R → ∃ s c, Returns (sc x) (s, c) ∧ |s.r - Real.sin x.r| ≤ ε ∧ |c.r - Real.cos x.r| ≤ ε

theorem cpowi_eq (at2 : Fixed m true W F → Fixed m true W F → Prog (Fixed m true W F))
    (sc : Fixed m true W F → Prog (Fixed m true W F × Fixed m true W F)) (z : Cartesian (Fixed m true W F)) (n : ℕ) :
    @ops.powi _ _ _ _ ⟨at2⟩ ⟨sc⟩ _ z n = (do
      let v ← z.mag
      let mag ← MixedPowi.powi v (i32OfUsize n)
      let a ← at2 z.im z.re
      let k ← FromUsize.ofUsize n
      let phi ← NumOps.mul a k
      let p ← sc phi
      let real ← NumOps.mul mag p.2
      let imag ← NumOps.mul mag p.1
      pure ⟨real, imag⟩) := by
  unfold ops.powi Cartesian.mag
  simp only [bind_assoc]

/-- A power with the exponent given as `usize`, exponent 0 included. -/
theorem powi_any {K : ℕ} (hK : F + K + 1 ≤ W) (x : Fixed m true W F) (M : ℝ) (hM : 1 ≤ M) (hx : |x.r| ≤ M) (n : ℕ)
    (hn' : n < 2 ^ 31) (hfit : M ^ n + n * M ^ (n - 1) / 2 ^ F < 2 ^ K) :
    ∃ z : Fixed m true W F, Returns (MixedPowi.powi x (i32OfUsize n)) z ∧ |z.r - x.r ^ n| ≤ ((n - 1 : ℕ) : ℝ) * M ^ (n - 1) / 2 ^ F := by
  rw [i32OfUsize_of_lt hn']
  have hp : (0:ℝ) < 2 ^ F := by positivity
  rcases Nat.eq_zero_or_pos n with rfl | h
  · obtain ⟨z, hz, e⟩ := C74_zero (m := m) (s := true) (W := W) (F := F) (inRange_iff.mpr (fits_of_abs hK (by
      push_cast; rw [pow_mul_u, abs_one]; simpa using hfit))) x
    exact ⟨z, hz, by rw [e]; simp⟩
  · refine C107_accuracy hK x M hM hx n h hn' (lt_of_le_of_lt ?_ hfit)
    have : ((n - 1 : ℕ) : ℝ) ≤ n := by exact_mod_cast Nat.sub_le n 1
    gcongr

theorem pow_near {v N E M : ℝ} (h : |v - N| ≤ E) (hv : |v| ≤ M) (hN : |N| ≤ M) (hM : 0 ≤ M) (n : ℕ) :
    |v ^ n - N ^ n| ≤ n * M ^ (n - 1) * E := by
  induction n with
  | zero => simp
  | succ n ih =>
    have e : v ^ (n + 1) - N ^ (n + 1) = (v ^ n - N ^ n) * v + N ^ n * (v - N) := by ring
    rw [e]
    refine (abs_add_le _ _).trans ?_
    rw [abs_mul, abs_mul, abs_pow]
    have hE : 0 ≤ E := (abs_nonneg _).trans h
    have g1 : |v ^ n - N ^ n| * |v| ≤ n * M ^ n * E := by
      rcases Nat.eq_zero_or_pos n with rfl | hn
      · simp
      · calc _ ≤ (n * M ^ (n - 1) * E) * M := mul_le_mul ih hv (abs_nonneg _) (by positivity)
          _ = n * M ^ (n - 1 + 1) * E := by ring
          _ = _ := by rw [show n - 1 + 1 = n by omega]
    have g2 : |N| ^ n * |v - N| ≤ M ^ n * E := mul_le_mul (pow_le_pow_left₀ (abs_nonneg _) hN n) h (abs_nonneg _) (by positivity)
    rw [Nat.add_sub_cancel]; push_cast
    linarith

/-- The power of a complex number by magnitude and angle. -/
theorem pow_re_im (x y : ℝ) (n : ℕ) :
    ((⟨x, y⟩ : ℂ) ^ n).re = √(x ^ 2 + y ^ 2) ^ n * Real.cos (n * Complex.arg ⟨x, y⟩) ∧
    ((⟨x, y⟩ : ℂ) ^ n).im = √(x ^ 2 + y ^ 2) ^ n * Real.sin (n * Complex.arg ⟨x, y⟩) := by
  have hn : ‖(⟨x, y⟩ : ℂ)‖ = √(x ^ 2 + y ^ 2) := by
    rw [Complex.norm_def, Complex.normSq_mk]; congr 1; ring
  have e : (⟨x, y⟩ : ℂ) ^ n = ((√(x ^ 2 + y ^ 2) ^ n : ℝ) : ℂ) * Complex.exp (((n * Complex.arg ⟨x, y⟩ : ℝ) : ℂ) * Complex.I) := by
    conv_lhs => rw [← Complex.norm_mul_exp_arg_mul_I ⟨x, y⟩, mul_pow, ← Complex.exp_nat_mul, hn]
    push_cast; congr 2; ring
  rw [e, Complex.re_ofReal_mul, Complex.im_ofReal_mul, Complex.exp_ofReal_mul_I_re, Complex.exp_ofReal_mul_I_im]
  exact ⟨rfl, rfl⟩

/-- C108: on signed fixed point with `K` integer bits, `z^n` by magnitude and angle. `N` is the true magnitude, `E` the error of
the computed one by C72, `M` bounds both and 1; `D` bounds the error of the power of the magnitude. The exponent must keep the
angle within the range `[-R, R]` on which `sincos` is accurate: the code does not reduce it. -/
theorem C108_accuracy {K : ℕ} (hF : 2 ≤ F) (hW : 8 ≤ W) (hW' : W ≤ 128) (hK : F + K + 1 ≤ W) (h : F + 4 ≤ W) {δ ε R : ℝ}
    (at2 : Fixed m true W F → Fixed m true W F → Prog (Fixed m true W F)) (ha : FixedAtanWithin at2 δ)
    (sc : Fixed m true W F → Prog (Fixed m true W F × Fixed m true W F)) (hs : FixedSinCosOn sc R ε) (hε : 0 ≤ ε)
    (z : Cartesian (Fixed m true W F)) (h0 : z.re.val ≠ 0 ∨ z.im.val ≠ 0) (n : ℕ) (hn : n < 2 ^ 31) (hnK : n < 2 ^ K)
    (N E M D : ℝ) (hN : N = √(z.re.r ^ 2 + z.im.r ^ 2)) (hE : E = (1 / 1000 + 12 / 2 ^ F) * N + 4 / 2 ^ F + √(2 / 2 ^ F))
    (hM : 1 ≤ M) (hM' : N + E ≤ M) (hD : D = n * M ^ (n - 1) * (E + 1 / 2 ^ F))
    (hr : InRange true W (z.re.val * z.re.val / 2 ^ F + z.im.val * z.im.val / 2 ^ F))
    (hphi : n * (|Complex.arg ⟨z.re.r, z.im.r⟩| + δ) ≤ R) (hR : R < 2 ^ K)
    (hm : (M ^ n + D) * (1 + ε) + 1 / 2 ^ F < 2 ^ K) :
    ∃ c : Cartesian (Fixed m true W F), Returns (@ops.powi _ _ _ _ ⟨at2⟩ ⟨sc⟩ _ z n) c ∧
      |c.re.r - ((⟨z.re.r, z.im.r⟩ : ℂ) ^ n).re| ≤ N ^ n * (ε + n * δ) + D * (1 + ε) + 1 / 2 ^ F ∧
      |c.im.r - ((⟨z.re.r, z.im.r⟩ : ℂ) ^ n).im| ≤ N ^ n * (ε + n * δ) + D * (1 + ε) + 1 / 2 ^ F := by
  have hu := u_pos F
  have eu : (1:ℝ) / 2 ^ F = u F := rfl
  have n0 : 0 ≤ N := by rw [hN]; exact Real.sqrt_nonneg _
  have E0 : 0 ≤ E := by rw [hE]; positivity
  have M0 : 0 ≤ M := by linarith
  obtain ⟨v, m1, m2⟩ := C72_accuracy hF hW hW' h z hr
  rw [← hN, ← hE] at m2
  have hv : |v.r| ≤ M := by
    have := abs_sub_abs_le_abs_sub v.r N
    rw [abs_of_nonneg n0] at this; linarith
  have D0 : n * M ^ (n - 1) * E + n * M ^ (n - 1) * u F = D := by rw [hD, eu]; ring
  have D1 : 0 ≤ n * M ^ (n - 1) * E := by positivity
  have D2 : 0 ≤ n * M ^ (n - 1) * u F := by positivity
  obtain ⟨w, w1, w2⟩ := powi_any hK v M hM hv n hn (by
    rw [div_eq_mul_one_div, eu]
    have Mn : 0 ≤ M ^ n := by positivity
    have : 0 ≤ (M ^ n + D) * ε := mul_nonneg (by linarith) hε
    linarith)
  have hwN : |w.r - N ^ n| ≤ D := by
    have g1 := pow_near m2 hv (by rw [abs_of_nonneg n0]; linarith) M0 n
    have g2 : ((n - 1 : ℕ) : ℝ) * M ^ (n - 1) / 2 ^ F ≤ n * M ^ (n - 1) * u F := by
      rw [div_eq_mul_one_div, eu]
      have : ((n - 1 : ℕ) : ℝ) ≤ n := by exact_mod_cast Nat.sub_le n 1
      gcongr
    have := abs_sub_le w.r (v.r ^ n) (N ^ n)
    linarith
  have Nn0 : 0 ≤ N ^ n := by positivity
  have NM : N ^ n ≤ M ^ n := pow_le_pow_left₀ n0 (by linarith) n
  have hw : |w.r| ≤ M ^ n + D := by
    have := abs_sub_abs_le_abs_sub w.r (N ^ n)
    rw [abs_of_nonneg Nn0] at this; linarith
  obtain ⟨a, a1, a2⟩ := ha z.im z.re h0
  set θ := Complex.arg ⟨z.re.r, z.im.r⟩ with hθ
  -- the exponent as a fixed-point number, and the multiplied angle
  have fk : Fits true W ((n : ℤ) * 2 ^ F) := by
    refine fits_of_abs (K := K) hK ?_
    push_cast; rw [mul_assoc, pow_mul_u, mul_one, Nat.abs_cast]; exact_mod_cast hnK
  have ephi : a.val * ((n : ℤ) * 2 ^ F) / 2 ^ F = a.val * n := by
    rw [← mul_assoc]; exact Int.mul_ediv_cancel _ (by positivity)
  have hphi' : |((a.val * n : ℤ) : ℝ) * u F| ≤ R := by
    have e : ((a.val * n : ℤ) : ℝ) * u F = n * a.r := by rw [r_eq]; push_cast; ring
    rw [e, abs_mul, Nat.abs_cast]
    have := abs_sub_abs_le_abs_sub a.r θ
    exact (mul_le_mul_of_nonneg_left (by linarith) (Nat.cast_nonneg n)).trans hphi
  have fphi : Fits true W (a.val * n) := fits_of_abs (K := K) hK (lt_of_le_of_lt hphi' hR)
  have rphi : (mkv (m := m) (F := F) _ fphi).r = n * a.r := by rw [r_eq, mkv_val, r_eq]; push_cast; ring
  obtain ⟨s, c, p1, p2, p3⟩ := hs (mkv _ fphi) (by rw [r_eq, mkv_val]; exact hphi')
  rw [rphi] at p2 p3
  -- the products
  have part : ∀ (q : Fixed m true W F) (T T' : ℝ), |q.r - T| ≤ ε → |T| ≤ 1 → |T - T'| ≤ n * δ →
      ∃ y : Fixed m true W F, NumOps.mul w q = pure y ∧ |y.r - N ^ n * T'| ≤ N ^ n * (ε + n * δ) + D * (1 + ε) + 1 / 2 ^ F := by
    intro q T T' hq hT hTT
    have hq1 : |q.r| ≤ 1 + ε := by
      have := abs_sub_abs_le_abs_sub q.r T; linarith
    obtain ⟨f1, f2⟩ := floor_mul_close F w.val q.val
    rw [← r_eq, ← r_eq] at f1 f2
    have hwq : |w.r * q.r| ≤ (M ^ n + D) * (1 + ε) := by
      rw [abs_mul]; exact mul_le_mul hw hq1 (abs_nonneg _) ((abs_nonneg _).trans hw)
    have hf : Fits true W (w.val * q.val / 2 ^ F) := by
      refine fits_of_abs (K := K) hK ?_
      have := abs_le.mp hwq
      rw [eu] at hm
      rw [abs_lt]; constructor <;> linarith
    refine ⟨mkv _ hf, by rw [mul_def, fit_of_fits hf], ?_⟩
    have e : (mkv (m := m) (F := F) _ hf).r - N ^ n * T' = ((mkv (m := m) (F := F) _ hf).r - w.r * q.r) +
        ((w.r - N ^ n) * q.r + N ^ n * (q.r - T) + N ^ n * (T - T')) := by ring
    rw [e]
    have g0 : |(mkv (m := m) (F := F) _ hf).r - w.r * q.r| ≤ 1 / 2 ^ F := by
      rw [r_eq, mkv_val, eu, abs_le]; constructor <;> linarith
    have g1 : |(w.r - N ^ n) * q.r| ≤ D * (1 + ε) := by
      rw [abs_mul]; exact mul_le_mul hwN hq1 (abs_nonneg _) ((abs_nonneg _).trans hwN)
    have g2 : |N ^ n * (q.r - T)| ≤ N ^ n * ε := by
      rw [abs_mul, abs_of_nonneg Nn0]; exact mul_le_mul_of_nonneg_left hq Nn0
    have g3 : |N ^ n * (T - T')| ≤ N ^ n * (n * δ) := by
      rw [abs_mul, abs_of_nonneg Nn0]; exact mul_le_mul_of_nonneg_left hTT Nn0
    refine (abs_add_le _ _).trans ?_
    have := abs_add_three ((w.r - N ^ n) * q.r) (N ^ n * (q.r - T)) (N ^ n * (T - T'))
    linarith
  have hd : |n * a.r - n * θ| ≤ n * δ := by
    rw [← mul_sub, abs_mul, Nat.abs_cast]; exact mul_le_mul_of_nonneg_left a2 (Nat.cast_nonneg n)
  obtain ⟨y1, y2, y3⟩ := part c _ (Real.cos (n * θ)) p3 (Real.abs_cos_le_one _) ((Real.abs_cos_sub_cos_le _ _).trans hd)
  obtain ⟨x1, x2, x3⟩ := part s _ (Real.sin (n * θ)) p2 (Real.abs_sin_le_one _) ((Real.abs_sin_sub_sin_le _ _).trans hd)
  obtain ⟨e1, e2⟩ := pow_re_im z.re.r z.im.r n
  rw [← hN] at e1 e2
  refine ⟨⟨y1, x1⟩, ?_, by rw [e1]; exact y3, by rw [e2]; exact x3⟩
  rw [cpowi_eq]
  refine m1.bind (w1.bind (a1.bind ?_))
  have ek : (FromUsize.ofUsize n : Prog (Fixed m true W F)) = pure (mkv _ fk) := fit_of_fits fk
  rw [ek, pure_bind, mul_def, mkv_val, ephi, fit_of_fits fphi, pure_bind]
  exact p1.bind (.of_eq (by simp only []; rw [y2, pure_bind, x2, pure_bind]))

/-- C108: with overflow checks on, an exponent that is itself out of the type's range panics, even for numbers inside the unit
circle, whose powers are representable. -/
theorem C108_overflow (hF : 2 ≤ F) (hW : 8 ≤ W) (hW' : W ≤ 128) (h : F + 4 ≤ W) {δ : ℝ}
    (at2 : Fixed .checked true W F → Fixed .checked true W F → Prog (Fixed .checked true W F)) (ha : FixedAtanWithin at2 δ)
    (sc : Fixed .checked true W F → Prog (Fixed .checked true W F × Fixed .checked true W F))
    (z : Cartesian (Fixed .checked true W F)) (h0 : z.re.val ≠ 0 ∨ z.im.val ≠ 0) (n : ℕ) (hn : n < 2 ^ 31)
    (hN : (1001 / 1000 + 12 / 2 ^ F) * √(z.re.r ^ 2 + z.im.r ^ 2) + 4 / 2 ^ F + √(2 / 2 ^ F) ≤ 1)
    (hr : InRange true W (z.re.val * z.re.val / 2 ^ F + z.im.val * z.im.val / 2 ^ F))
    (hbig : ¬ InRange true W (n * 2 ^ F)) : Panics (@ops.powi _ _ _ _ ⟨at2⟩ ⟨sc⟩ _ z n) .overflow := by
  obtain ⟨v, m1, m2⟩ := C72_accuracy hF hW hW' h z hr
  set N := √(z.re.r ^ 2 + z.im.r ^ 2)
  have n0 : 0 ≤ N := Real.sqrt_nonneg _
  have hv : |v.r| ≤ 1 := by
    have := abs_sub_abs_le_abs_sub v.r N
    rw [abs_of_nonneg n0] at this; linarith
  have h1 : InRange true W (2 ^ F) := inRange_iff.mpr (fits_of_abs (K := 3) (by omega) (by
    push_cast; rw [pow_mul_u, abs_one]; norm_num))
  have n1 : 1 ≤ n := by
    by_contra hc
    obtain rfl : n = 0 := by omega
    exact hbig (inRange_iff.mpr (by simpa using fits_zero true W))
  obtain ⟨w, w1, -⟩ := C74_accuracy h1 v hv n n1 hn
  obtain ⟨a, a1, -⟩ := ha z.im z.re h0
  rw [cpowi_eq, i32OfUsize_of_lt hn]
  refine m1.bind_panics (w1.bind_panics (a1.bind_panics ?_))
  have ek : (FromUsize.ofUsize n : Prog (Fixed .checked true W F)) = Prog.fail .overflow :=
    fit_checked (fun c => hbig (inRange_iff.mpr c))
  exact .of_eq (by rw [ek, Prog.fail_bind])

/-- The hypotheses hold on 16 bits with 12 fractional bits of the ninth power of `1/2 + i/4`. -/
example (at2 : Fixed .checked true 16 12 → Fixed .checked true 16 12 → Prog (Fixed .checked true 16 12)) (ha : FixedAtanWithin at2 (1 / 2 ^ 10))
    (sc : Fixed .checked true 16 12 → Prog (Fixed .checked true 16 12 × Fixed .checked true 16 12)) :=
  C108_overflow (by decide) (by decide) (by decide) (by decide) at2 ha sc ⟨fx .checked true 16 12 2048, fx .checked true 16 12 1024⟩ (.inl (by decide)) 9
    (by decide) (by
      have e1 : (fx .checked true 16 12 2048).r = 1 / 2 := by rw [Fixed.r, show (fx .checked true 16 12 2048).val = 2048 by decide]; norm_num
      have e2 : (fx .checked true 16 12 1024).r = 1 / 4 := by rw [Fixed.r, show (fx .checked true 16 12 1024).val = 1024 by decide]; norm_num
      have h1 : √((1 / 2 : ℝ) ^ 2 + (1 / 4) ^ 2) ≤ 3 / 5 := by rw [Real.sqrt_le_left (by norm_num)]; norm_num
      have h2 : √((2:ℝ) / 2 ^ 12) ≤ 1 / 10 := by rw [Real.sqrt_le_left (by norm_num)]; norm_num
      simp only [e1, e2]; norm_num at h1 h2 ⊢; linarith) (by decide) (by decide)

/-- A `sincos` as C108 assumes exists for every range: the true values rounded down. -/
theorem fixedSinCosOn_exists (h : F + 4 ≤ W) (R : ℝ) :
    ∃ sc : Fixed m true W F → Prog (Fixed m true W F × Fixed m true W F), FixedSinCosOn sc R (1 / 2 ^ F) := by
  have hu := u_pos F
  have hu1 := u_le_one F
  have hpu := pow_mul_u F
  have near : ∀ t : ℝ, |(⌊t * 2 ^ F⌋ : ℝ) * u F - t| ≤ u F := by
    intro t
    have h1 := Int.floor_le (t * 2 ^ F); have h2 := Int.lt_floor_add_one (t * 2 ^ F)
    have e : t = t * 2 ^ F * u F := by rw [mul_assoc, hpu, mul_one]
    rw [abs_le]; constructor <;> nlinarith
  have fits : ∀ t : ℝ, |t| ≤ 1 → Fits true W ⌊t * 2 ^ F⌋ := by
    intro t ht
    refine fits_of_abs (K := 3) (by omega) ?_
    have := abs_sub_abs_le_abs_sub ((⌊t * 2 ^ F⌋ : ℝ) * u F) t
    have := near t
    rw [show (2:ℝ) ^ 3 = 8 by norm_num]; linarith
  refine ⟨fun x => pure (mkv _ (fits _ (Real.abs_sin_le_one x.r)), mkv _ (fits _ (Real.abs_cos_le_one x.r))), ?_⟩
  intro x _
  refine ⟨_, _, .of_eq rfl, ?_, ?_⟩ <;> rw [r_eq, mkv_val] <;> exact near _

/-- A case of C108: the square of 3+4i, -7+24i, with 32 fraction bits. -/
example (at2 : Fixed .checked true 64 32 → Fixed .checked true 64 32 → Prog (Fixed .checked true 64 32))
    (ha : FixedAtanWithin at2 (1 / 2 ^ 32))
    (sc : Fixed .checked true 64 32 → Prog (Fixed .checked true 64 32 × Fixed .checked true 64 32))
    (hs : FixedSinCosOn sc 7 (1 / 2 ^ 32)) :
    ∃ c : Cartesian (Fixed .checked true 64 32), Returns (@ops.powi _ _ _ _ ⟨at2⟩ ⟨sc⟩ _
        ⟨fx .checked true 64 32 (3 * 2 ^ 32), fx .checked true 64 32 (4 * 2 ^ 32)⟩ 2) c ∧
      |c.re.r - -7| ≤ 1 / 10 ∧ |c.im.r - 24| ≤ 1 / 10 := by
  have e1 : (fx .checked true 64 32 (3 * 2 ^ 32)).r = 3 := by
    rw [r, show (fx .checked true 64 32 (3 * 2 ^ 32)).val = 3 * 2 ^ 32 by decide]; norm_num
  have e2 : (fx .checked true 64 32 (4 * 2 ^ 32)).r = 4 := by
    rw [r, show (fx .checked true 64 32 (4 * 2 ^ 32)).val = 4 * 2 ^ 32 by decide]; norm_num
  have hq : √((2:ℝ) / 2 ^ 32) ≤ 1 / 10000 := by rw [Real.sqrt_le_left (by norm_num)]; norm_num
  have h5 : √((3:ℝ) ^ 2 + 4 ^ 2) = 5 := by
    rw [show (3:ℝ) ^ 2 + 4 ^ 2 = 5 ^ 2 by norm_num]; exact Real.sqrt_sq (by norm_num)
  have hpi := Real.pi_lt_d4
  have harg := Complex.abs_arg_le_pi ⟨(3:ℝ), 4⟩
  obtain ⟨c, c1, c2, c3⟩ := C108_accuracy (K := 31) (by norm_num) (by norm_num) (by norm_num) (by norm_num) (by norm_num) at2 ha sc hs
    (by norm_num) ⟨fx .checked true 64 32 (3 * 2 ^ 32), fx .checked true 64 32 (4 * 2 ^ 32)⟩ (by left; decide) 2 (by norm_num)
    (by norm_num) 5 ((1 / 1000 + 12 / 2 ^ 32) * 5 + 4 / 2 ^ 32 + √(2 / 2 ^ 32)) (51 / 10) _
    (by rw [e1, e2, h5]) rfl (by norm_num) (by norm_num at hq ⊢; linarith) rfl (by decide)
    (by rw [e1, e2]; norm_num at hpi ⊢; linarith) (by norm_num) (by norm_num at hq ⊢; linarith)
  rw [e1, e2] at c2 c3
  have p2 : (⟨3, 4⟩ : ℂ) ^ 2 = ⟨-7, 24⟩ := by
    apply Complex.ext <;> simp [sq] <;> norm_num
  rw [p2] at c2 c3
  refine ⟨c, c1, c2.trans ?_, c3.trans ?_⟩ <;> norm_num at hq ⊢ <;> linarith

end MixedNum
