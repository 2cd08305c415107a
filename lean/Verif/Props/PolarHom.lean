import Verif.Props.PolarMix
import Verif.Props.PolarLaws
import Verif.Lemmas.SumExact
/-! # C153: products in polar and in Cartesian form agree on machine numbers -/

namespace MixedNum
variable {m : Mode} {W F : ℕ} {f : Format}

section Fixed
open Fixed

/-- The product of two polar numbers in either mode when nothing overflows. -/
theorem polar_mul_close {K : ℕ} (hK : F + K + 1 ≤ W) (p q : Polar (Fixed m true W F))
    (hm : |p.mag.r| * |q.mag.r| + 1 / 2 ^ F < 2 ^ K) (ha : |p.ang.r + q.ang.r| < 2 ^ K) :
    ∃ a : Polar (Fixed m true W F), Returns (p.mul q) a ∧ |a.mag.r - p.mag.r * q.mag.r| ≤ 1 / 2 ^ F ∧
      (a.ang.r = p.ang.r + q.ang.r ∨ a.mag.r = 0 ∧ p.mag.r * q.mag.r = 0 ∧ a.ang.r = 0) := by
  have hu := u_pos F
  have e1 : (1:ℝ) / 2 ^ F = u F := rfl
  rw [e1] at hm ⊢
  by_cases hz : p.mag.val = 0 ∨ q.mag.val = 0
  · obtain ⟨z, hz', z0⟩ := Fixed.lit_zero (m := m) (s := true) (W := W) (F := F)
    have e : p.mul q = pure ⟨z, z⟩ := by
      rcases hz with h | h <;> simp [Polar.mul, ops.mulPolar, hz', z0, h]
    have r0 : z.r = 0 := by rw [r_eq, z0]; simp
    have rp : p.mag.r * q.mag.r = 0 := by rcases hz with h | h <;> simp [r_eq, h]
    refine ⟨⟨z, z⟩, .of_eq e, ?_, .inr ⟨r0, rp, r0⟩⟩
    show |z.r - _| ≤ _
    rw [r0, rp, sub_zero, abs_zero]; exact hu.le
  · push Not at hz
    have c1 := floor_mul_close F p.mag.val q.mag.val
    rw [← abs_mul] at hm
    simp only [r_eq] at hm ha ⊢
    rw [abs_lt] at ha
    have hm' := (abs_lt.mp (show |(p.mag.val:ℝ) * u F * (q.mag.val * u F)| < 2 ^ K - u F by linarith))
    have f1 : Fits true W (p.mag.val * q.mag.val / 2 ^ F) :=
      fits_of_abs hK (by rw [abs_lt]; constructor <;> linarith [c1.1, c1.2, hm'.1, hm'.2])
    have f2 : Fits true W (p.ang.val + q.ang.val) := fits_of_abs hK (by
      push_cast; rw [add_mul, abs_lt]; exact ha)
    refine ⟨⟨mkv _ f1, mkv _ f2⟩, .of_eq ?_, ?_, .inl ?_⟩
    · rw [Fixed.polar_eq p q hz.1 hz.2, fit_of_fits f1, fit_of_fits f2]; rfl
    · simp only [mkv_val]; rw [abs_le]; constructor <;> linarith [c1.1, c1.2]
    · simp only [mkv_val]; push_cast; ring

/-- C153, fixed point, either mode: multiply and convert, or convert and multiply; each part of either result is near the product. -/
theorem C153_fixed {K : ℕ} (hK : F + K + 1 ≤ W) (h : F + 4 ≤ W) {ε : ℝ} (hε : 0 ≤ ε)
    (sc : Fixed m true W F → Prog (Fixed m true W F × Fixed m true W F)) (hs : FixedSinCosWithin sc ε)
    (p q : Polar (Fixed m true W F)) (κ Bp Bq : ℝ) (hκ : κ = 1 / 2 ^ F + 1 / 2 ^ 51)
    (hBp : Bp = |p.mag.r| * (ε + (|p.ang.r| / 5 + 1 / 2) * κ) + 1 / 2 ^ F)
    (hBq : Bq = |q.mag.r| * (ε + (|q.ang.r| / 5 + 1 / 2) * κ) + 1 / 2 ^ F)
    (hp : |p.mag.r| * (1 + ε) + 1 / 2 ^ F < 2 ^ K) (hq : |q.mag.r| * (1 + ε) + 1 / 2 ^ F < 2 ^ K)
    (hpq : (|p.mag.r| * |q.mag.r| + 1 / 2 ^ F) * (1 + ε) + 1 / 2 ^ F < 2 ^ K) (ha : |p.ang.r + q.ang.r| < 2 ^ K)
    (hfit : 2 * (|p.mag.r| + Bp) * (|q.mag.r| + Bq) + 2 / 2 ^ F < 2 ^ K) :
    ∃ c d : Cartesian (Fixed m true W F),
      Returns (do @Polar.toCartesian _ _ _ _ _ _ ⟨sc⟩ (← p.mul q)) c ∧
      Returns (do Cartesian.mul (← @Polar.toCartesian _ _ _ _ _ _ ⟨sc⟩ p) (← @Polar.toCartesian _ _ _ _ _ _ ⟨sc⟩ q)) d ∧
      (∀ C : ℝ, C = (|p.mag.r| * |q.mag.r| + 1 / 2 ^ F) * (ε + (|p.ang.r + q.ang.r| / 5 + 1 / 2) * κ) + 2 / 2 ^ F →
        |c.re.r - p.mag.r * q.mag.r * Real.cos (p.ang.r + q.ang.r)| ≤ C ∧
        |c.im.r - p.mag.r * q.mag.r * Real.sin (p.ang.r + q.ang.r)| ≤ C) ∧
      (∀ D : ℝ, D = 2 * ((|p.mag.r| + Bp) * Bq + Bp * |q.mag.r|) + 2 / 2 ^ F →
        |d.re.r - p.mag.r * q.mag.r * Real.cos (p.ang.r + q.ang.r)| ≤ D ∧
        |d.im.r - p.mag.r * q.mag.r * Real.sin (p.ang.r + q.ang.r)| ≤ D) := by
  have hu : (0:ℝ) < 1 / 2 ^ F := by positivity
  have hκ0 : 0 < κ := by rw [hκ]; positivity
  have e2 : (2:ℝ) / 2 ^ F = 1 / 2 ^ F + 1 / 2 ^ F := by ring
  rw [e2] at hfit
  -- first way
  have hpq0 : 0 ≤ |p.mag.r| * |q.mag.r| := by positivity
  obtain ⟨a, a1, a2, a3⟩ := polar_mul_close (m := m) hK p q (by nlinarith) ha
  have am : |a.mag.r| ≤ |p.mag.r| * |q.mag.r| + 1 / 2 ^ F := by
    have := abs_sub_abs_le_abs_sub a.mag.r (p.mag.r * q.mag.r)
    rw [abs_mul] at this; linarith
  obtain ⟨c, c1, c2, c3⟩ := C88_accuracy hK h sc hs a (lt_of_le_of_lt
    (add_le_add (mul_le_mul_of_nonneg_right am (by linarith)) le_rfl) hpq)
  -- second way
  obtain ⟨x, x1, x2, x3⟩ := C88_accuracy hK h sc hs p hp
  rw [← hκ, ← hBp] at x2 x3
  have cosle : ∀ M A : ℝ, |M * Real.cos A| ≤ |M| := fun M A => by
    rw [abs_mul]; exact mul_le_of_le_one_right (abs_nonneg _) (Real.abs_cos_le_one _)
  have sinle : ∀ M A : ℝ, |M * Real.sin A| ≤ |M| := fun M A => by
    rw [abs_mul]; exact mul_le_of_le_one_right (abs_nonneg _) (Real.abs_sin_le_one _)
  have xre : |x.re.r| ≤ |p.mag.r| + Bp := by
    have := abs_sub_abs_le_abs_sub x.re.r (p.mag.r * Real.cos p.ang.r); linarith [cosle p.mag.r p.ang.r]
  have xim : |x.im.r| ≤ |p.mag.r| + Bp := by
    have := abs_sub_abs_le_abs_sub x.im.r (p.mag.r * Real.sin p.ang.r); linarith [sinle p.mag.r p.ang.r]
  have Bp0 : 0 ≤ Bp := (abs_nonneg _).trans x2
  have Bq0 : 0 ≤ Bq := by rw [hBq]; positivity
  obtain ⟨y, y1, y2, y3⟩ := C88_accuracy hK h sc hs q hq
  rw [← hκ, ← hBq] at y2 y3
  obtain ⟨d, d1, d2, d3⟩ := cmul_close hK x y (B := |q.mag.r| + Bq)
    (by have := abs_sub_abs_le_abs_sub y.re.r (q.mag.r * Real.cos q.ang.r); linarith [cosle q.mag.r q.ang.r])
    (by have := abs_sub_abs_le_abs_sub y.im.r (q.mag.r * Real.sin q.ang.r); linarith [sinle q.mag.r q.ang.r])
    (by
      have : (|x.re.r| + |x.im.r|) * (|q.mag.r| + Bq) ≤ 2 * (|p.mag.r| + Bp) * (|q.mag.r| + Bq) :=
        mul_le_mul_of_nonneg_right (by linarith) (by positivity)
      linarith)
  obtain ⟨p1, p2⟩ := prod_err (x := x.re.r) (y := x.im.r) y2 y3
  obtain ⟨p3, p4⟩ := prod_err (x := q.mag.r * Real.cos q.ang.r) (y := q.mag.r * Real.sin q.ang.r) x2 x3
  refine ⟨c, d, a1.bind c1, x1.bind (y1.bind d1), ?_, ?_⟩
  · rintro C rfl
    have g : ∀ t s : ℝ, |t - a.mag.r * s| ≤ |a.mag.r| * (ε + (|a.ang.r| / 5 + 1 / 2) * κ) + 1 / 2 ^ F → |s| ≤ 1 →
        |t - p.mag.r * q.mag.r * s| ≤ |a.mag.r| * (ε + (|a.ang.r| / 5 + 1 / 2) * κ) + 2 / 2 ^ F := by
      intro t s h1 h2
      have h3 : |a.mag.r * s - p.mag.r * q.mag.r * s| ≤ 1 / 2 ^ F := by
        rw [← sub_mul, abs_mul]; exact (mul_le_of_le_one_right (abs_nonneg _) h2).trans a2
      have := abs_sub_le t (a.mag.r * s) (p.mag.r * q.mag.r * s)
      rw [e2]; linarith
    rw [← hκ] at c2 c3
    have c2 := g _ _ c2 (Real.abs_cos_le_one _)
    have c3 := g _ _ c3 (Real.abs_sin_le_one _)
    rcases a3 with a3 | ⟨a4, a5, -⟩
    · rw [a3] at c2 c3
      have le : |a.mag.r| * (ε + (|p.ang.r + q.ang.r| / 5 + 1 / 2) * κ) ≤
          (|p.mag.r| * |q.mag.r| + 1 / 2 ^ F) * (ε + (|p.ang.r + q.ang.r| / 5 + 1 / 2) * κ) :=
        mul_le_mul_of_nonneg_right am (by positivity)
      exact ⟨by linarith, by linarith⟩
    · rw [a4, a5] at c2 c3
      rw [a5]
      have pos : 0 ≤ (|p.mag.r| * |q.mag.r| + 1 / 2 ^ F) * (ε + (|p.ang.r + q.ang.r| / 5 + 1 / 2) * κ) := by positivity
      simp only [zero_mul, sub_zero, abs_zero, zero_add] at c2 c3 ⊢
      exact ⟨by linarith, by linarith⟩
  · rintro D rfl
    have k1 : (|x.re.r| + |x.im.r|) * Bq ≤ 2 * ((|p.mag.r| + Bp) * Bq) := by
      have := mul_le_mul_of_nonneg_right (add_le_add xre xim) Bq0; linarith
    have k2 : (|q.mag.r * Real.cos q.ang.r| + |q.mag.r * Real.sin q.ang.r|) * Bp ≤ 2 * (Bp * |q.mag.r|) := by
      have := mul_le_mul_of_nonneg_right (add_le_add (cosle q.mag.r q.ang.r) (sinle q.mag.r q.ang.r)) Bp0; linarith
    constructor
    · have e : p.mag.r * q.mag.r * Real.cos (p.ang.r + q.ang.r) = q.mag.r * Real.cos q.ang.r * (p.mag.r * Real.cos p.ang.r)
          - q.mag.r * Real.sin q.ang.r * (p.mag.r * Real.sin p.ang.r) := by rw [Real.cos_add]; ring
      rw [e]
      have t1 := abs_sub_le d.re.r (x.re.r * y.re.r - x.im.r * y.im.r)
        (q.mag.r * Real.cos q.ang.r * (p.mag.r * Real.cos p.ang.r) - q.mag.r * Real.sin q.ang.r * (p.mag.r * Real.sin p.ang.r))
      have t2 := abs_sub_le (x.re.r * y.re.r - x.im.r * y.im.r)
        (x.re.r * (q.mag.r * Real.cos q.ang.r) - x.im.r * (q.mag.r * Real.sin q.ang.r))
        (q.mag.r * Real.cos q.ang.r * (p.mag.r * Real.cos p.ang.r) - q.mag.r * Real.sin q.ang.r * (p.mag.r * Real.sin p.ang.r))
      rw [show x.re.r * (q.mag.r * Real.cos q.ang.r) - x.im.r * (q.mag.r * Real.sin q.ang.r)
        = q.mag.r * Real.cos q.ang.r * x.re.r - q.mag.r * Real.sin q.ang.r * x.im.r by ring] at t2 p1
      rw [e2]; linarith
    · have e : p.mag.r * q.mag.r * Real.sin (p.ang.r + q.ang.r) = q.mag.r * Real.cos q.ang.r * (p.mag.r * Real.sin p.ang.r)
          + q.mag.r * Real.sin q.ang.r * (p.mag.r * Real.cos p.ang.r) := by rw [Real.sin_add]; ring
      rw [e]
      have t1 := abs_sub_le d.im.r (x.re.r * y.im.r + x.im.r * y.re.r)
        (q.mag.r * Real.cos q.ang.r * (p.mag.r * Real.sin p.ang.r) + q.mag.r * Real.sin q.ang.r * (p.mag.r * Real.cos p.ang.r))
      have t2 := abs_sub_le (x.re.r * y.im.r + x.im.r * y.re.r)
        (x.re.r * (q.mag.r * Real.sin q.ang.r) + x.im.r * (q.mag.r * Real.cos q.ang.r))
        (q.mag.r * Real.cos q.ang.r * (p.mag.r * Real.sin p.ang.r) + q.mag.r * Real.sin q.ang.r * (p.mag.r * Real.cos p.ang.r))
      rw [show x.re.r * (q.mag.r * Real.sin q.ang.r) + x.im.r * (q.mag.r * Real.cos q.ang.r)
        = q.mag.r * Real.cos q.ang.r * x.im.r + q.mag.r * Real.sin q.ang.r * x.re.r by ring] at t2 p2
      linarith

/-- A case of C153: 2∠1 times 3∠1 with 32 fraction bits, both ways within 10^-7 of 6 cos 2. -/
example (sc : Fixed .checked true 64 32 → Prog (Fixed .checked true 64 32 × Fixed .checked true 64 32))
    (hs : FixedSinCosWithin sc (1 / 2 ^ 32)) :
    let p : Polar (Fixed .checked true 64 32) := ⟨fx .checked true 64 32 (2 * 2 ^ 32), fx .checked true 64 32 (2 ^ 32)⟩
    let q : Polar (Fixed .checked true 64 32) := ⟨fx .checked true 64 32 (3 * 2 ^ 32), fx .checked true 64 32 (2 ^ 32)⟩
    ∃ c d : Cartesian (Fixed .checked true 64 32), Returns (do @Polar.toCartesian _ _ _ _ _ _ ⟨sc⟩ (← p.mul q)) c ∧
      Returns (do Cartesian.mul (← @Polar.toCartesian _ _ _ _ _ _ ⟨sc⟩ p) (← @Polar.toCartesian _ _ _ _ _ _ ⟨sc⟩ q)) d ∧
      |c.re.r - 6 * Real.cos 2| ≤ 1 / 10 ^ 7 ∧ |d.re.r - 6 * Real.cos 2| ≤ 1 / 10 ^ 7 := by
  intro p q
  have e1 : p.mag.r = 2 := by
    show (fx .checked true 64 32 (2 * 2 ^ 32)).r = 2
    rw [r, show (fx .checked true 64 32 (2 * 2 ^ 32)).val = 2 * 2 ^ 32 by decide]; norm_num
  have e2 : q.mag.r = 3 := by
    show (fx .checked true 64 32 (3 * 2 ^ 32)).r = 3
    rw [r, show (fx .checked true 64 32 (3 * 2 ^ 32)).val = 3 * 2 ^ 32 by decide]; norm_num
  have e3 : p.ang.r = 1 := by
    show (fx .checked true 64 32 (2 ^ 32)).r = 1
    rw [r, show (fx .checked true 64 32 (2 ^ 32)).val = 2 ^ 32 by decide]; norm_num
  obtain ⟨c, d, h1, h2, h3, h4⟩ := C153_fixed (K := 31) (by norm_num) (by norm_num) (by norm_num) sc hs p q _ _ _ rfl rfl rfl
    (by rw [e1]; norm_num) (by rw [e2]; norm_num) (by rw [e1, e2]; norm_num) (by rw [e3]; norm_num)
    (by rw [e1, e2, e3]; norm_num)
  refine ⟨c, d, h1, h2, ?_, ?_⟩
  · have := (h3 _ rfl).1
    rw [e1, e2, e3] at this
    norm_num at this ⊢; linarith
  · have := (h4 _ rfl).1
    rw [e1, e2, e3] at this
    norm_num at this ⊢; linarith

end Fixed

section Float
open Flt

/-- The product of two finite polar numbers: one rounding of the magnitude and one of the angle, or zero. -/
theorem polar_mul_float (hf : f.Wide) (p q : Polar (Flt f)) (f1 : p.mag.IsFinite) (f2 : p.ang.IsFinite) (f3 : q.mag.IsFinite)
    (f4 : q.ang.IsFinite) (v1 : p.mag.Valid) (v2 : p.ang.Valid) (v3 : q.mag.Valid) (v4 : q.ang.Valid)
    (hm : 2 * (|p.mag.val| * |q.mag.val|) ≤ 2 ^ f.emax) (ha : 2 * |p.ang.val + q.ang.val| ≤ 2 ^ f.emax) :
    ∃ a : Polar (Flt f), Returns (p.mul q) a ∧ (a.mag.Valid ∧ a.mag.IsFinite) ∧ (a.ang.Valid ∧ a.ang.IsFinite) ∧
      |(a.mag.val : ℝ) - p.mag.val * q.mag.val| ≤ |(p.mag.val : ℝ)| * |(q.mag.val : ℝ)| * (1 / 2 ^ f.p) + 2 ^ f.emin / 2 ∧
      (|(a.ang.val : ℝ) - (p.ang.val + q.ang.val)| ≤ |(p.ang.val : ℝ) + q.ang.val| * (1 / 2 ^ f.p) + 2 ^ f.emin / 2 ∨
        a.mag.val = 0 ∧ p.mag.val * q.mag.val = 0 ∧ a.ang.val = 0) := by
  have hp := hf.p; have hmin := hf.emin; have hmax := hf.emax
  have hr : ∀ t : ℚ, |((rnd f.p f.emin t : ℚ) : ℝ) - t| ≤ |(t:ℝ)| * (1 / 2 ^ f.p) + 2 ^ f.emin / 2 := by
    intro t
    have h8 := Rat.cast_le (K := ℝ).mpr (abs_rnd_le (p := f.p) (emin := f.emin) t)
    push_cast at h8; rw [zpow_neg, zpow_natCast, ← one_div] at h8; exact h8
  have hη1 : (2:ℝ) ^ f.emin ≤ 1 := zpow_le_one_of_nonpos₀ (by norm_num) (by omega)
  have hU' : (1:ℝ) / 2 ^ f.p ≤ 1 / 2 ^ 24 := by
    apply one_div_le_one_div_of_le (by norm_num); exact pow_le_pow_right₀ (by norm_num) hp
  have hbig : (1024:ℝ) ≤ 2 ^ f.emax := by
    calc (1024:ℝ) = 2 ^ 10 := by norm_num
      _ ≤ _ := pow_le_pow_right₀ (by norm_num) (by omega)
  have small : ∀ t : ℚ, 2 * |t| ≤ 2 ^ f.emax → |rnd f.p f.emin t| < 2 ^ f.emax := by
    intro t ht
    have h1 := hr t
    have h2 : 2 * |(t:ℝ)| ≤ 2 ^ f.emax := by exact_mod_cast ht
    have h3 := abs_sub_abs_le_abs_sub ((rnd f.p f.emin t : ℚ) : ℝ) t
    have h4 : |(t:ℝ)| * (1 / 2 ^ f.p) ≤ |(t:ℝ)| * (1 / 100) :=
      mul_le_mul_of_nonneg_left (hU'.trans (by norm_num)) (abs_nonneg _)
    have h5 : |((rnd f.p f.emin t : ℚ) : ℝ)| < 2 ^ f.emax := by linarith
    exact_mod_cast h5
  have i1 := Flt.is_of_finite f1 v1; have i2 := Flt.is_of_finite f2 v2
  have i3 := Flt.is_of_finite f3 v3; have i4 := Flt.is_of_finite f4 v4
  by_cases hz : p.mag.val = 0 ∨ q.mag.val = 0
  · have z0 : Is (.fin false 0 : Flt f) 0 := by
      simpa [Flt.val] using is_of_valid (f := f) (s := false) (m := 0) ⟨0, 0, by positivity, by omega, by simp, by positivity⟩
    have hpq : p.mag.val * q.mag.val = 0 := by rcases hz with h | h <;> simp [h]
    have hpq' : (p.mag.val : ℝ) * q.mag.val = 0 := by exact_mod_cast hpq
    have zf : ∀ {x : Flt f}, x.IsFinite → x.val = 0 → ∃ s, x = .fin s 0 := by
      rintro x ⟨s, m, rfl⟩ h
      refine ⟨s, ?_⟩
      have : m = 0 := by cases s <;> simpa [Flt.val] using h
      rw [this]
    refine ⟨⟨.fin false 0, .fin false 0⟩, C98_mul_zero p q (hz.imp (zf f1) (zf f3)), ⟨z0.valid, z0.fin⟩, ⟨z0.valid, z0.fin⟩, ?_,
      .inr ⟨z0.val, hpq, z0.val⟩⟩
    show |(((.fin false 0 : Flt f).val : ℚ) : ℝ) - _| ≤ _
    rw [z0.val, hpq']; simp; positivity
  · push Not at hz
    have k1 := i1.mul (by omega) i3 (small _ (by rw [abs_mul]; exact hm))
    have k2 := i2.add (by omega) i4 (small _ ha)
    refine ⟨⟨p.mag.mul q.mag, p.ang.add q.ang⟩, .of_eq ?_, ⟨k1.valid, k1.fin⟩, ⟨k2.valid, k2.fin⟩, ?_, .inl ?_⟩
    · show ops.mulPolar p q = _
      unfold ops.mulPolar
      rw [lit_zero_flt, pure_bind]
      have e1 : MixedCmp.beq p.mag (.fin false 0 : Flt f) = false := by
        show p.mag.beq _ = _; rw [beq_zero_flt f1, decide_eq_false hz.1]
      have e2 : MixedCmp.beq q.mag (.fin false 0 : Flt f) = false := by
        show q.mag.beq _ = _; rw [beq_zero_flt f3, decide_eq_false hz.2]
      rw [e1, e2]; rfl
    · show |(((p.mag.mul q.mag).val : ℚ) : ℝ) - _| ≤ _
      rw [k1.val, ← abs_mul]
      have := hr (p.mag.val * q.mag.val); push_cast at this; exact this
    · show |(((p.ang.add q.ang).val : ℚ) : ℝ) - _| ≤ _
      rw [k2.val]
      have := hr (p.ang.val + q.ang.val); push_cast at this; exact this

/-- Two estimates of a product of points in polar form, chained. -/
theorem second_way {m n α β u v r i e1 e2 e : ℝ}
    (hr : |r - (u * (n * Real.cos β) - v * (n * Real.sin β))| ≤ e1) (hi : |i - (u * (n * Real.sin β) + v * (n * Real.cos β))| ≤ e1)
    (kr : |n * Real.cos β * u - n * Real.sin β * v - (n * Real.cos β * (m * Real.cos α) - n * Real.sin β * (m * Real.sin α))| ≤ e2)
    (ki : |n * Real.cos β * v + n * Real.sin β * u - (n * Real.cos β * (m * Real.sin α) + n * Real.sin β * (m * Real.cos α))| ≤ e2)
    (he : e1 + e2 ≤ e) :
    |r - m * n * Real.cos (α + β)| ≤ e ∧ |i - m * n * Real.sin (α + β)| ≤ e := by
  rw [Real.cos_add, Real.sin_add]
  rw [abs_le] at hr hi kr ki
  constructor <;> rw [abs_le] <;> constructor <;> linarith

/-- C153, floats: multiply and convert, or convert and multiply. `T` is the sum of the magnitudes of the angles, `Ep`, `Eq` the
relative errors of the converted factors by C86. -/
theorem C153_float [MixedSinCos (Flt f)] {ε : ℝ} (hf : f.Wide) (h60 : f.p ≤ 60) (hs : SinCosWithin f ε) (hε : 0 ≤ ε)
    (p q : Polar (Flt f)) (f1 : p.mag.IsFinite) (f2 : p.ang.IsFinite) (f3 : q.mag.IsFinite) (f4 : q.ang.IsFinite)
    (v1 : p.mag.Valid) (v2 : p.ang.Valid) (v3 : q.mag.Valid) (v4 : q.ang.Valid) (P Q T U H Ep Eq : ℝ)
    (hP : P = |(p.mag.val : ℝ)|) (hQ : Q = |(q.mag.val : ℝ)|) (hT : T = |(p.ang.val : ℝ)| + |(q.ang.val : ℝ)|)
    (hU : U = 1 / 2 ^ f.p) (hH : H = 2 ^ f.emin) (hEp : Ep = ε + ((|(p.ang.val : ℝ)| + 4) ^ 2 / 6 + 2) * U)
    (hEq : Eq = ε + ((|(q.ang.val : ℝ)| + 4) ^ 2 / 6 + 2) * U) (hEp1 : Ep ≤ 1) (hEq1 : Eq ≤ 1)
    (ha : T ≤ 2 ^ f.p / 20) (hp : 4 * P ≤ 2 ^ f.emax) (hq : 4 * Q ≤ 2 ^ f.emax) (hpq : 16 * ((P + H) * (Q + H)) ≤ 2 ^ f.emax) :
    ∃ c d : Cartesian (Flt f),
      Returns (do Polar.toCartesian (← p.mul q)) c ∧ Returns (do Cartesian.mul (← p.toCartesian) (← q.toCartesian)) d ∧
      (∀ C : ℝ, C = (P * Q * (1 + U) + H) * (ε + ((T + 5) ^ 2 / 6 + 2) * U) + P * Q * ((1 + T) * U + H) + 2 * H →
        |(c.re.val : ℝ) - p.mag.val * q.mag.val * Real.cos (p.ang.val + q.ang.val)| ≤ C ∧
        |(c.im.val : ℝ) - p.mag.val * q.mag.val * Real.sin (p.ang.val + q.ang.val)| ≤ C) ∧
      (∀ D : ℝ, D = 2 * ((P * (1 + Ep) + H) * (Q * (Eq + 5 * U) + 2 * H)) + 2 * (Q * (P * Ep + H)) + 2 * H →
        |(d.re.val : ℝ) - p.mag.val * q.mag.val * Real.cos (p.ang.val + q.ang.val)| ≤ D ∧
        |(d.im.val : ℝ) - p.mag.val * q.mag.val * Real.sin (p.ang.val + q.ang.val)| ≤ D) := by
  have hp24 := hf.p; have hmin := hf.emin; have hmax := hf.emax
  have hU0 : 0 < U := by rw [hU]; positivity
  have hU' : U ≤ 1 / 2 ^ 24 := by
    rw [hU]; apply one_div_le_one_div_of_le (by norm_num); exact pow_le_pow_right₀ (by norm_num) hp24
  have hH0 : 0 < H := by rw [hH]; positivity
  have hH1 : H ≤ 1 / 4 := by
    rw [hH]
    calc (2:ℝ) ^ f.emin ≤ 2 ^ (-2:ℤ) := zpow_le_zpow_right₀ (by norm_num) (by omega)
      _ = 1 / 4 := by norm_num
  have hP0 : 0 ≤ P := by rw [hP]; positivity
  have hQ0 : 0 ≤ Q := by rw [hQ]; positivity
  have hT0 : 0 ≤ T := by rw [hT]; positivity
  have hPQ0 := mul_nonneg hP0 hQ0
  have hTU : T * U ≤ 1 / 20 := by
    have := mul_le_mul_of_nonneg_right ha hU0.le
    rw [hU] at this ⊢
    refine this.trans (le_of_eq ?_)
    field_simp
  have hpe : (2:ℝ) ^ f.p / 20 * 4 ≤ 2 ^ f.emax := by
    have : (2:ℝ) ^ f.p ≤ 2 ^ f.emax := pow_le_pow_right₀ (by norm_num) (by omega)
    have : (0:ℝ) < 2 ^ f.p := by positivity
    linarith
  have hpqU : (P * Q) * 16 ≤ 2 ^ f.emax := by nlinarith
  have hbig : (1024:ℝ) ≤ 2 ^ f.emax := by
    calc (1024:ℝ) = 2 ^ 10 := by norm_num
      _ ≤ _ := pow_le_pow_right₀ (by norm_num) (by omega)
  have hsum : |(p.ang.val : ℝ) + q.ang.val| ≤ T := by rw [hT]; exact abs_add_le _ _
  -- first way
  obtain ⟨a, a1, ⟨av, af⟩, ⟨bv, bf⟩, a2, a3⟩ := polar_mul_float hf p q f1 f2 f3 f4 v1 v2 v3 v4
    (by
      have : 2 * (|(p.mag.val : ℝ)| * |(q.mag.val : ℝ)|) ≤ 2 ^ f.emax := by rw [← hP, ← hQ]; linarith
      exact_mod_cast this)
    (by
      have : 2 * |(p.ang.val : ℝ) + q.ang.val| ≤ 2 ^ f.emax := by linarith
      exact_mod_cast this)
  rw [← hP, ← hQ, ← hU, ← hH] at a2
  rw [← hU, ← hH] at a3
  have am : |(a.mag.val : ℝ)| ≤ P * Q * (1 + U) + H := by
    have := abs_sub_abs_le_abs_sub (a.mag.val : ℝ) (p.mag.val * q.mag.val)
    rw [abs_mul (p.mag.val : ℝ), ← hP, ← hQ] at this; linarith
  have aa : |(a.ang.val : ℝ)| ≤ T + 1 := by
    rcases a3 with a3 | ⟨-, -, a3⟩
    · have := abs_sub_abs_le_abs_sub (a.ang.val : ℝ) (p.ang.val + q.ang.val)
      have h2 := mul_le_mul_of_nonneg_right hsum hU0.le
      linarith
    · rw [a3]; simp; linarith
  have h20 : (2:ℝ) ^ f.p / 20 + 1 ≤ 2 ^ f.p / 10 := by
    have : (2:ℝ) ^ 24 ≤ 2 ^ f.p := pow_le_pow_right₀ (by norm_num) hp24
    norm_num at this; linarith
  have e1 : ε ≤ 1 := by
    have : 0 ≤ ((|(p.ang.val : ℝ)| + 4) ^ 2 / 6 + 2) * U := by positivity
    linarith
  obtain ⟨c, c1, -, -, c2, c3⟩ := C86_accuracy hf h60 hs e1 a af bf av bv (by linarith) (by
    have : 4 * |(a.mag.val : ℝ)| ≤ 2 ^ f.emax := by
      have : P * Q * U ≤ P * Q * 1 := mul_le_mul_of_nonneg_left (by norm_num at hU' ⊢; linarith) hPQ0
      linarith
    exact_mod_cast this)
  -- second way
  have adiv : ∀ x : ℝ, x / 2 ^ f.p = x * U := fun x => by rw [hU]; ring
  obtain ⟨x, x1, ⟨x4, x5⟩, ⟨x6, x7⟩, x2, x3⟩ := C86_accuracy hf h60 hs e1 p f1 f2 v1 v2
    (by have := abs_nonneg (q.ang.val : ℝ); have : (0:ℝ) < 2 ^ f.p := by positivity
        linarith) (by rw [hP] at hp; exact_mod_cast hp)
  rw [adiv, ← hEp, ← hP, ← hH] at x2 x3
  have cosle : ∀ M A : ℝ, |M * Real.cos A| ≤ |M| := fun M A => by
    rw [abs_mul]; exact mul_le_of_le_one_right (abs_nonneg _) (Real.abs_cos_le_one _)
  have sinle : ∀ M A : ℝ, |M * Real.sin A| ≤ |M| := fun M A => by
    rw [abs_mul]; exact mul_le_of_le_one_right (abs_nonneg _) (Real.abs_sin_le_one _)
  have xre : |(x.re.val : ℝ)| ≤ P * (1 + Ep) + H := by
    have := abs_sub_abs_le_abs_sub (x.re.val : ℝ) (p.mag.val * Real.cos p.ang.val)
    have := cosle p.mag.val p.ang.val; rw [← hP] at this; linarith
  have xim : |(x.im.val : ℝ)| ≤ P * (1 + Ep) + H := by
    have := abs_sub_abs_le_abs_sub (x.im.val : ℝ) (p.mag.val * Real.sin p.ang.val)
    have := sinle p.mag.val p.ang.val; rw [← hP] at this; linarith
  have Ep0 : 0 ≤ Ep := by rw [hEp]; positivity
  have Eq0 : 0 ≤ Eq := by rw [hEq]; positivity
  obtain ⟨d, d1, -, -, -, d2, d3⟩ := C98_mul_polar hf h60 hs hε x q x5 x7 f3 f4 x4 x6 v3 v4 Eq (by rw [hEq, adiv]) hEq1
    (by have := abs_nonneg (p.ang.val : ℝ); have : (0:ℝ) < 2 ^ f.p := by positivity
        linarith) (by rw [hQ] at hq; exact_mod_cast hq) (by
    have : 4 * ((|(x.re.val : ℝ)| + |(x.im.val : ℝ)|) * (|(q.mag.val : ℝ)| + 2 ^ f.emin)) ≤ 2 ^ f.emax := by
      rw [← hQ, ← hH]
      have h1 : |(x.re.val : ℝ)| + |(x.im.val : ℝ)| ≤ 4 * (P + H) := by nlinarith
      have h2 := mul_le_mul_of_nonneg_right h1 (add_nonneg hQ0 hH0.le)
      linarith
    have h8 : ((4 * ((|x.re.val| + |x.im.val|) * (|q.mag.val| + 2 ^ f.emin)) : ℚ) : ℝ) ≤ ((2 ^ f.emax : ℚ) : ℝ) := by
      push_cast; exact this
    exact Rat.cast_le.mp h8)
  rw [adiv, ← hQ, ← hH] at d2 d3
  have d0 : Returns (do Cartesian.mul (← p.toCartesian) (← q.toCartesian)) d := by
    have x1' : Returns p.toCartesian x := x1
    exact x1'.bind d1
  refine ⟨c, d, a1.bind c1, d0, ?_, ?_⟩
  · rintro C rfl
    rw [adiv, ← hH] at c2 c3
    have le : |(a.mag.val : ℝ)| * (ε + ((|(a.ang.val : ℝ)| + 4) ^ 2 / 6 + 2) * U) ≤
        (P * Q * (1 + U) + H) * (ε + ((T + 5) ^ 2 / 6 + 2) * U) := by
      have h1 : (|(a.ang.val : ℝ)| + 4) ^ 2 ≤ (T + 5) ^ 2 := pow_le_pow_left₀ (by positivity) (by linarith) 2
      have h2 := mul_le_mul_of_nonneg_right h1 hU0.le
      have h3 : ε + ((|(a.ang.val : ℝ)| + 4) ^ 2 / 6 + 2) * U ≤ ε + ((T + 5) ^ 2 / 6 + 2) * U := by linarith
      exact mul_le_mul am h3 (by positivity) (by positivity)
    have g : ∀ t S S' : ℝ, |t - a.mag.val * S| ≤ |(a.mag.val : ℝ)| * (ε + ((|(a.ang.val : ℝ)| + 4) ^ 2 / 6 + 2) * U) + H → |S| ≤ 1 →
        |S - S'| * (P * Q) ≤ P * Q * (T * U + H) →
        |t - p.mag.val * q.mag.val * S'| ≤
          (P * Q * (1 + U) + H) * (ε + ((T + 5) ^ 2 / 6 + 2) * U) + P * Q * ((1 + T) * U + H) + 2 * H := by
      intro t S S' h1 h2 h3
      have k1 : |(a.mag.val : ℝ) * S - p.mag.val * q.mag.val * S| ≤ P * Q * U + H / 2 := by
        rw [← sub_mul, abs_mul]; exact (mul_le_of_le_one_right (abs_nonneg _) h2).trans a2
      have k2 : |(p.mag.val : ℝ) * q.mag.val * S - p.mag.val * q.mag.val * S'| ≤ P * Q * (T * U + H) := by
        rw [← mul_sub, abs_mul, abs_mul, ← hP, ← hQ, _root_.mul_comm]; exact h3
      have t1 := abs_sub_le t (a.mag.val * S) (p.mag.val * q.mag.val * S')
      have t2 := abs_sub_le ((a.mag.val : ℝ) * S) (p.mag.val * q.mag.val * S) (p.mag.val * q.mag.val * S')
      linarith
    rcases a3 with a3 | ⟨a4, a5, -⟩
    · have k : |(a.ang.val : ℝ) - (p.ang.val + q.ang.val)| * (P * Q) ≤ P * Q * (T * U + H) := by
        rw [_root_.mul_comm]
        refine mul_le_mul_of_nonneg_left ?_ hPQ0
        have := mul_le_mul_of_nonneg_right hsum hU0.le
        linarith
      exact ⟨g _ _ _ c2 (Real.abs_cos_le_one _) ((mul_le_mul_of_nonneg_right (Real.abs_cos_sub_cos_le _ _) hPQ0).trans k),
        g _ _ _ c3 (Real.abs_sin_le_one _) ((mul_le_mul_of_nonneg_right (Real.abs_sin_sub_sin_le _ _) hPQ0).trans k)⟩
    · have z : P * Q = 0 := by
        rw [hP, hQ, ← abs_mul]
        have : (p.mag.val : ℝ) * q.mag.val = 0 := by exact_mod_cast a5
        rw [this, abs_zero]
      exact ⟨g _ _ _ c2 (Real.abs_cos_le_one _) (by rw [z]; simp), g _ _ _ c3 (Real.abs_sin_le_one _) (by rw [z]; simp)⟩
  · rintro D rfl
    have B0 : 0 ≤ Q * (Eq + 5 * U) + 2 * H := by positivity
    have k1 : (|(x.re.val : ℝ)| + |(x.im.val : ℝ)|) * (Q * (Eq + 5 * U) + 2 * H) ≤
        2 * ((P * (1 + Ep) + H) * (Q * (Eq + 5 * U) + 2 * H)) := by
      have := mul_le_mul_of_nonneg_right (add_le_add xre xim) B0; linarith
    obtain ⟨p3, p4⟩ := prod_err (x := q.mag.val * Real.cos q.ang.val) (y := q.mag.val * Real.sin q.ang.val) x2 x3
    have Bp0 : 0 ≤ P * Ep + H := by positivity
    have k2 : (|(q.mag.val : ℝ) * Real.cos q.ang.val| + |(q.mag.val : ℝ) * Real.sin q.ang.val|) * (P * Ep + H) ≤ 2 * (Q * (P * Ep + H)) := by
      have h1 := cosle q.mag.val q.ang.val; have h2 := sinle q.mag.val q.ang.val
      rw [← hQ] at h1 h2
      have := mul_le_mul_of_nonneg_right (add_le_add h1 h2) Bp0; linarith
    exact second_way d2 d3 p3 p4 (by linarith)

/-- The numeric hypotheses of `C153_float` for 2∠1 times 3∠-1 in single precision and a sincos good to 2^-22. -/
example : (1:ℝ) / 2 ^ 22 + ((1 + 4) ^ 2 / 6 + 2) * (1 / 2 ^ F32.p) ≤ 1 ∧ (1:ℝ) + 1 ≤ 2 ^ F32.p / 20 ∧
    16 * ((2 + (2:ℝ) ^ F32.emin) * (3 + 2 ^ F32.emin)) ≤ 2 ^ F32.emax := by
  refine ⟨by norm_num [F32], by norm_num [F32], ?_⟩
  have h : (2:ℝ) ^ F32.emin ≤ 1 := zpow_le_one_of_nonpos₀ (by norm_num) (by decide)
  have h0 : (0:ℝ) < 2 ^ F32.emin := by positivity
  have h2 : (192:ℝ) ≤ 2 ^ F32.emax := by norm_num [F32]
  nlinarith

end Float

end MixedNum
