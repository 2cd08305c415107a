import Verif.Props.Mul
import Verif.Props.Ints
import Verif.Props.SqrtFixed
import Verif.Props.AddSub
import Verif.Lemmas.Run
/-! # C72, C73, C74: magnitude, product and integer powers on fixed point, with rounding -/

namespace MixedNum
variable {m : Mode} {s : Bool} {W F : ℕ}
open Fixed

/-! ## C73 -/

/-- C73, overflow checks on: a product that returns is built from the four products rounded down. -/
theorem C73_checked_exact (a b c : Cartesian (Fixed .checked s W F)) (h : Returns (a.mul b) c) :
    c.re.val = a.re.val * b.re.val / 2 ^ F - a.im.val * b.im.val / 2 ^ F ∧
    c.im.val = a.re.val * b.im.val / 2 ^ F + a.im.val * b.re.val / 2 ^ F := by
  have key : ∀ n x r, (fit x : Prog (Fixed .checked s W F)) n = .ok r → r.val = x := by
    intro n x r hr
    by_cases hf : Fits s W x
    · rw [fit_of_fits hf] at hr; simp at hr; rw [← hr]; rfl
    · rw [fit_checked hf] at hr; simp at hr
  obtain ⟨N, hN⟩ := h
  have h := hN N (le_refl _)
  simp only [Cartesian.mul, ops.mulCartesian] at h
  obtain ⟨p1, h1, h⟩ := Prog.bind_ok_inv h
  obtain ⟨p2, h2, h⟩ := Prog.bind_ok_inv h
  obtain ⟨p3, h3, h⟩ := Prog.bind_ok_inv h
  obtain ⟨p4, h4, h⟩ := Prog.bind_ok_inv h
  obtain ⟨p5, h5, h⟩ := Prog.bind_ok_inv h
  obtain ⟨p6, h6, h⟩ := Prog.bind_ok_inv h
  simp only [Prog.pure_apply, Out.ok.injEq] at h
  have h1 := key _ _ _ h1; have h2 := key _ _ _ h2; have h3 := key _ _ _ h3
  have h4 := key _ _ _ h4; have h5 := key _ _ _ h5; have h6 := key _ _ _ h6
  rw [← h]; simp only [*, and_self]

example := C73_checked_exact ⟨fx .checked true 16 4 20, fx .checked true 16 4 30⟩ ⟨fx .checked true 16 4 30, fx .checked true 16 4 50⟩
  ⟨fx .checked true 16 4 (-56), fx .checked true 16 4 118⟩ (by run 0)

/-- C73, overflow checks on: it returns exactly when the four rounded products, their difference and their sum
are representable, and otherwise panics. -/
theorem C73_checked_domain (a b : Cartesian (Fixed .checked s W F)) :
    let P := InRange s W (a.re.val * b.re.val / 2 ^ F) ∧ InRange s W (a.im.val * b.im.val / 2 ^ F) ∧
      InRange s W (a.re.val * b.re.val / 2 ^ F - a.im.val * b.im.val / 2 ^ F) ∧
      InRange s W (a.re.val * b.im.val / 2 ^ F) ∧ InRange s W (a.im.val * b.re.val / 2 ^ F) ∧
      InRange s W (a.re.val * b.im.val / 2 ^ F + a.im.val * b.re.val / 2 ^ F)
    (P → ∃ c, Returns (a.mul b) c) ∧ (¬ P → Panics (a.mul b) .overflow) := by
  intro P
  simp only [P, inRange_iff]
  simp only [Cartesian.mul, ops.mulCartesian, Fixed.mul_def, Fixed.add_def, Fixed.sub_def]
  refine ⟨?_, ?_⟩
  · rintro ⟨h1, h2, h3, h4, h5, h6⟩
    refine ⟨⟨mkv _ h3, mkv _ h6⟩, .of_eq ?_⟩
    simp only [fit_of_fits, h1, h2, h3, h4, h5, h6, pure_bind, mkv_val]
  · intro h
    by_cases h1 : Fits s W (a.re.val * b.re.val / 2 ^ F)
    swap; · rw [fit_checked h1]; exact .of_eq rfl
    by_cases h2 : Fits s W (a.im.val * b.im.val / 2 ^ F)
    swap; · rw [fit_of_fits h1, fit_checked h2]; exact .of_eq rfl
    by_cases h3 : Fits s W (a.re.val * b.re.val / 2 ^ F - a.im.val * b.im.val / 2 ^ F)
    swap; · simp only [fit_of_fits h1, fit_of_fits h2, pure_bind, mkv_val, fit_checked h3]; exact .of_eq rfl
    by_cases h4 : Fits s W (a.re.val * b.im.val / 2 ^ F)
    swap; · simp only [fit_of_fits h1, fit_of_fits h2, pure_bind, mkv_val, fit_of_fits h3, fit_checked h4]; exact .of_eq rfl
    by_cases h5 : Fits s W (a.im.val * b.re.val / 2 ^ F)
    swap
    · simp only [fit_of_fits h1, fit_of_fits h2, pure_bind, mkv_val, fit_of_fits h3, fit_of_fits h4, fit_checked h5]
      exact .of_eq rfl
    by_cases h6 : Fits s W (a.re.val * b.im.val / 2 ^ F + a.im.val * b.re.val / 2 ^ F)
    · exact absurd ⟨h1, h2, h3, h4, h5, h6⟩ h
    · simp only [fit_of_fits h1, fit_of_fits h2, pure_bind, mkv_val, fit_of_fits h3, fit_of_fits h4, fit_of_fits h5,
        fit_checked h6]
      exact .of_eq rfl

/-- A quotient by a power of two rounded down, as a real number. -/
theorem floor_real (n : ℤ) : ((n / 2 ^ F : ℤ) : ℝ) ≤ n / 2 ^ F ∧ (n : ℝ) / 2 ^ F < ((n / 2 ^ F : ℤ) : ℝ) + 1 := by
  have hp : (0:ℤ) < 2 ^ F := by positivity
  have hp' : (0:ℝ) < 2 ^ F := by positivity
  have h1 : n / 2 ^ F * 2 ^ F ≤ n := Int.ediv_mul_le _ hp.ne'
  have h2 : n < (n / 2 ^ F + 1) * 2 ^ F := Int.lt_ediv_add_one_mul_self _ hp
  rw [le_div_iff₀ hp', div_lt_iff₀ hp']
  exact ⟨by exact_mod_cast h1, by exact_mod_cast h2⟩

/-- C73, overflow checks on: the real part is less than one unit in the last place off the exact product,
the imaginary part less than two units below it. -/
theorem C73_accuracy (a b c : Cartesian (Fixed .checked s W F)) (h : Returns (a.mul b) c) :
    |c.re.r - (a.re.r * b.re.r - a.im.r * b.im.r)| < 1 / 2 ^ F ∧
    c.im.r ≤ a.re.r * b.im.r + a.im.r * b.re.r ∧ a.re.r * b.im.r + a.im.r * b.re.r < c.im.r + 2 / 2 ^ F := by
  obtain ⟨h1, h2⟩ := C73_checked_exact a b c h
  have hp : (0:ℝ) < 2 ^ F := by positivity
  have e1 := floor_real (F := F) (a.re.val * b.re.val)
  have e2 := floor_real (F := F) (a.im.val * b.im.val)
  have e3 := floor_real (F := F) (a.re.val * b.im.val)
  have e4 := floor_real (F := F) (a.im.val * b.re.val)
  push_cast at e1 e2 e3 e4
  have f1 : (c.re.val : ℝ) = ((a.re.val * b.re.val / 2 ^ F : ℤ) : ℝ) - ((a.im.val * b.im.val / 2 ^ F : ℤ) : ℝ) := by
    rw [h1]; push_cast; rfl
  have f2 : (c.im.val : ℝ) = ((a.re.val * b.im.val / 2 ^ F : ℤ) : ℝ) + ((a.im.val * b.re.val / 2 ^ F : ℤ) : ℝ) := by
    rw [h2]; push_cast; rfl
  have g1 : a.re.r * b.re.r - a.im.r * b.im.r
      = ((a.re.val * b.re.val : ℝ) / 2 ^ F - (a.im.val * b.im.val : ℝ) / 2 ^ F) / 2 ^ F := by unfold r; ring
  have g2 : a.re.r * b.im.r + a.im.r * b.re.r
      = ((a.re.val * b.im.val : ℝ) / 2 ^ F + (a.im.val * b.re.val : ℝ) / 2 ^ F) / 2 ^ F := by unfold r; ring
  rw [g1, g2, r, r, f1, f2, ← sub_div, abs_div, abs_of_pos hp, ← add_div _ (2:ℝ), div_lt_div_iff_of_pos_right hp,
    div_le_div_iff_of_pos_right hp, div_lt_div_iff_of_pos_right hp, abs_lt]
  refine ⟨⟨?_, ?_⟩, ?_, ?_⟩ <;> linarith

example := C73_accuracy ⟨fx .checked true 16 4 20, fx .checked true 16 4 30⟩ ⟨fx .checked true 16 4 30, fx .checked true 16 4 50⟩
  ⟨fx .checked true 16 4 (-56), fx .checked true 16 4 118⟩ (by run 0)

/-- C73, overflow checks off: always returns, with the same results reduced modulo `2^W`. -/
theorem C73_wrapping (hW : 0 < W) (a b : Cartesian (Fixed .wrapping s W F)) :
    ∃ c, Returns (a.mul b) c ∧
      IsReduction s W (a.re.val * b.re.val / 2 ^ F - a.im.val * b.im.val / 2 ^ F) c.re.val ∧
      IsReduction s W (a.re.val * b.im.val / 2 ^ F + a.im.val * b.re.val / 2 ^ F) c.im.val := by
  refine ⟨_, .of_eq (by simp only [Cartesian.mul, ops.mulCartesian, Fixed.mul_def, Fixed.add_def, Fixed.sub_def,
    Fixed.fit_wrapping, pure_bind, Fixed.mkv_val]; rfl), ?_, ?_⟩
  · simp only [Fixed.mkv_val]
    exact ⟨(isReduction_wrapInt hW _).1, (wrapInt_modEq hW _).trans
      ((wrapInt_modEq hW _).sub (wrapInt_modEq hW _))⟩
  · simp only [Fixed.mkv_val]
    exact ⟨(isReduction_wrapInt hW _).1, (wrapInt_modEq hW _).trans
      ((wrapInt_modEq hW _).add (wrapInt_modEq hW _))⟩

-- (1.5 + 0.25i)(2 - 0.5i) = 3.125 - 0.25i in FixedI8<4>, exactly
example : Cartesian.mul ⟨fx .checked true 8 4 24, fx .checked true 8 4 4⟩ ⟨fx .checked true 8 4 32, fx .checked true 8 4 (-8)⟩
    = pure ⟨fx .checked true 8 4 50, fx .checked true 8 4 (-4)⟩ := by rfl
-- the difference 4·1 - 0 and the sum fit, but 4·4 does not: panic
example : Panics (Cartesian.mul ⟨fx .checked true 8 4 64, fx .checked true 8 4 0⟩ ⟨fx .checked true 8 4 64, fx .checked true 8 4 0⟩)
    .overflow := (C73_checked_domain _ _).2 (by decide)

/-! ## C74 -/

theorem powiLoop_unit (h1 : Fits s W (2 ^ F)) {x : Fixed m s W F} (hx : |x.val| ≤ 2 ^ F) :
    ∀ (k j : ℕ) (t : Fixed m s W F), |t.val| ≤ 2 ^ F → |t.r - x.r ^ (j + 1)| ≤ j / 2 ^ F →
      ∃ z : Fixed m s W F, powiLoop x k t = pure z ∧ |z.val| ≤ 2 ^ F ∧ |z.r - x.r ^ (j + 1 + k)| ≤ ((j + k : ℕ) : ℝ) / 2 ^ F := by
  intro k
  have hp : (0:ℤ) < 2 ^ F := by positivity
  have hp' : (0:ℝ) < 2 ^ F := by positivity
  induction k with
  | zero => intro j t h2 h3; exact ⟨t, rfl, h2, h3⟩
  | succ k ih =>
    intro j t h2 h3
    have hb : |t.val * x.val / 2 ^ F| ≤ 2 ^ F := by
      have : |t.val * x.val| ≤ 2 ^ F * 2 ^ F := by rw [abs_mul]; exact mul_le_mul h2 hx (abs_nonneg _) hp.le
      have := abs_le.mp this
      rw [abs_le]
      constructor
      · rw [Int.le_ediv_iff_mul_le hp]; linarith
      · rw [← Int.lt_add_one_iff, Int.ediv_lt_iff_lt_mul hp]; linarith
    have hf : Fits s W (t.val * x.val / 2 ^ F) := by
      have := abs_le.mp hb
      cases s
      · have ht := t.fits.1; have hx0 := x.fits.1
        refine ⟨?_, lt_of_le_of_lt this.2 h1.2⟩
        have e0 : wlo false W = 0 := by simp [wlo]
        rw [e0] at ht hx0 ⊢
        exact Int.ediv_nonneg (mul_nonneg ht hx0) hp.le
      · rw [fits_signed] at h1 ⊢
        constructor <;> linarith
    obtain ⟨y, hy, hyv⟩ := fit_val (m := m) (F := F) hf
    have hyr : |y.r - t.r * x.r| ≤ 1 / 2 ^ F := by
      have := floor_real (F := F) (t.val * x.val)
      push_cast at this
      have e : y.r - t.r * x.r = (((t.val * x.val / 2 ^ F : ℤ) : ℝ) - t.val * x.val / 2 ^ F) / 2 ^ F := by
        rw [r, hyv, r, r]; ring
      rw [e, abs_div, abs_of_pos hp', div_le_div_iff_of_pos_right hp', abs_le]
      constructor <;> linarith
    have hxr : |x.r| ≤ 1 := by
      rw [r, abs_div, abs_of_pos hp', div_le_one hp']
      exact_mod_cast hx
    obtain ⟨z, hz, hz1, hz2⟩ := ih (j + 1) y (by rw [hyv]; exact hb) (by
      have e : y.r - x.r ^ (j + 1 + 1) = (y.r - t.r * x.r) + (t.r - x.r ^ (j + 1)) * x.r := by ring
      rw [e]
      refine (abs_add_le _ _).trans ?_
      rw [abs_mul]
      have := mul_le_mul h3 hxr (abs_nonneg _) (by positivity)
      push_cast
      rw [add_div]
      linarith)
    refine ⟨z, ?_, hz1, ?_⟩
    · rw [powiLoop, mul_def, hy, pure_bind, hz]
    · rw [show j + 1 + (k + 1) = j + 1 + 1 + k by ring, show j + (k + 1) = j + 1 + k by ring]; exact hz2

/-- C74: on a type that holds 1, an integer power `n ≥ 1` of a number of magnitude at most 1 never overflows, stays in
`[-1, 1]`, and is at most `n - 1` units in the last place off. -/
theorem C74_accuracy (h1 : InRange s W (2 ^ F)) (x : Fixed m s W F) (hx : |x.r| ≤ 1) (n : ℕ) (hn : 1 ≤ n) (hn' : n < 2 ^ 31) :
    ∃ z : Fixed m s W F, Returns (MixedPowi.powi x (n : ℤ)) z ∧ |z.r| ≤ 1 ∧ |z.r - x.r ^ n| ≤ ((n - 1 : ℕ) : ℝ) / 2 ^ F := by
  have hp : (0:ℝ) < 2 ^ F := by positivity
  have hxv : |x.val| ≤ 2 ^ F := by
    rw [r, abs_div, abs_of_pos hp, div_le_one hp] at hx; exact_mod_cast hx
  obtain ⟨z, hz, hz1, hz2⟩ := powiLoop_unit (inRange_iff.mp h1) hxv (n - 1) 0 x hxv (by simp)
  refine ⟨z, .of_eq ?_, ?_, ?_⟩
  · show mixedPowiVia x n = _
    rw [mixedPowiVia, usizeOfI32_nat n hn', powi, if_neg (by omega), hz]
  · rw [r, abs_div, abs_of_pos hp, div_le_one hp]; exact_mod_cast hz1
  · rw [show 0 + 1 + (n - 1) = n by omega, Nat.zero_add] at hz2; exact hz2

/-- C74: exponent 0 gives 1 for every number, 0 included. -/
theorem C74_zero (h1 : InRange s W (2 ^ F)) (x : Fixed m s W F) : ∃ z : Fixed m s W F, Returns (MixedPowi.powi x 0) z ∧ z.r = 1 := by
  obtain ⟨z, hz, hv⟩ := fit_val (m := m) (F := F) (inRange_iff.mp h1)
  refine ⟨z, .of_eq ?_, ?_⟩
  · show mixedPowiVia x 0 = _
    rw [mixedPowiVia, show usizeOfI32 0 = 0 by decide, powi, if_pos rfl, ← hz]
    show fit ((1:ℤ) * 2 ^ F) = _
    rw [one_mul]
  · rw [r, hv]; push_cast; exact div_self (by positivity)

example : ∃ z : Fixed .checked true 16 12, Returns (MixedPowi.powi (fx .checked true 16 12 (-2048)) 7) z ∧ |z.r| ≤ 1 ∧
    |z.r - (-1/2) ^ 7| ≤ 6 / 2 ^ 12 := by
  have e : (fx .checked true 16 12 (-2048)).r = -1/2 := by
    rw [r, show (fx .checked true 16 12 (-2048)).val = -2048 by decide]; norm_num
  have := C74_accuracy (by decide) (fx .checked true 16 12 (-2048)) (by rw [e]; norm_num [abs_le]) 7 (by norm_num) (by norm_num)
  rw [e] at this; exact_mod_cast this

/-! ## C72 -/

/-- The square of the magnitude as the code computes it: two squares rounded down, added. -/
def sqSum (F : ℕ) (z : Cartesian (Fixed m s W F)) : ℤ := z.re.val * z.re.val / 2 ^ F + z.im.val * z.im.val / 2 ^ F

theorem sqSum_nonneg (z : Cartesian (Fixed m s W F)) : 0 ≤ sqSum F z :=
  add_nonneg (Int.ediv_nonneg (mul_self_nonneg _) (by positivity)) (Int.ediv_nonneg (mul_self_nonneg _) (by positivity))

theorem sqSum_near (z : Cartesian (Fixed m s W F)) :
    (sqSum F z : ℝ) / 2 ^ F ≤ z.re.r ^ 2 + z.im.r ^ 2 ∧ z.re.r ^ 2 + z.im.r ^ 2 < (sqSum F z : ℝ) / 2 ^ F + 2 / 2 ^ F := by
  have hp : (0:ℝ) < 2 ^ F := by positivity
  have e1 := floor_real (F := F) (z.re.val * z.re.val)
  have e2 := floor_real (F := F) (z.im.val * z.im.val)
  push_cast at e1 e2
  have e : z.re.r ^ 2 + z.im.r ^ 2 = ((z.re.val * z.re.val : ℝ) / 2 ^ F + (z.im.val * z.im.val : ℝ) / 2 ^ F) / 2 ^ F := by
    unfold r; ring
  have f : (sqSum F z : ℝ) = ((z.re.val * z.re.val / 2 ^ F : ℤ) : ℝ) + ((z.im.val * z.im.val / 2 ^ F : ℤ) : ℝ) := by
    rw [sqSum]; push_cast; rfl
  rw [e, f, ← add_div _ (2:ℝ), div_le_div_iff_of_pos_right hp, div_lt_div_iff_of_pos_right hp]
  constructor <;> linarith

theorem mag_eq_sqrt {z : Cartesian (Fixed m s W F)} (h : Fits s W (sqSum F z)) :
    ∃ t : Fixed m s W F, t.val = sqSum F z ∧ z.mag = MixedSqrt.sqrt t := by
  have n1 : 0 ≤ z.re.val * z.re.val / 2 ^ F := Int.ediv_nonneg (mul_self_nonneg _) (by positivity)
  have n2 : 0 ≤ z.im.val * z.im.val / 2 ^ F := Int.ediv_nonneg (mul_self_nonneg _) (by positivity)
  have h1 : Fits s W (z.re.val * z.re.val / 2 ^ F) := Fits.between (fits_zero _ _) h n1 (by unfold sqSum; omega)
  have h2 : Fits s W (z.im.val * z.im.val / 2 ^ F) := Fits.between (fits_zero _ _) h n2 (by unfold sqSum; omega)
  refine ⟨mkv _ h, rfl, ?_⟩
  unfold Cartesian.mag
  rw [sq_eq, sq_eq, fit_of_fits h1, fit_of_fits h2, pure_bind, pure_bind, add_def, mkv_val, mkv_val]
  show (do let t ← fit (sqSum F z); _) = _
  rw [fit_of_fits h, pure_bind]

/-- C72: the magnitude panics (overflow checks on) as soon as the sum of the rounded squares leaves the range. -/
theorem C72_overflow (z : Cartesian (Fixed .checked s W F))
    (h : ¬ InRange s W (z.re.val * z.re.val / 2 ^ F + z.im.val * z.im.val / 2 ^ F)) : Panics z.mag .overflow := by
  rw [inRange_iff] at h
  refine .of_eq ?_
  unfold Cartesian.mag
  rw [sq_eq, sq_eq]
  by_cases h1 : Fits s W (z.re.val * z.re.val / 2 ^ F)
  swap; · rw [fit_checked h1]; rfl
  by_cases h2 : Fits s W (z.im.val * z.im.val / 2 ^ F)
  swap; · rw [fit_of_fits h1, fit_checked h2]; rfl
  rw [fit_of_fits h1, fit_of_fits h2, pure_bind, pure_bind, add_def, mkv_val, mkv_val, fit_checked h]; rfl

example := C72_overflow ⟨fx .checked true 8 4 48, fx .checked true 8 4 64⟩ (by decide)

/-- C72: otherwise, on the signed types with a working square root, it returns within the square root's own error plus
`√(2 ulp)` of the true magnitude. -/
theorem C72_accuracy (hF : 2 ≤ F) (hW : 8 ≤ W) (hW' : W ≤ 128) (hK : F + 4 ≤ W) (z : Cartesian (Fixed m true W F))
    (h : InRange true W (z.re.val * z.re.val / 2 ^ F + z.im.val * z.im.val / 2 ^ F)) :
    ∃ v, Returns z.mag v ∧ |v.r - Real.sqrt (z.re.r ^ 2 + z.im.r ^ 2)| ≤
      (1 / 1000 + 12 / 2 ^ F) * Real.sqrt (z.re.r ^ 2 + z.im.r ^ 2) + 4 / 2 ^ F + Real.sqrt (2 / 2 ^ F) := by
  obtain ⟨t, ht, he⟩ := mag_eq_sqrt (inRange_iff.mp h)
  obtain ⟨n1, n2⟩ := sqSum_near z
  have n0 : (0:ℝ) ≤ (sqSum F z : ℝ) / 2 ^ F := div_nonneg (by exact_mod_cast sqSum_nonneg z) (by positivity)
  rw [he]
  have hs1 := Real.sqrt_le_sqrt n1
  have hs2 : Real.sqrt (z.re.r ^ 2 + z.im.r ^ 2) ≤ Real.sqrt ((sqSum F z : ℝ) / 2 ^ F) + Real.sqrt (2 / 2 ^ F) := by
    refine (Real.sqrt_le_sqrt n2.le).trans ?_
    rw [Real.sqrt_le_left (by positivity)]
    have a1 := Real.sq_sqrt n0
    have a2 := Real.sq_sqrt (show (0:ℝ) ≤ 2 / 2 ^ F by positivity)
    have := mul_nonneg (Real.sqrt_nonneg ((sqSum F z : ℝ) / 2 ^ F)) (Real.sqrt_nonneg (2 / 2 ^ F : ℝ))
    rw [add_sq, a1, a2]; linarith
  have hc : (0:ℝ) ≤ 1 / 1000 + 12 / 2 ^ F := by positivity
  have h4 : (0:ℝ) ≤ 4 / 2 ^ F := by positivity
  rcases (sqSum_nonneg z).lt_or_eq with hpos | hzero
  · obtain ⟨v, hv, hb⟩ := C49_accuracy hF hW hW' hK t (by rw [ht]; exact hpos)
    refine ⟨v, hv, ?_⟩
    rw [ht] at hb
    have := mul_le_mul_of_nonneg_left hs1 hc
    have := abs_le.mp hb
    rw [r, abs_le]
    constructor <;> linarith
  · obtain ⟨v, hv, hb⟩ := C49_zero t (by rw [ht]; exact hzero.symm)
    refine ⟨v, hv, ?_⟩
    rw [r, hb, Int.cast_zero, zero_div, zero_sub, abs_neg, abs_of_nonneg (Real.sqrt_nonneg _)]
    rw [← hzero, Int.cast_zero, zero_div, Real.sqrt_zero, zero_add] at hs2
    have := mul_nonneg hc (Real.sqrt_nonneg (z.re.r ^ 2 + z.im.r ^ 2))
    linarith

example := C72_accuracy (m := .checked) (W := 16) (F := 8) (by decide) (by decide) (by decide) (by decide) ⟨fx .checked true 16 8 768, fx .checked true 16 8 (-1024)⟩
  (by decide)

/-- C72: away from zero the loss from squaring is at most `2 ulp / |z|`. -/
theorem C72_relative (hF : 2 ≤ F) (hW : 8 ≤ W) (hW' : W ≤ 128) (hK : F + 4 ≤ W) (z : Cartesian (Fixed m true W F))
    (h : InRange true W (z.re.val * z.re.val / 2 ^ F + z.im.val * z.im.val / 2 ^ F))
    (h1 : 2 / 2 ^ F ≤ z.re.r ^ 2 + z.im.r ^ 2) :
    ∃ v, Returns z.mag v ∧ |v.r - Real.sqrt (z.re.r ^ 2 + z.im.r ^ 2)| ≤
      (1 / 1000 + 12 / 2 ^ F) * Real.sqrt (z.re.r ^ 2 + z.im.r ^ 2) + 4 / 2 ^ F +
        2 / 2 ^ F / Real.sqrt (z.re.r ^ 2 + z.im.r ^ 2) := by
  obtain ⟨t, ht, he⟩ := mag_eq_sqrt (inRange_iff.mp h)
  obtain ⟨n1, n2⟩ := sqSum_near z
  have n0 : (0:ℝ) < (sqSum F z : ℝ) / 2 ^ F := by linarith
  have hpos : 0 < sqSum F z := by
    have hp : (0:ℝ) < 2 ^ F := by positivity
    have := (div_pos_iff_of_pos_right hp).mp n0
    exact_mod_cast this
  obtain ⟨v, hv, hb⟩ := C49_accuracy hF hW hW' hK t (by rw [ht]; exact hpos)
  refine ⟨v, he ▸ hv, ?_⟩
  rw [ht] at hb
  set R := z.re.r ^ 2 + z.im.r ^ 2
  set S := (sqSum F z : ℝ) / 2 ^ F
  have hRp : 0 < R := lt_of_lt_of_le n0 n1
  have hs1 := Real.sqrt_le_sqrt n1
  have hs2 : Real.sqrt R - Real.sqrt S ≤ 2 / 2 ^ F / Real.sqrt R := by
    rw [le_div_iff₀ (Real.sqrt_pos.mpr hRp)]
    have a1 := Real.mul_self_sqrt hRp.le
    have a2 := Real.mul_self_sqrt n0.le
    have := mul_le_mul_of_nonneg_right hs1 (Real.sqrt_nonneg S)
    rw [sub_mul, a1]
    nlinarith [Real.sqrt_nonneg S, Real.sqrt_nonneg R]
  have hc : (0:ℝ) ≤ 1 / 1000 + 12 / 2 ^ F := by positivity
  have := mul_le_mul_of_nonneg_left hs1 hc
  have := abs_le.mp hb
  rw [r, abs_le]
  constructor <;> linarith

/-- C72, a limit of the code: if both squares are below one unit in the last place the magnitude is 0. -/
theorem C72_underflow (z : Cartesian (Fixed m s W F)) (h1 : z.re.r ^ 2 < 1 / 2 ^ F) (h2 : z.im.r ^ 2 < 1 / 2 ^ F) :
    ∃ v, Returns z.mag v ∧ v.val = 0 := by
  have hp : (0:ℤ) < 2 ^ F := by positivity
  have key : ∀ x : Fixed m s W F, x.r ^ 2 < 1 / 2 ^ F → x.val * x.val / 2 ^ F = 0 := by
    intro x hx
    have hp' : (0:ℝ) < 2 ^ F := by positivity
    rw [r, div_pow, sq ((2:ℝ) ^ F), ← div_div, div_lt_div_iff_of_pos_right hp', div_lt_one hp', sq] at hx
    exact Int.ediv_eq_zero_of_lt (mul_self_nonneg _) (by exact_mod_cast hx)
  have e : sqSum F z = 0 := by rw [sqSum, key _ h1, key _ h2]; rfl
  obtain ⟨t, ht, he⟩ := mag_eq_sqrt (z := z) (by rw [e]; exact fits_zero _ _)
  rw [he]; exact C49_zero t (ht.trans e)

example : ∃ v, Returns (Cartesian.mag ⟨fx .checked true 32 16 (3 * 2 ^ 16), fx .checked true 32 16 (-4 * 2 ^ 16)⟩) v ∧
    |v.r - 5| ≤ (1 / 1000 + 12 / 2 ^ 16) * 5 + 4 / 2 ^ 16 + 2 / 2 ^ 16 / 5 := by
  have e1 : (fx .checked true 32 16 (3 * 2 ^ 16)).r = 3 := by
    rw [r, show (fx .checked true 32 16 (3 * 2 ^ 16)).val = 3 * 2 ^ 16 by decide]; norm_num
  have e2 : (fx .checked true 32 16 (-4 * 2 ^ 16)).r = -4 := by
    rw [r, show (fx .checked true 32 16 (-4 * 2 ^ 16)).val = -4 * 2 ^ 16 by decide]; norm_num
  have := C72_relative (by norm_num) (by norm_num) (by norm_num) (by norm_num)
    (⟨fx .checked true 32 16 (3 * 2 ^ 16), fx .checked true 32 16 (-4 * 2 ^ 16)⟩ : Cartesian (Fixed .checked true 32 16)) (by decide)
    (by simp only [e1, e2]; norm_num)
  simp only [e1, e2] at this
  rwa [show Real.sqrt ((3:ℝ) ^ 2 + (-4) ^ 2) = 5 by rw [show (3:ℝ) ^ 2 + (-4) ^ 2 = 5 ^ 2 by norm_num]; exact Real.sqrt_sq (by norm_num)] at this

end MixedNum
