import Verif.Lemmas.HalfPi
import Verif.Lemmas.Arctan
import Verif.Model.Atan
/-! The polynomial atan2 on fixed point: stored integers, and the error of the quotient. -/

namespace MixedNum
namespace Fixed
variable {m : Mode} {W F K : ℕ}

/-- The stored integer of 0.28125. -/
def aRaw (F : ℕ) : ℤ := roundHalfEven ((9 / 32 : ℚ) * 2 ^ F)

theorem aRaw_bounds (F : ℕ) : 0 ≤ aRaw F ∧ 2 * aRaw F ≤ 2 ^ F := by
  have h1 : 0 ≤ aRaw F := le_roundHalfEven_of_le (by push_cast; positivity)
  refine ⟨h1, ?_⟩
  have h2 := roundHalfEven_le ((9 / 32 : ℚ) * 2 ^ F)
  rcases F with _ | _ | F
  · have : (aRaw 0 : ℚ) ≤ 25 / 32 := by refine h2.trans (by norm_num)
    have : (aRaw 0 : ℚ) < 1 := by linarith
    have : aRaw 0 < 1 := by exact_mod_cast this
    simp only [pow_zero]; omega
  · have : (aRaw 1 : ℚ) < 2 := by refine h2.trans_lt (by norm_num)
    have : aRaw 1 < 2 := by exact_mod_cast this
    simp only [zero_add, pow_one]; omega
  · have h3 : (1:ℚ) ≤ 2 ^ F := one_le_pow₀ (by norm_num)
    have : (2 * aRaw (F + 2) : ℚ) ≤ 2 ^ (F + 2) := by
      have : (aRaw (F + 2) : ℚ) ≤ 9 / 32 * 2 ^ (F + 2) + 1 / 2 := h2
      rw [pow_add] at this ⊢; linarith
    exact_mod_cast this

/-- Stored integer of numerator, and of denominator, of the quotient for the larger coordinate `b` and the smaller `s`. -/
def numRaw (F : ℕ) (b s : ℤ) : ℤ := b * s / 2 ^ F
def denRaw (F : ℕ) (b s : ℤ) : ℤ := b * b / 2 ^ F + aRaw F * (s * s / 2 ^ F) / 2 ^ F
def quoRaw (F : ℕ) (b s : ℤ) : ℤ := (numRaw F b s * 2 ^ F).tdiv (denRaw F b s)

section arith
variable {b s : ℤ}

theorem sq_le_of_abs (hs : |s| ≤ |b|) : s * s ≤ b * b := by
  rw [← abs_mul_abs_self s, ← abs_mul_abs_self b]; exact mul_self_le_mul_self (abs_nonneg _) hs

theorem small_bounds (F : ℕ) (hs : |s| ≤ |b|) :
    0 ≤ s * s / 2 ^ F ∧ s * s / 2 ^ F ≤ b * b / 2 ^ F ∧ 0 ≤ aRaw F * (s * s / 2 ^ F) / 2 ^ F ∧
    2 * (aRaw F * (s * s / 2 ^ F) / 2 ^ F) ≤ s * s / 2 ^ F := by
  have hP : (0:ℤ) < 2 ^ F := by positivity
  obtain ⟨a0, a1⟩ := aRaw_bounds F
  have h1 : 0 ≤ s * s / 2 ^ F := Int.ediv_nonneg (mul_self_nonneg s) hP.le
  refine ⟨h1, Int.ediv_le_ediv hP (sq_le_of_abs hs), Int.ediv_nonneg (mul_nonneg a0 h1) hP.le, ?_⟩
  set t := s * s / 2 ^ F
  have h2 : aRaw F * t / 2 ^ F * 2 ^ F ≤ aRaw F * t := Int.ediv_mul_le _ hP.ne'
  have h3 : 2 * aRaw F * t ≤ 2 ^ F * t := mul_le_mul_of_nonneg_right a1 h1
  refine le_of_mul_le_mul_right (a := 2 ^ F) ?_ hP
  linarith

theorem den_bounds (F : ℕ) (hs : |s| ≤ |b|) : b * b / 2 ^ F ≤ denRaw F b s ∧ 2 * denRaw F b s ≤ 3 * (b * b / 2 ^ F) := by
  have := small_bounds F hs; unfold denRaw; constructor <;> linarith

theorem num_bounds (F : ℕ) (hs : |s| ≤ |b|) :
    -(b * b / 2 ^ F + 1) ≤ numRaw F b s ∧ numRaw F b s ≤ b * b / 2 ^ F := by
  have hP : (0:ℤ) < 2 ^ F := by positivity
  have h : |b * s| ≤ b * b := by
    rw [abs_mul, ← abs_mul_abs_self b]; exact mul_le_mul_of_nonneg_left hs (abs_nonneg _)
  obtain ⟨h1, h2⟩ := abs_le.mp h
  refine ⟨?_, Int.ediv_le_ediv hP h2⟩
  unfold numRaw
  have h3 := Int.lt_ediv_add_one_mul_self (b * b) hP
  rw [Int.le_ediv_iff_mul_le hP]; linarith

theorem div_pos_iff (F : ℕ) (b : ℤ) : 1 ≤ b * b / 2 ^ F ↔ 2 ^ F ≤ b * b := by
  have hP : (0:ℤ) < 2 ^ F := by positivity
  rw [Int.le_ediv_iff_mul_le hP, one_mul]

theorem den_pos (hs : |s| ≤ |b|) (hb : 2 ^ F ≤ b * b) : 1 ≤ denRaw F b s :=
  ((div_pos_iff F b).mpr hb).trans (den_bounds F hs).1

theorem den_zero (hs : |s| ≤ |b|) (hb : b * b < 2 ^ F) : denRaw F b s = 0 := by
  have h1 : ¬ 1 ≤ b * b / 2 ^ F := by rw [div_pos_iff]; omega
  have h2 := small_bounds F hs
  have h3 := den_bounds F hs
  omega

theorem quo_bounds (hs : |s| ≤ |b|) (hb : 2 ^ F ≤ b * b) :
    |quoRaw F b s| ≤ 2 * 2 ^ F ∧ (0 ≤ b * s → 0 ≤ quoRaw F b s) ∧ (b * s ≤ 0 → quoRaw F b s ≤ 0) := by
  have hP : (0:ℤ) < 2 ^ F := by positivity
  have hd := den_pos hs hb
  have hD := (div_pos_iff F b).mpr hb
  obtain ⟨n1, n2⟩ := num_bounds F hs
  obtain ⟨d1, d2⟩ := den_bounds F hs
  have hn0 : 0 ≤ b * s → 0 ≤ numRaw F b s := fun h => Int.ediv_nonneg h hP.le
  have hn1 : b * s ≤ 0 → numRaw F b s ≤ 0 := fun h => Int.ediv_nonpos_of_nonpos_of_neg h hP
  unfold quoRaw
  set N := numRaw F b s
  set d := denRaw F b s
  rcases le_total 0 N with h | h
  · have h0 : 0 ≤ N * 2 ^ F := by positivity
    rw [Int.tdiv_eq_ediv_of_nonneg h0]
    have q0 : 0 ≤ N * 2 ^ F / d := Int.ediv_nonneg h0 (by omega)
    have q1 : N * 2 ^ F / d ≤ 2 * 2 ^ F := by
      refine Int.ediv_le_of_le_mul (by omega) ?_
      nlinarith [mul_le_mul_of_nonneg_right (n2.trans d1) hP.le, mul_nonneg hP.le (show 0 ≤ d by omega)]
    refine ⟨by rw [abs_of_nonneg q0]; exact q1, fun _ => q0, fun hbs => ?_⟩
    have : N = 0 := le_antisymm (hn1 hbs) h
    rw [this]; simp
  · have h0 : 0 ≤ -N * 2 ^ F := mul_nonneg (by omega) hP.le
    have e : (N * 2 ^ F).tdiv d = -(-N * 2 ^ F / d) := by
      rw [← Int.tdiv_eq_ediv_of_nonneg h0, neg_mul, Int.neg_tdiv, neg_neg]
    rw [e]
    have q0 : 0 ≤ -N * 2 ^ F / d := Int.ediv_nonneg h0 (by omega)
    have q1 : -N * 2 ^ F / d ≤ 2 * 2 ^ F := by
      refine Int.ediv_le_of_le_mul (by omega) ?_
      nlinarith [mul_le_mul_of_nonneg_right (show -N ≤ 2 * d by omega) hP.le]
    refine ⟨by rw [abs_neg, abs_of_nonneg q0]; exact q1, fun hbs => ?_, fun _ => by omega⟩
    have : N = 0 := le_antisymm h (hn0 hbs)
    rw [this]; simp

end arith

/-! ### Evaluation -/

theorem fits_abs_lt (hK : F + K + 1 ≤ W) {n : ℤ} (h1 : -(2 ^ K * 2 ^ F) ≤ n) (h2 : n < 2 ^ K * 2 ^ F) : Fits true W n := by
  have h3 := pow_le_of_bits (k := K) hK
  rw [fits_signed]; constructor <;> linarith

theorem powi_two (x : Fixed m true W F) : MixedPowi.powi x 2 = fit (x.val * x.val / 2 ^ F) := by
  show powi x (usizeOfI32 2) = _
  have e : usizeOfI32 2 = 2 := by decide
  rw [e, powi, if_neg (by norm_num), powiLoop]
  show (do let t ← NumOps.mul x x; powiLoop x 0 t) = _
  rw [mul_def]
  simp only [powiLoop, bind_pure]

theorem range_of (hK2 : 2 ≤ K) {b : ℤ} (h : 2 * (b * b) ≤ 2 ^ K * 2 ^ F * 2 ^ F) :
    2 * (b * b / 2 ^ F) ≤ 2 ^ K * 2 ^ F ∧ |b| < 2 ^ K * 2 ^ F := by
  have hP : (1:ℤ) ≤ 2 ^ F := one_le_pow₀ (by norm_num)
  have hQ : (4:ℤ) ≤ 2 ^ K := by
    calc (4:ℤ) = 2 ^ 2 := by norm_num
      _ ≤ 2 ^ K := pow_le_pow_right₀ (by norm_num) hK2
  constructor
  · have h1 : b * b / 2 ^ F * 2 ^ F ≤ b * b := Int.ediv_mul_le _ (by positivity)
    refine le_of_mul_le_mul_right (a := 2 ^ F) ?_ (by positivity)
    linarith
  · by_contra hc
    have hc := not_lt.mp hc
    have h2 : (2 ^ K * 2 ^ F) * (2 ^ K * 2 ^ F) ≤ |b| * |b| := mul_self_le_mul_self (by positivity) hc
    rw [abs_mul_abs_self] at h2
    have h3 : (0:ℤ) < 2 ^ K * 2 ^ F * 2 ^ F := by positivity
    nlinarith [mul_le_mul_of_nonneg_right hQ h3.le]

/-- The quotient whenever its denominator is representable. -/
theorem poly1_eq (h : F + 3 ≤ W) (y x : Fixed m true W F) (hs : |y.val| ≤ |x.val|)
    (hd : Fits true W (denRaw F x.val y.val)) :
    atanPoly1 y x = if denRaw F x.val y.val = 0 then Prog.fail .divByZero else fit (quoRaw F x.val y.val) := by
  have hP : (1:ℤ) ≤ 2 ^ F := one_le_pow₀ (by norm_num)
  have hW := pow_le_of_bits (F := F) (k := 2) (W := W) (by omega)
  obtain ⟨s1, s2, s3, s4⟩ := small_bounds F hs
  obtain ⟨n1, n2⟩ := num_bounds F hs
  obtain ⟨d1, d2⟩ := den_bounds F hs
  obtain ⟨a0, a1⟩ := aRaw_bounds F
  have hd' := hd
  rw [fits_signed] at hd'
  obtain ⟨-, hd'⟩ := hd'
  have hn : Fits true W (x.val * y.val / 2 ^ F) := by
    have : -(x.val * x.val / 2 ^ F + 1) ≤ x.val * y.val / 2 ^ F := n1
    have : x.val * y.val / 2 ^ F ≤ x.val * x.val / 2 ^ F := n2
    rw [fits_signed]; constructor <;> omega
  have hx : Fits true W (x.val * x.val / 2 ^ F) := by rw [fits_signed]; constructor <;> omega
  have hy : Fits true W (y.val * y.val / 2 ^ F) := by rw [fits_signed]; constructor <;> omega
  have ha : Fits true W (aRaw F) := by rw [fits_signed]; constructor <;> linarith
  have hm : Fits true W (aRaw F * (y.val * y.val / 2 ^ F) / 2 ^ F) := by rw [fits_signed]; constructor <;> omega
  unfold atanPoly1
  rw [mul_def, fit_of_fits hn, pure_bind, powi_two, fit_of_fits hx, pure_bind, ofF64_def,
    show roundHalfEven ((9 / 32 : ℚ) * 2 ^ F) = aRaw F from rfl, fit_of_fits ha, pure_bind, powi_two, fit_of_fits hy,
    pure_bind, mul_def]
  simp only [mkv_val]
  rw [fit_of_fits hm, pure_bind, add_def]
  simp only [mkv_val]
  rw [show x.val * x.val / 2 ^ F + aRaw F * (y.val * y.val / 2 ^ F) / 2 ^ F = denRaw F x.val y.val from rfl,
    fit_of_fits hd, pure_bind, div_def]
  simp only [mkv_val]
  rfl

theorem den_fits (hK : F + K + 1 ≤ W) (hK2 : 2 ≤ K) {b s : ℤ} (hs : |s| ≤ |b|)
    (hR : 2 * (b * b) ≤ 2 ^ K * 2 ^ F * 2 ^ F) : Fits true W (denRaw F b s) := by
  obtain ⟨r1, -⟩ := range_of (F := F) hK2 hR
  obtain ⟨d1, d2⟩ := den_bounds F hs
  obtain ⟨s1, s2, -, -⟩ := small_bounds F hs
  have hP : (0:ℤ) < 2 ^ K * 2 ^ F := by positivity
  exact fits_abs_lt hK (by linarith) (by linarith)

theorem poly2_eq_poly1 (y x : Fixed m true W F) : atanPoly2 y x = atanPoly1 x y := by
  unfold atanPoly1 atanPoly2
  rw [mul_def, mul_def, mul_comm x.val]

/-- The quotient, where the larger coordinate has a square of at least one unit. -/
theorem poly1_returns (h : F + 3 ≤ W) (y x : Fixed m true W F) (hs : |y.val| ≤ |x.val|)
    (hR : Fits true W (denRaw F x.val y.val)) (hD : 2 ^ F ≤ x.val * x.val) :
    ∃ q : Fixed m true W F, atanPoly1 y x = pure q ∧ q.val = quoRaw F x.val y.val := by
  have hP : (0:ℤ) < 2 ^ F := by positivity
  have hd := den_pos hs hD
  obtain ⟨q1, -, -⟩ := quo_bounds hs hD
  obtain ⟨q1, q2⟩ := abs_le.mp q1
  have hq : Fits true W (quoRaw F x.val y.val) := fits_abs_lt (K := 2) h (by linarith) (by linarith)
  exact ⟨mkv _ hq, by rw [poly1_eq h y x hs hR, if_neg (by omega), fit_of_fits hq], rfl⟩

theorem poly1_panics (h : F + 3 ≤ W) (y x : Fixed m true W F) (hs : |y.val| ≤ |x.val|)
    (hD : x.val * x.val < 2 ^ F) : atanPoly1 y x = Prog.fail .divByZero := by
  have hz := den_zero hs hD
  rw [poly1_eq h y x hs (by rw [hz]; exact fits_zero _ _), if_pos hz]

/-! ### The error of the quotient -/

theorem ediv_real {P : ℤ} (hP : 0 < P) (n : ℤ) : ((n / P : ℤ) : ℝ) * P ≤ n ∧ (n : ℝ) < ((n / P : ℤ) : ℝ) * P + P := by
  have h1 : n / P * P ≤ n := Int.ediv_mul_le _ hP.ne'
  have h2 : n < (n / P + 1) * P := Int.lt_ediv_add_one_mul_self _ hP
  refine ⟨by exact_mod_cast h1, ?_⟩
  have : (n:ℝ) < ((n / P : ℤ) + 1) * P := by exact_mod_cast h2
  linarith

theorem aRaw_close (F : ℕ) : |(aRaw F : ℝ) * u F - 9 / 32| ≤ u F / 2 := by
  have h := close_of_round (F := F) (q := 9 / 32) (r := 9 / 32) (e := 0) (by norm_num)
  rw [show (aRaw F : ℝ) * u F = aRaw F / 2 ^ F by unfold u; ring, show u F / 2 = 1 / 2 / 2 ^ F + 0 by unfold u; ring]
  exact h

/-- Rounding of a product. -/
theorem floor_mul_close (F : ℕ) (a b : ℤ) :
    ((a * b / 2 ^ F : ℤ) : ℝ) * u F ≤ (a * u F) * (b * u F) ∧
    (a * u F) * (b * u F) < ((a * b / 2 ^ F : ℤ) : ℝ) * u F + u F := by
  have hu := u_pos F; have hpu := pow_mul_u F
  obtain ⟨h1, h2⟩ := ediv_real (P := 2 ^ F) (by positivity) (a * b)
  push_cast at h1 h2
  have e1 := mul_le_mul_of_nonneg_right h1 (mul_pos hu hu).le
  have e2 := mul_lt_mul_of_pos_right h2 (mul_pos hu hu)
  have k1 : ((a * b / 2 ^ F : ℤ) : ℝ) * 2 ^ F * (u F * u F) = ((a * b / 2 ^ F : ℤ) : ℝ) * u F := by
    rw [show ((a * b / 2 ^ F : ℤ) : ℝ) * 2 ^ F * (u F * u F) = ((a * b / 2 ^ F : ℤ) : ℝ) * u F * (2 ^ F * u F) by ring, hpu,
      mul_one]
  have k2 : (2:ℝ) ^ F * (u F * u F) = u F := by rw [← mul_assoc, hpu, one_mul]
  constructor
  · calc _ = _ := k1.symm
      _ ≤ _ := e1
      _ = _ := by ring
  · calc (a * u F) * (b * u F) = (a:ℝ) * b * (u F * u F) := by ring
      _ < _ := e2
      _ = _ := by rw [add_mul, k1, k2]

theorem num_close (F : ℕ) (b s : ℤ) : |(numRaw F b s : ℝ) * u F - (b * u F) * (s * u F)| ≤ u F := by
  obtain ⟨h1, h2⟩ := floor_mul_close F b s
  have : (numRaw F b s : ℝ) = ((b * s / 2 ^ F : ℤ) : ℝ) := rfl
  rw [this, abs_le]; constructor <;> linarith

theorem den_close (F : ℕ) (b s : ℤ) :
    |(denRaw F b s : ℝ) * u F - ((b * u F) ^ 2 + 9 / 32 * (s * u F) ^ 2)| ≤ 5 / 2 * u F + u F / 2 * (s * u F) ^ 2 := by
  have hu := u_pos F; have hpu := pow_mul_u F
  obtain ⟨h1, h2⟩ := floor_mul_close F b b
  obtain ⟨h3, h4⟩ := floor_mul_close F s s
  obtain ⟨h5, h6⟩ := floor_mul_close F (aRaw F) (s * s / 2 ^ F)
  obtain ⟨a1, a2⟩ := abs_le.mp (aRaw_close F)
  have ha0 : (0:ℝ) ≤ aRaw F * u F := mul_nonneg (by exact_mod_cast (aRaw_bounds F).1) hu.le
  have ha1 : (aRaw F : ℝ) * u F ≤ 1 / 2 := by
    have : 2 * (aRaw F : ℝ) ≤ 2 ^ F := by exact_mod_cast (aRaw_bounds F).2
    have := mul_le_mul_of_nonneg_right this hu.le
    linarith
  have e : (denRaw F b s : ℝ) = ((b * b / 2 ^ F : ℤ) : ℝ) + ((aRaw F * (s * s / 2 ^ F) / 2 ^ F : ℤ) : ℝ) := by
    unfold denRaw; push_cast; rfl
  rw [e, add_mul]
  set a := (aRaw F : ℝ) * u F
  set S := (s : ℝ) * u F
  set B := (b : ℝ) * u F
  set t := ((s * s / 2 ^ F : ℤ) : ℝ) * u F
  set D := ((b * b / 2 ^ F : ℤ) : ℝ) * u F
  set E := ((aRaw F * (s * s / 2 ^ F) / 2 ^ F : ℤ) : ℝ) * u F
  -- a S² - a t between 0 and u/2
  have p1 : 0 ≤ a * (S * S - t) := mul_nonneg ha0 (by linarith)
  have p2 : a * (S * S - t) ≤ 1 / 2 * u F :=
    mul_le_mul ha1 (by linarith) (by linarith) (by norm_num)
  have p3 : |(a - 9 / 32) * S ^ 2| ≤ u F / 2 * S ^ 2 := by
    rw [abs_mul, abs_of_nonneg (sq_nonneg S)]
    exact mul_le_mul_of_nonneg_right (abs_le.mpr ⟨a1, a2⟩) (sq_nonneg S)
  obtain ⟨p4, p5⟩ := abs_le.mp p3
  rw [abs_le]; constructor <;> nlinarith

/-- The error of the computed quotient against `t/(1+9t²/32)`, `t` the ratio of the smaller to the larger coordinate. -/
theorem quo_close {b s : ℤ} (hs : |s| ≤ |b|) (hb : 2 ^ F ≤ b * b) :
    |(quoRaw F b s : ℝ) * u F - ratan (s / b)| ≤ 7 * u F / (b * u F) ^ 2 + 2 * u F := by
  have hu := u_pos F; have hpu := pow_mul_u F
  have hP : (0:ℝ) < 2 ^ F := by positivity
  have hb0 : b ≠ 0 := by rintro rfl; have : (0:ℤ) < 2 ^ F := by positivity
                         omega
  have hbr : (b:ℝ) ≠ 0 := by exact_mod_cast hb0
  have hd := den_pos hs hb
  have hB2 : u F ≤ (b * u F) ^ 2 := by
    have : (2:ℝ) ^ F ≤ b * b := by exact_mod_cast hb
    have := mul_le_mul_of_nonneg_right this (mul_pos hu hu).le
    rw [show (2:ℝ) ^ F * (u F * u F) = (2 ^ F * u F) * u F by ring, hpu, one_mul] at this
    nlinarith
  have hsB : (s * u F) ^ 2 ≤ (b * u F) ^ 2 := by
    have : (s:ℝ) * s ≤ b * b := by exact_mod_cast sq_le_of_abs hs
    have := mul_le_mul_of_nonneg_right this (mul_pos hu hu).le
    nlinarith
  have hratio : |(s:ℝ) / b| ≤ 1 := by
    rw [abs_div]; exact div_le_one_of_le₀ (by exact_mod_cast hs) (abs_nonneg _)
  have hrat1 : |ratan (s / b)| ≤ 1 := by
    unfold ratan
    rw [abs_div, abs_of_pos (ratan_den_pos _)]
    exact div_le_one_of_le₀ (hratio.trans (by nlinarith [sq_nonneg ((s:ℝ) / b)])) (ratan_den_pos _).le
  have hBpos : 0 < (b * u F) ^ 2 := lt_of_lt_of_le hu hB2
  rcases lt_or_ge ((b * u F) ^ 2) (2 * u F) with hsm | hlg
  · -- tiny: the bound is trivial
    have h1 : |(quoRaw F b s : ℝ) * u F| ≤ 2 := by
      have := (quo_bounds hs hb).1
      have : |(quoRaw F b s : ℝ)| ≤ 2 * 2 ^ F := by exact_mod_cast this
      rw [abs_mul, abs_of_pos hu]
      have := mul_le_mul_of_nonneg_right this hu.le
      linarith
    have h2 : 7 / 2 ≤ 7 * u F / (b * u F) ^ 2 := by
      rw [le_div_iff₀ hBpos]; linarith
    calc _ ≤ |(quoRaw F b s : ℝ) * u F| + |ratan (s / b)| := abs_sub _ _
      _ ≤ _ := by linarith
  · have hn := num_close F b s
    have hde := den_close F b s
    set B := (b:ℝ) * u F with hB
    set S := (s:ℝ) * u F with hS
    set N := (numRaw F b s : ℝ) * u F with hN
    set d := (denRaw F b s : ℝ) * u F with hdd
    set T := B ^ 2 + 9 / 32 * S ^ 2 with hT
    have hS0 := sq_nonneg S
    have hd1 : B ^ 2 / 2 ≤ d := by
      have h1 : (b * b / 2 ^ F : ℤ) ≤ denRaw F b s := (den_bounds F hs).1
      have h1' : ((b * b / 2 ^ F : ℤ) : ℝ) ≤ denRaw F b s := by exact_mod_cast h1
      have h2 := (floor_mul_close F b b).2
      have h3 := mul_le_mul_of_nonneg_right h1' hu.le
      have : B * B < d + u F := by rw [hB]; linarith
      nlinarith
    have hdpos : 0 < d := by linarith
    have hTpos : 0 < T := by positivity
    have hrat : ratan (s / b) = B * S / T := by
      unfold ratan
      rw [hT, hB, hS]
      have : ((b:ℝ) * u F) ^ 2 + 9 / 32 * (s * u F) ^ 2 ≠ 0 := by positivity
      have h2 : 1 + 9 / 32 * ((s:ℝ) / b) ^ 2 ≠ 0 := (ratan_den_pos _).ne'
      have hune := hu.ne'
      field_simp
    have hq1 : |(quoRaw F b s : ℝ) * u F - N / d| ≤ u F := by
      have h := abs_tdiv_sub (numRaw F b s * 2 ^ F) (y := denRaw F b s) (by omega)
      have hdr : (denRaw F b s : ℝ) ≠ 0 := by exact_mod_cast (show denRaw F b s ≠ 0 by omega)
      have e : N / d = ((numRaw F b s * 2 ^ F : ℤ) : ℝ) / (denRaw F b s) * u F := by
        rw [hN, hdd]; push_cast
        rw [mul_div_mul_right _ _ hu.ne',
          show (numRaw F b s : ℝ) * 2 ^ F / denRaw F b s * u F = numRaw F b s / denRaw F b s * (2 ^ F * u F) by ring, hpu,
          mul_one]
      rw [e, ← sub_mul, abs_mul, abs_of_pos hu]
      have := mul_le_mul_of_nonneg_right h.le hu.le
      rw [one_mul] at this; exact this
    have hq2 : |N / d - B * S / T| ≤ 7 * u F / B ^ 2 + u F := by
      have e : N / d - B * S / T = ((N - B * S) + (B * S / T) * (T - d)) / d := by field_simp; ring
      have hBST : |B * S / T| ≤ 1 := by rw [← hrat]; exact hrat1
      have h1 : |(N - B * S) + (B * S / T) * (T - d)| ≤ 7 / 2 * u F + u F / 2 * B ^ 2 := by
        calc _ ≤ |N - B * S| + |B * S / T| * |T - d| := (abs_add_le _ _).trans (by rw [abs_mul])
          _ ≤ u F + 1 * (5 / 2 * u F + u F / 2 * S ^ 2) := by
            refine add_le_add hn (mul_le_mul hBST ?_ (abs_nonneg _) zero_le_one)
            rw [abs_sub_comm]; exact hde
          _ ≤ _ := by nlinarith
      rw [e, abs_div, abs_of_pos hdpos, div_le_iff₀ hdpos]
      refine h1.trans ?_
      have hBne : B ≠ 0 := by intro h; rw [h] at hBpos; simp at hBpos
      have h2 : 7 * u F / B ^ 2 * (B ^ 2 / 2) = 7 / 2 * u F := by field_simp
      have h3 : (7 * u F / B ^ 2 + u F) * (B ^ 2 / 2) ≤ (7 * u F / B ^ 2 + u F) * d :=
        mul_le_mul_of_nonneg_left hd1 (by positivity)
      nlinarith
    rw [hrat]
    calc _ = |((quoRaw F b s : ℝ) * u F - N / d) + (N / d - B * S / T)| := by congr 1; ring
      _ ≤ _ := abs_add_le _ _
      _ ≤ _ := by linarith

end Fixed
end MixedNum
