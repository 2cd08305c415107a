import Verif.Props.DbFloat
import Verif.Props.Misc
import Verif.Lemmas.Shift
import Verif.Lemmas.RealParts
import Verif.Props.AddSub
import Verif.Lemmas.Run
import Verif.Lemmas.Case
/-! # C149: laws of the decibel conversions -/

namespace MixedNum
variable {f : Format}
open Flt

/-! ## Exact arithmetic -/

theorem mag2db_real {x : ℝ} (hx : 0 < x) : mag2db x = pure (20 * Real.logb 10 x) := by
  simp only [mag2db, RealI.ofI32_def, pure_bind, RealI.log10_pos hx, RealI.mul_def]; norm_num

theorem pow2db_real {x : ℝ} (hx : 0 < x) : pow2db x = pure (10 * Real.logb 10 x) := by
  simp only [pow2db, RealI.ofI32_def, pure_bind, RealI.log10_pos hx, RealI.mul_def]; norm_num

theorem db2mag_real (x : ℝ) : db2mag x = pure ((10:ℝ) ^ (x / 20)) := by
  simp only [db2mag, RealI.ofI32_def, pure_bind]
  rw [RealI.div_ne _ (by norm_num), pure_bind, RealI.exp10_def]; norm_num

theorem db2pow_real (x : ℝ) : db2pow x = pure ((10:ℝ) ^ (x / 10)) := by
  simp only [db2pow, RealI.ofI32_def, pure_bind]
  rw [RealI.div_ne _ (by norm_num), pure_bind, RealI.exp10_def]; norm_num

/-- C149: factors become summands, and a factor of ten is 20 dB of magnitude and 10 dB of power. -/
theorem C149_product (x y : ℝ) (hx : 0 < x) (hy : 0 < y) :
    (∃ a b, Returns (mag2db x) a ∧ Returns (mag2db y) b ∧ Returns (mag2db (x * y)) (a + b)) ∧
    (∃ a b, Returns (pow2db x) a ∧ Returns (pow2db y) b ∧ Returns (pow2db (x * y)) (a + b)) ∧
    Returns (mag2db (1:ℝ)) 0 ∧ Returns (mag2db (10:ℝ)) 20 ∧ Returns (pow2db (1:ℝ)) 0 ∧ Returns (pow2db (10:ℝ)) 10 := by
  have hl : Real.logb 10 (x * y) = Real.logb 10 x + Real.logb 10 y := Real.logb_mul hx.ne' hy.ne'
  have h1 : Real.logb 10 10 = 1 := Real.logb_self_eq_one (by norm_num)
  refine ⟨⟨_, _, .of_eq (mag2db_real hx), .of_eq (mag2db_real hy), .of_eq ?_⟩,
    ⟨_, _, .of_eq (pow2db_real hx), .of_eq (pow2db_real hy), .of_eq ?_⟩, .of_eq ?_, .of_eq ?_, .of_eq ?_, .of_eq ?_⟩
  · rw [mag2db_real (mul_pos hx hy), hl]; congr 1; ring
  · rw [pow2db_real (mul_pos hx hy), hl]; congr 1; ring
  · rw [mag2db_real one_pos]; simp
  · rw [mag2db_real (by norm_num), h1]; norm_num
  · rw [pow2db_real one_pos]; simp
  · rw [pow2db_real (by norm_num), h1]; norm_num

/-- C149: summands become factors, 0 dB is one, and the power that belongs to a level is the square of the magnitude. -/
theorem C149_sum (x y : ℝ) :
    (∃ a b, Returns (db2mag x) a ∧ Returns (db2mag y) b ∧ Returns (db2mag (x + y)) (a * b) ∧ 0 < a ∧ Returns (db2pow x) (a ^ 2)) ∧
    (∃ a b, Returns (db2pow x) a ∧ Returns (db2pow y) b ∧ Returns (db2pow (x + y)) (a * b) ∧ 0 < a) ∧
    Returns (db2mag (0:ℝ)) 1 ∧ Returns (db2pow (0:ℝ)) 1 := by
  have h10 : (0:ℝ) < 10 := by norm_num
  refine ⟨⟨_, _, .of_eq (db2mag_real x), .of_eq (db2mag_real y), .of_eq ?_, Real.rpow_pos_of_pos h10 _, .of_eq ?_⟩,
    ⟨_, _, .of_eq (db2pow_real x), .of_eq (db2pow_real y), .of_eq ?_, Real.rpow_pos_of_pos h10 _⟩, .of_eq ?_, .of_eq ?_⟩
  · rw [db2mag_real, ← Real.rpow_add h10]; congr 2; ring
  · rw [db2pow_real, ← Real.rpow_natCast, ← Real.rpow_mul h10.le]; congr 2; push_cast; ring
  · rw [db2pow_real, ← Real.rpow_add h10]; congr 2; ring
  · rw [db2mag_real]; simp
  · rw [db2pow_real]; simp

/-- C149: all four conversions are strictly increasing. -/
theorem C149_order (x y : ℝ) (h : x < y) :
    (0 < x → ∃ a b c d, Returns (mag2db x) a ∧ Returns (mag2db y) b ∧ a < b ∧ Returns (pow2db x) c ∧ Returns (pow2db y) d ∧ c < d) ∧
    ∃ a b c d, Returns (db2mag x) a ∧ Returns (db2mag y) b ∧ a < b ∧ Returns (db2pow x) c ∧ Returns (db2pow y) d ∧ c < d := by
  refine ⟨fun hx => ?_, ?_⟩
  · have hl := Real.logb_lt_logb (b := 10) (by norm_num) hx h
    exact ⟨_, _, _, _, .of_eq (mag2db_real hx), .of_eq (mag2db_real (hx.trans h)), by linarith, .of_eq (pow2db_real hx),
      .of_eq (pow2db_real (hx.trans h)), by linarith⟩
  · exact ⟨_, _, _, _, .of_eq (db2mag_real x), .of_eq (db2mag_real y), Real.rpow_lt_rpow_of_exponent_lt (by norm_num) (by linarith),
      .of_eq (db2pow_real x), .of_eq (db2pow_real y), Real.rpow_lt_rpow_of_exponent_lt (by norm_num) (by linarith)⟩

/-- A gain of 20 dB followed by one of 20 dB is a factor of 100. -/
example : Returns (mag2db ((10:ℝ) * 10)) 40 := by
  obtain ⟨⟨a, b, h1, h2, h3⟩, -, -, h10, -⟩ := C149_product 10 10 (by norm_num) (by norm_num)
  rw [h1.unique h10, h2.unique h10] at h3
  norm_num at h3 ⊢; exact h3

/-! ## Floats: exact laws, whatever the external functions are -/

/-- Doubling commutes with rounding on the grid of the format. -/
theorem rnd_double (hf : f.Wide) {q : ℚ} {k : ℤ} (hk : q = k * 2 ^ f.emin) : rnd f.p f.emin (2 * q) = 2 * rnd f.p f.emin q := by
  have hp := hf.p
  by_cases h : |q| < 2 ^ (f.emin + f.p - 1)
  · have hr : Rep f.p f.emin q := by
      refine ⟨k, f.emin, le_refl _, ?_, hk⟩
      rw [hk, abs_mul, abs_of_pos (two_zpow_pos f.emin), show f.emin + f.p - 1 = f.p - 1 + f.emin by ring, two_zpow_add] at h
      have h1 := lt_of_mul_lt_mul_right h (two_zpow_pos f.emin).le
      have h2 : |(k:ℚ)| < 2 ^ (f.p : ℤ) := h1.trans (zpow_lt_zpow_right₀ (by norm_num) (by omega))
      rw [zpow_natCast] at h2
      exact_mod_cast h2
    rw [rnd_rep hr, rnd_rep hr.two_mul]
  · rw [not_lt] at h
    have := rnd_shift (f := f) (q := q) (k := 1) (.inr ⟨h, by
      rw [abs_mul, zpow_one, abs_two]; linarith [abs_nonneg q]⟩)
    rw [zpow_one] at this
    rw [mul_comm 2 q, this]; ring

/-- Small positive whole numbers. -/
theorem two_fin (hf : f.Wide) {n : ℤ} (hn : 0 < n) (h : n ≤ 2 ^ 24) : (ofExact false (n:ℚ) : Flt f) = .fin false n := by
  obtain ⟨s, m, e, m0, hv, -, -⟩ := lit_int hf (n := n) (by rw [abs_of_pos hn]; exact h)
  have hnq : (0:ℚ) < n := by exact_mod_cast hn
  rw [e] at hv
  cases s
  · simp [Flt.val] at hv; rw [e, hv]
  · simp [Flt.val] at hv; linarith

/-- Twice a rounded number is twice the number, rounded. -/
theorem ofExact_double (hf : f.Wide) (z : Bool) {q : ℚ} {k : ℤ} (hk : q = k * 2 ^ f.emin) :
    (ofExact z (2 * q) : Flt f) = (ofExact false 2 : Flt f).mul (ofExact z q) := by
  have hp := hf.one_le
  have e := two_fin (f := f) hf (n := 2) (by norm_num) (by norm_num)
  rw [Int.cast_ofNat] at e
  rw [e]
  by_cases hq : q = 0
  · subst hq; cases z <;> simp [ofExact, Flt.mul, Flt.val]
  have hd := rnd_double hf (q := |q|) (k := |k|) (by rw [hk, abs_mul, abs_of_pos (two_zpow_pos f.emin)]; push_cast; rfl)
  rw [rnd_nonneg_eq (by positivity), rnd_nonneg_eq (abs_nonneg q)] at hd
  have h2 : |2 * q| = 2 * |q| := by rw [abs_mul, abs_two]
  have hr : 0 < roundTo f.p f.emin |q| := by
    have hge : (2:ℚ) ^ f.emin ≤ |q| := by
      rw [hk, abs_mul, abs_of_pos (two_zpow_pos f.emin)]
      have : (1:ℚ) ≤ |(k:ℚ)| := by
        have hk0 : k ≠ 0 := by rintro rfl; exact hq (by rw [hk]; simp)
        exact_mod_cast Int.one_le_abs hk0
      nlinarith [two_zpow_pos f.emin]
    have := rep_le_rnd hp hge (Rep.zpow hp (le_refl f.emin))
    rw [rnd_nonneg_eq (abs_nonneg q)] at this
    exact (two_zpow_pos f.emin).trans_le this
  have hlt : 2 * q < 0 ↔ q < 0 := by constructor <;> intro h <;> linarith
  have e1 : (ofExact z (2 * q) : Flt f) =
      if 2 * roundTo f.p f.emin |q| < 2 ^ f.emax then .fin (decide (q < 0)) (2 * roundTo f.p f.emin |q|) else .inf (decide (q < 0)) := by
    simp only [ofExact, mul_eq_zero, hq, OfNat.ofNat_ne_zero, or_false, if_false, h2, hd, hlt]
  have e2 : (ofExact z q : Flt f) =
      if roundTo f.p f.emin |q| < 2 ^ f.emax then .fin (decide (q < 0)) (roundTo f.p f.emin |q|) else .inf (decide (q < 0)) := by
    simp only [ofExact, hq, if_false]
  rw [e1, e2]
  set r := roundTo f.p f.emin |q| with hrdef
  by_cases hb : r < 2 ^ f.emax
  · rw [if_pos hb]
    have hrep : Rep f.p f.emin (2 * r) := by
      have := (rep_rnd (p := f.p) (emin := f.emin) hp |q|).two_mul
      rwa [rnd_nonneg_eq (abs_nonneg q)] at this
    have hrr := rnd_rep hrep
    rw [rnd_nonneg_eq (by positivity)] at hrr
    simp only [Flt.mul, Flt.val, Bool.false_xor]
    by_cases hn : q < 0
    · simp only [hn, decide_true, if_true, Bool.false_eq_true, if_false, ofExact]
      rw [if_neg (show ¬ (2:ℚ) * -r = 0 by intro h; linarith), show |(2:ℚ) * -r| = 2 * r by rw [mul_neg, abs_neg, abs_of_pos (by positivity)],
        hrr, decide_eq_true (show (2:ℚ) * -r < 0 by linarith)]
    · simp only [hn, decide_false, Bool.false_eq_true, if_false, ofExact]
      rw [if_neg (show ¬ (2:ℚ) * r = 0 by intro h; linarith), show |(2:ℚ) * r| = 2 * r by rw [abs_of_pos (by positivity)],
        hrr, decide_eq_false (show ¬ (2:ℚ) * r < 0 by linarith)]
  · rw [if_neg hb, if_neg (by linarith)]
    simp [Flt.mul]

/-- C149: on floats the decibels of a magnitude are exactly twice those of a power, for every float including zeros, infinities and
NaN, and whatever the external logarithm returns. -/
theorem C149_twice_float [Libm f] (hf : f.Wide) (x : Flt f) (hl : (Libm.log10 x).Valid) :
    ∃ d, Returns (pow2db x) d ∧ Returns (mag2db x) ((ofExact false 2 : Flt f).mul d) := by
  have e20 := two_fin (f := f) hf (n := 20) (by norm_num) (by norm_num)
  have e10 := two_fin (f := f) hf (n := 10) (by norm_num) (by norm_num)
  have e2 := two_fin (f := f) hf (n := 2) (by norm_num) (by norm_num)
  refine ⟨(ofExact false ((10:ℤ):ℚ) : Flt f).mul (Libm.log10 x), .of_eq rfl, .of_eq ?_⟩
  show pure ((ofExact false ((20:ℤ):ℚ) : Flt f).mul (Libm.log10 x)) = (pure _ : Prog (Flt f))
  congr 1
  rw [e20, e10]
  match Libm.log10 x, hl with
  | .nan, _ => rw [Int.cast_ofNat] at e2; rw [e2]; rfl
  | .inf s, _ => rw [Int.cast_ofNat] at e2; rw [e2]; simp [Flt.mul]
  | .fin s m, hv =>
    have hr := (is_of_valid hv).rep
    obtain ⟨k, hk⟩ := hr.units_emin
    have := ofExact_double hf (xor false s) (q := 10 * (Flt.fin s m : Flt f).val) (k := 10 * k) (by rw [hk]; push_cast; ring)
    show (ofExact _ _ : Flt f) = (ofExact false 2 : Flt f).mul (ofExact _ _)
    have c1 : (Flt.fin false ((20:ℤ):ℚ) : Flt f).val = 20 := by simp [Flt.val]
    have c2 : (Flt.fin false ((10:ℤ):ℚ) : Flt f).val = 10 := by simp [Flt.val]
    rw [c1, c2, ← this]; congr 1; ring

/-- The hypothesis is about the logarithm only; here of 2 on `f32`. -/
example [Libm F32] (hl : (Libm.log10 (.fin false 2 : Flt F32)).Valid) := C149_twice_float wide_F32 (.fin false 2) hl

/-- C149: on floats the magnitude that belongs to twice a level is exactly the power that belongs to the level, whatever the external
exponential returns; only a level whose double overflows is excepted. -/
theorem C149_half_float [Libm f] (hf : f.Wide) (x : Flt f) (hx : x.Valid) (h : 2 * |x.val| < 2 ^ f.emax) :
    ∃ r, Returns (db2pow x) r ∧ Returns (db2mag ((ofExact false 2 : Flt f).mul x)) r := by
  have hp := hf.one_le
  have e20 := two_fin (f := f) hf (n := 20) (by norm_num) (by norm_num)
  have e10 := two_fin (f := f) hf (n := 10) (by norm_num) (by norm_num)
  have e2 := two_fin (f := f) hf (n := 2) (by norm_num) (by norm_num)
  refine ⟨Libm.exp10 (x.div (ofExact false ((10:ℤ):ℚ))), .of_eq rfl, .of_eq ?_⟩
  show pure (Libm.exp10 (((ofExact false 2 : Flt f).mul x).div (ofExact false ((20:ℤ):ℚ)))) = (pure _ : Prog (Flt f))
  congr 2
  rw [Int.cast_ofNat] at e2
  rw [e20, e10, e2]
  match x, hx, h with
  | .nan, _, _ => rfl
  | .inf s, _, _ => simp [Flt.mul, Flt.div]
  | .fin s m, hv, h =>
    have ix := is_of_valid hv
    have hm0 : 0 ≤ m := by obtain ⟨_, _, e, h0, _⟩ := ix; cases e; exact h0
    have hd : (Flt.fin false 2 : Flt f).mul (.fin s m) = .fin s (m * 2 ^ (1:ℤ)) := by
      rw [zpow_one]
      have hr : Rep f.p f.emin (2 * m) := by
        have := ix.rep.abs.two_mul
        have e : |(Flt.fin s m : Flt f).val| = m := by cases s <;> simp [Flt.val, hm0]
        rwa [e] at this
      have hrr := rnd_rep hr
      rw [rnd_nonneg_eq (by positivity)] at hrr
      have hlt : 2 * m < 2 ^ f.emax := by
        have e : |(Flt.fin s m : Flt f).val| = m := by cases s <;> simp [Flt.val, hm0]
        rwa [e] at h
      by_cases hz : m = 0
      · subst hz; cases s <;> simp [Flt.mul, Flt.val, ofExact]
      · have hpos : 0 < m := lt_of_le_of_ne hm0 (Ne.symm hz)
        cases s
        · simp only [Flt.mul, Flt.val, Bool.false_xor, ofExact, Bool.false_eq_true, if_false]
          rw [if_neg (by positivity), abs_of_pos (by positivity), hrr, if_pos hlt, decide_eq_false (by linarith), _root_.mul_comm]
        · simp only [Flt.mul, Flt.val, Bool.false_xor, ofExact, Bool.false_eq_true, if_false, if_true]
          rw [if_neg (by intro h; linarith), show |(2:ℚ) * -m| = 2 * m by rw [mul_neg, abs_neg, abs_of_pos (by positivity)], hrr, if_pos hlt,
            decide_eq_true (by linarith), _root_.mul_comm]
    rw [hd]
    exact Shift.div (k := 1) ⟨s, m, rfl, rfl⟩ ⟨false, 10, by norm_num, by norm_num⟩

/-- The hypotheses hold of 13 decibels on `f32`. -/
example [Libm F32] := C149_half_float wide_F32 (.fin false 13) (by is_float 13 0) (by norm_num [Flt.val, F32])

/-! ## Floats: the laws up to rounding and the error of the external functions -/

/-- The decimal logarithm of a number near one. -/
theorem logb_near {t u : ℝ} (h : |t - 1| ≤ u) (hu : u ≤ 1 / 100) : |Real.logb 10 t| ≤ u / 2 := by
  obtain ⟨h1, h2⟩ := abs_le.mp h
  have ht : 0 < t := by linarith
  have hl10 : 2 ≤ Real.log 10 * (99 / 100) := by
    have e : Real.log 8 = 3 * Real.log 2 := by rw [show (8:ℝ) = 2 ^ 3 by norm_num, Real.log_pow]; norm_num
    have h3 : Real.log 8 ≤ Real.log 10 := Real.log_le_log (by norm_num) (by norm_num)
    have := Real.log_two_gt_d9
    norm_num at *; linarith
  have hpos : 0 < Real.log 10 := by linarith
  have up := Real.log_le_sub_one_of_pos ht
  have lo := Real.one_sub_inv_le_log_of_pos ht
  have lo' : -(100 / 99 * u) ≤ 1 - t⁻¹ := by
    have e : 1 - t⁻¹ = (t - 1) / t := by field_simp
    rw [e, le_div_iff₀ ht]; nlinarith
  rw [Real.logb, abs_le]
  constructor
  · rw [le_div_iff₀ hpos]; nlinarith
  · rw [div_le_iff₀ hpos]; nlinarith

section
variable [Libm f] {δ : ℝ}

/-- C149: on floats the decibels of a product are the sum of the decibels, up to the error of the external logarithm and rounding. -/
theorem C149_product_float (hf : f.Wide) (h : LibmWithin f δ) (hδ : 0 ≤ δ) (hδ' : δ ≤ 1 / 100)
    (hB : 1024 * max (-f.emin) f.emax ≤ 2 ^ f.emax)
    (x y : Flt f) (hx : x.Valid) (hxf : x.IsFinite) (hy : y.Valid) (hyf : y.IsFinite) (h0 : 0 < x.val) (h1 : 0 < y.val)
    (hlo : (2:ℚ) ^ (f.emin + f.p) ≤ x.val * y.val) (hhi : 2 * (x.val * y.val) ≤ 2 ^ f.emax) :
    (∃ a b c : Flt f, Returns (mag2db x) a ∧ Returns (mag2db y) b ∧ Returns (mag2db (x.mul y)) c ∧
      |(c.val : ℝ) - (a.val + b.val)| ≤
        20 * (2 * (δ + 2 / 2 ^ f.p) * (|Real.logb 10 x.val| + |Real.logb 10 y.val|) + 1 / 2 ^ f.p)) ∧
    (∃ a b c : Flt f, Returns (pow2db x) a ∧ Returns (pow2db y) b ∧ Returns (pow2db (x.mul y)) c ∧
      |(c.val : ℝ) - (a.val + b.val)| ≤
        10 * (2 * (δ + 2 / 2 ^ f.p) * (|Real.logb 10 x.val| + |Real.logb 10 y.val|) + 1 / 2 ^ f.p)) := by
  have hp := hf.p; have hmin := hf.emin; have hmax := hf.emax
  have ix : Is x x.val := by obtain ⟨_, _, rfl⟩ := hxf; exact is_of_valid hx
  have iy : Is y y.val := by obtain ⟨_, _, rfl⟩ := hyf; exact is_of_valid hy
  have hq : 0 < x.val * y.val := mul_pos h0 h1
  have hrel := abs_rnd_rel (p := f.p) (emin := f.emin) (q := x.val * y.val) (by
    rw [abs_of_pos hq]; exact (zpow_le_zpow_right₀ (by norm_num) (by omega)).trans hlo)
  have hU24 : (2:ℚ) ^ (-(f.p:ℤ)) ≤ 1 / 2 ^ 24 := by
    have : (2:ℚ) ^ (-(f.p:ℤ)) ≤ 2 ^ (-24:ℤ) := zpow_le_zpow_right₀ (by norm_num) (by omega)
    norm_num at *; exact this
  have hlt : |rnd f.p f.emin (x.val * y.val)| < 2 ^ f.emax := by
    have := abs_sub_abs_le_abs_sub (rnd f.p f.emin (x.val * y.val)) (x.val * y.val)
    rw [abs_of_pos hq] at *
    nlinarith
  have ip := ix.mul hf.one_le iy hlt
  set P := rnd f.p f.emin (x.val * y.val) with hP
  have hP0 : 0 < P := by
    have h2 := (abs_le.mp hrel).1
    rw [abs_of_pos hq] at h2; nlinarith
  have pv : (x.mul y).val = P := ip.val
  have pfin : (x.mul y).IsFinite := by obtain ⟨s, m, e⟩ := ip.fin; exact ⟨s, m, e⟩
  have hxR : (0:ℝ) < x.val := by exact_mod_cast h0
  have hyR : (0:ℝ) < y.val := by exact_mod_cast h1
  have hPR : (0:ℝ) < P := by exact_mod_cast hP0
  have hU : (0:ℝ) < 1 / 2 ^ f.p := by positivity
  have hU' : (1:ℝ) / 2 ^ f.p ≤ 1 / 2 ^ 24 := by
    apply one_div_le_one_div_of_le (by norm_num); exact pow_le_pow_right₀ (by norm_num) hp
  -- the logarithm of the rounded product
  have hlog : |Real.logb 10 P - (Real.logb 10 x.val + Real.logb 10 y.val)| ≤ 1 / 2 ^ f.p / 2 := by
    rw [← Real.logb_mul hxR.ne' hyR.ne', ← Real.logb_div hPR.ne' (mul_pos hxR hyR).ne']
    refine logb_near ?_ (by norm_num at *; linarith)
    have h8 := Rat.cast_le (K := ℝ).mpr hrel
    push_cast at h8; rw [zpow_neg, zpow_natCast, ← one_div] at h8
    have hxy := mul_pos hxR hyR
    rw [div_sub_one hxy.ne', abs_div, abs_of_pos hxy, div_le_iff₀ hxy]
    rw [abs_of_pos hxy] at h8; linarith
  have hη : (2:ℝ) ^ f.emin ≤ 1 / 2 ^ f.p * (1 / 2 ^ 24) := by
    have : (2:ℝ) ^ f.emin ≤ 2 ^ (-(f.p:ℤ) + -24) := zpow_le_zpow_right₀ (by norm_num) (by omega)
    rw [zpow_add₀ (by norm_num), zpow_neg, zpow_natCast] at this
    rw [one_div]; refine this.trans (le_of_eq ?_); norm_num
  have hη0 : (0:ℝ) < 2 ^ f.emin := zpow_pos (by norm_num) _
  have e2 : (2:ℝ) / 2 ^ f.p = 2 * (1 / 2 ^ f.p) := by ring
  obtain ⟨⟨a, a1, -, -, a4⟩, ⟨a', a1', -, -, a4'⟩⟩ := C99_to_db hf h hδ' hB x hx hxf h0
  obtain ⟨⟨b, b1, -, -, b4⟩, ⟨b', b1', -, -, b4'⟩⟩ := C99_to_db hf h hδ' hB y hy hyf h1
  obtain ⟨⟨c, c1, -, -, c4⟩, ⟨c', c1', -, -, c4'⟩⟩ := C99_to_db hf h hδ' hB (x.mul y) ip.valid pfin (by rw [pv]; exact hP0)
  rw [pv] at c4 c4'
  have key : ∀ (k a b c : ℝ), 10 ≤ k →
      |a - k * Real.logb 10 x.val| ≤ (δ + 2 / 2 ^ f.p) * (k * |Real.logb 10 x.val|) + 21 * 2 ^ f.emin →
      |b - k * Real.logb 10 y.val| ≤ (δ + 2 / 2 ^ f.p) * (k * |Real.logb 10 y.val|) + 21 * 2 ^ f.emin →
      |c - k * Real.logb 10 P| ≤ (δ + 2 / 2 ^ f.p) * (k * |Real.logb 10 P|) + 21 * 2 ^ f.emin →
      |c - (a + b)| ≤ k * (2 * (δ + 2 / 2 ^ f.p) * (|Real.logb 10 x.val| + |Real.logb 10 y.val|) + 1 / 2 ^ f.p) := by
    intro k a b c hk ha hb hc
    rw [e2] at *
    generalize (1:ℝ) / 2 ^ f.p = U at *
    generalize (2:ℝ) ^ f.emin = H at *
    generalize Real.logb 10 (x.val:ℝ) = X at *
    generalize Real.logb 10 (y.val:ℝ) = Y at *
    generalize Real.logb 10 (P:ℝ) = Q at *
    have hQ : |Q| ≤ |X| + |Y| + U / 2 := by
      have t1 := abs_sub_abs_le_abs_sub Q (X + Y)
      have t2 := abs_add_le X Y
      linarith
    have hD : 0 ≤ δ + 2 * U := by linarith
    have s1 : (δ + 2 * U) * (k * |Q|) ≤ (δ + 2 * U) * (k * (|X| + |Y| + U / 2)) :=
      mul_le_mul_of_nonneg_left (mul_le_mul_of_nonneg_left hQ (by linarith)) hD
    have s2 : |c - (a + b)| ≤ |c - k * Q| + k * |Q - (X + Y)| + |a - k * X| + |b - k * Y| := by
      have e : c - (a + b) = (c - k * Q) + k * (Q - (X + Y)) - (a - k * X) - (b - k * Y) := by ring
      have t : ∀ p q r s : ℝ, |p + q - r - s| ≤ |p| + |q| + |r| + |s| := by
        intro p q r s
        have := abs_sub (p + q - r) s; have := abs_sub (p + q) r; have := abs_add_le p q; linarith
      rw [e]; refine (t _ _ _ _).trans ?_
      rw [abs_mul, abs_of_nonneg (show (0:ℝ) ≤ k by linarith)]
    have s3 : k * |Q - (X + Y)| ≤ k * (U / 2) := mul_le_mul_of_nonneg_left hlog (by linarith)
    have s4 : (δ + 2 * U) * (k * (U / 2)) ≤ 1 / 50 * (k * (U / 2)) :=
      mul_le_mul_of_nonneg_right (by norm_num at *; linarith) (mul_nonneg (by linarith) (by linarith))
    have s5 : 63 * H ≤ 1 / 100 * (k * U) := by
      have : 10 * U ≤ k * U := mul_le_mul_of_nonneg_right hk hU.le
      norm_num at *; linarith
    have kU : 0 ≤ k * U := mul_nonneg (by linarith) hU.le
    have e5 : (δ + 2 * U) * (k * (|X| + |Y| + U / 2)) = (δ + 2 * U) * (k * |X|) + (δ + 2 * U) * (k * |Y|) + (δ + 2 * U) * (k * (U / 2)) := by ring
    have e6 : k * (2 * (δ + 2 * U) * (|X| + |Y|) + U) = 2 * ((δ + 2 * U) * (k * |X|)) + 2 * ((δ + 2 * U) * (k * |Y|)) + k * U := by ring
    rw [e6]; rw [e5] at s1; linarith
  exact ⟨⟨a, b, c, a1, b1, c1, key 20 _ _ _ (by norm_num) a4 b4 c4⟩, ⟨a', b', c', a1', b1', c1', key 10 _ _ _ (by norm_num) a4' b4' c4'⟩⟩

example [Libm F32] (h : LibmWithin F32 (2 / 2 ^ 24)) := C149_product_float Flt.wide_F32 h (by norm_num) (by norm_num) (by norm_num [F32]) (.fin false 3)
  (.fin false (1 / 2)) (by is_float 3 0) ⟨_, _, rfl⟩ (by is_float 1 (-1)) ⟨_, _, rfl⟩ (by norm_num [Flt.val]) (by norm_num [Flt.val])
  (by norm_num [Flt.val, F32]) (by norm_num [Flt.val, F32])

/-- C149: on floats a larger magnitude or power has more decibels, as soon as the two differ by more than the error of the external
logarithm. -/
theorem C149_order_float (hf : f.Wide) (h : LibmWithin f δ) (hδ' : δ ≤ 1 / 100)
    (hB : 1024 * max (-f.emin) f.emax ≤ 2 ^ f.emax)
    (x y : Flt f) (hx : x.Valid) (hxf : x.IsFinite) (hy : y.Valid) (hyf : y.IsFinite) (h0 : 0 < x.val) (h1 : 0 < y.val)
    (hxy : (δ + 2 / 2 ^ f.p) * (|Real.logb 10 x.val| + |Real.logb 10 y.val|) + 5 * 2 ^ f.emin <
      Real.logb 10 y.val - Real.logb 10 x.val) :
    ∃ a b c d : Flt f, Returns (mag2db x) a ∧ Returns (mag2db y) b ∧ a.val < b.val ∧
      Returns (pow2db x) c ∧ Returns (pow2db y) d ∧ c.val < d.val := by
  have hη0 : (0:ℝ) < 2 ^ f.emin := zpow_pos (by norm_num) _
  obtain ⟨⟨a, a1, -, -, a4⟩, ⟨c, c1, -, -, c4⟩⟩ := C99_to_db hf h hδ' hB x hx hxf h0
  obtain ⟨⟨b, b1, -, -, b4⟩, ⟨d, d1, -, -, d4⟩⟩ := C99_to_db hf h hδ' hB y hy hyf h1
  refine ⟨a, b, c, d, a1, b1, ?_, c1, d1, ?_⟩
  · have h2 := (abs_le.mp a4).2; have h3 := (abs_le.mp b4).1
    have : (a.val : ℝ) < b.val := by linarith
    exact_mod_cast this
  · have h2 := (abs_le.mp c4).2; have h3 := (abs_le.mp d4).1
    have : (c.val : ℝ) < d.val := by linarith
    exact_mod_cast this

end

/-- The sizes C149_product_float asks for hold of 3 and 5 in both formats. -/
example : (2:ℚ) ^ (F32.emin + F32.p) ≤ 3 * 5 ∧ 2 * (3 * 5 : ℚ) ≤ 2 ^ F32.emax ∧ (2:ℚ) ^ (F64.emin + F64.p) ≤ 3 * 5 ∧
    2 * (3 * 5 : ℚ) ≤ 2 ^ F64.emax := by
  have h : ∀ k : ℤ, k ≤ 0 → (2:ℚ) ^ k ≤ 3 * 5 := fun k hk => (zpow_le_one_of_nonpos₀ (by norm_num) hk).trans (by norm_num)
  exact ⟨h _ (by decide), by norm_num, h _ (by decide), by decide +kernel⟩

/-- The gap C149_order_float asks for is there between 1 and 10 with an external logarithm good to one percent. -/
example : ((1/100:ℝ) + 2 / 2 ^ F32.p) * (|Real.logb 10 (1:ℚ)| + |Real.logb 10 (10:ℚ)|) + 5 * 2 ^ F32.emin <
    Real.logb 10 (10:ℚ) - Real.logb 10 (1:ℚ) := by
  have h1 : Real.logb 10 10 = 1 := Real.logb_self_eq_one (by norm_num)
  have h2 : (2:ℝ) ^ F32.emin ≤ 2 ^ (-10:ℤ) := zpow_le_zpow_right₀ (by norm_num) (by decide)
  have h3 : (2:ℝ) / 2 ^ F32.p ≤ 1 / 100 := by norm_num
  push_cast; rw [h1, Real.logb_one, abs_zero, abs_one]
  have h4 : (2:ℝ) ^ (-10:ℤ) ≤ 1 / 1000 := by norm_num
  linarith

/-- C149_half_float on 3 dB: the hypothesis holds of an ordinary level. -/
example : (Flt.fin false 3 : Flt F32).Valid ∧ 2 * |(Flt.fin false 3 : Flt F32).val| < 2 ^ F32.emax :=
  ⟨⟨3, 0, by norm_num, by decide, by norm_num [pow2], by norm_num⟩, by norm_num [Flt.val]⟩

end MixedNum
