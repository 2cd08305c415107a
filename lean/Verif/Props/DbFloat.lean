import Verif.Props.Delegate
import Verif.Model.Db
import Mathlib.Analysis.Complex.ExponentialBounds
import Verif.Props.AddSub
import Verif.Lemmas.Run
import Verif.Lemmas.Case
/-! # C99: decibel conversions on floats -/

namespace MixedNum
variable {f : Format}
open Flt

/-! ## C99 -/

theorem log_ten_le : Real.log 10 ≤ 2.78 := by
  have h1 : Real.log 10 ≤ Real.log (2 ^ 4) := Real.log_le_log (by norm_num) (by norm_num)
  rw [Real.log_pow] at h1
  have := Real.log_two_lt_d9
  push_cast at h1; linarith

/-- A small error of the exponent. -/
theorem ten_pow_near {e t D : ℝ} (h : |e - t| ≤ D) (hD : D ≤ 1 / 28) :
    |(10:ℝ) ^ e - (10:ℝ) ^ t| ≤ 3.06 * D * (10:ℝ) ^ t := by
  have hpos : (0:ℝ) < 10 ^ t := Real.rpow_pos_of_pos (by norm_num) t
  have e1 : (10:ℝ) ^ e = 10 ^ t * Real.exp (Real.log 10 * (e - t)) := by
    rw [← Real.rpow_def_of_pos (by norm_num), ← Real.rpow_add (by norm_num)]; congr 1; ring
  have hl := log_ten_le
  have hl0 : 0 ≤ Real.log 10 := Real.log_nonneg (by norm_num)
  have hD0 := (abs_nonneg _).trans h
  set s := Real.log 10 * (e - t)
  have hs : |s| ≤ 2.78 * D := by
    rw [abs_mul, abs_of_nonneg hl0]; exact mul_le_mul hl h (abs_nonneg _) (by norm_num)
  have hs1 : |s| ≤ 1 / 10 := by norm_num at *; linarith
  have h2 := Real.abs_exp_sub_one_sub_id_le (x := s) (by linarith)
  have h3 : |Real.exp s - 1| ≤ 3.06 * D := by
    have h4 := abs_sub_abs_le_abs_sub (Real.exp s - 1) s
    have h5 : s ^ 2 ≤ |s| * (1 / 10) := by rw [← sq_abs, pow_two]; exact mul_le_mul_of_nonneg_left hs1 (abs_nonneg _)
    norm_num at *; linarith
  rw [e1, show (10:ℝ) ^ t * Real.exp s - 10 ^ t = (Real.exp s - 1) * 10 ^ t by ring, abs_mul, abs_of_pos hpos]
  exact mul_le_mul_of_nonneg_right h3 hpos.le

/-- Sizes of the format used for the logarithm: it never overflows. -/
theorem logb_bound {x : ℚ} (hr : Rep f.p f.emin x) (h0 : 0 < x) (hx : |x| < 2 ^ f.emax) {B : ℕ} (h1 : -f.emin ≤ B) (h2 : f.emax ≤ B) :
    |Real.logb 10 x| ≤ B / 3 := by
  have hxR : (0:ℝ) < x := by exact_mod_cast h0
  have hl2 : Real.logb 10 2 ≤ 1 / 3 := by
    rw [Real.logb_le_iff_le_rpow (by norm_num) (by norm_num)]
    have : ((2:ℝ) ^ (3:ℝ)) ^ (1 / 3 : ℝ) ≤ 10 ^ (1 / 3 : ℝ) := Real.rpow_le_rpow (by norm_num) (by norm_num) (by norm_num)
    rw [← Real.rpow_mul (by norm_num)] at this; norm_num at this ⊢; exact this
  have hl20 : 0 ≤ Real.logb 10 2 := Real.logb_nonneg (by norm_num) (by norm_num)
  have up : Real.logb 10 x ≤ f.emax * Real.logb 10 2 := by
    rw [← Real.logb_pow]
    refine Real.logb_le_logb_of_le (by norm_num) hxR ?_
    rw [abs_of_pos h0] at hx; exact_mod_cast hx.le
  have lo : (f.emin : ℝ) * Real.logb 10 2 ≤ Real.logb 10 x := by
    rw [show (f.emin : ℝ) * Real.logb 10 2 = Real.logb 10 ((2:ℝ) ^ f.emin) by
      rw [Real.logb, Real.logb, Real.log_zpow]; ring]
    refine Real.logb_le_logb_of_le (by norm_num) (zpow_pos (by norm_num) _) ?_
    have h8 := Rat.cast_le (K := ℝ).mpr (pos_ge hr h0)
    push_cast at h8; exact h8
  have h1' : -(f.emin : ℝ) ≤ B := by exact_mod_cast h1
  have h2' : (f.emax : ℝ) ≤ B := by exact_mod_cast h2
  rw [abs_le]; constructor <;> nlinarith

theorem rnd_real (t : ℚ) : |((rnd f.p f.emin t : ℚ) : ℝ) - t| ≤ |(t:ℝ)| * (1 / 2 ^ f.p) + 2 ^ f.emin / 2 := by
  have h8 := Rat.cast_le (K := ℝ).mpr (abs_rnd_le (p := f.p) (emin := f.emin) t)
  push_cast at h8; rw [zpow_neg, zpow_natCast, ← one_div] at h8; exact h8

section
variable [Libm f] {δ : ℝ}

/-- `k` times the decimal logarithm. -/
theorem log_scaled (hf : f.Wide) (h : LibmWithin f δ) (hδ' : δ ≤ 1 / 100) {B : ℕ} (hB1 : -f.emin ≤ B)
    (hB2 : f.emax ≤ B) (hB3 : 1024 * B ≤ 2 ^ f.emax) (k : ℕ) (hk : k ≤ 20) (x : Flt f) (hx : x.Valid) (hfin : x.IsFinite)
    (h0 : 0 < x.val) :
    ∃ d : Flt f, Returns (do NumOps.mul (← Lit.ofI32 k) (← MixedLog10.log10 x)) d ∧ d.Valid ∧ d.IsFinite ∧
      |(d.val : ℝ) - k * Real.logb 10 x.val| ≤ (δ + 2 / 2 ^ f.p) * (k * |Real.logb 10 x.val|) + 21 * 2 ^ f.emin := by
  have hp := hf.p; have hmin := hf.emin; have hmax := hf.emax
  have ix : Is x x.val := by obtain ⟨_, _, rfl⟩ := hfin; exact is_of_valid hx
  have hL := logb_bound ix.rep h0 ix.lt_max hB1 hB2
  have hB3' : (1024:ℝ) * B ≤ 2 ^ f.emax := by exact_mod_cast hB3
  have hxR : (0:ℝ) < x.val := by exact_mod_cast h0
  obtain ⟨l1, l2, l3⟩ := h.log10 x hx hfin _ (Real.rpow_logb (by norm_num) (by norm_num) hxR) (by
    have : (0:ℝ) ≤ B := by positivity
    linarith)
  set L := Real.logb 10 x.val
  set l := Libm.log10 x
  have il : Is l l.val := by obtain ⟨_, _, e⟩ := l2; rw [e]; rw [e] at l1; exact is_of_valid l1
  have ik0 : Is (ofExact false ((k:ℤ):ℚ) : Flt f) ((k:ℤ):ℚ) := lit_int hf (by
    rw [abs_of_nonneg (by positivity)]; have : (k:ℤ) ≤ 20 := by exact_mod_cast hk
    linarith)
  have ik : Is (ofExact false ((k:ℤ):ℚ) : Flt f) (k:ℚ) := by rw [Int.cast_natCast] at ik0 ⊢; exact ik0
  have hr := rnd_real (f := f) ((k:ℚ) * l.val)
  rw [Rat.cast_mul, Rat.cast_natCast] at hr
  have hη : (0:ℝ) < 2 ^ f.emin := zpow_pos (by norm_num) _
  have hη1 : (2:ℝ) ^ f.emin ≤ 1 := zpow_le_one_of_nonpos₀ (by norm_num) (by omega)
  have hU : (0:ℝ) < 1 / 2 ^ f.p := by positivity
  have hU' : (1:ℝ) / 2 ^ f.p ≤ 1 / 2 ^ 24 := by
    apply one_div_le_one_div_of_le (by norm_num); exact pow_le_pow_right₀ (by norm_num) hp
  have e2 : (2:ℝ) / 2 ^ f.p = 2 * (1 / 2 ^ f.p) := by ring
  have hbig : (1024:ℝ) ≤ 2 ^ f.emax := by
    calc (1024:ℝ) = 2 ^ 10 := by norm_num
      _ ≤ _ := pow_le_pow_right₀ (by norm_num) (by omega)
  rw [e2]
  generalize hUe : (1:ℝ) / 2 ^ f.p = U at *
  generalize hHe : (2:ℝ) ^ f.emin = H at *
  have k0 : (0:ℝ) ≤ k := by positivity
  have k20 : (k:ℝ) ≤ 20 := by exact_mod_cast hk
  have L0 := abs_nonneg L
  have hkL : (k:ℝ) * |L| ≤ 20 * (B / 3) := mul_le_mul k20 hL L0 (by norm_num)
  have kL0 := mul_nonneg k0 L0
  have s1 : |(k:ℝ) * l.val - k * L| ≤ δ * (k * |L|) + 20 * H := by
    rw [← mul_sub, abs_mul, abs_of_nonneg k0]
    have h1 := mul_le_mul_of_nonneg_left l3 k0
    have h2 : k * H ≤ 20 * H := mul_le_mul_of_nonneg_right k20 hη.le
    have e : (k:ℝ) * (δ * |L| + H) = δ * (k * |L|) + k * H := by ring
    linarith
  have s2 : |(k:ℝ) * l.val| ≤ (1 + δ) * (k * |L|) + 20 * H := by
    have := abs_sub_abs_le_abs_sub ((k:ℝ) * l.val) (k * L)
    have e : |(k:ℝ) * L| = k * |L| := by rw [abs_mul, abs_of_nonneg k0]
    linarith
  have s3 : |(k:ℝ) * l.val| * U ≤ ((1 + δ) * (k * |L|) + 20 * H) * U := mul_le_mul_of_nonneg_right s2 hU.le
  have s4 : δ * (k * |L|) ≤ 1 / 100 * (k * |L|) := mul_le_mul_of_nonneg_right hδ' kL0
  have s5 : U * (k * |L|) ≤ 1 / 2 ^ 24 * (k * |L|) := mul_le_mul_of_nonneg_right hU' kL0
  have s6 : U * H ≤ 1 / 2 ^ 24 * H := mul_le_mul_of_nonneg_right hU' hη.le
  have s7 : δ * (k * |L|) * U ≤ 1 / 100 * (k * |L|) * U := mul_le_mul_of_nonneg_right s4 hU.le
  have hlt : |rnd f.p f.emin ((k:ℚ) * l.val)| < 2 ^ f.emax := by
    have h1 := abs_sub_abs_le_abs_sub ((rnd f.p f.emin ((k:ℚ) * l.val) : ℚ) : ℝ) (k * l.val)
    have : |((rnd f.p f.emin ((k:ℚ) * l.val) : ℚ) : ℝ)| < 2 ^ f.emax := by norm_num at s5 s6; linarith
    exact_mod_cast this
  have im := ik.mul hf.one_le il hlt
  refine ⟨_, .of_eq rfl, im.valid, im.fin, ?_⟩
  show |((((ofExact false ((k:ℤ):ℚ) : Flt f).mul l).val : ℚ) : ℝ) - _| ≤ _
  rw [im.val]
  have h1 := abs_sub_le ((rnd f.p f.emin ((k:ℚ) * l.val) : ℚ) : ℝ) (k * l.val) (k * L)
  have u0 := mul_nonneg hU.le kL0
  norm_num at s6
  linarith

/-- Ten to the `k`-th part of a float. -/
theorem exp10_scaled (hf : f.Wide) (h : LibmWithin f δ) (hδ : 0 ≤ δ) (hδ' : δ ≤ 1 / 100) (k : ℕ) (hk : 10 ≤ k) (hk' : k ≤ 20)
    (x : Flt f) (hx : x.Valid) (hfin : x.IsFinite) (t D : ℝ)
    (hD : |(x.val : ℝ) / k - t| + |(x.val : ℝ) / k| / 2 ^ f.p + 2 ^ f.emin / 2 ≤ D) (hD' : D ≤ 1 / 28)
    (ho : 4 * (10:ℝ) ^ t ≤ 2 ^ f.emax) :
    ∃ r : Flt f, Returns (do let exponent ← NumOps.div x (← Lit.ofI32 k); MixedExp10.exp10 exponent) r ∧ r.Valid ∧ r.IsFinite ∧
      |(r.val : ℝ) - (10:ℝ) ^ t| ≤ (δ + 3.1 * D) * (10:ℝ) ^ t + 2 ^ f.emin := by
  have hp := hf.p; have hmin := hf.emin; have hmax := hf.emax
  have ix : Is x x.val := by obtain ⟨_, _, rfl⟩ := hfin; exact is_of_valid hx
  have ik0 : Is (ofExact false ((k:ℤ):ℚ) : Flt f) ((k:ℤ):ℚ) := lit_int hf (by
    rw [abs_of_nonneg (by positivity)]; have : (k:ℤ) ≤ 20 := by exact_mod_cast hk'
    linarith)
  have ik : Is (ofExact false ((k:ℤ):ℚ) : Flt f) (k:ℚ) := by rw [Int.cast_natCast] at ik0 ⊢; exact ik0
  have hk0 : (k:ℚ) ≠ 0 := by
    have : k ≠ 0 := by omega
    exact_mod_cast this
  have k10 : (10:ℝ) ≤ k := by exact_mod_cast hk
  have hr := rnd_real (f := f) (x.val / (k:ℚ))
  rw [Rat.cast_div, Rat.cast_natCast] at hr
  have hη : (0:ℝ) < 2 ^ f.emin := zpow_pos (by norm_num) _
  have hη1 : (2:ℝ) ^ f.emin ≤ 1 := zpow_le_one_of_nonpos₀ (by norm_num) (by omega)
  have hU : (0:ℝ) < 1 / 2 ^ f.p := by positivity
  have hU' : (1:ℝ) / 2 ^ f.p ≤ 1 / 2 ^ 24 := by
    apply one_div_le_one_div_of_le (by norm_num); exact pow_le_pow_right₀ (by norm_num) hp
  have hbig : (1024:ℝ) ≤ 2 ^ f.emax := by
    calc (1024:ℝ) = 2 ^ 10 := by norm_num
      _ ≤ _ := pow_le_pow_right₀ (by norm_num) (by omega)
  rw [show |(x.val : ℝ) / k| / 2 ^ f.p = |(x.val : ℝ) / k| * (1 / 2 ^ f.p) by ring] at hD
  generalize (1:ℝ) / 2 ^ f.p = U at *
  have hxk : |(x.val : ℝ) / k| ≤ |(x.val : ℝ)| / 10 := by
    rw [abs_div, abs_of_nonneg (by linarith : (0:ℝ) ≤ k)]
    exact div_le_div_of_nonneg_left (abs_nonneg _) (by norm_num) k10
  have hxm : |(x.val : ℝ)| < 2 ^ f.emax := by exact_mod_cast ix.lt_max
  have hxu : |(x.val : ℝ) / k| * U ≤ |(x.val : ℝ) / k| * (1 / 2 ^ 24) := mul_le_mul_of_nonneg_left hU' (abs_nonneg _)
  have hlt : |rnd f.p f.emin (x.val / (k:ℚ))| < 2 ^ f.emax := by
    have h1 := abs_sub_abs_le_abs_sub ((rnd f.p f.emin (x.val / (k:ℚ)) : ℚ) : ℝ) (x.val / k)
    have : |((rnd f.p f.emin (x.val / (k:ℚ)) : ℚ) : ℝ)| < 2 ^ f.emax := by norm_num at hxu; linarith
    exact_mod_cast this
  have ie := ix.div hf.one_le ik hk0 hlt
  set e := x.div (ofExact false ((k:ℤ):ℚ))
  have het : |(e.val : ℝ) - t| ≤ D := by
    rw [ie.val]
    have := abs_sub_le ((rnd f.p f.emin (x.val / (k:ℚ)) : ℚ) : ℝ) (x.val / k) t
    linarith
  have hn := ten_pow_near het hD'
  have hpos : (0:ℝ) < 10 ^ t := Real.rpow_pos_of_pos (by norm_num) t
  have hpos' : (0:ℝ) < 10 ^ (e.val : ℝ) := Real.rpow_pos_of_pos (by norm_num) _
  have hD0 : 0 ≤ D := (abs_nonneg _).trans het
  have hDt : D * (10:ℝ) ^ t ≤ 1 / 28 * (10:ℝ) ^ t := mul_le_mul_of_nonneg_right hD' hpos.le
  have hup := abs_le.mp hn
  obtain ⟨r1, r2, r3⟩ := h.exp10 e ie.valid ie.fin (by rw [abs_of_pos hpos']; norm_num at hup; linarith)
  refine ⟨Libm.exp10 e, .of_eq rfl, r1, r2, ?_⟩
  rw [abs_of_pos hpos'] at r3
  have h1 := abs_sub_le ((Libm.exp10 e).val : ℝ) (10 ^ (e.val : ℝ)) (10 ^ t)
  have h2 : δ * (10:ℝ) ^ (e.val : ℝ) ≤ δ * ((1 + 3.06 * D) * 10 ^ t) := mul_le_mul_of_nonneg_left (by linarith) hδ
  have h3 : δ * (D * (10:ℝ) ^ t) ≤ 1 / 100 * (D * (10:ℝ) ^ t) := mul_le_mul_of_nonneg_right hδ' (mul_nonneg hD0 hpos.le)
  have e1 : δ * ((1 + 3.06 * D) * (10:ℝ) ^ t) = δ * 10 ^ t + 3.06 * (δ * (D * 10 ^ t)) := by ring
  have e2 : (δ + 3.1 * D) * (10:ℝ) ^ t = δ * 10 ^ t + 3.1 * (D * 10 ^ t) := by ring
  have h4 := mul_nonneg hD0 hpos.le
  rw [e2]; norm_num at *; linarith

/-- C99: `mixed_mag2db` is `20 log10` and `mixed_pow2db` is `10 log10`, for every positive float. -/
theorem C99_to_db (hf : f.Wide) (h : LibmWithin f δ) (hδ' : δ ≤ 1 / 100) (hB : 1024 * max (-f.emin) f.emax ≤ 2 ^ f.emax)
    (x : Flt f) (hx : x.Valid) (hfin : x.IsFinite) (h0 : 0 < x.val) :
    (∃ d : Flt f, Returns (mag2db x) d ∧ d.Valid ∧ d.IsFinite ∧
      |(d.val : ℝ) - 20 * Real.logb 10 x.val| ≤ (δ + 2 / 2 ^ f.p) * (20 * |Real.logb 10 x.val|) + 21 * 2 ^ f.emin) ∧
    (∃ d : Flt f, Returns (pow2db x) d ∧ d.Valid ∧ d.IsFinite ∧
      |(d.val : ℝ) - 10 * Real.logb 10 x.val| ≤ (δ + 2 / 2 ^ f.p) * (10 * |Real.logb 10 x.val|) + 21 * 2 ^ f.emin) := by
  have hmin := hf.emin; have hp := hf.p
  have b1 : -f.emin ≤ ((max (-f.emin) f.emax).toNat : ℤ) := by omega
  have b2 : f.emax ≤ (max (-f.emin) f.emax).toNat := by omega
  have b3 : 1024 * (max (-f.emin) f.emax).toNat ≤ 2 ^ f.emax := by
    zify; rw [Int.toNat_of_nonneg (by omega)]; exact hB
  have h20 := log_scaled hf h hδ' b1 b2 b3 20 (by norm_num) x hx hfin h0
  have h10 := log_scaled hf h hδ' b1 b2 b3 10 (by norm_num) x hx hfin h0
  exact ⟨h20, h10⟩

example [Libm F32] (h : LibmWithin F32 (2 / 2 ^ 24)) := C99_to_db Flt.wide_F32 h (by norm_num) (by norm_num [F32]) (.fin false 3) (by is_float 3 0) ⟨_, _, rfl⟩
  (by norm_num [Flt.val])

/-- C99: `mixed_db2mag` is `10^(x/20)` and `mixed_db2pow` is `10^(x/10)`, unless the result overflows. -/
theorem C99_from_db (hf : f.Wide) (h : LibmWithin f δ) (hδ : 0 ≤ δ) (hδ' : δ ≤ 1 / 100) (x : Flt f) (hx : x.Valid)
    (hfin : x.IsFinite) (hlim : |(x.val : ℝ)| ≤ 2 ^ f.p / 4) :
    (4 * (10:ℝ) ^ ((x.val : ℝ) / 20) ≤ 2 ^ f.emax → ∃ r : Flt f, Returns (db2mag x) r ∧ r.Valid ∧ r.IsFinite ∧
      |(r.val : ℝ) - (10:ℝ) ^ ((x.val : ℝ) / 20)| ≤
        (δ + (|(x.val : ℝ)| / 6 + 1) / 2 ^ f.p) * (10:ℝ) ^ ((x.val : ℝ) / 20) + 2 ^ f.emin) ∧
    (4 * (10:ℝ) ^ ((x.val : ℝ) / 10) ≤ 2 ^ f.emax → ∃ r : Flt f, Returns (db2pow x) r ∧ r.Valid ∧ r.IsFinite ∧
      |(r.val : ℝ) - (10:ℝ) ^ ((x.val : ℝ) / 10)| ≤
        (δ + (|(x.val : ℝ)| / 3 + 1) / 2 ^ f.p) * (10:ℝ) ^ ((x.val : ℝ) / 10) + 2 ^ f.emin) := by
  have hp := hf.p; have hmin := hf.emin
  have hη : (2:ℝ) ^ f.emin ≤ 1 / 2 ^ f.p * (1 / 2 ^ 24) := by
    have : (2:ℝ) ^ f.emin ≤ 2 ^ (-(f.p:ℤ) + -24) := zpow_le_zpow_right₀ (by norm_num) (by omega)
    rw [zpow_add₀ (by norm_num), zpow_neg, zpow_natCast] at this
    rw [one_div]; refine this.trans (le_of_eq ?_); norm_num
  have hη0 : (0:ℝ) < 2 ^ f.emin := zpow_pos (by norm_num) _
  have hU : (0:ℝ) < 1 / 2 ^ f.p := by positivity
  have hU' : (1:ℝ) / 2 ^ f.p ≤ 1 / 2 ^ 24 := by
    apply one_div_le_one_div_of_le (by norm_num); exact pow_le_pow_right₀ (by norm_num) hp
  have hlimU : |(x.val : ℝ)| * (1 / 2 ^ f.p) ≤ 1 / 4 := by
    rw [mul_one_div, div_le_iff₀ (by positivity)]; linarith
  have key : ∀ (k : ℕ) (c : ℝ), 10 ≤ k → k ≤ 20 → 31 / 10 / (k:ℝ) ≤ c → 4 * (10:ℝ) ^ ((x.val : ℝ) / k) ≤ 2 ^ f.emax →
      ∃ r : Flt f, Returns (do let exponent ← NumOps.div x (← Lit.ofI32 k); MixedExp10.exp10 exponent) r ∧ r.Valid ∧ r.IsFinite ∧
      |(r.val : ℝ) - (10:ℝ) ^ ((x.val : ℝ) / k)| ≤
        (δ + (|(x.val : ℝ)| * c + 1) / 2 ^ f.p) * (10:ℝ) ^ ((x.val : ℝ) / k) + 2 ^ f.emin := by
    intro k c k1 k2 hc ho
    have k10 : (10:ℝ) ≤ k := by exact_mod_cast k1
    have hk : |(x.val : ℝ) / k| = |(x.val : ℝ)| / k := by rw [abs_div, abs_of_nonneg (by linarith : (0:ℝ) ≤ k)]
    have hk1 : |(x.val : ℝ)| / k ≤ |(x.val : ℝ)| / 10 := div_le_div_of_nonneg_left (abs_nonneg _) (by norm_num) k10
    obtain ⟨r, r1, r2, r3, r4⟩ := exp10_scaled hf h hδ hδ' k k1 k2 x hx hfin ((x.val : ℝ) / k)
      (|(x.val : ℝ) / k| * (1 / 2 ^ f.p) + 2 ^ f.emin / 2) (by rw [sub_self, abs_zero, mul_one_div, zero_add]) (by
        rw [hk]
        have := mul_le_mul_of_nonneg_right hk1 hU.le
        linarith) ho
    refine ⟨r, r1, r2, r3, r4.trans ?_⟩
    have hpos : (0:ℝ) < 10 ^ ((x.val : ℝ) / k) := Real.rpow_pos_of_pos (by norm_num) _
    gcongr
    rw [hk]
    have e : (|(x.val : ℝ)| * c + 1) / 2 ^ f.p = |(x.val : ℝ)| * c * (1 / 2 ^ f.p) + 1 / 2 ^ f.p := by ring
    rw [e]
    have h1 : |(x.val : ℝ)| * (31 / 10 / k) ≤ |(x.val : ℝ)| * c := mul_le_mul_of_nonneg_left hc (abs_nonneg _)
    have h2 := mul_le_mul_of_nonneg_right h1 hU.le
    have e3 : 3.1 * (|(x.val : ℝ)| / k * (1 / 2 ^ f.p) + 2 ^ f.emin / 2) =
      |(x.val : ℝ)| * (31 / 10 / k) * (1 / 2 ^ f.p) + 1.55 * 2 ^ f.emin := by ring
    rw [e3]; linarith
  refine ⟨fun ho => ?_, fun ho => ?_⟩
  · have := key 20 (1 / 6) (by norm_num) (by norm_num) (by norm_num) ho
    rw [mul_one_div] at this; exact this
  · have := key 10 (1 / 3) (by norm_num) (by norm_num) (by norm_num) ho
    rw [mul_one_div] at this; exact this

example [Libm F32] (h : LibmWithin F32 (2 / 2 ^ 24)) := C99_from_db Flt.wide_F32 h (by norm_num) (by norm_num) (.fin true 3) (by is_float 3 0) ⟨_, _, rfl⟩
  (by norm_num [Flt.val, F32])

/-- C99: converting a positive float to decibel and back gives it up to a relative error that grows with its logarithm. -/
theorem C99_round_trip (hf : f.Wide) (h : LibmWithin f δ) (hδ : 0 ≤ δ) (hδ' : δ ≤ 1 / 100)
    (hB : 1024 * max (-f.emin) f.emax ≤ 2 ^ f.emax) (x : Flt f) (hx : x.Valid) (hfin : x.IsFinite) (h0 : 0 < x.val)
    (ho : 4 * x.val ≤ 2 ^ f.emax) (hL : (δ + 4 / 2 ^ f.p) * (|Real.logb 10 x.val| + 1) ≤ 1 / 28) :
    (∃ r : Flt f, Returns (do db2mag (← mag2db x)) r ∧ r.Valid ∧ r.IsFinite ∧
      |(r.val : ℝ) - x.val| ≤ (δ + 31 / 10 * ((δ + 4 / 2 ^ f.p) * (|Real.logb 10 x.val| + 1))) * x.val + 2 ^ f.emin) ∧
    (∃ r : Flt f, Returns (do db2pow (← pow2db x)) r ∧ r.Valid ∧ r.IsFinite ∧
      |(r.val : ℝ) - x.val| ≤ (δ + 31 / 10 * ((δ + 4 / 2 ^ f.p) * (|Real.logb 10 x.val| + 1))) * x.val + 2 ^ f.emin) := by
  have hp := hf.p; have hmin := hf.emin
  obtain ⟨⟨d, d1, d2, d3, d4⟩, ⟨g, g1, g2, g3, g4⟩⟩ := C99_to_db hf h hδ' hB x hx hfin h0
  have hxR : (0:ℝ) < x.val := by exact_mod_cast h0
  have hten : (10:ℝ) ^ Real.logb 10 x.val = x.val := Real.rpow_logb (by norm_num) (by norm_num) hxR
  have hη : (2:ℝ) ^ f.emin ≤ 1 / 2 ^ f.p * (1 / 2 ^ 24) := by
    have : (2:ℝ) ^ f.emin ≤ 2 ^ (-(f.p:ℤ) + -24) := zpow_le_zpow_right₀ (by norm_num) (by omega)
    rw [zpow_add₀ (by norm_num), zpow_neg, zpow_natCast] at this
    rw [one_div]; refine this.trans (le_of_eq ?_); norm_num
  have hη0 : (0:ℝ) < 2 ^ f.emin := zpow_pos (by norm_num) _
  have hU : (0:ℝ) < 1 / 2 ^ f.p := by positivity
  have hU' : (1:ℝ) / 2 ^ f.p ≤ 1 / 2 ^ 24 := by
    apply one_div_le_one_div_of_le (by norm_num); exact pow_le_pow_right₀ (by norm_num) hp
  have e2 : (2:ℝ) / 2 ^ f.p = 2 * (1 / 2 ^ f.p) := by ring
  have e4 : (4:ℝ) / 2 ^ f.p = 4 * (1 / 2 ^ f.p) := by ring
  have hoR : 4 * (10:ℝ) ^ Real.logb 10 x.val ≤ 2 ^ f.emax := by rw [hten]; exact_mod_cast ho
  have key : ∀ (k : ℕ) (d : Flt f), 10 ≤ k → k ≤ 20 → d.Valid → d.IsFinite →
      |(d.val : ℝ) - k * Real.logb 10 x.val| ≤ (δ + 2 / 2 ^ f.p) * (k * |Real.logb 10 x.val|) + 21 * 2 ^ f.emin →
      ∃ r : Flt f, Returns (do let exponent ← NumOps.div d (← Lit.ofI32 k); MixedExp10.exp10 exponent) r ∧ r.Valid ∧ r.IsFinite ∧
      |(r.val : ℝ) - x.val| ≤ (δ + 31 / 10 * ((δ + 4 / 2 ^ f.p) * (|Real.logb 10 x.val| + 1))) * x.val + 2 ^ f.emin := by
    intro k d k1 k2 v w hd
    have k10 : (10:ℝ) ≤ k := by exact_mod_cast k1
    have k0 : (0:ℝ) < k := by linarith
    have L0 := abs_nonneg (Real.logb 10 x.val)
    have a1 : |(d.val : ℝ) / k - Real.logb 10 x.val| ≤ (δ + 2 / 2 ^ f.p) * |Real.logb 10 x.val| + 21 / 10 * 2 ^ f.emin := by
      have e : (d.val : ℝ) / k - Real.logb 10 x.val = (d.val - k * Real.logb 10 x.val) / k := by field_simp
      rw [e, abs_div, abs_of_pos k0, div_le_iff₀ k0]
      have : 21 / 10 * (2:ℝ) ^ f.emin * 10 ≤ 21 / 10 * (2:ℝ) ^ f.emin * k := mul_le_mul_of_nonneg_left k10 (by positivity)
      have e' : ((δ + 2 / 2 ^ f.p) * |Real.logb 10 x.val| + 21 / 10 * 2 ^ f.emin) * k =
        (δ + 2 / 2 ^ f.p) * (k * |Real.logb 10 x.val|) + 21 / 10 * 2 ^ f.emin * k := by ring
      rw [e']; linarith
    rw [e2] at a1
    have a2 : |(d.val : ℝ) / k| ≤ (51 / 50) * |Real.logb 10 x.val| + 21 / 10 * 2 ^ f.emin := by
      have h1 := abs_sub_abs_le_abs_sub ((d.val : ℝ) / k) (Real.logb 10 x.val)
      have h2 : (δ + 2 * (1 / 2 ^ f.p)) * |Real.logb 10 x.val| ≤ 1 / 50 * |Real.logb 10 x.val| :=
        mul_le_mul_of_nonneg_right (by linarith) L0
      linarith
    have a3 := mul_le_mul_of_nonneg_right a2 hU.le
    have a4 : (2:ℝ) ^ f.emin * (1 / 2 ^ f.p) ≤ 2 ^ f.emin * (1 / 2 ^ 24) := mul_le_mul_of_nonneg_left hU' hη0.le
    have a5 := mul_nonneg hU.le L0
    obtain ⟨r, r1, r2, r3, r4⟩ := exp10_scaled hf h hδ hδ' k k1 k2 d v w (Real.logb 10 x.val)
      ((δ + 4 / 2 ^ f.p) * (|Real.logb 10 x.val| + 1)) (by
        rw [← mul_one_div |(d.val : ℝ) / k|, e4]; linarith) hL hoR
    rw [hten] at r4
    exact ⟨r, r1, r2, r3, r4.trans (le_of_eq (by norm_num))⟩
  obtain ⟨r, r1, r2, r3, r4⟩ := key 20 d (by norm_num) (by norm_num) d2 d3 d4
  obtain ⟨s, s1, s2, s3, s4⟩ := key 10 g (by norm_num) (by norm_num) g2 g3 g4
  exact ⟨⟨r, d1.bind r1, r2, r3, r4⟩, ⟨s, g1.bind s1, s2, s3, s4⟩⟩

end

/-- The sizes C99 asks for hold of both formats. -/
example : 1024 * max (-F32.emin) F32.emax ≤ 2 ^ F32.emax ∧ 1024 * max (-F64.emin) F64.emax ≤ 2 ^ F64.emax := by
  constructor <;> decide +kernel

end MixedNum
