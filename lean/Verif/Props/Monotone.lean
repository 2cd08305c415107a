import Verif.Props.Trig
import Verif.Props.Atan
import Verif.Props.Sqrt
import Verif.Props.Wrap
import Verif.Props.AddSub
import Verif.Lemmas.Run
/-! # C118–C121: where the polynomial approximations are monotone, in exact arithmetic -/

namespace MixedNum
open Niirf

/-! ## C118: sine -/

theorem sinT_strictMono : StrictMonoOn (sinT 5) (Set.Icc (-(Real.pi / 2)) (Real.pi / 2)) := by
  refine strictMonoOn_of_deriv_pos (convex_Icc _ _) (fun y _ => (hasDerivAt_sinT 5 y).continuousAt.continuousWithinAt) ?_
  intro y hy
  rw [interior_Icc, Set.mem_Ioo] at hy
  rw [(hasDerivAt_sinT 5 y).deriv]
  have even : cosT 5 y = cosT 5 |y| := by
    unfold cosT
    refine Finset.sum_congr rfl fun k _ => ?_
    rw [pow_mul, pow_mul, sq_abs]
  have h := (taylor_alternate 4).1 |y| (abs_nonneg y)
  have hc : 0 < Real.cos |y| := Real.cos_pos_of_mem_Ioo ⟨by have := abs_nonneg y; have := Real.pi_pos; linarith, abs_lt.mpr hy⟩
  rw [even]
  have e : (-1 : ℝ) ^ (4 + 1) = -1 := by norm_num
  rw [e] at h
  linarith

theorem fold_mid {x : ℝ} (h1 : -(Real.pi / 2) ≤ x) (h2 : x ≤ Real.pi / 2) : fold x = x := by
  unfold fold; rw [if_neg (not_lt.mpr h1), if_neg (not_lt.mpr h2)]

theorem fold_high {x : ℝ} (h : Real.pi / 2 ≤ x) : fold x = Real.pi - x := by
  have := Real.pi_pos
  unfold fold
  rw [if_neg (by linarith)]
  split_ifs with h'
  · rfl
  · linarith

theorem fold_low {x : ℝ} (h : x ≤ -(Real.pi / 2)) : fold x = -Real.pi - x := by
  have := Real.pi_pos
  unfold fold
  split_ifs with h1 h2
  · rfl
  · linarith
  · linarith

/-- C118: between the turning points `-π/2` and `π/2` a larger angle has a larger polynomial sine. -/
theorem C118_rising (a b : ℝ) (h1 : -(Real.pi / 2) ≤ a) (h : a < b) (h2 : b ≤ Real.pi / 2) :
    ∃ u v, Returns (sin a) u ∧ Returns (sin b) v ∧ u < v := by
  refine ⟨_, _, .of_eq (sin_real a), .of_eq (sin_real b), ?_⟩
  rw [fold_mid h1 (by linarith), fold_mid (by linarith) h2]
  exact sinT_strictMono ⟨h1, by linarith⟩ ⟨by linarith, h2⟩ h

/-- C118: on the rest of a turn it falls. -/
theorem C118_falling (a b : ℝ) (h : a < b) (hr : (Real.pi / 2 ≤ a ∧ b ≤ Real.pi) ∨ (-Real.pi ≤ a ∧ b ≤ -(Real.pi / 2))) :
    ∃ u v, Returns (sin a) u ∧ Returns (sin b) v ∧ v < u := by
  have hp := Real.pi_pos
  refine ⟨_, _, .of_eq (sin_real a), .of_eq (sin_real b), ?_⟩
  rcases hr with ⟨h1, h2⟩ | ⟨h1, h2⟩
  · rw [fold_high h1, fold_high (by linarith)]
    exact sinT_strictMono ⟨by linarith, by linarith⟩ ⟨by linarith, by linarith⟩ (by linarith)
  · rw [fold_low h2, fold_low (x := a) (by linarith)]
    exact sinT_strictMono ⟨by linarith, by linarith⟩ ⟨by linarith, by linarith⟩ (by linarith)

example : ∃ u v, Returns (sin (1/2 : ℝ)) u ∧ Returns (sin 1) v ∧ u < v :=
  C118_rising _ _ (by have := Real.pi_pos; linarith) (by norm_num) (by have := Real.pi_gt_three; linarith)
example : ∃ u v, Returns (sin (2 : ℝ)) u ∧ Returns (sin 3) v ∧ v < u :=
  C118_falling _ _ (by norm_num) (.inl ⟨by have := Real.pi_lt_four; linarith, Real.pi_gt_three.le⟩)

/-! ## C119: sine and cosine never exceed one -/

/-- C119 is false: the polynomial sine of π/2 and the polynomial cosine of 0 are above 1.0000035. -/
theorem C119_counterexample : ∃ y, Returns (sin (Real.pi / 2)) y ∧ Returns (cos (0:ℝ)) y ∧ 1.0000035 < y := by
  have hp := Real.pi_pos
  refine ⟨sinT 5 (Real.pi / 2), ?_, ?_, ?_⟩
  · refine .of_eq ?_
    rw [sin_real, fold_mid (by linarith) le_rfl]
  · unfold cos
    simp only [RealI.pi_def, pure_bind, RealI.ofI32_def]
    rw [RealI.div_ne _ (by norm_num)]
    simp only [pure_bind, RealI.add_def]
    obtain ⟨r, hr, h1, h2, k, hk⟩ := wrapReal.spec (0 + Real.pi / 2)
    have hk : r = (0 + Real.pi / 2) + k * (2 * Real.pi) := hk
    have h2 : r < Real.pi := h2
    have h1 : -Real.pi ≤ r := h1
    have k0 : k = 0 := by
      have u1 : (k:ℝ) < 1 := by
        by_contra hc
        have := mul_le_mul_of_nonneg_right (not_lt.mp hc) (by linarith : 0 ≤ 2 * Real.pi)
        linarith
      have u2 : (-1:ℝ) < k := by
        by_contra hc
        have := mul_le_mul_of_nonneg_right (not_lt.mp hc) (by linarith : 0 ≤ 2 * Real.pi)
        linarith
      have : k < 1 := by exact_mod_cast u1
      have : -1 < k := by exact_mod_cast u2
      omega
    have er : r = Real.pi / 2 := by rw [hk, k0]; push_cast; ring
    push_cast
    refine hr.bind (.of_eq ?_)
    rw [er, sin_real, fold_mid (by linarith) le_rfl]
  · have h := Real.pi_gt_d4
    have := sinT_strictMono (a := 1.5707) (b := Real.pi / 2) ⟨by norm_num; linarith, by norm_num at h ⊢; linarith⟩ ⟨by linarith, le_rfl⟩
      (by norm_num at h ⊢; linarith)
    refine lt_trans ?_ this
    rw [sinT_five]; norm_num

/-- C119 is false on the machine types as well: the polynomial cosine of zero is above one on f32, f64, I48F16 and I32F32. -/
theorem C119_counterexample_machine :
    (∃ y, 1 < y ∧ Returns (cos (.fin false 0 : Flt F32)) (.fin false y)) ∧
    (∃ y, 1 < y ∧ Returns (cos (.fin false 0 : Flt F64)) (.fin false y)) ∧
    Returns (cos (fx .checked true 64 16 0)) (fx .checked true 64 16 (2 ^ 16 + 1)) ∧
    Returns (cos (fx .checked true 64 32 0)) (fx .checked true 64 32 (2 ^ 32 + 15216)) := by
  refine ⟨⟨8388637/8388608, by norm_num, ?_⟩, ⟨4503615581751767/4503599627370496, by norm_num, ?_⟩, ?_, ?_⟩ <;> run 1

/-- **C119**, what does hold: the excess is below 3.6e-6, and away from the turning points there is none. Missing compared to C119:
angles within 0.0038 of ±π/2. -/
theorem C119_partial (x : ℝ) (h1 : -Real.pi ≤ x) (h2 : x ≤ Real.pi) :
    ∃ y, Returns (sin x) y ∧ |y| < 1.0000036 ∧ ((|x| ≤ 1.567 ∨ Real.pi - 1.567 ≤ |x|) → |y| < 1) := by
  have hp := Real.pi_pos; have g1 := Real.pi_gt_d4; have g2 := Real.pi_lt_d6
  norm_num at g1 g2
  have hb := abs_fold_le h1 h2
  have key : ∀ t c : ℝ, |t| ≤ c → c ≤ Real.pi / 2 → |sinT 5 t| ≤ sinT 5 c := by
    intro t c ht hc
    have ht := abs_le.mp ht
    have m := sinT_strictMono.monotoneOn
    rw [abs_le]
    constructor
    · rw [← sinT_neg]; exact m ⟨by linarith, by linarith⟩ ⟨by linarith, by linarith⟩ ht.1
    · exact m ⟨by linarith, by linarith⟩ ⟨by linarith, by linarith⟩ ht.2
  refine ⟨_, .of_eq (sin_real x), ?_, fun hx => ?_⟩
  · have k1 := key _ _ hb le_rfl
    have k2 := (abs_le.mp (abs_sinT_five_sub (Real.pi / 2))).2
    rw [Real.sin_pi_div_two, abs_of_pos (by linarith)] at k2
    have k3 : (Real.pi / 2) ^ 11 ≤ 1.570797 ^ 11 := pow_le_pow_left₀ (by linarith) (by norm_num; linarith) _
    have k4 : (1.570797:ℝ) ^ 11 / 39916800 < 0.0000036 := by norm_num
    have k5 := div_le_div_of_nonneg_right k3 (by norm_num : (0:ℝ) ≤ 39916800)
    norm_num at k4 k5 ⊢
    linarith
  · have hf : |fold x| ≤ 1.567 := by
      rcases hx with hx | hx
      · have hx' := abs_le.mp hx
        rw [fold_mid (by norm_num at hx' ⊢; linarith) (by norm_num at hx' ⊢; linarith)]; exact hx
      · norm_num at hx ⊢
        rcases le_or_gt 0 x with h0 | h0
        · rw [abs_of_nonneg h0] at hx
          rw [fold_high (by linarith), abs_le]; constructor <;> linarith
        · rw [abs_of_neg h0] at hx
          rw [fold_low (by linarith), abs_le]; constructor <;> linarith
    refine (key _ _ hf (by norm_num; linarith)).trans_lt ?_
    rw [sinT_five]; norm_num

example := C119_partial 3 (by linarith [Real.pi_gt_three]) Real.pi_gt_three.le

/-- C119, weakened, for the cosine of every real angle: at most 3.6e-6 above one in size, and below one if the angle is
at least 0.0038 away from the whole multiples of π. -/
theorem C119_cos_partial (x : ℝ) :
    ∃ y, Returns (cos x) y ∧ |y| < 1.0000036 ∧ ((∀ k : ℤ, Real.pi / 2 - 1.567 ≤ |x + k * Real.pi|) → |y| < 1) := by
  have e : cos x = wrapPhase (x + Real.pi / 2) >>= sin := by
    unfold cos
    simp only [RealI.pi_def, pure_bind, RealI.ofI32_def]
    rw [RealI.div_ne _ (by norm_num)]
    simp only [pure_bind, RealI.add_def]
    push_cast
    rfl
  obtain ⟨w, hw, w1, w2, k, hk⟩ := C33_wrap_real (x + Real.pi / 2)
  obtain ⟨y, hy, y1, y2⟩ := C119_partial w w1 w2.le
  refine ⟨y, e ▸ hw.bind hy, y1, fun h => y2 ?_⟩
  by_contra hc
  push Not at hc
  obtain ⟨c1, c2⟩ := hc
  rcases le_or_gt 0 w with h0 | h0
  · rw [abs_of_nonneg h0] at c1 c2
    have := h (2 * k)
    rw [show x + ((2 * k : ℤ) : ℝ) * Real.pi = w - Real.pi / 2 by rw [hk]; push_cast; ring] at this
    have h1 : |w - Real.pi / 2| < Real.pi / 2 - 1.567 := abs_lt.mpr ⟨by linarith, by linarith⟩
    linarith
  · rw [abs_of_neg h0] at c1 c2
    have := h (2 * k + 1)
    rw [show x + ((2 * k + 1 : ℤ) : ℝ) * Real.pi = w + Real.pi / 2 by rw [hk]; push_cast; ring] at this
    have h1 : |w + Real.pi / 2| < Real.pi / 2 - 1.567 := abs_lt.mpr ⟨by linarith, by linarith⟩
    linarith

/-! ## C120: square root -/

/-- The estimate after two iterations. -/
theorem est_two (t : ℝ) : est t 2 = betaV t * (t - (2 * t / 3 + (f64Round 0.354167 : ℚ)) ^ 2) + (2 * t / 3 + (f64Round 0.354167 : ℚ)) := rfl

/-- C120 is false: the root computed for 0.562 is larger than the one computed for 0.5625. -/
theorem C120_counterexample : ∃ y y', Returns (niirf .exact (0.562:ℝ) 2) y ∧ Returns (niirf .exact (0.5625:ℝ) 2) y' ∧ y' + 0.0007 < y := by
  have a1 := niirf_real (x := 0.562) (t := 0.562) (k := 0) (by norm_num) (by norm_num)
    (by rw [abs_of_pos (by norm_num)]; norm_num) 2
  have a2 := niirf_real (x := 0.5625) (t := 0.5625) (k := 0) (by norm_num) (by norm_num)
    (by rw [abs_of_pos (by norm_num)]; norm_num) 2
  refine ⟨_, _, a1, a2, ?_⟩
  have b1 : betaV 0.562 = (f64Round 0.691406 : ℚ) := by
    unfold betaV
    rw [if_neg (by norm_num), if_neg (by norm_num), if_neg (by norm_num), if_neg (by norm_num), if_pos (by norm_num)]
  have b2 : betaV 0.5625 = (f64Round 0.654297 : ℚ) := by
    unfold betaV
    rw [if_neg (by norm_num), if_neg (by norm_num), if_neg (by norm_num), if_neg (by norm_num), if_neg (by norm_num), if_pos (by norm_num)]
  rw [zpow_zero, mul_one, mul_one, est_two, est_two, b1, b2]
  have d1 := abs_le.mp (real_close (f64_close 0.691406 (by simp)))
  have d2 := abs_le.mp (real_close (f64_close 0.654297 (by simp)))
  have d3 := abs_le.mp start_close
  rw [show ((0.691406 : ℚ) : ℝ) = 0.691406 by norm_num] at d1
  rw [show ((0.654297 : ℚ) : ℝ) = 0.654297 by norm_num] at d2
  generalize ((f64Round 0.691406 : ℚ) : ℝ) = p at *
  generalize ((f64Round 0.654297 : ℚ) : ℝ) = q at *
  generalize ((f64Round 0.354167 : ℚ) : ℝ) = c at *
  obtain ⟨z, hz⟩ : ∃ z, z = 2 * 0.562 / 3 + c := ⟨_, rfl⟩
  obtain ⟨w, hw⟩ : ∃ w, w = 2 * 0.5625 / 3 + c := ⟨_, rfl⟩
  rw [← hz, ← hw]
  norm_num at d1 d2 d3 hz hw
  have z1 : 0.728833 ≤ z := by rw [hz]; norm_num; linarith
  have z2 : z ≤ 0.728834 := by rw [hz]; norm_num; linarith
  have w1 : 0.729166 ≤ w := by rw [hw]; norm_num; linarith
  have w2 : w ≤ 0.729168 := by rw [hw]; norm_num; linarith
  have s1 : 0.0308 ≤ 0.562 - z ^ 2 := by nlinarith
  have s2 : 0.5625 - w ^ 2 ≤ 0.03082 := by nlinarith
  have s0 : 0 ≤ 0.5625 - w ^ 2 := by nlinarith
  have q1 : q ≤ 0.654298 := by norm_num; linarith
  have p1 : 0.691405 ≤ p := by norm_num; linarith
  have t1 : 0.691405 * 0.0308 ≤ p * (0.562 - z ^ 2) := mul_le_mul p1 s1 (by norm_num) (by linarith [p1])
  have t2 : q * (0.5625 - w ^ 2) ≤ 0.654298 * 0.03082 := mul_le_mul q1 s2 s0 (by norm_num)
  norm_num at *
  linarith

/-- C120 is false on the machine types as well: with x < x' = 0.5625 the root computed for x is the larger one, on f32, f64 and I4F28. -/
theorem C120_counterexample_machine :
    (∃ x x' y y', x < x' ∧ y' < y ∧ Returns (niirf (.i32 .checked) (.fin false x : Flt F32) 2) (.fin false y) ∧
      Returns (niirf (.i32 .checked) (.fin false x' : Flt F32) 2) (.fin false y')) ∧
    (∃ x x' y y', x < x' ∧ y' < y ∧ Returns (niirf (.i32 .checked) (.fin false x : Flt F64) 2) (.fin false y) ∧
      Returns (niirf (.i32 .checked) (.fin false x' : Flt F64) 2) (.fin false y')) ∧
    Returns (niirf (.i32 .checked) (fx .checked true 32 28 150860726) 2) (fx .checked true 32 28 201361488) ∧
    Returns (niirf (.i32 .checked) (fx .checked true 32 28 150994944) 2) (fx .checked true 32 28 201146601) := by
  refine ⟨⟨9428795/16777216, 9/16, 12585093/16777216, 6285831/8388608, by norm_num, by norm_num, ?_, ?_⟩,
    ⟨2531022990582219/4503599627370496, 9/16, 3378285184544971/4503599627370496, 3374679967428005/4503599627370496, by norm_num,
      by norm_num, ?_, ?_⟩, ?_, ?_⟩ <;> run 1

theorem pick_pred (P : ℝ → Prop) {q0 q1 q2 q3 q4 q5 q6 q7 q8 q9 q10 q11 : ℝ} (h0 : P q0) (h1 : P q1) (h2 : P q2) (h3 : P q3) (h4 : P q4)
    (h5 : P q5) (h6 : P q6) (h7 : P q7) (h8 : P q8) (h9 : P q9) (h10 : P q10) (h11 : P q11) (t : ℝ) :
    P (if t < 5 / 16 then q0 else if t < 6 / 16 then q1 else if t < 7 / 16 then q2 else if t < 8 / 16 then q3
      else if t < 9 / 16 then q4 else if t < 10 / 16 then q5 else if t < 11 / 16 then q6 else if t < 12 / 16 then q7
      else if t < 13 / 16 then q8 else if t < 14 / 16 then q9 else if t < 15 / 16 then q10 else q11) := by
  have ite_pred : ∀ (c : Prop) [Decidable c] (a b : ℝ), P a → P b → P (if c then a else b) := fun c _ a b ha hb => by split <;> assumption
  exact ite_pred _ _ _ h0 (ite_pred _ _ _ h1 (ite_pred _ _ _ h2 (ite_pred _ _ _ h3 (ite_pred _ _ _ h4 (ite_pred _ _ _ h5
    (ite_pred _ _ _ h6 (ite_pred _ _ _ h7 (ite_pred _ _ _ h8 (ite_pred _ _ _ h9 (ite_pred _ _ _ h10 h11))))))))))

theorem f64_unit {q : ℚ} (hq : |f64Round q - q| ≤ 1 / 10 ^ 15) (h1 : 1 / 10 ≤ q) (h2 : q ≤ 99 / 100) :
    (0:ℝ) ≤ (f64Round q : ℚ) ∧ ((f64Round q : ℚ) : ℝ) ≤ 1 := by
  generalize f64Round q = r at *
  have h := abs_le.mp hq
  have e : (1:ℚ) / 10 ^ 15 ≤ 1 / 100 := by norm_num
  constructor
  · have : (0:ℚ) ≤ r := by linarith
    exact_mod_cast this
  · have : r ≤ (1:ℚ) := by linarith
    exact_mod_cast this

theorem betaV_unit (t : ℝ) : 0 ≤ betaV t ∧ betaV t ≤ 1 := by
  unfold betaV
  refine pick_pred (fun b => 0 ≤ b ∧ b ≤ 1) ?_ ?_ ?_ ?_ ?_ ?_ ?_ ?_ ?_ ?_ ?_ ?_ t
  · exact f64_unit (f64_close 0.961914 (by simp)) (by norm_num) (by norm_num)
  · exact f64_unit (f64_close 0.840332 (by simp)) (by norm_num) (by norm_num)
  · exact f64_unit (f64_close 0.782715 (by simp)) (by norm_num) (by norm_num)
  · exact f64_unit (f64_close 0.734869 (by simp)) (by norm_num) (by norm_num)
  · exact f64_unit (f64_close 0.691406 (by simp)) (by norm_num) (by norm_num)
  · exact f64_unit (f64_close 0.654297 (by simp)) (by norm_num) (by norm_num)
  · exact f64_unit (f64_close 0.622070 (by simp)) (by norm_num) (by norm_num)
  · exact f64_unit (f64_close 0.595215 (by simp)) (by norm_num) (by norm_num)
  · exact f64_unit (f64_close 0.573731 (by simp)) (by norm_num) (by norm_num)
  · exact f64_unit (f64_close 0.556152 (by simp)) (by norm_num) (by norm_num)
  · exact f64_unit (f64_close 0.516113 (by simp)) (by norm_num) (by norm_num)
  · exact f64_unit (f64_close 0.502930 (by simp)) (by norm_num) (by norm_num)

theorem betaV_row {t t' : ℝ} {j : ℕ} (h1 : (j:ℝ) / 16 ≤ t) (h2 : t < (j + 1) / 16)
    (h1' : (j:ℝ) / 16 ≤ t') (h2' : t' < (j + 1) / 16) : betaV t = betaV t' := by
  have e : ∀ c : ℕ, (t < c / 16 ↔ t' < c / 16) := by
    intro c
    have key : ∀ s : ℝ, (j:ℝ) / 16 ≤ s → s < (j + 1) / 16 → (s < c / 16 ↔ j + 1 ≤ c) := by
      intro s a b
      constructor
      · intro h
        have : (j:ℝ) < c := by linarith
        exact_mod_cast this
      · intro h
        have : (j:ℝ) + 1 ≤ c := by exact_mod_cast h
        linarith
    rw [key t h1 h2, key t' h1' h2']
  have e5 := e 5; have e6 := e 6; have e7 := e 7; have e8 := e 8; have e9 := e 9; have e10 := e 10
  have e11 := e 11; have e12 := e 12; have e13 := e 13; have e14 := e 14; have e15 := e 15
  push_cast at e5 e6 e7 e8 e9 e10 e11 e12 e13 e14 e15
  unfold betaV
  simp only [e5, e6, e7, e8, e9, e10, e11, e12, e13, e14, e15]

theorem est_increase {b c t t' : ℝ} (b0 : 0 ≤ b) (b1 : b ≤ 1) (hc : c ≤ 0.36) (ht : 0 ≤ t) (h : t < t') (h1 : t' < 1) :
    b * (t - (2 * t / 3 + c) ^ 2) + (2 * t / 3 + c) < b * (t' - (2 * t' / 3 + c) ^ 2) + (2 * t' / 3 + c) := by
  have e : b * (t' - (2 * t' / 3 + c) ^ 2) + (2 * t' / 3 + c) - (b * (t - (2 * t / 3 + c) ^ 2) + (2 * t / 3 + c)) =
      (t' - t) * (2 / 3 + b * (1 - 2 / 3 * (2 * t / 3 + 2 * t' / 3 + 2 * c))) := by ring
  have k : -(0.4:ℝ) ≤ 1 - 2 / 3 * (2 * t / 3 + 2 * t' / 3 + 2 * c) := by norm_num at hc ⊢; linarith
  have k2 : -(0.4:ℝ) ≤ b * (1 - 2 / 3 * (2 * t / 3 + 2 * t' / 3 + 2 * c)) := by
    generalize 1 - 2 / 3 * (2 * t / 3 + 2 * t' / 3 + 2 * c) = m at k
    norm_num at k ⊢
    nlinarith
  have : 0 < (t' - t) * (2 / 3 + b * (1 - 2 / 3 * (2 * t / 3 + 2 * t' / 3 + 2 * c))) :=
    mul_pos (by linarith) (by norm_num at k2; linarith)
  linarith

/-- **C120**, what does hold: a larger argument gives a larger root if it is larger by 0.4 %, or if both arguments use the same row of
the β table, that is, if scaling both by the same power of four puts them between the same two sixteenths. Missing compared to C120:
close arguments on both sides of a table boundary. -/
theorem C120_partial (x x' : ℝ) (h0 : 0 < x) :
    (1.004 * x ≤ x' → ∃ y y', Returns (niirf .exact x 2) y ∧ Returns (niirf .exact x' 2) y' ∧ y < y') ∧
    ((∃ (k : ℤ) (j : ℕ), 4 ≤ j ∧ j < 16 ∧ j / 16 * 4 ^ k ≤ x ∧ x < x' ∧ x' < (j + 1) / 16 * 4 ^ k) →
      ∃ y y', Returns (niirf .exact x 2) y ∧ Returns (niirf .exact x' 2) y' ∧ y < y') := by
  constructor
  · intro h
    have h0' : 0 < x' := by norm_num at h; linarith
    obtain ⟨y, hy, e⟩ := Niirf.rel_error h0.ne' le_rfl
    obtain ⟨y', hy', e'⟩ := Niirf.rel_error h0'.ne' le_rfl
    refine ⟨y, y', hy, hy', ?_⟩
    rw [abs_of_pos h0] at e
    rw [abs_of_pos h0'] at e'
    have e := (abs_le.mp e).2
    have e' := (abs_le.mp e').1
    have hs := Real.sqrt_pos.mpr h0
    have hr : 1.001997 * Real.sqrt x ≤ Real.sqrt x' := by
      rw [Real.le_sqrt (by positivity) h0'.le, mul_pow, Real.sq_sqrt h0.le]
      refine le_trans (mul_le_mul_of_nonneg_right ?_ h0.le) h
      norm_num
    norm_num at e e' hr
    linarith
  · rintro ⟨k, j, hj, hj', h1, h2, h3⟩
    have p4 : (0:ℝ) < 4 ^ k := by positivity
    obtain ⟨t, rfl⟩ : ∃ t, x = t * 4 ^ k := ⟨x / 4 ^ k, by field_simp⟩
    obtain ⟨t', rfl⟩ : ∃ t', x' = t' * 4 ^ k := ⟨x' / 4 ^ k, by field_simp⟩
    have h1 := le_of_mul_le_mul_right h1 p4
    have h2 := lt_of_mul_lt_mul_right h2 p4.le
    have h3 := lt_of_mul_lt_mul_right h3 p4.le
    have hj4 : (4:ℝ) ≤ j := by exact_mod_cast hj
    have hj16 : (j:ℝ) + 1 ≤ 16 := by exact_mod_cast hj'
    have t0 : 1 / 4 ≤ t := by linarith
    have t1 : t' < 1 := by linarith
    have n1 := niirf_real (x := t * 4 ^ k) (t := t) (k := k) t0 (by linarith) (abs_of_pos h0) 2
    have n2 := niirf_real (x := t' * 4 ^ k) (t := t') (k := k) (by linarith) t1 (abs_of_pos (by nlinarith)) 2
    refine ⟨_, _, n1, n2, mul_lt_mul_of_pos_right ?_ (by positivity)⟩
    rw [est_two, est_two, ← betaV_row h1 (by linarith) (by linarith) h3]
    obtain ⟨b0, b1⟩ := betaV_unit t
    have c1 := abs_le.mp start_close
    generalize ((f64Round 0.354167 : ℚ) : ℝ) = c at *
    exact est_increase b0 b1 (by norm_num at c1 ⊢; linarith) (by linarith) h2 t1

/-- Two arguments on both sides of no boundary: 0.30 and 0.31, scaled by 4. -/
example : ∃ y y', Returns (niirf .exact (1.2:ℝ) 2) y ∧ Returns (niirf .exact (1.24:ℝ) 2) y' ∧ y < y' :=
  (C120_partial 1.2 1.24 (by norm_num)).2 ⟨1, 4, le_rfl, by norm_num, by norm_num, by norm_num, by norm_num⟩
example : ∃ y y', Returns (niirf .exact (2:ℝ) 2) y ∧ Returns (niirf .exact (2.1:ℝ) 2) y' ∧ y < y' :=
  (C120_partial 2 2.1 (by norm_num)).1 (by norm_num)

/-! ## C121: arctangent -/

theorem ratan_strict {a b : ℝ} (ha : |a| ≤ 1) (hb : |b| ≤ 1) (h : a < b) : ratan a < ratan b := by
  unfold ratan
  rw [div_lt_div_iff₀ (ratan_den_pos a) (ratan_den_pos b)]
  have hab : a * b ≤ 1 := by
    have := mul_le_mul ha hb (abs_nonneg b) (by norm_num)
    rw [← abs_mul] at this
    linarith [le_abs_self (a * b)]
  have : 0 < (b - a) * (1 - 9 / 32 * (a * b)) := mul_pos (by linarith) (by linarith)
  nlinarith

theorem ratan_one : ratan 1 = 32 / 41 := by unfold ratan; norm_num

/-- C121: the polynomial arctangent is strictly increasing and stays strictly between -π/2 and π/2. -/
theorem C121_increasing (a b : ℝ) (h : a < b) :
    ∃ u v, Returns (atanPoly a) u ∧ Returns (atanPoly b) v ∧ u < v ∧ |u| < Real.pi / 2 ∧ |v| < Real.pi / 2 := by
  have hp := Real.pi_gt_d4
  set g : ℝ → ℝ := fun x => if |x| < 1 then ratan x else
    if 0 < x then Real.pi / 2 - ratan (1 / x) else -(Real.pi / 2) - ratan (1 / x) with hg
  have inner : ∀ x, |x| < 1 → -(32 / 41) < g x ∧ g x < 32 / 41 ∧ g x = ratan x := by
    intro x hx
    have e : g x = ratan x := by simp only [hg]; rw [if_pos hx]
    rw [e]
    refine ⟨?_, ?_, rfl⟩
    · rw [← ratan_one, ← ratan_neg]; exact ratan_strict (by simp) hx.le (abs_lt.mp hx).1
    · rw [← ratan_one]; exact ratan_strict hx.le (by simp) (abs_lt.mp hx).2
  have up : ∀ x, 1 ≤ x → g x = Real.pi / 2 - ratan (1 / x) ∧ 0 < 1 / x ∧ 1 / x ≤ 1 ∧ 32 / 41 < g x ∧ g x < Real.pi / 2 := by
    intro x hx
    have e : g x = Real.pi / 2 - ratan (1 / x) := by
      simp only [hg]; rw [if_neg (by rw [abs_of_pos (by linarith)]; linarith), if_pos (by linarith)]
    have i1 : 0 < 1 / x := by positivity
    have i2 : 1 / x ≤ 1 := by rw [div_le_one (by linarith)]; exact hx
    have r1 : ratan (1 / x) ≤ 32 / 41 := by
      rcases eq_or_lt_of_le i2 with i | i
      · rw [i, ratan_one]
      · rw [← ratan_one]; exact (ratan_strict (by rw [abs_of_pos i1]; exact i2) (by simp) i).le
    have r2 := ratan_pos i1
    norm_num at hp
    refine ⟨e, i1, i2, ?_, ?_⟩ <;> rw [e] <;> linarith
  have gneg : ∀ x, g (-x) = - g x := by
    intro x
    simp only [hg]
    rw [abs_neg]
    by_cases h : |x| < 1
    · rw [if_pos h, if_pos h, ratan_neg]
    · rw [if_neg h, if_neg h, div_neg, ratan_neg]
      have hx : x ≠ 0 := by rintro rfl; simp at h
      rcases lt_or_gt_of_ne hx with hx | hx
      · rw [if_pos (by linarith), if_neg (by linarith)]; ring
      · rw [if_neg (by linarith), if_pos hx]; ring
  have down : ∀ x, x ≤ -1 → -(Real.pi / 2) < g x ∧ g x < -(32 / 41) := by
    intro x hx
    obtain ⟨-, -, -, k1, k2⟩ := up (-x) (by linarith)
    rw [gneg] at k1 k2
    constructor <;> linarith
  have high : ∀ a b, 1 ≤ a → a < b → g a < g b := by
    intro a b ha hab
    obtain ⟨e1, p1, q1, -⟩ := up a ha
    obtain ⟨e2, p2, q2, -⟩ := up b (by linarith)
    rw [e1, e2]
    have := ratan_strict (by rw [abs_of_pos p2]; exact q2) (by rw [abs_of_pos p1]; exact q1)
      (one_div_lt_one_div_of_lt (by linarith) hab)
    linarith
  have bound : ∀ x, |g x| < Real.pi / 2 := by
    intro x
    rw [abs_lt]
    rcases lt_or_ge |x| 1 with hx | hx
    · obtain ⟨k1, k2, -⟩ := inner x hx
      norm_num at hp; constructor <;> linarith
    · rcases le_abs.mp hx with hx | hx
      · obtain ⟨-, -, -, k1, k2⟩ := up x hx; constructor <;> linarith
      · obtain ⟨k1, k2⟩ := down x (by linarith); norm_num at hp; constructor <;> linarith
  refine ⟨g a, g b, .of_eq (atan_real a), .of_eq (atan_real b), ?_, bound a, bound b⟩
  rcases lt_or_ge |a| 1 with ha | ha
  · obtain ⟨a1, a2, a3⟩ := inner a ha
    rcases lt_or_ge |b| 1 with hb | hb
    · rw [a3, (inner b hb).2.2]; exact ratan_strict ha.le hb.le h
    · have : 1 ≤ b := by
        rcases le_abs.mp hb with hb | hb
        · exact hb
        · have := (abs_lt.mp ha).1; linarith
      obtain ⟨-, -, -, k, -⟩ := up b this
      linarith
  · rcases le_abs.mp ha with ha | ha
    · exact high a b ha h
    · obtain ⟨-, a2⟩ := down a (by linarith)
      rcases lt_or_ge |b| 1 with hb | hb
      · obtain ⟨k, -, -⟩ := inner b hb; linarith
      · rcases le_abs.mp hb with hb | hb
        · obtain ⟨-, -, -, k, -⟩ := up b hb; norm_num at *; linarith
        · have := high (-b) (-a) hb (by linarith)
          rw [gneg, gneg] at this; linarith

example : ∃ u v, Returns (atanPoly (-3:ℝ)) u ∧ Returns (atanPoly 7) v ∧ u < v ∧ |u| < Real.pi / 2 ∧ |v| < Real.pi / 2 :=
  C121_increasing _ _ (by norm_num)

end MixedNum
