import Verif.Lemmas.Arctan
import Verif.Lemmas.Real
import Verif.Props.AddSub
import Verif.Lemmas.Run
/-! # C40, C41, C42, C44: polynomial atan2 and atan with exact real arithmetic -/

namespace MixedNum

theorem poly1_real {x : ℝ} (y : ℝ) (hx : x ≠ 0) : atanPoly1 y x = pure (ratan (y / x)) := by
  unfold atanPoly1
  have hd : x ^ 2 + ((9 / 32 : ℚ) : ℝ) * y ^ 2 ≠ 0 := by push_cast; positivity
  simp only [RealI.mul_def, RealI.powi_two, RealI.ofF64_def, RealI.add_def, pure_bind, RealI.div_ne _ hd]
  congr 1
  push_cast
  have h1 : x ^ 2 + 9 / 32 * y ^ 2 ≠ 0 := by positivity
  unfold ratan
  field_simp

theorem poly2_real {y : ℝ} (x : ℝ) (hy : y ≠ 0) : atanPoly2 y x = pure (ratan (x / y)) := by
  unfold atanPoly2
  have hd : y ^ 2 + ((9 / 32 : ℚ) : ℝ) * x ^ 2 ≠ 0 := by push_cast; positivity
  simp only [RealI.mul_def, RealI.powi_two, RealI.ofF64_def, RealI.add_def, pure_bind, RealI.div_ne _ hd]
  congr 1
  push_cast
  have h1 : y ^ 2 + 9 / 32 * x ^ 2 ≠ 0 := by positivity
  unfold ratan
  field_simp

/-- The polynomial angle of the point (x, y): what `atan2` computes with exact arithmetic. -/
inductive PolyAngle (y x : ℝ) : ℝ → Prop
  | axisPos : y = 0 → 0 ≤ x → PolyAngle y x 0
  | axisNeg : y = 0 → x < 0 → PolyAngle y x Real.pi
  | up : 0 < y → x = 0 → PolyAngle y x (Real.pi / 2)
  | down : y < 0 → x = 0 → PolyAngle y x (-(Real.pi / 2))
  | right : y ≠ 0 → 0 < x → |y| < |x| → PolyAngle y x (ratan (y / x))
  | upper : 0 < y → x ≠ 0 → |x| ≤ |y| → PolyAngle y x (Real.pi / 2 - ratan (x / y))
  | lower : y < 0 → x ≠ 0 → |x| ≤ |y| → PolyAngle y x (-(Real.pi / 2) - ratan (x / y))
  | left : 0 < y → x < 0 → |y| < |x| → PolyAngle y x (Real.pi + ratan (y / x))
  | left' : y < 0 → x < 0 → |y| < |x| → PolyAngle y x (-Real.pi + ratan (y / x))

theorem atan2_real (y x : ℝ) : ∃ v, atan2Poly y x = pure v ∧ PolyAngle y x v := by
  unfold atan2Poly
  simp only [RealI.abs_def, RealI.pi_def, RealI.ofI32_def, RealI.ofF64_def, pure_bind, RealI.beq_def, RealI.zero_def,
    RealI.isNegative_def, RealI.isPositive_def, RealI.lt_def, RealI.le_def, RealI.sub_def, RealI.neg_def,
    RealI.add_def, decide_eq_true_eq, Int.cast_ofNat, RealI.div_ne _ (two_ne_zero (α := ℝ)), Rat.cast_zero]
  by_cases hy : y = 0
  · rw [if_pos hy]
    by_cases hx : x < 0
    · rw [if_pos hx]; exact ⟨_, rfl, .axisNeg hy hx⟩
    · rw [if_neg hx]; exact ⟨_, rfl, .axisPos hy (not_lt.mp hx)⟩
  rw [if_neg hy]
  by_cases hp : 0 ≤ y
  · have hp' : 0 < y := lt_of_le_of_ne hp (Ne.symm hy)
    rw [if_pos hp]
    by_cases hx : x = 0
    · rw [if_pos hx]; exact ⟨_, rfl, .up hp' hx⟩
    rw [if_neg hx]
    by_cases hxp : 0 ≤ x
    · rw [if_pos hxp]
      by_cases hc : |y| - |x| < 0
      · rw [if_pos hc, poly1_real y hx]
        exact ⟨_, rfl, .right hy (lt_of_le_of_ne hxp (Ne.symm hx)) (by linarith)⟩
      · rw [if_neg hc, poly2_real x hy, pure_bind]
        exact ⟨_, rfl, .upper hp' hx (by linarith)⟩
    · rw [if_neg hxp]
      by_cases hc : 0 ≤ |y| - |x|
      · rw [if_pos hc, poly2_real x hy, pure_bind]
        exact ⟨_, rfl, .upper hp' hx (by linarith)⟩
      · rw [if_neg hc, poly1_real y hx, pure_bind]
        exact ⟨_, rfl, .left hp' (not_le.mp hxp) (by linarith)⟩
  · have hn := not_le.mp hp
    rw [if_neg hp]
    by_cases hx : x = 0
    · rw [if_pos hx]; exact ⟨_, rfl, by rw [neg_div]; exact .down hn hx⟩
    rw [if_neg hx]
    by_cases hxp : 0 ≤ x
    · rw [if_pos hxp]
      by_cases hc : |y| - |x| < 0
      · rw [if_pos hc, poly1_real y hx]
        exact ⟨_, rfl, .right hy (lt_of_le_of_ne hxp (Ne.symm hx)) (by linarith)⟩
      · rw [if_neg hc, poly2_real x hy, pure_bind]
        exact ⟨_, rfl, .lower hn hx (by linarith)⟩
    · rw [if_neg hxp]
      by_cases hc : 0 ≤ |y| - |x|
      · rw [if_pos hc, poly2_real x hy, pure_bind]
        exact ⟨_, rfl, .lower hn hx (by linarith)⟩
      · rw [if_neg hc, poly1_real y hx, pure_bind]
        exact ⟨_, rfl, .left' hn (not_le.mp hxp) (by linarith)⟩

theorem abs_div_le_one {a b : ℝ} (h : |a| ≤ |b|) : |a / b| ≤ 1 := by
  rw [abs_div]; exact div_le_one_of_le₀ h (abs_nonneg _)

/-- The error is a function of the ratio of the smaller to the larger coordinate. -/
theorem PolyAngle.error {y x v : ℝ} (h : PolyAngle y x v) :
    |v - Complex.arg ⟨x, y⟩| = |ratanErr (min |x| |y| / max |x| |y|)| := by
  have r1 : |y| ≤ |x| → |ratanErr (min |x| |y| / max |x| |y|)| = |ratanErr (y / x)| := fun hc => by
    rw [min_eq_right hc, max_eq_left hc, ← abs_div, abs_ratanErr_abs]
  have r2 : |x| ≤ |y| → |ratanErr (min |x| |y| / max |x| |y|)| = |ratanErr (x / y)| := fun hc => by
    rw [min_eq_left hc, max_eq_right hc, ← abs_div, abs_ratanErr_abs]
  cases h with
  | axisPos hy hx =>
    have e : (⟨x, y⟩ : ℂ) = (x : ℂ) := by apply Complex.ext <;> simp [hy]
    rw [r1 (by simp [hy]), e, Complex.arg_ofReal_of_nonneg hx, hy]; simp [ratanErr_zero]
  | axisNeg hy hx =>
    have e : (⟨x, y⟩ : ℂ) = (x : ℂ) := by apply Complex.ext <;> simp [hy]
    rw [r1 (by simp [hy]), e, Complex.arg_ofReal_of_neg hx, hy]; simp [ratanErr_zero]
  | up hy hx => rw [r2 (by simp [hx]), arg_upper hy, hx]; simp [ratanErr_zero]
  | down hy hx => rw [r2 (by simp [hx]), arg_lower hy, hx]; simp [ratanErr_zero]
  | right hy hx hc =>
    have : Complex.arg ⟨x, y⟩ = Real.arctan (y / x) := by
      rcases lt_or_gt_of_ne hy with hy' | hy'
      · rw [arg_lower hy', arctan_flip_neg (div_neg_of_pos_of_neg hx hy')]; ring
      · rw [arg_upper hy', arctan_flip_pos (div_pos hx hy')]; ring
    rw [r1 hc.le, this]; rfl
  | upper hy hx hc =>
    rw [r2 hc, arg_upper hy, ← abs_neg (ratanErr _)]; congr 1; unfold ratanErr; ring
  | lower hy hx hc =>
    rw [r2 hc, arg_lower hy, ← abs_neg (ratanErr _)]; congr 1; unfold ratanErr; ring
  | left hy hx hc =>
    rw [r1 hc.le, arg_upper hy, arctan_flip_neg (div_neg_of_neg_of_pos hx hy)]; congr 1; unfold ratanErr; ring
  | left' hy hx hc =>
    rw [r1 hc.le, arg_lower hy, arctan_flip_pos (div_pos_of_neg_of_neg hx hy)]; congr 1; unfold ratanErr; ring

theorem ratio_nonneg (x y : ℝ) : 0 ≤ min |x| |y| / max |x| |y| := by positivity
theorem ratio_le_one (x y : ℝ) : min |x| |y| / max |x| |y| ≤ 1 :=
  div_le_one_of_le₀ min_le_max (by positivity)

/-! ## C40 -/

/-- C40: the polynomial angle is within π/4 - 32/41 (about 0.0049 rad) of the true angle, at every point. -/
theorem C40_accuracy (y x : ℝ) :
    ∃ v, Returns (atan2Poly y x) v ∧ |v - Complex.arg ⟨x, y⟩| ≤ Real.pi / 4 - 32 / 41 := by
  obtain ⟨v, hv, h⟩ := atan2_real y x
  refine ⟨v, .of_eq hv, h.error.le.trans (abs_ratanErr ?_)⟩
  rw [abs_of_nonneg (ratio_nonneg x y)]; exact ratio_le_one x y

/-- C40: in decimals. -/
theorem C40_decimal (y x : ℝ) : ∃ v, Returns (atan2Poly y x) v ∧ |v - Complex.arg ⟨x, y⟩| < 0.00492 := by
  obtain ⟨v, hv, h⟩ := C40_accuracy y x
  refine ⟨v, hv, h.trans_lt ?_⟩
  have := Real.pi_lt_d4
  norm_num at this ⊢; linarith

/-- C40: the bound is attained on the diagonals, so it cannot be improved. -/
theorem C40_sharp (y x : ℝ) (h : |x| = |y|) (hx : x ≠ 0) :
    ∃ v, Returns (atan2Poly y x) v ∧ |v - Complex.arg ⟨x, y⟩| = Real.pi / 4 - 32 / 41 := by
  obtain ⟨v, hv, hA⟩ := atan2_real y x
  refine ⟨v, .of_eq hv, ?_⟩
  have hpi := Real.pi_gt_d4
  rw [hA.error, h, min_self, max_self, div_self (by rw [← h]; exact abs_ne_zero.mpr hx), ratanErr_one, abs_of_nonpos]
  · ring
  · norm_num at hpi ⊢; linarith

example : ∃ v, Returns (atan2Poly (-3:ℝ) 3) v ∧ |v - Complex.arg ⟨3, -3⟩| = Real.pi / 4 - 32 / 41 := C40_sharp _ _ (by norm_num) (by norm_num)

/-- C40: exact on the axes. -/
theorem C40_axes (y x : ℝ) (h : x = 0 ∨ y = 0) : Returns (atan2Poly y x) (Complex.arg ⟨x, y⟩) := by
  obtain ⟨v, hv, hA⟩ := atan2_real y x
  suffices v = Complex.arg ⟨x, y⟩ by rw [← this]; exact .of_eq hv
  have e := hA.error
  have : min |x| |y| = 0 := by rcases h with rfl | rfl <;> simp
  rw [this, zero_div, ratanErr_zero, abs_zero, abs_eq_zero] at e
  linarith

example : Returns (atan2Poly (-3:ℝ) 0) (Complex.arg ⟨0, -3⟩) := C40_axes _ _ (.inl rfl)

/-! ## C41 -/

/-- C41 is false: on the diagonal the error is more than ten times the documented 0.028 degrees. -/
theorem C41_counterexample :
    ∃ v, Returns (atan2Poly (1:ℝ) 1) v ∧ 10 * (0.028 * (Real.pi / 180)) < |v - Complex.arg ⟨1, 1⟩| := by
  obtain ⟨v, hv, h⟩ := C40_sharp 1 1 rfl one_ne_zero
  refine ⟨v, hv, ?_⟩
  rw [h]
  have h1 := Real.pi_gt_d6; have h2 := Real.pi_lt_d6
  norm_num at h1 h2 ⊢; linarith

/-- C41, the part that holds: the documented bound is met near the axes, where the smaller coordinate is at most
a fifth of the larger. Missing for the full statement: the rest of the plane, where it is false. -/
theorem C41_near_axes_partial (y x : ℝ) (h : 5 * |y| ≤ |x| ∨ 5 * |x| ≤ |y|) :
    ∃ v, Returns (atan2Poly y x) v ∧ |v - Complex.arg ⟨x, y⟩| ≤ 0.028 * (Real.pi / 180) := by
  obtain ⟨v, hv, hA⟩ := atan2_real y x
  refine ⟨v, .of_eq hv, ?_⟩
  have hr : min |x| |y| / max |x| |y| ≤ 1 / 5 := by
    refine div_le_of_le_mul₀ (by positivity) (by norm_num) ?_
    rcases h with h | h
    · linarith [min_le_right |x| |y|, le_max_left |x| |y|]
    · linarith [min_le_left |x| |y|, le_max_right |x| |y|]
  have h0 := ratio_nonneg x y
  have ht : (1:ℝ) / 5 ≤ ratanTop := by
    unfold ratanTop; rw [Real.le_sqrt (by norm_num) (by norm_num)]; norm_num
  have hc := abs_ratanErr_cubic h0 (hr.trans ht)
  have h3 := pow_le_pow_left₀ h0 hr 3
  have hpi := Real.pi_gt_d4
  rw [hA.error]
  norm_num at h3 hpi ⊢; linarith

example := C41_near_axes_partial 1 6 (.inl (by norm_num))

/-! ## C42 -/

theorem ratan_bounds {t : ℝ} (h : |t| ≤ 1) : |ratan t| ≤ 1 := by
  unfold ratan
  rw [abs_div, abs_of_pos (ratan_den_pos t)]
  exact div_le_one_of_le₀ (h.trans (by nlinarith [sq_nonneg t])) (ratan_den_pos t).le

theorem ratan_pos {t : ℝ} (h : 0 < t) : 0 < ratan t := div_pos h (ratan_den_pos t)
theorem ratan_neg_of_neg {t : ℝ} (h : t < 0) : ratan t < 0 := div_neg_of_neg_of_pos h (ratan_den_pos t)

/-- C42: the angle is between -π and π, is zero exactly on the non-negative real axis, has the sign of `y`, and off
the real axis is at most a right angle exactly for `x ≥ 0`. -/
theorem C42_quadrant (y x : ℝ) : ∃ v, Returns (atan2Poly y x) v ∧ -Real.pi < v ∧ v ≤ Real.pi ∧
    (v = 0 ↔ y = 0 ∧ 0 ≤ x) ∧ (0 < y → 0 < v) ∧ (y < 0 → v < 0) ∧ (y ≠ 0 → (|v| ≤ Real.pi / 2 ↔ 0 ≤ x)) := by
  obtain ⟨v, hv, hA⟩ := atan2_real y x
  refine ⟨v, .of_eq hv, ?_⟩
  have hp := Real.pi_gt_three
  cases hA with
  | axisPos hy hx => simp [hy, hx, Real.pi_pos, Real.pi_pos.le]
  | axisNeg hy hx => simp [hy, hx]; linarith
  | up hy hx =>
    rw [abs_of_nonneg (by linarith)]
    refine ⟨by linarith, by linarith, ⟨fun h => by linarith, fun h => absurd h.1 hy.ne'⟩, fun _ => by linarith,
      fun h => by linarith, fun _ => ⟨fun _ => hx.ge, fun _ => le_rfl⟩⟩
  | down hy hx =>
    rw [abs_neg, abs_of_nonneg (by linarith)]
    refine ⟨by linarith, by linarith, ⟨fun h => by linarith, fun h => absurd h.1 hy.ne⟩, fun h => by linarith,
      fun h => by linarith, fun _ => ⟨fun _ => hx.ge, fun _ => le_rfl⟩⟩
  | right hy hx hc =>
    have hb := ratan_bounds (abs_div_le_one hc.le)
    have hb' := abs_le.mp hb
    have hup : 0 < y → 0 < ratan (y / x) := fun h => ratan_pos (div_pos h hx)
    have hdn : y < 0 → ratan (y / x) < 0 := fun h => ratan_neg_of_neg (div_neg_of_neg_of_pos h hx)
    refine ⟨by linarith, by linarith, ⟨fun h => ?_, fun h => absurd h.1 hy⟩, hup, hdn,
      fun _ => ⟨fun _ => hx.le, fun _ => by linarith⟩⟩
    rcases lt_or_gt_of_ne hy with h' | h'
    · exact absurd h (hdn h').ne
    · exact absurd h (hup h').ne'
  | upper hy hx hc =>
    have hb := abs_le.mp (ratan_bounds (abs_div_le_one hc))
    refine ⟨by linarith, by linarith, ⟨fun h => by linarith, fun h => absurd h.1 hy.ne'⟩, fun _ => by linarith,
      fun h => by linarith, fun _ => ?_⟩
    rw [abs_of_nonneg (by linarith)]
    rcases lt_or_gt_of_ne hx with h | h
    · have := ratan_neg_of_neg (div_neg_of_neg_of_pos h hy)
      exact ⟨fun _ => by linarith, fun _ => by linarith⟩
    · have := ratan_pos (div_pos h hy)
      exact ⟨fun _ => by linarith, fun _ => by linarith⟩
  | lower hy hx hc =>
    have hb := abs_le.mp (ratan_bounds (abs_div_le_one hc))
    refine ⟨by linarith, by linarith, ⟨fun h => by linarith, fun h => absurd h.1 hy.ne⟩, fun h => by linarith,
      fun h => by linarith, fun _ => ?_⟩
    rw [abs_of_nonpos (by linarith)]
    rcases lt_or_gt_of_ne hx with h | h
    · have := ratan_pos (div_pos_of_neg_of_neg h hy)
      exact ⟨fun _ => by linarith, fun _ => by linarith⟩
    · have := ratan_neg_of_neg (div_neg_of_pos_of_neg h hy)
      exact ⟨fun _ => by linarith, fun _ => by linarith⟩
  | left hy hx hc =>
    have hb := abs_le.mp (ratan_bounds (abs_div_le_one hc.le))
    have := ratan_neg_of_neg (div_neg_of_pos_of_neg hy hx)
    refine ⟨by linarith, by linarith, ⟨fun h => by linarith, fun h => absurd h.1 hy.ne'⟩, fun _ => by linarith,
      fun h => by linarith, fun _ => ?_⟩
    have hpi := Real.pi_gt_d4
    have hb2 : -(32 / 41) ≤ ratan (y / x) := by
      have ht := abs_le.mp (abs_div_le_one hc.le)
      set t := y / x
      unfold ratan
      rw [le_div_iff₀ (ratan_den_pos t)]
      nlinarith [mul_nonneg (show 0 ≤ 1 + t by linarith) (show 0 ≤ 1 - t by linarith), sq_nonneg (t + 1)]
    rw [abs_of_nonneg (by linarith)]
    exact ⟨fun h => by norm_num at hpi hb2; linarith, fun h => absurd h (not_le.mpr hx)⟩
  | left' hy hx hc =>
    have hb := abs_le.mp (ratan_bounds (abs_div_le_one hc.le))
    have := ratan_pos (div_pos_of_neg_of_neg hy hx)
    refine ⟨by linarith, by linarith, ⟨fun h => by linarith, fun h => absurd h.1 hy.ne⟩, fun h => by linarith,
      fun h => by linarith, fun _ => ?_⟩
    rw [abs_of_nonpos (by linarith)]
    exact ⟨fun h => by linarith, fun h => absurd h (not_le.mpr hx)⟩

/-! ## C44 -/

/-- C44: `atan x` is `atan2 x 1`, for every component type. -/
theorem C44_def {α : Type} [MixedCmp α] [NumOps α] [Lit α] [MixedPi α] [MixedNumSigned α] [MixedPowi α] [MixedAbs α]
    [MixedZero α] [MixedReal α] [MixedOne α] (x one : α) (h : (MixedOne.one : Prog α) = pure one) :
    atanPoly x = atan2Poly x one := by
  unfold atanPoly; rw [h, pure_bind]

example : (MixedOne.one : Prog ℝ) = pure 1 := rfl

theorem arg_one_right (x : ℝ) : Complex.arg ⟨1, x⟩ = Real.arctan x := by
  rcases lt_trichotomy x 0 with hx | hx | hx
  · rw [arg_lower hx, arctan_flip_neg (div_neg_of_pos_of_neg one_pos hx)]; simp
  · subst hx
    have e : (⟨1, 0⟩ : ℂ) = ((1:ℝ) : ℂ) := by apply Complex.ext <;> simp
    rw [e, Complex.arg_ofReal_of_nonneg zero_le_one, Real.arctan_zero]
  · rw [arg_upper hx, arctan_flip_pos (div_pos one_pos hx)]; simp

/-- C44: accuracy. -/
theorem C44_accuracy (x : ℝ) : ∃ v, Returns (atanPoly x) v ∧ |v - Real.arctan x| < 0.00492 := by
  rw [C44_def x 1 rfl]
  obtain ⟨v, hv, h⟩ := C40_decimal x 1
  refine ⟨v, hv, ?_⟩
  rwa [← arg_one_right]

theorem atan_real (x : ℝ) : atanPoly x = pure (if |x| < 1 then ratan x else
    if 0 < x then Real.pi / 2 - ratan (1 / x) else -(Real.pi / 2) - ratan (1 / x)) := by
  rw [C44_def x 1 rfl]
  obtain ⟨v, hv, hA⟩ := atan2_real x 1
  rw [hv]; congr 1
  cases hA with
  | axisPos hy _ => simp [hy, ratan]
  | axisNeg _ h => exact absurd h (by norm_num)
  | up _ h => exact absurd h (by norm_num)
  | down _ h => exact absurd h (by norm_num)
  | right _ _ hc => rw [abs_one] at hc; rw [if_pos hc, div_one]
  | upper hy _ hc => rw [abs_one] at hc; rw [if_neg (not_lt.mpr hc), if_pos hy]
  | lower hy _ hc => rw [abs_one] at hc; rw [if_neg (not_lt.mpr hc), if_neg (not_lt.mpr hy.le)]
  | left _ h _ => exact absurd h (by norm_num)
  | left' _ h _ => exact absurd h (by norm_num)

/-- C44: `atan` is odd. -/
theorem C44_odd (x : ℝ) : ∃ v, Returns (atanPoly x) v ∧ Returns (atanPoly (-x)) (-v) := by
  refine ⟨_, .of_eq (atan_real x), ?_⟩
  rw [atan_real]
  refine .of_eq (congrArg pure ?_)
  rw [abs_neg]
  by_cases h : |x| < 1
  · rw [if_pos h, if_pos h, ratan_neg]
  · rw [if_neg h, if_neg h, div_neg, ratan_neg]
    have hx : x ≠ 0 := by rintro rfl; simp at h
    rcases lt_or_gt_of_ne hx with hx | hx
    · rw [if_pos (by linarith), if_neg (by linarith)]; ring
    · rw [if_neg (by linarith), if_pos hx]; ring

end MixedNum
