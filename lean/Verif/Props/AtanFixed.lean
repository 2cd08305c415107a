import Verif.Lemmas.AtanFixed
import Verif.Lemmas.Ends
import Verif.Props.AddSub
import Verif.Props.Atan
import Verif.Lemmas.Run
/-! # C43, C65: polynomial atan2 on fixed point -/

namespace MixedNum
namespace Fixed
variable {m : Mode} {W F K : ℕ}

theorem abs_def (a : Fixed m true W F) : MixedAbs.abs a = fit |a.val| := rfl
theorem isPositive_def (a : Fixed m true W F) : MixedReal.isPositive a = decide (0 < a.val) := rfl
theorem isNegative_def (a : Fixed m true W F) : MixedReal.isNegative a = decide (a.val < 0) := rfl

/-- The stored integer of the angle of the point with stored coordinates `x`, `y`. -/
inductive Angle (F : ℕ) (y x : ℤ) : ℤ → Prop
  | axisPos : y = 0 → 0 ≤ x → Angle F y x 0
  | axisNeg : y = 0 → x < 0 → Angle F y x (piRaw F)
  | up : 0 < y → x = 0 → Angle F y x (halfRaw F)
  | down : y < 0 → x = 0 → Angle F y x (-halfRaw F)
  | right : y ≠ 0 → 0 < x → |y| < |x| → Angle F y x (quoRaw F x y)
  | upper : 0 < y → x ≠ 0 → |x| ≤ |y| → Angle F y x (halfRaw F - quoRaw F y x)
  | lower : y < 0 → x ≠ 0 → |x| ≤ |y| → Angle F y x (-halfRaw F - quoRaw F y x)
  | left : 0 < y → x < 0 → |y| < |x| → Angle F y x (piRaw F + quoRaw F x y)
  | left' : y < 0 → x < 0 → |y| < |x| → Angle F y x (-piRaw F + quoRaw F x y)

/-- The prologue of `atan2`, with everything that cannot fail evaluated. -/
theorem atan2_step (h : F + 3 ≤ W) (y x : Fixed m true W F) (hy : Fits true W |y.val|) (hx : Fits true W |x.val|) :
    ∃ ph pi z nh np d : Fixed m true W F, ph.val = halfRaw F ∧ pi.val = piRaw F ∧ z.val = 0 ∧ nh.val = -halfRaw F ∧
      np.val = -piRaw F ∧ d.val = |y.val| - |x.val| ∧
      atan2Poly y x =
        if y.val = 0 then (if x.val < 0 then pure pi else pure z)
        else if 0 < y.val then
          if x.val = 0 then pure ph
          else if 0 < x.val then
            if |y.val| < |x.val| then atanPoly1 y x else (do NumOps.sub ph (← atanPoly1 x y))
          else if |x.val| ≤ |y.val| then (do NumOps.sub ph (← atanPoly1 x y)) else (do NumOps.add pi (← atanPoly1 y x))
        else
          if x.val = 0 then pure nh
          else if 0 < x.val then
            if |y.val| < |x.val| then atanPoly1 y x else (do NumOps.sub nh (← atanPoly1 x y))
          else if |x.val| ≤ |y.val| then (do NumOps.sub nh (← atanPoly1 x y)) else (do NumOps.add np (← atanPoly1 y x)) := by
  have hP : (0:ℤ) < 2 ^ F := by positivity
  have hb := halfRaw_bounds F
  have hb' := piRaw_bounds F
  have hd : Fits true W (|y.val| - |x.val|) := by
    rw [fits_signed] at *; constructor <;> linarith [abs_nonneg x.val, abs_nonneg y.val]
  obtain ⟨ph, hph, vph⟩ : ∃ ph : Fixed m true W F,
      (do let p ← MixedPi.pi; let two ← Lit.ofI32 2; NumOps.div p two) = pure ph ∧ ph.val = halfRaw F := ⟨_, half_eq h, rfl⟩
  obtain ⟨pi, hpi, vpi⟩ : ∃ p : Fixed m true W F, MixedPi.pi = pure p ∧ p.val = piRaw F := ⟨_, pi_def h, rfl⟩
  obtain ⟨two, htwo, vtwo⟩ : ∃ p : Fixed m true W F, Lit.ofI32 2 = pure p ∧ p.val = 2 * 2 ^ F :=
    ⟨_, fit_of_fits (fits_two h), rfl⟩
  obtain ⟨zl, hzl, vzl⟩ : ∃ p : Fixed m true W F, Lit.ofF64 0 = pure p ∧ p.val = 0 := by
    refine ⟨mkv 0 (fits_zero _ _), ?_, rfl⟩
    rw [ofF64_def, zero_mul, show roundHalfEven (0:ℚ) = 0 by exact_mod_cast roundHalfEven_intCast 0]
    exact fit_of_fits _
  obtain ⟨nh, hnh, vnh⟩ : ∃ p : Fixed m true W F, MixedNumSigned.neg ph = pure p ∧ p.val = -halfRaw F := by
    rw [neg_def, vph]
    exact ⟨_, fit_of_fits ((fits_neg_pi h).between (fits_zero _ _) (by omega) (by omega)), rfl⟩
  obtain ⟨np, hnp, vnp⟩ : ∃ p : Fixed m true W F, MixedNumSigned.neg pi = pure p ∧ p.val = -piRaw F := by
    rw [neg_def, vpi]; exact ⟨_, fit_of_fits (fits_neg_pi h), rfl⟩
  obtain ⟨ya, hya, vya⟩ : ∃ p : Fixed m true W F, MixedAbs.abs y = pure p ∧ p.val = |y.val| := ⟨_, fit_of_fits hy, rfl⟩
  obtain ⟨xa, hxa, vxa⟩ : ∃ p : Fixed m true W F, MixedAbs.abs x = pure p ∧ p.val = |x.val| := ⟨_, fit_of_fits hx, rfl⟩
  obtain ⟨d, hdd, vd⟩ : ∃ p : Fixed m true W F, NumOps.sub ya xa = pure p ∧ p.val = |y.val| - |x.val| := by
    rw [sub_def, vya, vxa]; exact ⟨_, fit_of_fits hd, rfl⟩
  have hdiv : NumOps.div pi two = pure ph := by rw [hpi, htwo] at hph; simpa using hph
  have hndiv : NumOps.div np two = pure nh := by
    rw [div_def, vnp, vtwo, if_neg (by positivity)]
    have e : (-piRaw F * 2 ^ F).tdiv (2 * 2 ^ F) = -halfRaw F := by
      rw [neg_mul, Int.neg_tdiv, Int.tdiv_eq_ediv_of_nonneg (by nlinarith), Int.mul_ediv_mul_of_pos_left _ _ hP]; rfl
    rw [e]
    have hf : Fits true W (-halfRaw F) := vnh ▸ nh.fits
    rw [fit_of_fits hf]; congr 1; ext; rw [mkv_val, vnh]
  refine ⟨ph, pi, MixedZero.zero, nh, np, d, vph, vpi, rfl, vnh, vnp, vd, ?_⟩
  unfold atan2Poly
  simp only [hya, hxa, hpi, htwo, pure_bind, hdiv, hdd, hzl, hnh, hnp, hndiv, beq_def, lt_def, le_def, isPositive_def,
    isNegative_def, poly2_eq_poly1, decide_eq_true_eq, vd, vzl, zero_val, sub_neg, sub_nonneg]

theorem fits_abs_of_range (hK : F + K + 1 ≤ W) (hK2 : 2 ≤ K) {n : ℤ} (h : 2 * (n * n) ≤ 2 ^ K * 2 ^ F * 2 ^ F) :
    Fits true W |n| :=
  fits_abs_lt hK (by have : (0:ℤ) < 2 ^ K * 2 ^ F := by positivity
                     linarith [abs_nonneg n]) (range_of hK2 h).2

theorem le_of_abs_le {a b : ℤ} (h : |a| ≤ |b|) (hd : 2 ^ F ≤ a * a ∨ 2 ^ F ≤ b * b) : 2 ^ F ≤ b * b := by
  rcases hd with hd | hd
  · exact hd.trans (sq_le_of_abs h)
  · exact hd

/-- `atan2` returns, and what it returns, where absolute values and denominator are representable and the larger
coordinate has a square of at least one unit. -/
theorem atan2_value (h : F + 3 ≤ W) (y x : Fixed m true W F) (hfy : Fits true W |y.val|) (hfx : Fits true W |x.val|)
    (hR1 : x.val ≠ 0 → y.val ≠ 0 → |y.val| < |x.val| → Fits true W (denRaw F x.val y.val))
    (hR2 : x.val ≠ 0 → y.val ≠ 0 → |x.val| ≤ |y.val| → Fits true W (denRaw F y.val x.val))
    (hD : x.val = 0 ∨ y.val = 0 ∨ 2 ^ F ≤ x.val * x.val ∨ 2 ^ F ≤ y.val * y.val) :
    ∃ v : Fixed m true W F, atan2Poly y x = pure v ∧ Angle F y.val x.val v.val := by
  obtain ⟨ph, pi, z, nh, np, d, vph, vpi, vz, vnh, vnp, vd, e⟩ := atan2_step h y x hfy hfx
  rw [e]
  have hP : (0:ℤ) < 2 ^ F := by positivity
  have hb := halfRaw_bounds F
  have hb' := piRaw_bounds F
  have small : ∀ n : ℤ, -(4 * 2 ^ F) ≤ n → n < 4 * 2 ^ F → Fits true W n := fun n h1 h2 =>
    fits_abs_lt (K := 2) h (by linarith) (by linarith)
  by_cases hy : y.val = 0
  · rw [if_pos hy]
    by_cases hx : x.val < 0
    · rw [if_pos hx]; exact ⟨pi, rfl, by rw [vpi]; exact .axisNeg hy hx⟩
    · rw [if_neg hx]; exact ⟨z, rfl, by rw [vz]; exact .axisPos hy (not_lt.mp hx)⟩
  rw [if_neg hy]
  by_cases hx : x.val = 0
  · rw [if_pos hx, if_pos hx]
    by_cases hp : 0 < y.val
    · rw [if_pos hp]; exact ⟨ph, rfl, by rw [vph]; exact .up hp hx⟩
    · rw [if_neg hp]; exact ⟨nh, rfl, by rw [vnh]; exact .down (by omega) hx⟩
  rw [if_neg hx, if_neg hx]
  have hD' : 2 ^ F ≤ x.val * x.val ∨ 2 ^ F ≤ y.val * y.val := by tauto
  -- the two quotients
  have q1 : |y.val| < |x.val| → ∃ q : Fixed m true W F, atanPoly1 y x = pure q ∧ q.val = quoRaw F x.val y.val ∧
      |q.val| ≤ 2 * 2 ^ F ∧ (0 ≤ x.val * y.val → 0 ≤ q.val) ∧ (x.val * y.val ≤ 0 → q.val ≤ 0) := fun hc => by
    have hd := le_of_abs_le hc.le hD'.symm
    obtain ⟨q, hq, vq⟩ := poly1_returns h y x hc.le (hR1 hx hy hc) hd
    exact ⟨q, hq, vq, by rw [vq]; exact quo_bounds hc.le hd⟩
  have q2 : |x.val| ≤ |y.val| → ∃ q : Fixed m true W F, atanPoly1 x y = pure q ∧ q.val = quoRaw F y.val x.val ∧
      |q.val| ≤ 2 * 2 ^ F := fun hc => by
    have hd := le_of_abs_le hc hD'
    obtain ⟨q, hq, vq⟩ := poly1_returns h x y hc (hR2 hx hy hc) hd
    exact ⟨q, hq, vq, by rw [vq]; exact (quo_bounds hc hd).1⟩
  have c2 : ∀ w : Fixed m true W F, |w.val| ≤ halfRaw F → |x.val| ≤ |y.val| →
      ∃ v : Fixed m true W F, (do NumOps.sub w (← atanPoly1 x y)) = pure v ∧ v.val = w.val - quoRaw F y.val x.val := by
    intro w hw hc
    obtain ⟨q, hq, vq, bq⟩ := q2 hc
    have := abs_le.mp bq; have := abs_le.mp hw
    rw [hq, pure_bind, sub_def, vq]
    rw [vq] at *
    exact ⟨_, fit_of_fits (small _ (by omega) (by omega)), rfl⟩
  have hph : |ph.val| ≤ halfRaw F := by rw [vph, abs_of_pos hb.1]
  have hnh : |nh.val| ≤ halfRaw F := by rw [vnh, abs_neg, abs_of_pos hb.1]
  by_cases hp : 0 < y.val
  · rw [if_pos hp]
    by_cases hxp : 0 < x.val
    · rw [if_pos hxp]
      by_cases hc : |y.val| < |x.val|
      · rw [if_pos hc]
        obtain ⟨q, hq, vq, -⟩ := q1 hc
        exact ⟨q, hq, by rw [vq]; exact .right hy hxp hc⟩
      · rw [if_neg hc]
        obtain ⟨v, hv, vv⟩ := c2 ph hph (not_lt.mp hc)
        exact ⟨v, hv, by rw [vv, vph]; exact .upper hp hx (not_lt.mp hc)⟩
    · rw [if_neg hxp]
      by_cases hc : |x.val| ≤ |y.val|
      · rw [if_pos hc]
        obtain ⟨v, hv, vv⟩ := c2 ph hph hc
        exact ⟨v, hv, by rw [vv, vph]; exact .upper hp hx hc⟩
      · rw [if_neg hc]
        obtain ⟨q, hq, vq, bq, -, sq⟩ := q1 (not_le.mp hc)
        have s0 := sq (by clear q1 q2 c2; nlinarith); have := abs_le.mp bq
        clear q1 q2 c2
        rw [hq, pure_bind, add_def, vpi]
        refine ⟨_, fit_of_fits (small _ (by omega) (by omega)), ?_⟩
        rw [mkv_val, vq]; exact .left hp (by omega) (not_le.mp hc)
  · rw [if_neg hp]
    have hn : y.val < 0 := by clear q1 q2 c2; omega
    by_cases hxp : 0 < x.val
    · rw [if_pos hxp]
      by_cases hc : |y.val| < |x.val|
      · rw [if_pos hc]
        obtain ⟨q, hq, vq, -⟩ := q1 hc
        exact ⟨q, hq, by rw [vq]; exact .right hy hxp hc⟩
      · rw [if_neg hc]
        obtain ⟨v, hv, vv⟩ := c2 nh hnh (not_lt.mp hc)
        exact ⟨v, hv, by rw [vv, vnh]; exact .lower hn hx (not_lt.mp hc)⟩
    · rw [if_neg hxp]
      by_cases hc : |x.val| ≤ |y.val|
      · rw [if_pos hc]
        obtain ⟨v, hv, vv⟩ := c2 nh hnh hc
        exact ⟨v, hv, by rw [vv, vnh]; exact .lower hn hx hc⟩
      · rw [if_neg hc]
        obtain ⟨q, hq, vq, bq, sq, -⟩ := q1 (not_le.mp hc)
        have s0 := sq (by clear q1 q2 c2; nlinarith); have := abs_le.mp bq
        clear q1 q2 c2
        rw [hq, pure_bind, add_def, vnp]
        refine ⟨_, fit_of_fits (small _ (by omega) (by omega)), ?_⟩
        rw [mkv_val, vq]; exact .left' hn (by omega) (not_le.mp hc)

/-- The same under a bound on the squares. -/
theorem atan2_fixed (hK : F + K + 1 ≤ W) (hK2 : 2 ≤ K) (y x : Fixed m true W F)
    (hRy : 2 * (y.val * y.val) ≤ 2 ^ K * 2 ^ F * 2 ^ F) (hRx : 2 * (x.val * x.val) ≤ 2 ^ K * 2 ^ F * 2 ^ F)
    (hD : x.val = 0 ∨ y.val = 0 ∨ 2 ^ F ≤ x.val * x.val ∨ 2 ^ F ≤ y.val * y.val) :
    ∃ v : Fixed m true W F, atan2Poly y x = pure v ∧ Angle F y.val x.val v.val :=
  atan2_value (by omega) y x (fits_abs_of_range hK hK2 hRy) (fits_abs_of_range hK hK2 hRx)
    (fun _ _ hc => den_fits hK hK2 hc.le hRx) (fun _ _ hc => den_fits hK hK2 hc hRy) hD

/-- The stored angle against the polynomial angle of the real point. -/
theorem Angle.close {y x v : ℤ} (h : Angle F y x v) (hD : 2 ^ F ≤ x * x ∨ 2 ^ F ≤ y * y) :
    ∃ w : ℝ, PolyAngle ((y:ℝ) / 2 ^ F) ((x:ℝ) / 2 ^ F) w ∧
      |(v:ℝ) * u F - w| ≤ 7 * u F / (max |(x:ℝ) * u F| |(y:ℝ) * u F|) ^ 2 + 3 * u F + 1 / 2 ^ 52 := by
  have hu := u_pos F
  have hP : (0:ℝ) < 2 ^ F := by positivity
  obtain ⟨p1, p2⟩ := abs_le.mp (pi_close F)
  obtain ⟨g1, g2⟩ := abs_le.mp (half_close F)
  have hM : 0 ≤ 7 * u F / (max |(x:ℝ) * u F| |(y:ℝ) * u F|) ^ 2 := by positivity
  have rat : ∀ a b : ℤ, (a:ℝ) / 2 ^ F / ((b:ℝ) / 2 ^ F) = a / b := fun a b => div_div_div_cancel_right₀ hP.ne' _ _
  have absc : ∀ {a b : ℤ}, |a| ≤ |b| → |(a:ℝ) / 2 ^ F| ≤ |(b:ℝ) / 2 ^ F| := fun {a b} h => by
    rw [abs_div, abs_div]; exact div_le_div_of_nonneg_right (by exact_mod_cast h) (abs_nonneg _)
  have absl : ∀ {a b : ℤ}, |a| < |b| → |(a:ℝ) / 2 ^ F| < |(b:ℝ) / 2 ^ F| := fun {a b} h => by
    rw [abs_div, abs_div]; exact div_lt_div_of_pos_right (by exact_mod_cast h) (abs_pos.mpr hP.ne')
  have absu : ∀ {a b : ℤ}, |a| ≤ |b| → |(a:ℝ) * u F| ≤ |(b:ℝ) * u F| := fun {a b} h => by
    rw [abs_mul, abs_mul]; exact mul_le_mul_of_nonneg_right (by exact_mod_cast h) (abs_nonneg _)
  have pos : ∀ {a : ℤ}, 0 < a → 0 < (a:ℝ) / 2 ^ F := fun h => div_pos (by exact_mod_cast h) hP
  have neg : ∀ {a : ℤ}, a < 0 → (a:ℝ) / 2 ^ F < 0 := fun h => div_neg_of_neg_of_pos (by exact_mod_cast h) hP
  have nz : ∀ {a : ℤ}, a ≠ 0 → (a:ℝ) / 2 ^ F ≠ 0 := fun h => div_ne_zero (by exact_mod_cast h) hP.ne'
  have ze : ∀ {a : ℤ}, a = 0 → (a:ℝ) / 2 ^ F = 0 := fun h => by rw [h]; simp
  have k1 : |y| ≤ |x| → |(quoRaw F x y : ℝ) * u F - ratan (y / x)| ≤
      7 * u F / (max |(x:ℝ) * u F| |(y:ℝ) * u F|) ^ 2 + 2 * u F := fun hc => by
    rw [max_eq_left (absu hc), sq_abs]; exact quo_close hc (le_of_abs_le hc hD.symm)
  have k2 : |x| ≤ |y| → |(quoRaw F y x : ℝ) * u F - ratan (x / y)| ≤
      7 * u F / (max |(x:ℝ) * u F| |(y:ℝ) * u F|) ^ 2 + 2 * u F := fun hc => by
    rw [max_eq_right (absu hc), sq_abs]; exact quo_close hc (le_of_abs_le hc hD)
  cases h with
  | axisPos hy hx =>
    refine ⟨_, .axisPos (ze hy) (div_nonneg (by exact_mod_cast hx) hP.le), ?_⟩
    push_cast; rw [zero_mul, sub_zero, abs_zero]; positivity
  | axisNeg hy hx =>
    refine ⟨_, .axisNeg (ze hy) (neg hx), ?_⟩
    rw [abs_le]; constructor <;> linarith
  | up hy hx =>
    refine ⟨_, .up (pos hy) (ze hx), ?_⟩
    rw [abs_le]; constructor <;> linarith
  | down hy hx =>
    refine ⟨_, .down (neg hy) (ze hx), ?_⟩
    push_cast; rw [abs_le]; constructor <;> linarith
  | right hy hx hc =>
    refine ⟨_, .right (nz hy) (pos hx) (absl hc), ?_⟩
    rw [rat]; refine (k1 hc.le).trans ?_
    have : (0:ℝ) < 1 / 2 ^ 52 := by positivity
    linarith
  | upper hy hx hc =>
    refine ⟨_, .upper (pos hy) (nz hx) (absc hc), ?_⟩
    obtain ⟨a, b⟩ := abs_le.mp (k2 hc)
    rw [rat]; push_cast; rw [abs_le]; constructor <;> linarith
  | lower hy hx hc =>
    refine ⟨_, .lower (neg hy) (nz hx) (absc hc), ?_⟩
    obtain ⟨a, b⟩ := abs_le.mp (k2 hc)
    rw [rat]; push_cast; rw [abs_le]; constructor <;> linarith
  | left hy hx hc =>
    refine ⟨_, .left (pos hy) (neg hx) (absl hc), ?_⟩
    obtain ⟨a, b⟩ := abs_le.mp (k1 hc.le)
    rw [rat]; push_cast; rw [abs_le]; constructor <;> linarith
  | left' hy hx hc =>
    refine ⟨_, .left' (neg hy) (neg hx) (absl hc), ?_⟩
    obtain ⟨a, b⟩ := abs_le.mp (k1 hc.le)
    rw [rat]; push_cast; rw [abs_le]; constructor <;> linarith

end Fixed

variable {m : Mode} {W F K : ℕ}

/-! ## C43 -/

/-- C43 is false: when both coordinates are non-zero and so small that their squares round to zero, `atan2` divides by
zero. This holds in both overflow modes and on every supported signed type. -/
theorem C43_counterexample (h : F + 3 ≤ W) (y x : Fixed m true W F) (hx : x.val ≠ 0) (hy : y.val ≠ 0)
    (hx2 : x.val * x.val < 2 ^ F) (hy2 : y.val * y.val < 2 ^ F) : Panics (atan2Poly y x) .divByZero := by
  have hK : F + 2 + 1 ≤ W := by omega
  have hR : ∀ n : ℤ, n * n < 2 ^ F → 2 * (n * n) ≤ 2 ^ 2 * 2 ^ F * 2 ^ F := fun n hn => by
    have : (1:ℤ) ≤ 2 ^ F := one_le_pow₀ (by norm_num)
    nlinarith
  obtain ⟨ph, pi, z, nh, np, d, -, -, -, -, -, -, e⟩ :=
    Fixed.atan2_step h y x (Fixed.fits_abs_of_range hK le_rfl (hR _ hy2)) (Fixed.fits_abs_of_range hK le_rfl (hR _ hx2))
  refine .of_eq ?_
  rw [e]
  have p1 : |y.val| ≤ |x.val| → atanPoly1 y x = Prog.fail .divByZero := fun hc =>
    Fixed.poly1_panics h y x hc hx2
  have p2 : |x.val| ≤ |y.val| → atanPoly1 x y = Prog.fail .divByZero := fun hc =>
    Fixed.poly1_panics h x y hc hy2
  rw [if_neg hy, if_neg hx, if_neg hx]
  split_ifs with h1 h2 h3 h4 h5 h6 h7
  · exact p1 h3.le
  · rw [p2 (not_lt.mp h3), Prog.fail_bind]
  · rw [p2 h4, Prog.fail_bind]
  · rw [p1 (not_le.mp h4).le, Prog.fail_bind]
  · exact p1 h6.le
  · rw [p2 (not_lt.mp h6), Prog.fail_bind]
  · rw [p2 h7, Prog.fail_bind]
  · rw [p1 (not_le.mp h7).le, Prog.fail_bind]

example : ∃ y x : Fixed .checked true 32 28, x.val = 2 ^ 13 ∧ y.val = 2 ^ 13 ∧ x.val * x.val < 2 ^ 28 :=
  ⟨fx .checked true 32 28 (2 ^ 13), fx .checked true 32 28 (2 ^ 13), by decide, by decide, by decide⟩

/-- C43 is false for the most negative number in checked builds as well: its absolute value overflows. -/
theorem C43_min_counterexample (y x : Fixed .checked true W F) (hx : x.val = -(2 ^ (W - 1))) :
    Panics (atan2Poly y x) .overflow := by
  refine .of_eq ?_
  unfold atan2Poly
  have hn : ¬ Fits true W |x.val| := by
    have : (0:ℤ) < 2 ^ (W - 1) := by positivity
    rw [Fixed.fits_signed, hx, abs_neg, abs_of_pos this]; omega
  have e : (MixedAbs.abs x : Prog (Fixed .checked true W F)) = Prog.fail .overflow := Fixed.fit_checked hn
  rcases Fixed.ends_fit_checked (s := true) (W := W) (F := F) |y.val| with ⟨v, hv⟩ | hv
  · rw [Fixed.abs_def, hv, pure_bind, e, Prog.fail_bind]
  · rw [Fixed.abs_def, hv, Prog.fail_bind]

/-- The hypothesis holds on 16 bits of the raw value -32768. -/
example := C43_min_counterexample (fx .checked true 16 8 5) (fx .checked true 16 8 (-32768)) rfl

/-- C43, the part that holds, on signed types with `K + 1` integer bits (sign included), `K ≥ 2`: `atan2` returns when
the coordinates are at most sqrt(2^K / 2) and, unless one of them is zero, the square of the larger is at least one unit.
Missing for the full statement: tiny and huge coordinates, where it is false. -/
theorem C43_partial (hK : F + K + 1 ≤ W) (hK2 : 2 ≤ K) (y x : Fixed m true W F)
    (hRy : 2 * (y.val * y.val) ≤ 2 ^ K * 2 ^ F * 2 ^ F) (hRx : 2 * (x.val * x.val) ≤ 2 ^ K * 2 ^ F * 2 ^ F)
    (hD : x.val = 0 ∨ y.val = 0 ∨ 2 ^ F ≤ x.val * x.val ∨ 2 ^ F ≤ y.val * y.val) :
    ∃ v : Fixed m true W F, Returns (atan2Poly y x) v := by
  obtain ⟨v, hv, -⟩ := Fixed.atan2_fixed hK hK2 y x hRy hRx hD
  exact ⟨v, .of_eq hv⟩

example : (28 + 3 + 1 ≤ 32) ∧ 2 * ((fx .checked true 32 28 (2 ^ 28)).val * 2 ^ 28) ≤ 2 ^ 3 * 2 ^ 28 * 2 ^ 28 ∧
    (2:ℤ) ^ 28 ≤ (fx .checked true 32 28 (2 ^ 28)).val * 2 ^ 28 := by decide

/-- C43: within that range, returning is decided exactly by the tiny-coordinate condition. -/
theorem C43_exact (hK : F + K + 1 ≤ W) (hK2 : 2 ≤ K) (y x : Fixed m true W F)
    (hRy : 2 * (y.val * y.val) ≤ 2 ^ K * 2 ^ F * 2 ^ F) (hRx : 2 * (x.val * x.val) ≤ 2 ^ K * 2 ^ F * 2 ^ F) :
    (∃ v : Fixed m true W F, Returns (atan2Poly y x) v) ↔
      (x.val = 0 ∨ y.val = 0 ∨ 2 ^ F ≤ x.val * x.val ∨ 2 ^ F ≤ y.val * y.val) := by
  refine ⟨fun ⟨v, hv⟩ => ?_, C43_partial hK hK2 y x hRy hRx⟩
  by_contra hc
  simp only [not_or, not_le] at hc
  exact hv.not_panics (C43_counterexample (by omega) y x hc.1 hc.2.1 hc.2.2.1 hc.2.2.2)

example := (C43_exact (m := .checked) (W := 32) (F := 8) (K := 20) (by decide) (by decide) (fx .checked true 32 8 700) (fx .checked true 32 8 (-30))
  (by decide) (by decide)).mpr (by decide)

/-! ## C65 -/

/-- From the stored angle to the accuracy. -/
theorem Fixed.Angle.accuracy {y x v : ℤ} (hA : Fixed.Angle F y x v) (hD : 2 ^ F ≤ x * x ∨ 2 ^ F ≤ y * y) :
    |(v : ℝ) / 2 ^ F - Complex.arg ⟨x / 2 ^ F, y / 2 ^ F⟩| ≤
      0.00492 + (3 + 7 / (max |(x : ℝ) / 2 ^ F| |(y : ℝ) / 2 ^ F|) ^ 2) / 2 ^ F := by
  obtain ⟨w, hw, e⟩ := hA.close hD
  have e2 := hw.error
  have e3 : |w - Complex.arg ⟨x / 2 ^ F, y / 2 ^ F⟩| ≤ Real.pi / 4 - 32 / 41 := by
    rw [e2]; refine abs_ratanErr ?_
    rw [abs_of_nonneg (ratio_nonneg _ _)]; exact ratio_le_one _ _
  have hpi := Real.pi_lt_d6
  have c : ∀ n : ℤ, (n:ℝ) * Fixed.u F = n / 2 ^ F := fun n => by unfold Fixed.u; ring
  rw [c, c, c] at e
  have ed : (3 + 7 / (max |(x : ℝ) / 2 ^ F| |(y : ℝ) / 2 ^ F|) ^ 2) / 2 ^ F =
      7 * Fixed.u F / (max |(x : ℝ) / 2 ^ F| |(y : ℝ) / 2 ^ F|) ^ 2 + 3 * Fixed.u F := by unfold Fixed.u; ring
  rw [ed]
  calc |(v : ℝ) / 2 ^ F - Complex.arg ⟨x / 2 ^ F, y / 2 ^ F⟩|
      = |((v : ℝ) / 2 ^ F - w) + (w - Complex.arg ⟨x / 2 ^ F, y / 2 ^ F⟩)| := by congr 1; ring
    _ ≤ _ := abs_add_le _ _
    _ ≤ _ := by norm_num at hpi e ⊢; linarith

/-- C65: on fixed point, all rounding included, the computed angle of (x, y) is within 0.00492 rad plus 3 units in the
last place plus 7 units divided by the squared larger coordinate of the true angle. -/
theorem C65_accuracy (hK : F + K + 1 ≤ W) (hK2 : 2 ≤ K) (y x : Fixed m true W F)
    (hRy : 2 * (y.val * y.val) ≤ 2 ^ K * 2 ^ F * 2 ^ F) (hRx : 2 * (x.val * x.val) ≤ 2 ^ K * 2 ^ F * 2 ^ F)
    (hD : 2 ^ F ≤ x.val * x.val ∨ 2 ^ F ≤ y.val * y.val) :
    ∃ v : Fixed m true W F, Returns (atan2Poly y x) v ∧
      |(v.val : ℝ) / 2 ^ F - Complex.arg ⟨x.val / 2 ^ F, y.val / 2 ^ F⟩| ≤
        0.00492 + (3 + 7 / (max |(x.val : ℝ) / 2 ^ F| |(y.val : ℝ) / 2 ^ F|) ^ 2) / 2 ^ F := by
  obtain ⟨v, hv, hA⟩ := Fixed.atan2_fixed hK hK2 y x hRy hRx (by tauto)
  exact ⟨v, .of_eq hv, hA.accuracy hD⟩

example := C65_accuracy (m := .checked) (W := 32) (F := 8) (K := 20) (by decide) (by decide) (fx .checked true 32 8 700) (fx .checked true 32 8 (-30))
  (by decide) (by decide) (by decide)

/-- C65: on the axes the angle is the constant of the type, whatever the distance from the origin. -/
theorem C65_axes (hK : F + K + 1 ≤ W) (hK2 : 2 ≤ K) (y x : Fixed m true W F)
    (hRy : 2 * (y.val * y.val) ≤ 2 ^ K * 2 ^ F * 2 ^ F) (hRx : 2 * (x.val * x.val) ≤ 2 ^ K * 2 ^ F * 2 ^ F)
    (h0 : x.val = 0 ∨ y.val = 0) :
    ∃ v : Fixed m true W F, Returns (atan2Poly y x) v ∧
      |(v.val : ℝ) / 2 ^ F - Complex.arg ⟨x.val / 2 ^ F, y.val / 2 ^ F⟩| ≤ 1 / 2 ^ F + 1 / 2 ^ 52 := by
  obtain ⟨v, hv, hA⟩ := Fixed.atan2_fixed hK hK2 y x hRy hRx (by tauto)
  refine ⟨v, .of_eq hv, ?_⟩
  have hP : (0:ℝ) < 2 ^ F := by positivity
  have hu := Fixed.u_pos F
  obtain ⟨p1, p2⟩ := abs_le.mp (Fixed.pi_close F)
  obtain ⟨g1, g2⟩ := abs_le.mp (Fixed.half_close F)
  have c : (v.val:ℝ) / 2 ^ F = v.val * Fixed.u F := by unfold Fixed.u; ring
  rw [c, show (1:ℝ) / 2 ^ F = Fixed.u F from rfl]
  generalize hvv : v.val = vv at hA
  cases hA with
  | axisPos hy hx =>
    have e : (⟨(x.val : ℝ) / 2 ^ F, (y.val : ℝ) / 2 ^ F⟩ : ℂ) = (((x.val : ℝ) / 2 ^ F : ℝ) : ℂ) := by
      rw [hy, Int.cast_zero, zero_div]; rfl
    rw [e, Complex.arg_ofReal_of_nonneg (div_nonneg (by exact_mod_cast hx) hP.le)]
    push_cast; rw [zero_mul, sub_zero, abs_zero]; positivity
  | axisNeg hy hx =>
    have e : (⟨(x.val : ℝ) / 2 ^ F, (y.val : ℝ) / 2 ^ F⟩ : ℂ) = (((x.val : ℝ) / 2 ^ F : ℝ) : ℂ) := by
      rw [hy, Int.cast_zero, zero_div]; rfl
    rw [e, Complex.arg_ofReal_of_neg (div_neg_of_neg_of_pos (by exact_mod_cast hx) hP)]
    rw [abs_le]; constructor <;> linarith
  | up hy hx =>
    rw [arg_upper (div_pos (by exact_mod_cast hy) hP), hx]
    push_cast; rw [zero_div, zero_div, Real.arctan_zero, abs_le]; constructor <;> linarith
  | down hy hx =>
    rw [arg_lower (div_neg_of_neg_of_pos (by exact_mod_cast hy) hP), hx]
    push_cast; rw [zero_div, zero_div, Real.arctan_zero, abs_le]; constructor <;> linarith
  | right hy hx hc => omega
  | upper hy hx hc => omega
  | lower hy hx hc => omega
  | left hy hx hc => omega
  | left' hy hx hc => omega

/-- The doc-test of `atan2` (src/trigonometry/atan.rs:59-60) in the model: the result is 262584566 / 2^28 = 0.978203...,
whose nearest `f32` is the documented 0.9782037. -/
example : ∃ v : Fixed .checked true 32 28,
    Returns (atan2Poly (fx .checked true 32 28 161061274) (fx .checked true 32 28 107374182)) v ∧ v.val = 262584566 := by
  obtain ⟨v, hv, hA⟩ := Fixed.atan2_fixed (K := 3) (by norm_num) (by norm_num) (fx .checked true 32 28 161061274)
    (fx .checked true 32 28 107374182) (by decide) (by decide) (by decide)
  refine ⟨v, .of_eq hv, ?_⟩
  generalize v.val = w at hA
  cases hA with
  | upper _ _ _ => unfold Fixed.halfRaw Fixed.piRaw; rw [Fixed.piLit_eq]; decide +kernel
  | axisPos h => revert h; decide
  | axisNeg h => revert h; decide
  | up _ h => revert h; decide
  | down _ h => revert h; decide
  | right _ _ h => revert h; decide
  | lower h => revert h; decide
  | left _ h => revert h; decide
  | left' h => revert h; decide

end MixedNum
