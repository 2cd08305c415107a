import Verif.Lemmas.WrapAcc
import Verif.Props.Atan
/-! The polynomial arctangent on floats. -/

namespace MixedNum
namespace Flt
variable {f : Format}

/-- The magnitudes on which neither overflow nor underflow matters, for quantities of the size of `T`. -/
structure Scale (f : Format) (T : ℝ) : Prop where
  lo : (2:ℝ) ^ f.emin ≤ eta f * T
  hi : 4 * T ≤ 2 ^ f.emax

theorem Scale.pos {T : ℝ} (h : Scale f T) : 0 < T := by
  have h1 : (0:ℝ) < 2 ^ f.emin := by positivity
  exact (mul_pos_iff_of_pos_left eta_pos).mp (h1.trans_le h.lo)

/-- `x` is within `c` units of `2^-p T` of `A`. -/
def Sc (x : Flt f) (A c T : ℝ) : Prop := ∃ q, Is x q ∧ |(q:ℝ) - A| ≤ c * (eta f * T)

theorem Is.sc {x : Flt f} {q : ℚ} (h : Is x q) (T : ℝ) : Sc x q 0 T := ⟨q, h, by simp⟩

theorem Sc.nonneg {x : Flt f} {A c T : ℝ} (hT : Scale f T) (h : Sc x A c T) : 0 ≤ c := by
  obtain ⟨q, _, h⟩ := h
  by_contra hc
  have := mul_neg_of_neg_of_pos (not_le.mp hc) (mul_pos (eta_pos (f := f)) hT.pos)
  linarith [abs_nonneg ((q:ℝ) - A)]

/-- Rounding a number close to `A`. -/
theorem round_scale (hf : f.Wide) {q : ℚ} {A T c U M : ℝ} (hT : Scale f T) (h : |(q:ℝ) - A| ≤ c * (eta f * T))
    (hU : |A| ≤ U * T) (hM : U + c / 10 ^ 7 + 1 / 2 ≤ M) (hM' : M ≤ 2) :
    |rnd f.p f.emin q| < 2 ^ f.emax ∧ |((rnd f.p f.emin q : ℚ) : ℝ) - A| ≤ (c + M) * (eta f * T) := by
  have he := eta_pos (f := f); have hel := eta_le hf
  have hT0 := hT.pos
  have hc : 0 ≤ c := by
    by_contra hc
    have := mul_neg_of_neg_of_pos (not_le.mp hc) (mul_pos he hT0)
    linarith [abs_nonneg ((q:ℝ) - A)]
  have hce : c * (eta f * T) ≤ c / 10 ^ 7 * T := by
    rw [div_eq_mul_one_div, mul_assoc]
    exact mul_le_mul_of_nonneg_left (mul_le_mul_of_nonneg_right (hel.trans (by norm_num)) hT0.le) hc
  have hqA : |(q:ℝ)| ≤ (U + c / 10 ^ 7) * T := by
    have := abs_sub_abs_le_abs_sub (q:ℝ) A
    rw [add_mul]; linarith
  have hp := hf.p; have hmin := hf.emin; have hmax := hf.emax
  constructor
  · refine abs_rnd_lt hf.one_le (e := f.emax - 1) ?_ (by omega) (by omega)
    rw [← Rat.cast_le (K := ℝ)]; push_cast
    have h1 : (U + c / 10 ^ 7) * T ≤ 2 * T := mul_le_mul_of_nonneg_right (by linarith) hT0.le
    have h2 : (2:ℝ) ^ ((f.emax : ℤ) - 1) = 2 ^ f.emax / 2 := by
      rw [zpow_sub_one₀ (by norm_num), zpow_natCast]; ring
    rw [h2]; have := hT.hi; linarith
  · have h1 := cast_abs_le (abs_rnd_le (p := f.p) (emin := f.emin) q)
    push_cast at h1
    have e1 : (2:ℝ) ^ (-(f.p:ℤ)) = eta f := rfl
    rw [e1] at h1
    have h2 := mul_le_mul_of_nonneg_right hqA he.le
    have h3 := mul_le_mul_of_nonneg_right hM (mul_pos he hT0).le
    have h4 := abs_sub_le (((rnd f.p f.emin q : ℚ) : ℝ)) q A
    have h5 := hT.lo
    rw [show (U + c / 10 ^ 7) * T * eta f = (U + c / 10 ^ 7) * (eta f * T) by ring] at h2
    rw [add_mul] at h3 ⊢
    linarith

theorem Sc.add (hf : f.Wide) {x y : Flt f} {A B a b U M T : ℝ} (hT : Scale f T) (hx : Sc x A a T) (hy : Sc y B b T)
    (hU : |A + B| ≤ U * T) (hM : U + (a + b) / 10 ^ 7 + 1 / 2 ≤ M) (hM' : M ≤ 2) : Sc (x.add y) (A + B) (a + b + M) T := by
  obtain ⟨q, hq, e1⟩ := hx
  obtain ⟨r, hr, e2⟩ := hy
  obtain ⟨h1, h2⟩ := round_scale hf (q := q + r) (A := A + B) (c := a + b) hT (by
    push_cast
    rw [show (q:ℝ) + r - (A + B) = (q - A) + (r - B) by ring, add_mul]
    exact (abs_add_le _ _).trans (add_le_add e1 e2)) hU hM hM'
  exact ⟨_, hq.add hf.one_le hr h1, h2⟩

theorem Sc.sub (hf : f.Wide) {x y : Flt f} {A B a b U M T : ℝ} (hT : Scale f T) (hx : Sc x A a T) (hy : Sc y B b T)
    (hU : |A - B| ≤ U * T) (hM : U + (a + b) / 10 ^ 7 + 1 / 2 ≤ M) (hM' : M ≤ 2) : Sc (x.sub y) (A - B) (a + b + M) T := by
  obtain ⟨q, hq, e1⟩ := hx
  obtain ⟨r, hr, e2⟩ := hy
  obtain ⟨h1, h2⟩ := round_scale hf (q := q - r) (A := A - B) (c := a + b) hT (by
    push_cast
    rw [show (q:ℝ) - r - (A - B) = (q - A) - (r - B) by ring, add_mul]
    exact (abs_sub _ _).trans (add_le_add e1 e2)) hU hM hM'
  exact ⟨_, hq.sub hf.one_le hr h1, h2⟩

/-- The product of two floats. -/
theorem Is.mul_sc (hf : f.Wide) {x y : Flt f} {a b : ℚ} {T : ℝ} (hT : Scale f T) (hx : Is x a) (hy : Is y b)
    (h : |(a:ℝ) * b| ≤ T) : Sc (x.mul y) (a * b) (3 / 2) T := by
  obtain ⟨h1, h2⟩ := round_scale hf (q := a * b) (A := a * b) (c := 0) (U := 1) (M := 3 / 2) hT (by push_cast; simp)
    (by linarith) (by norm_num) (by norm_num)
  rw [zero_add] at h2
  exact ⟨_, hx.mul hf.one_le hy h1, h2⟩

/-- The coefficient 9/32. -/
theorem lit_coef (hf : f.Wide) : Is (ofExact false (9 / 32 : ℚ) : Flt f) (9 / 32) := by
  have hp := hf.p; have := hf.emin; have := hf.emax
  have hr : Rep f.p f.emin (9 / 32 : ℚ) := by
    refine ⟨9, -5, by omega, ?_, by norm_num⟩
    calc (|9| : ℤ) < 2 ^ 24 := by norm_num
      _ ≤ 2 ^ f.p := pow_le_pow_right₀ (by norm_num) hp
  have := lit_is hf (q := 9 / 32) (by norm_num [abs_le])
  rwa [rnd_rep hr] at this

theorem ratan_le {a b : ℝ} (ha : a ≠ 0) (h : |b| ≤ |a|) : |b * a / (a * a + 9 / 32 * (b * b))| ≤ 32 / 41 := by
  have hd : 0 < a * a + 9 / 32 * (b * b) := by
    have := mul_self_pos.mpr ha; have := mul_self_nonneg b; linarith
  rw [abs_div, abs_of_pos hd, div_le_div_iff₀ hd (by norm_num), abs_mul, ← abs_mul_abs_self a, ← abs_mul_abs_self b]
  nlinarith [abs_nonneg a, abs_nonneg b, mul_nonneg (sub_nonneg.mpr h) (by nlinarith [abs_nonneg b] : 0 ≤ 32 * |a| - 9 * |b|)]

/-- The quotient of the product and the denominator. -/
theorem quot_flt (hf : f.Wide) {x y n : Flt f} {a b : ℚ} (hT : Scale f (a * a)) (hx : Is x a) (hy : Is y b)
    (h : |(b:ℝ)| ≤ |(a:ℝ)|) (hn : Sc n (b * a) (3 / 2) (a * a)) :
    Near (n.div ((x.mul x).add ((ofExact false (9 / 32 : ℚ)).mul (y.mul y)))) (ratan (b / a)) 6 := by
  have hT0 := hT.pos
  have ha : (a:ℝ) ≠ 0 := fun e => by rw [e] at hT0; simp at hT0
  have hbb : (b:ℝ) * b ≤ a * a := by rw [← abs_mul_abs_self (a:ℝ), ← abs_mul_abs_self (b:ℝ)]; exact mul_self_le_mul_self (abs_nonneg _) h
  have hb0 := mul_self_nonneg (b:ℝ)
  have he := eta_pos (f := f); have hel := eta_le hf
  have s1 := hx.mul_sc hf hT hx (by rw [abs_of_pos hT0])
  have s2 := hy.mul_sc hf hT hy (by rw [abs_of_nonneg hb0]; exact hbb)
  have s3 : Sc ((ofExact false (9 / 32 : ℚ)).mul (y.mul y)) (9 / 32 * ((b:ℝ) * b)) (1204 / 1000) (a * a) := by
    obtain ⟨q, hq, e⟩ := s2
    obtain ⟨h1, h2⟩ := round_scale hf (q := 9 / 32 * q) (A := 9 / 32 * ((b:ℝ) * b)) (c := 27 / 64) (U := 9 / 32)
      (M := 782 / 1000) hT (by
        push_cast
        rw [← mul_sub, abs_mul, abs_of_pos (by norm_num : (0:ℝ) < 9 / 32)]; linarith)
      (by rw [abs_of_nonneg (by positivity)]; linarith) (by norm_num) (by norm_num)
    exact ⟨_, (lit_coef hf).mul hf.one_le hq h1, h2.trans (mul_le_mul_of_nonneg_right (by norm_num) (by positivity))⟩
  have s4 := s1.add hf hT s3 (U := 41 / 32) (M := 1782 / 1000) (by rw [abs_of_nonneg (by positivity)]; linarith)
    (by norm_num) (by norm_num)
  set d := (x.mul x).add ((ofExact false (9 / 32 : ℚ)).mul (y.mul y)) with hd
  obtain ⟨dq, hdq, ed⟩ := s4
  obtain ⟨nq, hnq, en⟩ := hn
  set D : ℝ := a * a + 9 / 32 * (b * b) with hD
  have hDT : (a:ℝ) * a ≤ D := by rw [hD]; linarith
  have hsm : eta f * (a * a) ≤ 6 / 10 ^ 8 * (a * a) := mul_le_mul_of_nonneg_right hel hT0.le
  have hd1 : 999 / 1000 * ((a:ℝ) * a) ≤ dq := by
    have := (abs_le.mp ed).1
    norm_num at hsm this ⊢; linarith
  have hd0 : (0:ℝ) < dq := by linarith
  have hr := ratan_le ha h
  have eR : (b:ℝ) * a / D = ratan (b / a) := by
    rw [hD]; unfold ratan
    have : (a:ℝ) * a + 9 / 32 * (b * b) ≠ 0 := by linarith
    field_simp
  have hdq0 : dq ≠ 0 := by rintro rfl; simp at hd0
  obtain ⟨h1, h2⟩ := round_near hf (q := nq / dq) (A := ratan (b / a)) (c := 51 / 10) (M := 79 / 100) (by
    push_cast
    rw [← eR]
    have hDne : D ≠ 0 := by linarith
    have : (nq:ℝ) / dq - b * a / D = ((nq - b * a) - b * a / D * (dq - D)) / dq := by
      field_simp; ring
    rw [this, abs_div, abs_of_pos hd0, div_le_iff₀ hd0]
    have t1 : |(b:ℝ) * a / D * (dq - D)| ≤ 32 / 41 * ((3 / 2 + 1204 / 1000 + 1782 / 1000) * (eta f * (a * a))) := by
      rw [abs_mul]; exact mul_le_mul hr ed (abs_nonneg _) (by norm_num)
    have t2 := mul_le_mul_of_nonneg_left hd1 he.le
    refine (abs_sub _ _).trans ?_
    have t3 : 0 ≤ eta f * ((a:ℝ) * a) := by positivity
    have t4 : (51 / 10 : ℝ) * eta f * dq = 51 / 10 * (eta f * dq) := by ring
    rw [t4]
    have t5 : eta f * (999 / 1000 * ((a:ℝ) * a)) = 999 / 1000 * (eta f * (a * a)) := by ring
    rw [t5] at t2
    linarith) (by rw [← eR]; norm_num at hr ⊢; linarith) (by norm_num)
  exact ⟨_, hnq.div hf.one_le hdq hdq0 h1, h2.trans (mul_le_mul_of_nonneg_right (by norm_num) he.le)⟩

theorem poly1_flt (hf : f.Wide) {x y : Flt f} {a b : ℚ} (hT : Scale f (a * a)) (hx : Is x a) (hy : Is y b)
    (h : |(b:ℝ)| ≤ |(a:ℝ)|) : ∃ z, atanPoly1 y x = pure z ∧ Near z (ratan (b / a)) 6 := by
  refine ⟨_, rfl, quot_flt hf hT hx hy h ?_⟩
  have := hx.mul_sc hf hT hy (by
    rw [abs_mul, ← abs_mul_abs_self (a:ℝ)]; exact mul_le_mul_of_nonneg_left h (abs_nonneg _))
  rwa [mul_comm (a:ℝ)] at this

theorem poly2_flt (hf : f.Wide) {x y : Flt f} {a b : ℚ} (hT : Scale f (a * a)) (hx : Is x a) (hy : Is y b)
    (h : |(b:ℝ)| ≤ |(a:ℝ)|) : ∃ z, atanPoly2 x y = pure z ∧ Near z (ratan (b / a)) 6 := by
  refine ⟨_, rfl, quot_flt hf hT hx hy h ?_⟩
  exact hy.mul_sc hf hT hx (by
    rw [abs_mul, ← abs_mul_abs_self (a:ℝ)]; exact mul_le_mul_of_nonneg_right h (abs_nonneg _))

theorem Is.isPositive {x : Flt f} {a : ℚ} (h : Is x a) (h0 : a ≠ 0) : MixedReal.isPositive x = decide (0 < a) := by
  obtain ⟨s, m, rfl, hm, rfl, -, -⟩ := h
  cases s
  · have e : Flt.val (.fin false m : Flt f) = m := rfl
    rw [e] at h0 ⊢; rw [decide_eq_true (lt_of_le_of_ne hm (Ne.symm h0))]; rfl
  · have e : Flt.val (.fin true m : Flt f) = -m := rfl
    rw [e, decide_eq_false (by linarith)]; rfl

theorem Is.isNegative {x : Flt f} {a : ℚ} (h : Is x a) (h0 : a ≠ 0) : MixedReal.isNegative x = decide (a < 0) := by
  obtain ⟨s, m, rfl, hm, rfl, -, -⟩ := h
  cases s
  · have e : Flt.val (.fin false m : Flt f) = m := rfl
    rw [e, decide_eq_false (by linarith)]; rfl
  · have e : Flt.val (.fin true m : Flt f) = -m := rfl
    rw [e] at h0 ⊢
    rw [decide_eq_true (neg_neg_of_pos (lt_of_le_of_ne hm (fun h => h0 (by rw [← h]; simp))))]; rfl

/-- The sign of a rounded difference is the sign of the difference. -/
theorem rnd_neg_iff (hp : 1 ≤ f.p) {a b : ℚ} (ha : Rep f.p f.emin a) (hb : Rep f.p f.emin b) :
    rnd f.p f.emin (a - b) < 0 ↔ a < b := by
  constructor
  · intro h
    by_contra hc
    have := rep_le_rnd (emin := f.emin) hp (a := 0) (b := a - b) (by linarith) Rep.zero
    linarith
  · intro h
    obtain ⟨k, hk⟩ := ha.units_emin
    obtain ⟨l, hl⟩ := hb.units_emin
    have hpos := two_zpow_pos f.emin
    have : k < l := by
      rw [hk, hl] at h
      exact_mod_cast lt_of_mul_lt_mul_right h hpos.le
    have h1 : (k:ℚ) - l ≤ -1 := by
      have : (k:ℤ) - l ≤ -1 := by omega
      exact_mod_cast this
    have h2 : a - b ≤ -(2 ^ f.emin) := by
      rw [hk, hl, ← sub_mul]
      have := mul_le_mul_of_nonneg_right h1 hpos.le
      linarith
    have := rnd_le_rep hp h2 (Rep.zpow hp le_rfl).neg
    linarith

theorem atan2_unfold (y x : Flt f) : atan2Poly y x =
    (let half := (piF f).div (ofExact false ((2:ℤ):ℚ))
    if y.beq (.fin false 0) then
      if MixedReal.isNegative x then pure (piF f) else pure (.fin false 0)
    else if MixedReal.isPositive y then
      if x.beq (.fin false 0) then pure half
      else if MixedReal.isPositive x then
        if (y.abs.sub x.abs).lt (ofExact false 0) then atanPoly1 y x
        else (do pure (half.sub (← atanPoly2 y x)))
      else
        if MixedCmp.le (.fin false 0) (y.abs.sub x.abs) then (do pure (half.sub (← atanPoly2 y x)))
        else (do pure ((piF f).add (← atanPoly1 y x)))
    else
      if x.beq (.fin false 0) then pure ((piF f).neg.div (ofExact false ((2:ℤ):ℚ)))
      else if MixedReal.isPositive x then
        if (y.abs.sub x.abs).lt (.fin false 0) then atanPoly1 y x
        else (do pure (half.neg.sub (← atanPoly2 y x)))
      else
        if MixedCmp.le (.fin false 0) (y.abs.sub x.abs) then (do pure (half.neg.sub (← atanPoly2 y x)))
        else (do pure ((piF f).neg.add (← atanPoly1 y x)))) := rfl

/-- `-π/2` as a quotient. -/
theorem neg_half_near (hf : f.Wide) (h60 : f.p ≤ 60) :
    Near ((piF f).neg.div (ofExact false ((2:ℤ):ℚ))) (-(Real.pi / 2)) (105 / 100) := by
  have hh := half_is hf
  have hb := piV_bounds hf.ok
  have l2 : Is (ofExact false ((2:ℤ):ℚ) : Flt f) 2 := by
    have := lit_int (f := f) hf (n := 2) (by norm_num); simpa using this
  have hr := rnd_rep hh.rep.neg
  have h : Is ((piF f).neg.div (ofExact false ((2:ℤ):ℚ))) (-(piV f / 2)) := by
    have e : -piV f / 2 = -(piV f / 2) := by ring
    have := (is_pi hf.ok).neg.div hf.one_le l2 (by norm_num) (by rw [e, hr, abs_neg]; exact hh.lt_max)
    rwa [e, hr] at this
  refine ⟨_, h, ?_⟩
  have := half_near hf h60
  obtain ⟨q, hq, e⟩ := this
  have : q = piV f / 2 := by rw [← hq.val, hh.val]
  rw [this] at e
  rw [← abs_neg]; push_cast at e ⊢
  rw [show -(-(((piV f : ℚ):ℝ) / 2) - -(Real.pi / 2)) = (piV f : ℚ) / 2 - Real.pi / 2 by ring]
  exact e

/-- Where the larger coordinate is within the scale, the float angle is close to the polynomial angle. -/
theorem atan2_flt (hf : f.Wide) (h60 : f.p ≤ 60) {y x : Flt f} {a b : ℚ} (hx : Is x a) (hy : Is y b)
    (hT : Scale f (max (|(a:ℝ)|) (|(b:ℝ)|) ^ 2)) :
    ∃ z v, atan2Poly y x = pure z ∧ Near z v 12 ∧ PolyAngle b a v := by
  have g := Real.pi_gt_d4; have g' := Real.pi_lt_d4
  have hpn : Near (piF f) Real.pi (21 / 10) := ⟨_, is_pi hf.ok, pi_near hf h60⟩
  have hhn := half_near hf h60
  have hz0 : Is (ofExact false 0 : Flt f) 0 := by
    have : (ofExact false 0 : Flt f) = .fin false 0 := by unfold ofExact; rw [if_pos rfl]
    rw [this]; exact is_zero
  -- the comparison of the magnitudes
  have hsub : Is (y.abs.sub x.abs) (rnd f.p f.emin (|b| - |a|)) := by
    refine hy.abs.sub hf.one_le hx.abs ?_
    rcases le_total (|b|) (|a|) with h | h
    · rw [abs_rnd, abs_of_nonpos (by linarith), neg_sub]
      refine lt_of_le_of_lt (roundTo_le_rep hf.one_le (by linarith) (by have := abs_nonneg b; linarith) hx.rep.abs) hx.lt_max
    · rw [abs_rnd, abs_of_nonneg (by linarith)]
      refine lt_of_le_of_lt (roundTo_le_rep hf.one_le (by linarith) (by have := abs_nonneg a; linarith) hy.rep.abs) hy.lt_max
  have hlt : (y.abs.sub x.abs).lt (ofExact false 0) = decide (|b| < |a|) := by
    rw [hsub.lt hz0]; exact decide_eq_decide.mpr (rnd_neg_iff hf.one_le hy.rep.abs hx.rep.abs)
  have hlt' : (y.abs.sub x.abs).lt (.fin false 0) = decide (|b| < |a|) := by
    rw [hsub.lt is_zero]; exact decide_eq_decide.mpr (rnd_neg_iff hf.one_le hy.rep.abs hx.rep.abs)
  have hle : MixedCmp.le (.fin false 0) (y.abs.sub x.abs) = decide (|a| ≤ |b|) := by
    rw [is_zero.le hsub]
    refine decide_eq_decide.mpr ?_
    rw [← not_lt, ← not_lt]
    exact not_congr (rnd_neg_iff hf.one_le hy.rep.abs hx.rep.abs)
  -- the two polynomials
  have P1 : |b| < |a| → ∃ z, atanPoly1 y x = pure z ∧ Near z (ratan (b / a)) 6 ∧ |ratan ((b:ℝ) / a)| ≤ 32 / 41 := by
    intro h
    have h' : |(b:ℝ)| < |(a:ℝ)| := by exact_mod_cast h
    rw [max_eq_left h'.le, sq_abs, sq] at hT
    obtain ⟨z, z1, z2⟩ := poly1_flt hf hT hx hy h'.le
    refine ⟨z, z1, z2, ?_⟩
    have ha : (a:ℝ) ≠ 0 := by intro e; rw [e, abs_zero] at h'; linarith [abs_nonneg (b:ℝ)]
    have := ratan_le ha h'.le
    rwa [show (b:ℝ) * a / (a * a + 9 / 32 * (b * b)) = ratan (b / a) by
      unfold ratan
      have : (a:ℝ) * a + 9 / 32 * (b * b) ≠ 0 := by
        have := mul_self_pos.mpr ha; have := mul_self_nonneg (b:ℝ); linarith
      field_simp] at this
  have P2 : |a| ≤ |b| → ∃ z, atanPoly2 y x = pure z ∧ Near z (ratan (a / b)) 6 ∧ |ratan ((a:ℝ) / b)| ≤ 32 / 41 := by
    intro h
    have h' : |(a:ℝ)| ≤ |(b:ℝ)| := by exact_mod_cast h
    rw [max_eq_right h', sq_abs, sq] at hT
    obtain ⟨z, z1, z2⟩ := poly2_flt hf hT hy hx h'
    refine ⟨z, z1, z2, ?_⟩
    have hb : (b:ℝ) ≠ 0 := by intro e; have := hT.pos; rw [e] at this; simp at this
    have := ratan_le hb h'
    rwa [show (a:ℝ) * b / (b * b + 9 / 32 * (a * a)) = ratan (a / b) by
      unfold ratan
      have : (b:ℝ) * b + 9 / 32 * (a * a) ≠ 0 := by
        have := mul_self_pos.mpr hb; have := mul_self_nonneg (a:ℝ); linarith
      field_simp] at this
  have c0 : ∀ q : ℚ, q ≠ 0 → (q:ℝ) ≠ 0 := fun q h => by exact_mod_cast h
  have cp : ∀ q : ℚ, 0 < q → 0 < (q:ℝ) := fun q h => by exact_mod_cast h
  have cn : ∀ q : ℚ, q < 0 → (q:ℝ) < 0 := fun q h => by exact_mod_cast h
  have cl : |b| < |a| → |(b:ℝ)| < |(a:ℝ)| := fun h => by exact_mod_cast h
  have cl' : |a| ≤ |b| → |(a:ℝ)| ≤ |(b:ℝ)| := fun h => by exact_mod_cast h
  rw [atan2_unfold]
  simp only []
  rw [hy.beq is_zero, hx.beq is_zero, hlt, hlt', hle]
  by_cases hb : b = 0
  · have ha : a ≠ 0 := by
      rintro rfl; have := hT.pos; rw [hb] at this; simp at this
    rw [if_pos (decide_eq_true hb), hx.isNegative ha]
    rcases lt_or_gt_of_ne ha with h | h
    · rw [if_pos (decide_eq_true h)]
      exact ⟨_, _, rfl, hpn.mono (by norm_num), .axisNeg (by rw [hb]; simp) (cn _ h)⟩
    · rw [if_neg (by simp; linarith)]
      refine ⟨_, 0, rfl, ⟨0, is_zero, ?_⟩, .axisPos (by rw [hb]; simp) (cp _ h).le⟩
      have := eta_pos (f := f); simp; linarith
  rw [if_neg (by simpa using hb), hy.isPositive hb]
  by_cases hbp : 0 < b
  · rw [if_pos (decide_eq_true hbp)]
    by_cases ha : a = 0
    · rw [if_pos (decide_eq_true ha)]
      exact ⟨_, _, rfl, hhn.mono (by norm_num), .up (cp _ hbp) (by rw [ha]; simp)⟩
    rw [if_neg (by simpa using ha), hx.isPositive ha]
    by_cases hap : 0 < a
    · rw [if_pos (decide_eq_true hap)]
      by_cases hc : |b| < |a|
      · obtain ⟨z, z1, z2, z3⟩ := P1 hc
        rw [if_pos (decide_eq_true hc), z1]
        exact ⟨_, _, rfl, z2.mono (by norm_num), .right (c0 _ hb) (cp _ hap) (cl hc)⟩
      · obtain ⟨z, z1, z2, z3⟩ := P2 (not_lt.mp hc)
        rw [if_neg (by simpa using hc), z1]
        refine ⟨_, _, rfl, (hhn.sub hf z2 (U := 2.4) (M := 2.5) ?_ (by norm_num) (by norm_num)).mono (by norm_num),
          .upper (cp _ hbp) (c0 _ ha) (cl' (not_lt.mp hc))⟩
        have z4 := abs_le.mp z3; rw [abs_le]; constructor <;> norm_num at g g' ⊢ <;> linarith
    · rw [if_neg (by simpa using hap)]
      have han : a < 0 := lt_of_le_of_ne (not_lt.mp hap) ha
      by_cases hc : |a| ≤ |b|
      · obtain ⟨z, z1, z2, z3⟩ := P2 hc
        rw [if_pos (decide_eq_true hc), z1]
        refine ⟨_, _, rfl, (hhn.sub hf z2 (U := 2.4) (M := 2.5) ?_ (by norm_num) (by norm_num)).mono (by norm_num),
          .upper (cp _ hbp) (c0 _ ha) (cl' hc)⟩
        have z4 := abs_le.mp z3; rw [abs_le]; constructor <;> norm_num at g g' ⊢ <;> linarith
      · obtain ⟨z, z1, z2, z3⟩ := P1 (not_le.mp hc)
        rw [if_neg (by simpa using hc), z1]
        have hv : PolyAngle (b:ℝ) a _ := .left (cp _ hbp) (cn _ han) (cl (not_le.mp hc))
        have hq : ratan ((b:ℝ) / a) ≤ 0 := by
          unfold ratan
          exact div_nonpos_of_nonpos_of_nonneg (div_nonpos_of_nonneg_of_nonpos (cp _ hbp).le (cn _ han).le) (ratan_den_pos _).le
        refine ⟨_, _, rfl, (hpn.add hf z2 (U := 3.1417) (M := 3.2) ?_ (by norm_num) (by norm_num)).mono (by norm_num), hv⟩
        have z4 := abs_le.mp z3; rw [abs_le]; constructor <;> norm_num at g g' ⊢ <;> linarith
  · rw [if_neg (by simpa using hbp)]
    have hbn : b < 0 := lt_of_le_of_ne (not_lt.mp hbp) hb
    by_cases ha : a = 0
    · rw [if_pos (decide_eq_true ha)]
      exact ⟨_, _, rfl, (neg_half_near hf h60).mono (by norm_num), .down (cn _ hbn) (by rw [ha]; simp)⟩
    rw [if_neg (by simpa using ha), hx.isPositive ha]
    by_cases hap : 0 < a
    · rw [if_pos (decide_eq_true hap)]
      by_cases hc : |b| < |a|
      · obtain ⟨z, z1, z2, z3⟩ := P1 hc
        rw [if_pos (decide_eq_true hc), z1]
        exact ⟨_, _, rfl, z2.mono (by norm_num), .right (c0 _ hb) (cp _ hap) (cl hc)⟩
      · obtain ⟨z, z1, z2, z3⟩ := P2 (not_lt.mp hc)
        rw [if_neg (by simpa using hc), z1]
        refine ⟨_, _, rfl, (hhn.neg.sub hf z2 (U := 2.4) (M := 2.5) ?_ (by norm_num) (by norm_num)).mono (by norm_num),
          .lower (cn _ hbn) (c0 _ ha) (cl' (not_lt.mp hc))⟩
        have z4 := abs_le.mp z3; rw [abs_le]; constructor <;> norm_num at g g' ⊢ <;> linarith
    · rw [if_neg (by simpa using hap)]
      have han : a < 0 := lt_of_le_of_ne (not_lt.mp hap) ha
      by_cases hc : |a| ≤ |b|
      · obtain ⟨z, z1, z2, z3⟩ := P2 hc
        rw [if_pos (decide_eq_true hc), z1]
        refine ⟨_, _, rfl, (hhn.neg.sub hf z2 (U := 2.4) (M := 2.5) ?_ (by norm_num) (by norm_num)).mono (by norm_num),
          .lower (cn _ hbn) (c0 _ ha) (cl' hc)⟩
        have z4 := abs_le.mp z3; rw [abs_le]; constructor <;> norm_num at g g' ⊢ <;> linarith
      · obtain ⟨z, z1, z2, z3⟩ := P1 (not_le.mp hc)
        rw [if_neg (by simpa using hc), z1]
        have hv : PolyAngle (b:ℝ) a _ := .left' (cn _ hbn) (cn _ han) (cl (not_le.mp hc))
        have hq : 0 ≤ ratan ((b:ℝ) / a) := by
          unfold ratan
          exact div_nonneg (div_nonneg_of_nonpos (cn _ hbn).le (cn _ han).le) (ratan_den_pos _).le
        refine ⟨_, _, rfl, (hpn.neg.add hf z2 (U := 3.1417) (M := 3.2) ?_ (by norm_num) (by norm_num)).mono (by norm_num), hv⟩
        have z4 := abs_le.mp z3; rw [abs_le]; constructor <;> norm_num at g g' ⊢ <;> linarith

end Flt
end MixedNum
