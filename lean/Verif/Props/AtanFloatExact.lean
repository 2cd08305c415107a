import Verif.Props.AtanFloat
import Verif.Props.SymFloat
import Verif.Props.MagFloatExact
import Verif.Lemmas.Run
import Verif.Props.AddSub
import Verif.Lemmas.Case
/-! # C80: exactly when the polynomial angle of two finite floats is NaN -/

namespace MixedNum
variable {f : Format}
open Flt

theorem rnd_abs_eq (q : ℚ) : |rnd f.p f.emin q| = rnd f.p f.emin |q| := by
  rw [abs_rnd, rnd_nonneg_eq (abs_nonneg q)]

theorem fits_below (hf : f.Wide) (z : Bool) {q : ℚ} (h : |q| < threshold f) : Is (ofExact z q : Flt f) (rnd f.p f.emin q) := by
  refine is_ofExact hf.one_le z ?_
  rw [rnd_abs_eq]; exact rnd_below hf h

theorem over_threshold (hf : f.Wide) (z : Bool) {q : ℚ} (h : threshold f ≤ |q|) :
    (ofExact z q : Flt f) = .inf (decide (q < 0)) := by
  rcases ofExact_cases hf.one_le z q with h2 | ⟨-, h2⟩
  · have h3 := h2.lt_max
    rw [rnd_abs_eq] at h3
    have := rnd_mono (emin := f.emin) hf.one_le h
    rw [rnd_threshold hf] at this
    linarith
  · exact h2

theorem coef_shape (hf : f.Wide) : ∃ c : ℚ, (ofExact false (9 / 32 : ℚ) : Flt f) = .fin false c ∧ c ≠ 0 := by
  obtain ⟨b, c, ec, h0, evc, -⟩ := lit_coef hf
  cases b
  · refine ⟨c, ec, ?_⟩
    rintro rfl; rw [ec] at evc; norm_num [Flt.val] at evc
  · exfalso
    rw [ec] at evc
    have : -c = 9 / 32 := evc
    linarith

/-- The quotient in `atan_poly_1` and `atan_poly_2`, `u` the larger coordinate: NaN exactly if the product overflows or the
square of the larger coordinate rounds to zero, otherwise a float of magnitude at most one. -/
theorem quot_exact (hf : f.Wide) {u v n : Flt f} {a b : ℚ} (hu : Is u a) (hv : Is v b) (h : |b| ≤ |a|) (z : Bool)
    (hn : n = ofExact z (a * b)) :
    ((threshold f ≤ |a * b| ∨ 2 * a ^ 2 ≤ 2 ^ f.emin) →
      n.div ((u.mul u).add ((ofExact false (9 / 32 : ℚ)).mul (v.mul v))) = .nan) ∧
    (|a * b| < threshold f → 2 ^ f.emin < 2 * a ^ 2 →
      ∃ q, Is (n.div ((u.mul u).add ((ofExact false (9 / 32 : ℚ)).mul (v.mul v)))) q ∧ |q| ≤ 1) := by
  obtain ⟨c, ec, hc⟩ := coef_shape hf
  have hab : |a * b| ≤ a ^ 2 := by
    rw [abs_mul, ← sq_abs a, sq]; exact mul_le_mul_of_nonneg_left h (abs_nonneg _)
  have hbb : b ^ 2 ≤ a ^ 2 := sq_le_sq.mpr h
  have na := sq_nonneg a; have nb := sq_nonneg b
  have hth : (0:ℚ) < threshold f := by
    by_contra hcon
    have := rnd_mono (emin := f.emin) hf.one_le (not_lt.mp hcon)
    rw [rnd_threshold hf, rnd_rep Rep.zero] at this
    exact absurd this (not_le.mpr (by positivity))
  obtain ⟨su, mu, eu⟩ := hu.fin
  obtain ⟨sv, mv, ev⟩ := hv.fin
  have euu : u.mul u = ofExact (xor su su) (a ^ 2) := by rw [← hu.val, sq, eu]; rfl
  have evv : v.mul v = ofExact (xor sv sv) (b ^ 2) := by rw [← hv.val, sq, ev]; rfl
  -- the second summand of the denominator
  have hT : (∃ q, Is ((ofExact false (9 / 32 : ℚ)).mul (v.mul v)) q ∧ 0 ≤ q ∧ (rnd f.p f.emin (b ^ 2) = 0 → q = 0)) ∨
      (ofExact false (9 / 32 : ℚ)).mul (v.mul v) = (.inf false : Flt f) ∧ threshold f ≤ b ^ 2 := by
    rcases lt_or_ge (b ^ 2) (threshold f) with h1 | h1
    · have i1 := fits_below hf (xor sv sv) (q := b ^ 2) (by rwa [abs_of_nonneg nb])
      rw [← evv] at i1
      have hr := rnd_nonneg hf nb
      have hlt := i1.lt_max
      rw [abs_of_nonneg hr] at hlt
      have hle : rnd f.p f.emin (9 / 32 * rnd f.p f.emin (b ^ 2)) ≤ rnd f.p f.emin (b ^ 2) :=
        rnd_le_rep hf.one_le (by linarith) i1.rep
      have hge := rnd_nonneg hf (q := 9 / 32 * rnd f.p f.emin (b ^ 2)) (by linarith)
      refine .inl ⟨_, (lit_coef hf).mul hf.one_le i1 (by rw [abs_of_nonneg hge]; linarith), hge, fun e => ?_⟩
      rw [e, mul_zero]; exact rnd_rep Rep.zero
    · refine .inr ⟨?_, h1⟩
      rw [evv, over_threshold hf _ (q := b ^ 2) (by rwa [abs_of_nonneg nb]), decide_eq_false (by linarith), ec]
      show (if c = 0 then Flt.nan else .inf (xor false false)) = _
      rw [if_neg hc]; rfl
  constructor
  · rintro (h1 | h1)
    · have h2 : threshold f ≤ a ^ 2 := h1.trans hab
      have e1 : u.mul u = .inf false := by
        rw [euu, over_threshold hf _ (by rwa [abs_of_nonneg na]), decide_eq_false (by linarith)]
      have e2 : (Flt.inf false : Flt f).add ((ofExact false (9 / 32 : ℚ)).mul (v.mul v)) = .inf false := by
        rcases hT with ⟨q, hq, -⟩ | ⟨hq, -⟩
        · obtain ⟨s, m, e⟩ := hq.fin; rw [e]; rfl
        · rw [hq]; rfl
      rw [e1, e2, hn, over_threshold hf _ h1]; rfl
    · have r0 := (rnd_eq_zero_iff hf na).mpr h1
      have r1 := (rnd_eq_zero_iff hf nb).mpr (by linarith)
      have hsm : a ^ 2 < threshold f := by
        by_contra hcon
        have := rnd_mono (emin := f.emin) hf.one_le (not_lt.mp hcon)
        rw [rnd_threshold hf, r0] at this
        exact absurd this (not_le.mpr (by positivity))
      have r2 : rnd f.p f.emin (a * b) = 0 := by
        have : rnd f.p f.emin |a * b| = 0 := (rnd_eq_zero_iff hf (abs_nonneg _)).mpr (by linarith)
        rw [← rnd_abs_eq] at this; exact abs_eq_zero.mp this
      have i1 := fits_below hf (xor su su) (q := a ^ 2) (by rwa [abs_of_nonneg na])
      rw [← euu, r0] at i1
      have i2 := fits_below hf z (q := a * b) (lt_of_le_of_lt hab hsm)
      rw [r2, ← hn] at i2
      rcases hT with ⟨q, hq, -, hq0⟩ | ⟨-, hq⟩
      · rw [hq0 r1] at hq
        have i3 := i1.add hf.one_le hq (by rw [add_zero, rnd_rep Rep.zero]; simp)
        rw [add_zero, rnd_rep Rep.zero] at i3
        obtain ⟨s, m, e, -, hm, -⟩ := i2
        obtain ⟨t, k, e', -, hk, -⟩ := i3
        have zero_of : ∀ (s : Bool) (m : ℚ), (Flt.fin s m : Flt f).val = 0 → m = 0 := by
          intro s m hm; cases s
          · exact hm
          · exact neg_eq_zero.mp hm
        rw [e] at hm; rw [e'] at hk
        rw [e, e', zero_of s m hm, zero_of t k hk]
        simp [Flt.div]
      · linarith
  · intro h1 h2
    have i2 := fits_below hf z h1
    rw [← hn] at i2
    rcases lt_or_ge (a ^ 2) (threshold f) with h3 | h3
    · have i1 := fits_below hf (xor su su) (q := a ^ 2) (by rwa [abs_of_nonneg na])
      rw [← euu] at i1
      have hpos : 0 < rnd f.p f.emin (a ^ 2) := by
        refine lt_of_le_of_ne (rnd_nonneg hf na) (fun e => ?_)
        have := (rnd_eq_zero_iff hf na).mp e.symm
        linarith
      rcases hT with ⟨q, hq, hq0, -⟩ | ⟨-, hq⟩
      · -- the denominator is positive, and at least the rounded square of the larger coordinate
        have hge : rnd f.p f.emin (a ^ 2) ≤ rnd f.p f.emin (rnd f.p f.emin (a ^ 2) + q) :=
          rep_le_rnd hf.one_le (by linarith) i1.rep
        have hnum : |rnd f.p f.emin (a * b)| ≤ rnd f.p f.emin (a ^ 2) := by
          rw [rnd_abs_eq]; exact rnd_mono hf.one_le hab
        obtain ⟨s, m, e⟩ := i1.fin
        obtain ⟨t, k, e'⟩ := hq.fin
        have esum : (u.mul u).add ((ofExact false (9 / 32 : ℚ)).mul (v.mul v)) = ofExact (s && t) (rnd f.p f.emin (a ^ 2) + q) := by
          rw [← i1.val, ← hq.val, e, e']; rfl
        rcases ofExact_cases hf.one_le (s && t) (rnd f.p f.emin (a ^ 2) + q) with i3 | ⟨-, i3⟩
        · rw [← esum] at i3
          set D := rnd f.p f.emin (rnd f.p f.emin (a ^ 2) + q)
          have hD : 0 < D := by linarith
          have hq1 : |rnd f.p f.emin (a * b) / D| ≤ 1 := by
            rw [abs_div, abs_of_pos hD, div_le_one hD]; linarith
          have hone : |rnd f.p f.emin (rnd f.p f.emin (a * b) / D)| ≤ 1 := by
            rw [rnd_abs_eq]
            have := Rep.zpow (p := f.p) (emin := f.emin) (e := 0) hf.one_le (by have := hf.emin; have := hf.p; omega)
            rw [zpow_zero] at this
            exact rnd_le_rep hf.one_le hq1 this
          refine ⟨_, i2.div hf.one_le i3 hD.ne' (lt_of_le_of_lt hone ?_), hone⟩
          exact one_lt_pow₀ (by norm_num) (by have := hf.emax; have := hf.p; omega)
        · rw [esum, i3]
          obtain ⟨s, m, e⟩ := i2.fin
          rw [e]
          exact ⟨0, by
            show Is (Flt.fin _ 0 : Flt f) 0
            exact ⟨_, 0, rfl, le_rfl, by cases (xor s (decide (rnd f.p f.emin (a ^ 2) + q < 0))) <;> simp [Flt.val], Rep.zero, by simp⟩, by simp⟩
      · linarith
    · have e1 : u.mul u = .inf false := by
        rw [euu, over_threshold hf _ (by rwa [abs_of_nonneg na]), decide_eq_false (by linarith)]
      have e2 : (Flt.inf false : Flt f).add ((ofExact false (9 / 32 : ℚ)).mul (v.mul v)) = .inf false := by
        rcases hT with ⟨q, hq, -⟩ | ⟨hq, -⟩
        · obtain ⟨s, m, e⟩ := hq.fin; rw [e]; rfl
        · rw [hq]; rfl
      obtain ⟨s, m, e⟩ := i2.fin
      rw [e1, e2, e]
      exact ⟨0, by
        show Is (Flt.fin _ 0 : Flt f) 0
        exact ⟨_, 0, rfl, le_rfl, by cases (xor s false) <;> simp [Flt.val], Rep.zero, by simp⟩, by simp⟩

/-- The quotient is the result, or is added to or subtracted from a constant of magnitude below 4. -/
def AngleFrom (r Q : Flt f) : Prop := r = Q ∨ ∃ c v, Is c v ∧ |v| ≤ 4 ∧ (r = c.sub Q ∨ r = c.add Q)

theorem AngleFrom.nan {r Q : Flt f} (h : AngleFrom r Q) (hQ : Q = .nan) : r = .nan := by
  subst hQ
  rcases h with h | ⟨c, v, hc, -, h | h⟩
  · exact h
  · obtain ⟨s, m, e⟩ := hc.fin; rw [h, e]; rfl
  · obtain ⟨s, m, e⟩ := hc.fin; rw [h, e]; rfl

theorem AngleFrom.is (hf : f.Wide) {r Q : Flt f} (h : AngleFrom r Q) {q : ℚ} (hQ : Is Q q) (hq : |q| ≤ 1) : ∃ v, Is r v := by
  have hp := hf.p; have he := hf.emin; have hm := hf.emax
  have small : ∀ w : ℚ, |w| ≤ 5 → |rnd f.p f.emin w| < 2 ^ f.emax := fun w hw =>
    abs_rnd_lt (e := 3) hf.one_le (by norm_num; linarith) (by omega) (by omega)
  rcases h with h | ⟨c, v, hc, hv, h | h⟩
  · exact ⟨q, h ▸ hQ⟩
  · exact ⟨_, h ▸ hc.sub hf.one_le hQ (small _ ((abs_sub _ _).trans (by linarith)))⟩
  · exact ⟨_, h ▸ hc.add hf.one_le hQ (small _ ((abs_add_le _ _).trans (by linarith)))⟩

/-- Off the axes the angle is made from the quotient with the larger coordinate in the denominator. -/
theorem atan2_from (hf : f.Wide) {y x : Flt f} {a b : ℚ} (hx : Is x a) (hy : Is y b) (ha : a ≠ 0) (hb : b ≠ 0) :
    ∃ r, atan2Poly y x = pure r ∧
      ((|b| < |a| ∧ AngleFrom r ((x.mul y).div ((x.mul x).add ((ofExact false (9 / 32 : ℚ)).mul (y.mul y))))) ∨
       (|a| ≤ |b| ∧ AngleFrom r ((x.mul y).div ((y.mul y).add ((ofExact false (9 / 32 : ℚ)).mul (x.mul x)))))) := by
  have hz0 : Is (ofExact false 0 : Flt f) 0 := by
    have : (ofExact false 0 : Flt f) = .fin false 0 := by unfold ofExact; rw [if_pos rfl]
    rw [this]; exact is_zero
  have hsub : Is (y.abs.sub x.abs) (rnd f.p f.emin (|b| - |a|)) := by
    refine hy.abs.sub hf.one_le hx.abs ?_
    rcases le_total (|b|) (|a|) with h | h
    · rw [abs_rnd, abs_of_nonpos (by linarith), neg_sub]
      refine lt_of_le_of_lt (roundTo_le_rep hf.one_le (by linarith) (by have := abs_nonneg b; linarith) hx.rep.abs) hx.lt_max
    · rw [abs_rnd, abs_of_nonneg (by linarith)]
      refine lt_of_le_of_lt (roundTo_le_rep hf.one_le (by linarith) (by have := abs_nonneg a; linarith) hy.rep.abs) hy.lt_max
  have hlt : (y.abs.sub x.abs).lt (ofExact false 0) = decide (|b| < |a|) := by
    rw [hsub.lt hz0]; exact decide_eq_decide.mpr (rnd_neg_iff hf.one_le hy.rep.abs hx.rep.abs)
  have hlt' : (y.abs.sub x.abs).lt (.fin false 0) = decide (|b| < |a|) := by
    rw [hsub.lt is_zero]; exact decide_eq_decide.mpr (rnd_neg_iff hf.one_le hy.rep.abs hx.rep.abs)
  have hle : MixedCmp.le (.fin false 0) (y.abs.sub x.abs) = decide (|a| ≤ |b|) := by
    rw [is_zero.le hsub]
    refine decide_eq_decide.mpr ?_
    rw [← not_lt, ← not_lt]
    exact not_congr (rnd_neg_iff hf.one_le hy.rep.abs hx.rep.abs)
  have hb2 := piV_bounds hf.ok
  have ip := is_pi hf.ok
  have ih := half_is hf
  have p1 : |piV f| ≤ 4 := by rw [abs_le]; constructor <;> linarith
  have p2 : |-piV f| ≤ 4 := by rwa [abs_neg]
  have p3 : |piV f / 2| ≤ 4 := by rw [abs_le]; constructor <;> linarith
  have p4 : |-(piV f / 2)| ≤ 4 := by rwa [abs_neg]
  have hle' : MixedCmp.le (.fin false 0) (y.abs.sub x.abs) = !decide (|b| < |a|) := by
    rw [hle, ← decide_not]; exact decide_eq_decide.mpr not_lt.symm
  rw [atan2_unfold]
  simp only []
  rw [hy.beq is_zero, hx.beq is_zero, hlt, hlt', hle', if_neg (by simpa using hb), hy.isPositive hb,
    hx.isPositive ha, if_neg (show ¬ (decide (a = 0) = true) by simpa using ha),
    if_neg (show ¬ (decide (a = 0) = true) by simpa using ha)]
  by_cases hc : |b| < |a|
  · simp only [hc, decide_true, Bool.not_true, if_true, Bool.false_eq_true, if_false]
    by_cases hbp : 0 < b <;> by_cases hap : 0 < a <;> simp only [hbp, hap, decide_true, decide_false, if_true, if_false, Bool.false_eq_true]
    · exact ⟨_, rfl, .inl ⟨trivial, .inl rfl⟩⟩
    · exact ⟨_, rfl, .inl ⟨trivial, .inr ⟨_, _, ip, p1, .inr rfl⟩⟩⟩
    · exact ⟨_, rfl, .inl ⟨trivial, .inl rfl⟩⟩
    · exact ⟨_, rfl, .inl ⟨trivial, .inr ⟨_, _, ip.neg, p2, .inr rfl⟩⟩⟩
  · have hc' := not_lt.mp hc
    simp only [hc, decide_false, Bool.not_false, if_true, Bool.false_eq_true, if_false]
    by_cases hbp : 0 < b <;> by_cases hap : 0 < a <;> simp only [hbp, hap, decide_true, decide_false, if_true, if_false, Bool.false_eq_true]
    · exact ⟨_, rfl, .inr ⟨hc', .inr ⟨_, _, ih, p3, .inl rfl⟩⟩⟩
    · exact ⟨_, rfl, .inr ⟨hc', .inr ⟨_, _, ih, p3, .inl rfl⟩⟩⟩
    · exact ⟨_, rfl, .inr ⟨hc', .inr ⟨_, _, ih.neg, p4, .inl rfl⟩⟩⟩
    · exact ⟨_, rfl, .inr ⟨hc', .inr ⟨_, _, ih.neg, p4, .inl rfl⟩⟩⟩

theorem is_of_finite {x : Flt f} (v : x.Valid) (h : x.IsFinite) : Is x x.val := by
  obtain ⟨s, m, rfl⟩ := h; exact is_of_valid v

/-- C80, exactly when the claim fails: the angle of two finite floats is NaN if and only if neither is zero and either their
product overflows or the square of the larger one is at most half the least subnormal; otherwise it is a finite float. -/
theorem C80_nan_iff (hf : f.Wide) (y x : Flt f) (hy : y.Valid) (hx : x.Valid) (fy : y.IsFinite) (fx : x.IsFinite) :
    (Returns (atan2Poly y x) .nan ↔ x.val ≠ 0 ∧ y.val ≠ 0 ∧
      (2 ^ f.emax - 2 ^ ((f.emax : ℤ) - f.p - 1) ≤ |x.val * y.val| ∨
        (2 * x.val ^ 2 ≤ 2 ^ f.emin ∧ 2 * y.val ^ 2 ≤ 2 ^ f.emin))) ∧
    (Returns (atan2Poly y x) .nan ∨ ∃ z : Flt f, Returns (atan2Poly y x) z ∧ z.Valid ∧ z.IsFinite) := by
  have ix := is_of_finite hx fx; have iy := is_of_finite hy fy
  set a := x.val; set b := y.val
  have hth : threshold f = 2 ^ f.emax - 2 ^ ((f.emax : ℤ) - f.p - 1) := rfl
  rw [← hth]
  have fin_case : (∃ v r, atan2Poly y x = pure r ∧ Is r v) → ¬ Returns (atan2Poly y x) .nan ∧
      ∃ z : Flt f, Returns (atan2Poly y x) z ∧ z.Valid ∧ z.IsFinite := by
    rintro ⟨v, r, e, hr⟩
    refine ⟨fun h => ?_, r, .of_eq e, hr.valid, hr.fin⟩
    have := h.unique (.of_eq e)
    obtain ⟨s, m, e'⟩ := hr.fin
    rw [e'] at this; cases this
  by_cases hb : b = 0
  · have : ∃ v r, atan2Poly y x = pure r ∧ Is r v := by
      rw [atan2_unfold]
      simp only []
      rw [iy.beq is_zero, if_pos (decide_eq_true hb)]
      cases MixedReal.isNegative x
      · exact ⟨_, _, rfl, is_zero⟩
      · exact ⟨_, _, rfl, is_pi hf.ok⟩
    obtain ⟨h1, h2⟩ := fin_case this
    exact ⟨⟨fun h => absurd h h1, fun h => absurd hb h.2.1⟩, .inr h2⟩
  by_cases ha : a = 0
  · have : ∃ v r, atan2Poly y x = pure r ∧ Is r v := by
      rw [atan2_unfold]
      simp only []
      rw [iy.beq is_zero, if_neg (by simpa using hb), ix.beq is_zero, if_pos (decide_eq_true ha), if_pos (decide_eq_true ha)]
      have h2 : Is ((piF f).neg.div (ofExact false ((2:ℤ):ℚ))) (-(piV f / 2)) := by
        have hh := half_is hf
        have l2 : Is (ofExact false ((2:ℤ):ℚ) : Flt f) 2 := by
          have := lit_int (f := f) hf (n := 2) (by norm_num); simpa using this
        have e : -piV f / 2 = -(piV f / 2) := by ring
        have hr := rnd_rep hh.rep.neg
        have := (is_pi hf.ok).neg.div hf.one_le l2 (by norm_num) (by rw [e, hr, abs_neg]; exact hh.lt_max)
        rwa [e, hr] at this
      cases MixedReal.isPositive y
      · exact ⟨_, _, rfl, h2⟩
      · exact ⟨_, _, rfl, half_is hf⟩
    obtain ⟨h1, h2⟩ := fin_case this
    exact ⟨⟨fun h => absurd h h1, fun h => absurd ha h.1⟩, .inr h2⟩
  obtain ⟨r, er, h⟩ := atan2_from hf ix iy ha hb
  obtain ⟨sx, mx, ex⟩ := ix.fin; obtain ⟨sy, my, ey⟩ := iy.fin
  have en : x.mul y = ofExact (xor sx sy) (a * b) := by rw [← ix.val, ← iy.val, ex, ey]; rfl
  have en' : x.mul y = ofExact (xor sx sy) (b * a) := by rw [en, _root_.mul_comm]
  have done : ∀ C : Prop, (C → r = .nan) → (¬ C → ∃ v, Is r v) →
      ((Returns (atan2Poly y x) .nan ↔ C) ∧
      (Returns (atan2Poly y x) .nan ∨ ∃ z : Flt f, Returns (atan2Poly y x) z ∧ z.Valid ∧ z.IsFinite)) := by
    intro C h1 h2
    by_cases hC : C
    · have : Returns (atan2Poly y x) .nan := by rw [← h1 hC]; exact .of_eq er
      exact ⟨⟨fun _ => hC, fun _ => this⟩, .inl this⟩
    · obtain ⟨v, hv⟩ := h2 hC
      obtain ⟨k1, k2⟩ := fin_case ⟨v, r, er, hv⟩
      exact ⟨⟨fun h => absurd h k1, fun h => absurd h hC⟩, .inr k2⟩
  refine done _ ?_ ?_
  · rintro ⟨-, -, hC⟩
    rcases h with ⟨hl, h⟩ | ⟨hl, h⟩
    · refine h.nan ((quot_exact hf ix iy hl.le _ en).1 ?_)
      exact hC.imp id (fun k => k.1)
    · refine h.nan ((quot_exact hf iy ix hl _ en').1 ?_)
      rw [_root_.mul_comm b a]
      exact hC.imp id (fun k => k.2)
  · intro hC
    have hC' : ¬ (threshold f ≤ |a * b| ∨ 2 * a ^ 2 ≤ 2 ^ f.emin ∧ 2 * b ^ 2 ≤ 2 ^ f.emin) := fun k => hC ⟨ha, hb, k⟩
    push Not at hC'
    rcases h with ⟨hl, h⟩ | ⟨hl, h⟩
    · obtain ⟨q, hq, hq1⟩ := (quot_exact hf ix iy hl.le _ en).2 hC'.1 (by
        by_contra hcon
        have h1 := hC'.2 (not_lt.mp hcon)
        have : b ^ 2 ≤ a ^ 2 := sq_le_sq.mpr hl.le
        linarith [not_lt.mp hcon])
      exact h.is hf hq hq1
    · obtain ⟨q, hq, hq1⟩ := (quot_exact hf iy ix hl _ en').2 (by rw [_root_.mul_comm]; exact hC'.1) (by
        by_contra hcon
        have : a ^ 2 ≤ b ^ 2 := sq_le_sq.mpr hl
        linarith [not_lt.mp hcon, hC'.2 (by linarith [not_lt.mp hcon])])
      exact h.is hf hq hq1

example := (C80_nan_iff wide_F32 (.fin false (2 ^ 64)) (.fin true (2 ^ 64)) (by is_float 1 64) (by is_float 1 64) ⟨_, _, rfl⟩ ⟨_, _, rfl⟩).1.mpr
  (by norm_num [Flt.val, F32])

/-- C80 and C79: between the two failures there are finite results that are off by 45 degrees. With the larger square
overflowing but not the product, the quotient is zero: the angle of `(2^64 - 2^40, 2^64)` is given as `π/2`. -/
theorem C80_off :
    ((Flt.fin false (2 ^ 64 - 2 ^ 40) : Flt F32).Valid ∧ (Flt.fin false (2 ^ 64) : Flt F32).Valid) ∧
    ∃ z : Flt F32, Returns (atan2Poly (.fin false (2 ^ 64)) (.fin false (2 ^ 64 - 2 ^ 40))) z ∧ z.IsFinite ∧
      0.77 < |(z.val : ℝ) - Complex.arg ⟨2 ^ 64 - 2 ^ 40, 2 ^ 64⟩| := by
  have v1 : (Flt.fin false (2 ^ 64 - 2 ^ 40) : Flt F32).Valid :=
    ⟨2 ^ 24 - 1, 40, by decide, by decide, by norm_num [pow2_eq], by norm_num⟩
  have v2 : (Flt.fin false (2 ^ 64) : Flt F32).Valid :=
    ⟨1, 64, by decide, by decide, by norm_num [pow2_eq], by norm_num⟩
  have v3 : (Flt.fin false (2 ^ 54 - 2 ^ 30) : Flt F32).Valid :=
    ⟨2 ^ 24 - 1, 30, by decide, by decide, by norm_num [pow2_eq], by norm_num⟩
  have v4 : (Flt.fin false (2 ^ 54) : Flt F32).Valid :=
    ⟨1, 54, by decide, by decide, by norm_num [pow2_eq], by norm_num⟩
  refine ⟨⟨v1, v2⟩, .fin false (13176795 / 8388608), .of_eq (by kernel_rfl), ⟨_, _, rfl⟩, ?_⟩
  obtain ⟨w, hw, -, -, h⟩ := C79_f32 (.fin false (2 ^ 54)) (.fin false (2 ^ 54 - 2 ^ 30)) v4 v3 _ _ _ _ rfl rfl
    (.inl (by norm_num [Flt.val])) (by norm_num [Flt.val]) (by norm_num [Flt.val])
  have hw' : Returns (atan2Poly (Flt.fin false (2 ^ 54) : Flt F32) (.fin false (2 ^ 54 - 2 ^ 30))) 
      (.fin false (6629589 / 8388608)) := .of_eq (by kernel_rfl)
  rw [hw.unique hw'] at h
  have e : (⟨2 ^ 64 - 2 ^ 40, 2 ^ 64⟩ : ℂ) = ((2 ^ 10 : ℝ) : ℂ) * ⟨2 ^ 54 - 2 ^ 30, 2 ^ 54⟩ := by
    apply Complex.ext <;> norm_num
  rw [e, Complex.arg_real_mul _ (by norm_num)]
  have c1 : (((Flt.fin false (2 ^ 54 - 2 ^ 30) : Flt F32).val : ℚ) : ℝ) = 2 ^ 54 - 2 ^ 30 := by norm_num [Flt.val]
  have c2 : (((Flt.fin false (2 ^ 54) : Flt F32).val : ℚ) : ℝ) = 2 ^ 54 := by norm_num [Flt.val]
  have c3 : (((Flt.fin false (6629589 / 8388608) : Flt F32).val : ℚ) : ℝ) = 6629589 / 8388608 := by norm_num [Flt.val]
  have c4 : (((Flt.fin false (13176795 / 8388608) : Flt F32).val : ℚ) : ℝ) = 13176795 / 8388608 := by norm_num [Flt.val]
  rw [c1, c2, c3] at h
  rw [c4, lt_abs]
  left
  have := (abs_le.mp h).1
  norm_num at this ⊢
  linarith

example : (Flt.fin false (3/4) : Flt F32).Valid ∧ (Flt.fin false (3/4) : Flt F32).IsFinite ∧
    (Flt.fin false (2 ^ 64) : Flt F32).Valid ∧ (Flt.fin false (2 ^ 64) : Flt F32).IsFinite :=
  ⟨⟨3, -2, by decide, by decide, by norm_num [pow2_eq], by norm_num⟩, ⟨_, _, rfl⟩,
    ⟨1, 64, by decide, by decide, by norm_num [pow2_eq], by norm_num⟩, ⟨_, _, rfl⟩⟩

theorem nan_sub (z : Flt f) : z.sub .nan = .nan := by cases z <;> rfl
theorem nan_add (z : Flt f) : z.add .nan = .nan := by cases z <;> rfl

/-- The quotient in `atan_poly_1` and `atan_poly_2`, when one coordinate is not finite and neither is zero. -/
theorem quot_nonfinite {u v n c : Flt f} (hc : ∃ q, c = .fin false q ∧ q ≠ 0) (h : ¬ (u.IsFinite ∧ v.IsFinite))
    (hu : ∀ s, u ≠ .fin s 0) (hv : ∀ s, v ≠ .fin s 0) (hn : n = u.mul v ∨ n = v.mul u) :
    n.div ((pow u 2).add (c.mul (pow v 2))) = .nan := by
  obtain ⟨q, rfl, hq⟩ := hc
  have e2 : ∀ w : Flt f, pow w 2 = w.mul w := fun _ => rfl
  rw [e2, e2]
  have inf_mul : ∀ (s t : Bool) (m : ℚ), m ≠ 0 → (Flt.inf s : Flt f).mul (.fin t m) = .inf (xor s t) := fun s t m hm => by
    simp [Flt.mul, hm]
  have mul_inf : ∀ (s t : Bool) (m : ℚ), m ≠ 0 → (Flt.fin t m : Flt f).mul (.inf s) = .inf (xor t s) := fun s t m hm => by
    simp [Flt.mul, hm]
  have nm : ∀ z : Flt f, z.mul .nan = .nan := fun z => by cases z <;> rfl
  have nd : ∀ z : Flt f, z.div .nan = .nan := fun z => by cases z <;> rfl
  -- the square of a finite number times c is finite or positive infinity
  have hsq : ∀ (t : Bool) (m : ℚ), (Flt.fin t m : Flt f).mul (.fin t m) = .inf false ∨ ∃ r, (Flt.fin t m : Flt f).mul (.fin t m) = .fin false r := by
    intro t m
    show ofExact (xor t t) _ = _ ∨ ∃ r, ofExact (xor t t) _ = _
    have h0 : ¬ ((Flt.fin t m : Flt f).val * (Flt.fin t m : Flt f).val < 0) := not_lt.mpr (mul_self_nonneg _)
    simp only [ofExact, Bool.xor_self, decide_eq_false h0]
    split_ifs
    · exact .inr ⟨_, rfl⟩
    · exact .inr ⟨_, rfl⟩
    · exact .inl rfl
  cases u with
  | nan => rcases hn with rfl | rfl
           · rfl
           · rw [nm]; rfl
  | inf s =>
    have e1 : (Flt.inf s : Flt f).mul (.inf s) = .inf false := by cases s <;> rfl
    rw [e1]
    have hd : ∀ z : Flt f, (Flt.inf false : Flt f).add z = .nan ∨ (Flt.inf false : Flt f).add z = .inf false := by
      intro z
      cases z with
      | nan => exact .inl rfl
      | inf t => cases t
                 · exact .inr rfl
                 · exact .inl rfl
      | fin _ _ => exact .inr rfl
    have hn' : n = .nan ∨ ∃ t, n = .inf t := by
      cases v with
      | nan => rcases hn with rfl | rfl <;> exact .inl rfl
      | inf t => rcases hn with rfl | rfl <;> exact .inr ⟨_, rfl⟩
      | fin t m =>
        have hm : m ≠ 0 := fun e => hv t (by rw [e])
        rcases hn with rfl | rfl
        · exact .inr ⟨_, inf_mul _ _ _ hm⟩
        · exact .inr ⟨_, mul_inf _ _ _ hm⟩
    rcases hd ((Flt.fin false q : Flt f).mul (v.mul v)) with e | e <;> rw [e]
    · exact nd _
    · rcases hn' with rfl | ⟨t, rfl⟩ <;> rfl
  | fin s m =>
    have hm : m ≠ 0 := fun e => hu s (by rw [e])
    cases v with
    | nan => rcases hn with rfl | rfl
             · rw [nm]; rfl
             · rfl
    | fin t k => exact absurd ⟨⟨_, _, rfl⟩, ⟨_, _, rfl⟩⟩ h
    | inf t =>
      have e1 : (Flt.inf t : Flt f).mul (.inf t) = .inf false := by cases t <;> rfl
      rw [e1, mul_inf _ _ _ hq]
      have hd : ((Flt.fin s m : Flt f).mul (.fin s m)).add (.inf (xor false false)) = .inf false := by
        rcases hsq s m with e | ⟨r, e⟩ <;> rw [e] <;> rfl
      rw [hd]
      rcases hn with rfl | rfl
      · rw [mul_inf _ _ _ hm]; rfl
      · rw [inf_mul _ _ _ hm]; rfl

/-- C80, the remaining cases: if one operand is infinite or NaN, the angle is 0 or `π` (by the sign bit of `x`) for `y` zero,
`π/2` or `-π/2` (by the sign bit of `y`) for `x` zero, and NaN otherwise: infinities have no angle, unlike with `libm`. -/
theorem C80_nonfinite (hf : f.Wide) (y x : Flt f) (h : ¬ (y.IsFinite ∧ x.IsFinite)) :
    ((∃ s, y = .fin s 0) → Returns (atan2Poly y x) (if MixedReal.isNegative x then piF f else .fin false 0)) ∧
    ((∃ s, x = .fin s 0) → Returns (atan2Poly y x)
      (if MixedReal.isPositive y then (piF f).div (ofExact false 2) else (piF f).neg.div (ofExact false 2))) ∧
    ((∀ s, y ≠ .fin s 0) → (∀ s, x ≠ .fin s 0) → Returns (atan2Poly y x) .nan) := by
  have hb : ∀ z : Flt f, (∀ s, z ≠ .fin s 0) → z.beq (.fin false 0) = false := by
    intro z hz
    cases z with
    | nan => rfl
    | inf _ => rfl
    | fin s m =>
      have hm : m ≠ 0 := fun e => hz s (by rw [e])
      cases s <;> simp [Flt.beq, Flt.val, hm]
  have hz : ∀ s : Bool, (Flt.fin s 0 : Flt f).beq (.fin false 0) = true := by intro s; cases s <;> simp [Flt.beq, Flt.val]
  refine ⟨?_, ?_, ?_⟩
  · rintro ⟨s, rfl⟩
    refine .of_eq ((atan2_run _ _).trans ?_)
    simp only [hz, if_true]
  · rintro ⟨s, rfl⟩
    have hy : ∀ t, y ≠ .fin t 0 := fun t e => h ⟨⟨_, _, e⟩, ⟨_, _, rfl⟩⟩
    refine .of_eq ((atan2_run _ _).trans ?_)
    simp only [hz, hb y hy, if_true, Int.cast_ofNat]
    rfl
  · intro hy hx
    refine .of_eq ((atan2_run _ _).trans ?_)
    have q1 : (x.mul y).div ((pow x 2).add ((ofExact false (9/32) : Flt f).mul (pow y 2))) = .nan :=
      quot_nonfinite (coef_shape hf) (fun e => h e.symm) hx hy (.inl rfl)
    have q2 : (x.mul y).div ((pow y 2).add ((ofExact false (9/32) : Flt f).mul (pow x 2))) = .nan :=
      quot_nonfinite (coef_shape hf) h hy hx (.inr rfl)
    simp only [hb y hy, hb x hx, q1, q2, nan_sub, nan_add, ite_self, Bool.false_eq_true, if_false]

example : ¬ ((Flt.inf true : Flt F32).IsFinite ∧ (Flt.fin false 3 : Flt F32).IsFinite) := by
  rintro ⟨⟨_, _, h⟩, -⟩; cases h

/-- C79, on the axes, for every finite distance from the origin: 0 or exactly the type's π by the sign bit of `x`, and exactly half
of the type's π with the sign of `y`. The sign of a zero `y` is ignored. -/
theorem C79_axes (hf : f.Wide) (p : Flt f) (hp : Returns MixedPi.pi p) :
    (∀ (s t : Bool) (n : ℚ), Returns (atan2Poly (.fin s 0 : Flt f) (.fin t n)) (if t then p else .fin false 0)) ∧
    (∀ (s t : Bool) (m : ℚ), m ≠ 0 → ∃ z : Flt f, Returns (atan2Poly (.fin t m : Flt f) (.fin s 0)) z ∧ z.Valid ∧ z.IsFinite ∧
      z.val = (if t then -1 else 1) * (p.val / 2)) := by
  have ep : p = piF f := hp.unique (.of_eq rfl)
  subst ep
  have hz : ∀ s : Bool, (Flt.fin s 0 : Flt f).beq (.fin false 0) = true := by intro s; cases s <;> simp [Flt.beq, Flt.val]
  refine ⟨?_, ?_⟩
  · intro s t n
    refine .of_eq ((atan2_run _ _).trans ?_)
    simp only [hz, if_true]
    cases t <;> rfl
  · intro s t m hm
    have hb : (Flt.fin t m : Flt f).beq (.fin false 0) = false := by cases t <;> simp [Flt.beq, Flt.val, hm]
    have hh := half_is hf
    have l2 : Is (ofExact false ((2:ℤ):ℚ) : Flt f) 2 := by
      have := lit_int (f := f) hf (n := 2) (by norm_num); simpa using this
    have hr := rnd_rep hh.rep.neg
    have hn : Is ((piF f).neg.div (ofExact false ((2:ℤ):ℚ))) (-(piV f / 2)) := by
      have e : -piV f / 2 = -(piV f / 2) := by ring
      have := (is_pi hf.ok).neg.div hf.one_le l2 (by norm_num) (by rw [e, hr, abs_neg]; exact hh.lt_max)
      rwa [e, hr] at this
    rw [(is_pi hf.ok).val]
    cases t
    · refine ⟨_, .of_eq ((atan2_run _ _).trans ?_), hh.valid, hh.fin, by rw [hh.val]; simp⟩
      simp only [hz, hb, if_true]; rfl
    · refine ⟨_, .of_eq ((atan2_run _ _).trans ?_), hn.valid, hn.fin, by rw [hn.val]; simp⟩
      simp only [hz, hb, if_true]; rfl

example : Returns (MixedPi.pi : Prog (Flt F64)) (piF F64) := .of_eq rfl

end MixedNum
