import Mathlib.Analysis.Real.Pi.Bounds
import Verif.Lemmas.FloatNear
import Verif.Lemmas.FloatSqrtRun
import Verif.Lemmas.WrapFloat
import Verif.Lemmas.Taylor
/-! The polynomial sine on floats. -/

namespace MixedNum
namespace Flt
variable {f : Format}

theorem eta_ge (h60 : f.p ≤ 60) : 1 / 10 ^ 19 ≤ eta f := by
  have : (2:ℝ) ^ (-60 : ℤ) ≤ eta f := zpow_le_zpow_right₀ (by norm_num) (by omega)
  norm_num at this ⊢; linarith

/-- The float π, and its distance from π. -/
theorem pi_near (hf : f.Wide) (h60 : f.p ≤ 60) : |((piV f : ℚ) : ℝ) - Real.pi| ≤ 21 / 10 * eta f := by
  have hp := hf.p; have he := hf.emin
  have h1 : |rnd f.p f.emin piDec - piDec| ≤ 2 ^ (2 - (f.p:ℤ)) / 2 := by
    refine abs_rnd_sub_le ?_ (by omega)
    rw [show (2 - (f.p:ℤ)) + f.p = 2 by ring]; unfold piDec; norm_num [abs_lt]
  have h2 := cast_abs_le h1
  push_cast at h2
  have e : (2:ℝ) ^ (2 - (f.p:ℤ)) = 4 * eta f := by
    rw [sub_eq_add_neg, zpow_add₀ (by norm_num)]; norm_num [eta]
  rw [e] at h2
  have h3 : |((piDec : ℚ) : ℝ) - Real.pi| ≤ 1 / 10 ^ 20 := by
    have a := Real.pi_gt_d20; have b := Real.pi_lt_d20
    unfold piDec; rw [abs_le]; push_cast; norm_num at a b ⊢; constructor <;> linarith
  have h4 := eta_ge h60
  have h5 := abs_sub_le ((rnd f.p f.emin piDec : ℚ) : ℝ) piDec Real.pi
  show |((rnd f.p f.emin piDec : ℚ) : ℝ) - Real.pi| ≤ _
  norm_num at h3 h4 ⊢
  linarith

/-- The float π/2 is exactly half the float π. -/
theorem half_is (hf : f.Wide) : Is ((piF f).div (ofExact false ((2:ℤ):ℚ))) (piV f / 2) := by
  have hb := piV_bounds hf.ok
  have l2 : Is (ofExact false ((2:ℤ):ℚ) : Flt f) 2 := by have := lit_int (f := f) hf (n := 2) (by norm_num); simpa using this
  have hr : Rep f.p f.emin (piV f / 2) := by
    have := (is_pi hf.ok).rep.scale (e := 1) (j := -1) (by norm_num; linarith) (by have := hf.emin; have := hf.p; omega)
    rwa [zpow_neg_one, ← div_eq_mul_inv] at this
  have h : |piV f / 2| < 2 ^ f.emax := by
    have := (is_pi hf.ok).lt_max
    rw [abs_of_pos (by linarith)] at this ⊢; linarith
  have := (is_pi hf.ok).div hf.one_le l2 (by norm_num) (by rwa [rnd_rep hr])
  rwa [rnd_rep hr] at this

theorem half_near (hf : f.Wide) (h60 : f.p ≤ 60) :
    Near ((piF f).div (ofExact false ((2:ℤ):ℚ))) (Real.pi / 2) (105 / 100) := by
  refine ⟨_, half_is hf, ?_⟩
  push_cast
  rw [← sub_div, abs_div, abs_of_pos (by norm_num : (0:ℝ) < 2), div_le_iff₀ (by norm_num)]
  exact (pi_near hf h60).trans (by linarith)

/-- Folding on floats, up to three quarters of a turn. -/
theorem sinFold_flt (hf : f.Wide) (h60 : f.p ≤ 60) {x : Flt f} {v : ℚ} (hx : Is x v) (hv : |(v:ℝ)| ≤ 4.712) :
    ∃ y t, sinFold x = pure y ∧ Is y t ∧ |(t:ℝ)| ≤ 1.5709 ∧ |Real.sin t - Real.sin v| ≤ 69 / 10 * eta f := by
  have he := eta_pos (f := f); have hel := eta_le hf
  have hh := half_near hf h60
  have his := half_is hf
  have p1 := Real.pi_gt_d6; have p2 := Real.pi_lt_d6
  have hv' := abs_le.mp hv
  have hpi := abs_le.mp (pi_near hf h60)
  set h := (piF f).div (ofExact false ((2:ℤ):ℚ))
  have unf : sinFold x = (if x.lt h.neg then pure (h.neg.sub (x.add h)) else
      if h.lt x then pure (h.sub (x.sub h)) else pure x) := rfl
  have key : ∀ {a b : ℚ}, a < b ↔ (a:ℝ) < b := fun {a b} => Rat.cast_lt.symm
  rw [unf, hx.lt his.neg, his.lt hx]
  by_cases c1 : v < -(piV f / 2)
  · rw [if_pos (decide_eq_true c1)]
    have c1' := key.mp c1
    push_cast at c1'
    have d := hx.near.add hf hh (U := 3.1413) (M := 3.15) (by
      rw [abs_le]; constructor <;> norm_num at * <;> linarith) (by norm_num) (by norm_num)
    have e := hh.neg.sub hf d (U := 1.5708) (M := 1.571) (by
      rw [abs_le]; constructor <;> norm_num at * <;> linarith) (by norm_num) (by norm_num)
    obtain ⟨t, ht, e1⟩ := e
    rw [show -(Real.pi / 2) - ((v:ℝ) + Real.pi / 2) = -Real.pi - v by ring] at e1
    have e2 : |(t:ℝ) - (-Real.pi - v)| ≤ 69 / 10 * eta f := e1.trans (mul_le_mul_of_nonneg_right (by norm_num) he.le)
    refine ⟨_, t, rfl, ht, ?_, ?_⟩
    · have := abs_le.mp e2
      rw [abs_le]; constructor <;> norm_num at * <;> linarith
    · have : Real.sin v = Real.sin (-Real.pi - v) := by
        rw [show -Real.pi - (v:ℝ) = -(v + Real.pi) by ring, Real.sin_neg, Real.sin_add_pi, neg_neg]
      rw [this]
      exact (Real.abs_sin_sub_sin_le _ _).trans e2
  rw [if_neg (by rw [decide_eq_false c1]; exact Bool.false_ne_true)]
  by_cases c2 : piV f / 2 < v
  · rw [if_pos (decide_eq_true c2)]
    have c2' := key.mp c2
    push_cast at c2'
    have d := hx.near.sub hf hh (U := 3.1413) (M := 3.15) (by
      rw [abs_le]; constructor <;> norm_num at * <;> linarith) (by norm_num) (by norm_num)
    have e := hh.sub hf d (U := 1.5708) (M := 1.571) (by
      rw [abs_le]; constructor <;> norm_num at * <;> linarith) (by norm_num) (by norm_num)
    obtain ⟨t, ht, e1⟩ := e
    rw [show Real.pi / 2 - ((v:ℝ) - Real.pi / 2) = Real.pi - v by ring] at e1
    have e2 : |(t:ℝ) - (Real.pi - v)| ≤ 69 / 10 * eta f := e1.trans (mul_le_mul_of_nonneg_right (by norm_num) he.le)
    refine ⟨_, t, rfl, ht, ?_, ?_⟩
    · have := abs_le.mp e2
      rw [abs_le]; constructor <;> norm_num at * <;> linarith
    · rw [← Real.sin_pi_sub (v:ℝ)]
      exact (Real.abs_sin_sub_sin_le _ _).trans e2
  · rw [if_neg (by rw [decide_eq_false c2]; exact Bool.false_ne_true)]
    have c1' := not_lt.mp (mt key.mpr c1)
    have c2' := not_lt.mp (mt key.mpr c2)
    push_cast at c1' c2'
    refine ⟨x, v, rfl, hx, ?_, ?_⟩
    · rw [abs_le]; constructor <;> norm_num at * <;> linarith
    · rw [sub_self, abs_zero]; positivity

theorem abs_mul_le' {a b U V W : ℝ} (ha : |a| ≤ U) (hb : |b| ≤ V) (h : U * V ≤ W) : |a * b| ≤ W := by
  rw [abs_mul]; exact (mul_le_mul ha hb (abs_nonneg _) ((abs_nonneg _).trans ha)).trans h

theorem abs_of_add {a b c : ℝ} (h : |a + b| ≤ c) : |a| ≤ c + |b| := by
  have := abs_sub (a + b) b; rw [add_sub_cancel_right] at this; linarith

theorem abs_of_sub {a b c : ℝ} (h : |a - b| ≤ c) : |a| ≤ c + |b| := by
  have := abs_add_le (a - b) b; rw [sub_add_cancel] at this; linarith

/-- The truncation error of the polynomial. -/
theorem taylor_flt {t : ℝ} (ht : |t| ≤ 1.5709) : |sinT 5 t - Real.sin t| ≤ 361 / 10 ^ 8 := by
  refine (abs_sinT_five_sub t).trans ?_
  have := pow_le_pow_left₀ (abs_nonneg _) ht 11
  norm_num at this ⊢; linarith

/-- The polynomial on floats. -/
theorem poly_flt (hf : f.Wide) {y : Flt f} {t : ℚ} (hy : Is y t) (ht : |(t:ℝ)| ≤ 1.5709) :
    ∃ z, (do
      let s ← NumOps.sub y (← NumOps.div (← MixedPowi.powi y 3) (← Lit.ofI32 6))
      let s ← NumOps.add s (← NumOps.div (← MixedPowi.powi y 5) (← Lit.ofI32 120))
      let s ← NumOps.sub s (← NumOps.div (← MixedPowi.powi y 7) (← Lit.ofI32 5040))
      NumOps.add s (← NumOps.div (← MixedPowi.powi y 9) (← Lit.ofI32 362880)) : Prog (Flt f)) = pure z ∧
      Near z (sinT 5 t) (65 / 10) := by
  have l6 := lit_int (f := f) hf (n := 6) (by norm_num)
  have l120 := lit_int (f := f) hf (n := 120) (by norm_num)
  have l5040 := lit_int (f := f) hf (n := 5040) (by norm_num)
  have l9 := lit_int (f := f) hf (n := 362880) (by norm_num)
  have n1 := hy.near
  -- bounds of the powers
  have b2 : |(t:ℝ) * t| ≤ 2.468 := abs_mul_le' ht ht (by norm_num)
  have b3 : |(t:ℝ) * (t * t)| ≤ 3.877 := abs_mul_le' ht b2 (by norm_num)
  have b4 : |(t:ℝ) * t * (t * t)| ≤ 6.0911 := abs_mul_le' b2 b2 (by norm_num)
  have b5 : |(t:ℝ) * (t * t * (t * t))| ≤ 9.569 := abs_mul_le' ht b4 (by norm_num)
  have b7 : |(t:ℝ) * (t * t) * (t * t * (t * t))| ≤ 23.616 := abs_mul_le' b3 b4 (by norm_num)
  have b8 : |(t:ℝ) * t * (t * t) * (t * t * (t * t))| ≤ 37.102 := abs_mul_le' b4 b4 (by norm_num)
  have b9 : |(t:ℝ) * (t * t * (t * t) * (t * t * (t * t)))| ≤ 58.284 := abs_mul_le' ht b8 (by norm_num)
  -- the powers
  have n2 := n1.mul hf n1 ht ht (c := 0) (M := 2.47) (by norm_num) (by norm_num) (by norm_num)
  have n3 := n1.mul hf n2 ht b2 (c := 3.89) (M := 3.88) (by norm_num) (by norm_num) (by norm_num)
  have n4 := n2.mul hf n2 b2 b2 (c := 12.2) (M := 6.1) (by norm_num) (by norm_num) (by norm_num)
  have n5 := n1.mul hf n4 ht b4 (c := 28.8) (M := 9.6) (by norm_num) (by norm_num) (by norm_num)
  have n7 := n3.mul hf n4 b3 b4 (c := 118.4) (M := 23.7) (by norm_num) (by norm_num) (by norm_num)
  have n8 := n4.mul hf n4 b4 b4 (c := 223.1) (M := 37.2) (by norm_num) (by norm_num) (by norm_num)
  have n9 := n1.mul hf n8 ht b8 (c := 409) (M := 58.4) (by norm_num) (by norm_num) (by norm_num)
  -- the quotients
  have q3 := n3.div_exact hf l6 (by norm_num) b3 (M := 0.65) (by norm_num) (by norm_num)
  have q5 := n5.div_exact hf l120 (by norm_num) b5 (M := 0.08) (by norm_num) (by norm_num)
  have q7 := n7.div_exact hf l5040 (by norm_num) b7 (M := 0.005) (by norm_num) (by norm_num)
  have q9 := n9.div_exact hf l9 (by norm_num) b9 (M := 0.001) (by norm_num) (by norm_num)
  -- the partial sums
  have e : sinT 5 (t:ℝ) = (t:ℝ) - t * (t * t) / ((6:ℤ):ℚ) + t * (t * t * (t * t)) / ((120:ℤ):ℚ)
      - t * (t * t) * (t * t * (t * t)) / ((5040:ℤ):ℚ)
      + t * (t * t * (t * t) * (t * t * (t * t))) / ((362880:ℤ):ℚ) := by
    rw [sinT_five]; push_cast; ring
  have c9 : |(t:ℝ) - t * (t * t) / ((6:ℤ):ℚ) + t * (t * t * (t * t)) / ((120:ℤ):ℚ)
      - t * (t * t) * (t * t * (t * t)) / ((5040:ℤ):ℚ)
      + t * (t * t * (t * t) * (t * t * (t * t))) / ((362880:ℤ):ℚ)| ≤ 1.00001 := by
    rw [← e]
    have a1 := taylor_flt ht
    have a2 := Real.abs_sin_le_one t
    have a3 := abs_sub_abs_le_abs_sub (sinT 5 t) (Real.sin t)
    norm_num at a1 ⊢; linarith
  have c7 : |(t:ℝ) - t * (t * t) / ((6:ℤ):ℚ) + t * (t * t * (t * t)) / ((120:ℤ):ℚ)
      - t * (t * t) * (t * t * (t * t)) / ((5040:ℤ):ℚ)| ≤ 1.0002 := by
    refine (abs_of_add c9).trans ?_
    rw [abs_div _ (((362880:ℤ):ℚ):ℝ)]; norm_num at b9 ⊢; linarith
  have c5 : |(t:ℝ) - t * (t * t) / ((6:ℤ):ℚ) + t * (t * t * (t * t)) / ((120:ℤ):ℚ)| ≤ 1.005 := by
    refine (abs_of_sub c7).trans ?_
    rw [abs_div _ (((5040:ℤ):ℚ):ℝ)]; norm_num at b7 ⊢; linarith
  have c3 : |(t:ℝ) - t * (t * t) / ((6:ℤ):ℚ)| ≤ 1.085 := by
    refine (abs_of_add c5).trans ?_
    rw [abs_div _ (((120:ℤ):ℚ):ℝ)]; norm_num at b5 ⊢; linarith
  have s3 := n1.sub hf q3 c3 (M := 1.086) (by norm_num) (by norm_num)
  have s5 := s3.add hf q5 c5 (M := 1.006) (by norm_num) (by norm_num)
  have s7 := s5.sub hf q7 c7 (M := 1.001) (by norm_num) (by norm_num)
  have s9 := s7.add hf q9 c9 (M := 1.001) (by norm_num) (by norm_num)
  refine ⟨_, rfl, ?_⟩
  rw [e]
  exact s9.mono (by norm_num)

/-- The sine on floats. -/
theorem sin_acc (hf : f.Wide) (h60 : f.p ≤ 60) {x : Flt f} {v : ℚ} (hx : Is x v) (hv : |(v:ℝ)| ≤ 4.712) :
    ∃ z q, sin x = pure z ∧ Is z q ∧ |(q:ℝ) - Real.sin v| ≤ 361 / 10 ^ 8 + 67 / 5 * eta f := by
  obtain ⟨y, t, h1, h2, h3, h4⟩ := sinFold_flt hf h60 hx hv
  obtain ⟨z, h5, q, h6, h7⟩ := poly_flt hf h2 h3
  refine ⟨z, q, ?_, h6, ?_⟩
  · unfold sin; rw [h1, pure_bind]; exact h5
  · have h8 := taylor_flt h3
    calc |(q:ℝ) - Real.sin v| = |(q - sinT 5 t) + (sinT 5 t - Real.sin t) + (Real.sin t - Real.sin v)| := by congr 1; ring
      _ ≤ _ := (abs_add_le _ _).trans (add_le_add (abs_add_le _ _) le_rfl)
      _ ≤ _ := by linarith

end Flt
end MixedNum
