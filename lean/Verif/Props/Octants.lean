import Verif.Props.Atan
import Verif.Props.SymFixed
import Verif.Props.SymFloat
import Verif.Props.Monotone
import Verif.Props.Undo
import Verif.Props.Mul
import Verif.Lemmas.AtanFloat
import Verif.Lemmas.Run
import Verif.Props.AddSub
import Verif.Lemmas.Case
/-! # C147: the polynomial `atan2` under scaling, mirror images and turns of the plane -/

namespace MixedNum
variable {m : Mode} {W F : ℕ}

theorem PolyAngle.unique {y x v v' : ℝ} (h : PolyAngle y x v) (h' : PolyAngle y x v') : v = v' := by
  cases h <;> cases h' <;> first | rfl | contradiction | (exfalso; linarith)

theorem PolyAngle.returns {y x v : ℝ} (h : PolyAngle y x v) : Returns (atan2Poly y x) v := by
  obtain ⟨w, e, hw⟩ := atan2_real y x
  rw [h.unique hw]; exact .of_eq e

/-- C147: with exact arithmetic the angle depends only on the direction: multiplying both coordinates by a positive number does
not change it. -/
theorem C147_scale (k y x : ℝ) (hk : 0 < k) : ∃ v, Returns (atan2Poly y x) v ∧ Returns (atan2Poly (k * y) (k * x)) v := by
  obtain ⟨v, e, h⟩ := atan2_real y x
  refine ⟨v, .of_eq e, PolyAngle.returns ?_⟩
  have a : ∀ z : ℝ, |k * z| = k * |z| := fun z => by rw [abs_mul, abs_of_pos hk]
  have e1 : k * y / (k * x) = y / x := mul_div_mul_left _ _ hk.ne'
  have e2 : k * x / (k * y) = x / y := mul_div_mul_left _ _ hk.ne'
  have l : ∀ {z w : ℝ}, |z| < |w| → |k * z| < |k * w| := fun h => by rw [a, a]; exact mul_lt_mul_of_pos_left h hk
  have l' : ∀ {z w : ℝ}, |z| ≤ |w| → |k * z| ≤ |k * w| := fun h => by rw [a, a]; exact mul_le_mul_of_nonneg_left h hk.le
  cases h with
  | axisPos h1 h2 => exact .axisPos (by rw [h1, mul_zero]) (mul_nonneg hk.le h2)
  | axisNeg h1 h2 => exact .axisNeg (by rw [h1, mul_zero]) (mul_neg_of_pos_of_neg hk h2)
  | up h1 h2 => exact .up (mul_pos hk h1) (by rw [h2, mul_zero])
  | down h1 h2 => exact .down (mul_neg_of_pos_of_neg hk h1) (by rw [h2, mul_zero])
  | right h1 h2 h3 => rw [← e1]; exact .right (mul_ne_zero hk.ne' h1) (mul_pos hk h2) (l h3)
  | upper h1 h2 h3 => rw [← e2]; exact .upper (mul_pos hk h1) (mul_ne_zero hk.ne' h2) (l' h3)
  | lower h1 h2 h3 => rw [← e2]; exact .lower (mul_neg_of_pos_of_neg hk h1) (mul_ne_zero hk.ne' h2) (l' h3)
  | left h1 h2 h3 => rw [← e1]; exact .left (mul_pos hk h1) (mul_neg_of_pos_of_neg hk h2) (l h3)
  | left' h1 h2 h3 => rw [← e1]; exact .left' (mul_neg_of_pos_of_neg hk h1) (mul_neg_of_pos_of_neg hk h2) (l h3)

/-- C147: with exact arithmetic a half turn of a point of the upper half plane (or of the positive real axis, the other way
round) takes π off its angle (puts π on it). -/
theorem C147_half_turn (y x : ℝ) : ∃ v v', Returns (atan2Poly y x) v ∧ Returns (atan2Poly (-y) (-x)) v' ∧
    (0 < y → v' = v - Real.pi) ∧ (y = 0 → 0 < x → v' = v + Real.pi) := by
  obtain ⟨v, e, h⟩ := atan2_real y x
  obtain ⟨v', e', h'⟩ := atan2_real (-y) (-x)
  refine ⟨v, v', .of_eq e, .of_eq e', fun hy => h'.unique ?_, fun hy hx => h'.unique ?_⟩
  · cases h with
    | axisPos h1 _ => linarith
    | axisNeg h1 _ => linarith
    | up _ h2 => rw [show Real.pi / 2 - Real.pi = -(Real.pi / 2) by ring]; exact .down (by linarith) (by rw [h2, neg_zero])
    | down h1 _ => linarith
    | right h1 h2 h3 =>
      rw [show ratan (y / x) - Real.pi = -Real.pi + ratan (-y / -x) by rw [neg_div_neg_eq]; ring]
      exact .left' (by linarith) (by linarith) (by rwa [abs_neg, abs_neg])
    | upper h1 h2 h3 =>
      rw [show Real.pi / 2 - ratan (x / y) - Real.pi = -(Real.pi / 2) - ratan (-x / -y) by rw [neg_div_neg_eq]; ring]
      exact .lower (by linarith) (neg_ne_zero.mpr h2) (by rwa [abs_neg, abs_neg])
    | lower h1 _ _ => linarith
    | left h1 h2 h3 =>
      rw [show Real.pi + ratan (y / x) - Real.pi = ratan (-y / -x) by rw [neg_div_neg_eq]; ring]
      exact .right (by linarith) (by linarith) (by rwa [abs_neg, abs_neg])
    | left' h1 _ _ => linarith
  · have : v = 0 := h.unique (.axisPos hy hx.le)
    rw [this, zero_add]; exact .axisNeg (by rw [hy, neg_zero]) (by linarith)

/-- C147: with exact arithmetic the mirror image of a point of the upper half plane in the imaginary axis has angle π minus the
angle. -/
theorem C147_mirror (y x : ℝ) (hy : 0 < y) :
    ∃ v, Returns (atan2Poly y x) v ∧ Returns (atan2Poly y (-x)) (Real.pi - v) := by
  obtain ⟨v, e, h⟩ := atan2_real y x
  refine ⟨v, .of_eq e, PolyAngle.returns ?_⟩
  cases h with
  | axisPos h1 _ => linarith
  | axisNeg h1 _ => linarith
  | up _ h2 => rw [show Real.pi - Real.pi / 2 = Real.pi / 2 by ring]; exact .up hy (by rw [h2, neg_zero])
  | down h1 _ => linarith
  | right h1 h2 h3 =>
    rw [show Real.pi - ratan (y / x) = Real.pi + ratan (y / -x) by rw [div_neg, ratan_neg]; ring]
    exact .left hy (by linarith) (by rwa [abs_neg])
  | upper h1 h2 h3 =>
    rw [show Real.pi - (Real.pi / 2 - ratan (x / y)) = Real.pi / 2 - ratan (-x / y) by rw [neg_div, ratan_neg]; ring]
    exact .upper hy (neg_ne_zero.mpr h2) (by rwa [abs_neg])
  | lower h1 _ _ => linarith
  | left h1 h2 h3 =>
    rw [show Real.pi - (Real.pi + ratan (y / x)) = ratan (y / -x) by rw [div_neg, ratan_neg]; ring]
    exact .right hy.ne' (by linarith) (by rwa [abs_neg])
  | left' h1 _ _ => linarith

example := C147_mirror 3 (-4) (by norm_num)

/-- C147: with exact arithmetic a quarter turn of a point of the right half plane, not on a diagonal, puts π/2 on its angle. -/
theorem C147_quarter_turn (y x : ℝ) (hx : 0 < x) (hd : |y| ≠ x) :
    ∃ v, Returns (atan2Poly y x) v ∧ Returns (atan2Poly x (-y)) (v + Real.pi / 2) := by
  obtain ⟨v, e, h⟩ := atan2_real y x
  refine ⟨v, .of_eq e, PolyAngle.returns ?_⟩
  have ax : |x| = x := abs_of_pos hx
  cases h with
  | axisPos h1 _ => rw [zero_add]; exact .up hx (by rw [h1, neg_zero])
  | axisNeg _ h2 => linarith
  | up _ h2 => linarith
  | down _ h2 => linarith
  | right h1 h2 h3 =>
    rw [show ratan (y / x) + Real.pi / 2 = Real.pi / 2 - ratan (-y / x) by rw [neg_div, ratan_neg]; ring]
    exact .upper hx (neg_ne_zero.mpr h1) (by rw [abs_neg]; exact h3.le)
  | upper h1 h2 h3 =>
    rw [show Real.pi / 2 - ratan (x / y) + Real.pi / 2 = Real.pi + ratan (x / -y) by rw [div_neg, ratan_neg]; ring]
    exact .left hx (by linarith) (by rw [abs_neg]; exact lt_of_le_of_ne h3 (by rw [ax]; exact hd.symm))
  | lower h1 h2 h3 =>
    rw [show -(Real.pi / 2) - ratan (x / y) + Real.pi / 2 = ratan (x / -y) by rw [div_neg, ratan_neg]; ring]
    exact .right hx.ne' (by linarith) (by rw [abs_neg]; exact lt_of_le_of_ne h3 (by rw [ax]; exact hd.symm))
  | left _ h2 _ => linarith
  | left' _ h2 _ => linarith

example : (0:ℝ) < 2 ∧ |(-1:ℝ)| ≠ 2 := by norm_num

/-- C147: with exact arithmetic exchanging the coordinates of a point of the open first quadrant, not on the diagonal, gives the
complementary angle. -/
theorem C147_swap (y x : ℝ) (hx : 0 < x) (hy : 0 < y) (hd : y ≠ x) :
    ∃ v, Returns (atan2Poly y x) v ∧ Returns (atan2Poly x y) (Real.pi / 2 - v) := by
  obtain ⟨v, hv, hq⟩ := C147_quarter_turn y x hx (by rwa [abs_of_pos hy])
  obtain ⟨w, hw, hm⟩ := C147_mirror x (-y) hx
  rw [neg_neg] at hm
  refine ⟨v, hv, ?_⟩
  rw [show Real.pi / 2 - v = Real.pi - w by rw [← hq.unique hw]; ring]
  exact hm

example := C147_swap 3 4 (by norm_num) (by norm_num) (by norm_num)

/-- C147: on the diagonal the swap leaves the point where it is, and the angle is π/2 - 32/41, not half of π/2: there a quarter
turn does not add π/2. -/
theorem C147_diagonal (x : ℝ) (hx : 0 < x) :
    Returns (atan2Poly x x) (Real.pi / 2 - 32 / 41) ∧ Returns (atan2Poly x (-x)) (Real.pi / 2 + 32 / 41) ∧
    Real.pi / 2 + 32 / 41 ≠ Real.pi / 2 - 32 / 41 + Real.pi / 2 := by
  refine ⟨?_, ?_, ?_⟩
  · rw [← ratan_one, ← div_self hx.ne']; exact (PolyAngle.upper hx hx.ne' le_rfl).returns
  · rw [show (Real.pi / 2 + 32 / 41 : ℝ) = Real.pi / 2 - ratan (-x / x) by
      rw [neg_div, div_self hx.ne', ratan_neg, ratan_one]; ring]
    exact (PolyAngle.upper hx (neg_ne_zero.mpr hx.ne') (by rw [abs_neg])).returns
  · have := Real.pi_gt_d4; norm_num at this ⊢; intro h; linarith

example := C147_diagonal 3 (by norm_num)

/-! ## Fixed point -/

/-- C147: on fixed point the angle of a point of the first octant and that of its image with exchanged coordinates are
complementary to the last bit, in both overflow modes, panics included: `atan2(x, y)` is the type's π/2 minus `atan2(y, x)`. -/
theorem C147_swap_fixed (h : F + 3 ≤ W) (y x ph : Fixed m true W F)
    (hph : (do NumOps.div (← MixedPi.pi) (← Lit.ofI32 2)) = (pure ph : Prog (Fixed m true W F)))
    (hy : 0 < y.val) (hx : y.val < x.val) : atan2Poly x y = (do NumOps.sub ph (← atan2Poly y x)) := by
  have ax : |x.val| = x.val := abs_of_pos (by omega)
  have ay : |y.val| = y.val := abs_of_pos hy
  have fx : Fits true W |x.val| := by rw [ax]; exact x.fits
  have fy : Fits true W |y.val| := by rw [ay]; exact y.fits
  obtain ⟨p1, _, _, _, _, _, v1, -, -, -, -, -, e1⟩ := Fixed.atan2_step h y x fy fx
  obtain ⟨p2, _, _, _, _, _, v2, -, -, -, -, -, e2⟩ := Fixed.atan2_step h x y fx fy
  have v : ph.val = Fixed.halfRaw F := by
    have e := Fixed.half_eq (m := m) h
    have : (pure ph : Prog (Fixed m true W F)) = pure _ := hph.symm.trans e
    rw [Prog.pure_inj this]; rfl
  have ep : p2 = ph := Fixed.ext (by rw [v2, v])
  rw [e1, e2, if_neg (by omega), if_pos (by omega), if_neg (by omega), if_pos hy, if_neg (by omega), if_neg (by omega),
    if_pos hy, if_neg (by omega), if_pos (by omega), if_pos (by omega), ep]

example := C147_swap_fixed (by decide) (fx .checked true 16 8 300) (fx .checked true 16 8 400) (fx .checked true 16 8 402) (by kernel_rfl) (by decide) (by decide)

/-- C147: on fixed point a half turn of a point above the real axis takes the type's π off its angle if the point is nearer to the
real axis, and twice the type's π/2 if it is not; exactly, wherever `atan2` returns without wrapping round. -/
theorem C147_half_turn_fixed (h : F + 3 ≤ W) (y y' x x' a p : Fixed m true W F)
    (ha : (Lit.ofF64 (9 / 32) : Prog (Fixed m true W F)) = pure a) (hp : (MixedPi.pi : Prog (Fixed m true W F)) = pure p)
    (hn : y'.val = -y.val) (hn' : x'.val = -x.val) (h0 : 0 < y.val) (hx : |x.val| < 2 ^ (W - 1))
    (hD : 2 ^ F ≤ max |x.val| |y.val| * max |x.val| |y.val|)
    (hR : max |x.val| |y.val| * max |x.val| |y.val| / 2 ^ F +
      a.val * (min |x.val| |y.val| * min |x.val| |y.val| / 2 ^ F) / 2 ^ F < 2 ^ (W - 1)) :
    ∃ v v' : Fixed m true W F, Returns (atan2Poly y x) v ∧ Returns (atan2Poly y' x') v' ∧
      (|y.val| < |x.val| → v'.val = v.val - p.val) ∧ (|x.val| ≤ |y.val| → v'.val = v.val - 2 * (p.val / 2)) := by
  have hD' := (Fixed.max_sq _ _ _).mp hD
  have hR' : Fixed.denBig F a.val x.val y.val < 2 ^ (W - 1) := hR
  rw [Fixed.lit_aRaw h ha] at hR'
  have hpv : p.val = Fixed.piRaw F := by
    rw [Fixed.pi_def (by omega)] at hp; rw [← Prog.pure_inj hp]; rfl
  have hy : Fits true W |y.val| := by rw [abs_of_pos h0]; exact y.fits
  have ay : |y'.val| = |y.val| := by rw [hn, abs_neg]
  have ax : |x'.val| = |x.val| := by rw [hn', abs_neg]
  obtain ⟨v, hv, hA⟩ := Fixed.atan2_value h y x hy ((Fixed.fits_iff_lt (abs_nonneg _)).mpr hx)
    (fun _ _ hc => (Fixed.fits_iff_lt (Fixed.den_nonneg hc.le)).mpr (by rwa [← Fixed.denBig_left hc.le]))
    (fun _ _ hc => (Fixed.fits_iff_lt (Fixed.den_nonneg hc)).mpr (by rwa [← Fixed.denBig_right hc])) (by tauto)
  obtain ⟨v', hv', hA'⟩ := Fixed.atan2_value h y' x' (by rw [ay]; exact hy)
    (by rw [ax]; exact (Fixed.fits_iff_lt (abs_nonneg _)).mpr hx)
    (fun _ _ hc => by
      rw [ay, ax] at hc; rw [hn, hn', (Fixed.den_neg _ _).1, (Fixed.den_neg _ _).2]
      exact (Fixed.fits_iff_lt (Fixed.den_nonneg hc.le)).mpr (by rwa [← Fixed.denBig_left hc.le]))
    (fun _ _ hc => by
      rw [ay, ax] at hc; rw [hn, hn', (Fixed.den_neg _ _).1, (Fixed.den_neg _ _).2]
      exact (Fixed.fits_iff_lt (Fixed.den_nonneg hc)).mpr (by rwa [← Fixed.denBig_right hc]))
    (by rw [hn, hn', neg_mul_neg, neg_mul_neg]; tauto)
  refine ⟨v, v', .of_eq hv, .of_eq hv', ?_⟩
  have q : ∀ b s : ℤ, Fixed.quoRaw F (-b) (-s) = Fixed.quoRaw F b s := fun b s => by
    unfold Fixed.quoRaw Fixed.numRaw; rw [(Fixed.den_neg _ _).1, (Fixed.den_neg _ _).2, neg_mul_neg]
  have e : p.val / 2 = Fixed.halfRaw F := by rw [hpv]; rfl
  rw [hn, hn'] at hA'
  rw [e, hpv]
  have n1 := abs_nonneg y.val
  generalize hvv : v.val = vv at hA ⊢
  generalize hvv' : v'.val = vv' at hA' ⊢
  cases hA <;> cases hA' <;> (try omega) <;> (try rw [q]) <;> (try rw [abs_neg, abs_neg] at *) <;> constructor <;> intro hc <;>
    first | omega | (simp_all; done) | (simp_all; omega) | (exfalso; rw [‹x.val = 0›, abs_zero] at hc; omega)

example : (16 : ℕ) + 3 ≤ 32 ∧ 0 < (fx .checked true 32 16 70000).val ∧
    (2:ℤ) ^ 16 ≤ max |(fx .checked true 32 16 (-9000)).val| |(fx .checked true 32 16 70000).val| *
      max |(fx .checked true 32 16 (-9000)).val| |(fx .checked true 32 16 70000).val| := by decide

example : 0 < (fx .wrapping true 32 16 70000).val ∧ (fx .wrapping true 32 16 70000).val < (fx .wrapping true 32 16 80000).val := by
  decide

/-- C147: on fixed point the mirror image in the imaginary axis of a point above the real axis has the angle π minus the angle, up
to two units and 2^F/(M²/2^F) units in the last place, M the larger of the stored coordinates. -/
theorem C147_mirror_fixed (h : F + 3 ≤ W) (y x x' a p : Fixed m true W F)
    (ha : (Lit.ofF64 (9 / 32) : Prog (Fixed m true W F)) = pure a) (hp : (MixedPi.pi : Prog (Fixed m true W F)) = pure p)
    (hn : x'.val = -x.val) (h0 : 0 < y.val) (hx : |x.val| < 2 ^ (W - 1))
    (hD : 2 ^ F ≤ max |x.val| |y.val| * max |x.val| |y.val|)
    (hR : max |x.val| |y.val| * max |x.val| |y.val| / 2 ^ F +
      a.val * (min |x.val| |y.val| * min |x.val| |y.val| / 2 ^ F) / 2 ^ F < 2 ^ (W - 1)) :
    ∃ v v' : Fixed m true W F, Returns (atan2Poly y x) v ∧ Returns (atan2Poly y x') v' ∧
      |v'.val + v.val - p.val| ≤ 2 ^ F / (max |x.val| |y.val| * max |x.val| |y.val| / 2 ^ F) + 2 := by
  have hf := Fixed.fits_signed.mp y.fits
  have hy : |y.val| < 2 ^ (W - 1) := by rw [abs_of_pos h0]; exact hf.2
  have ny : Fits true W (-y.val) := by rw [Fixed.fits_signed]; constructor <;> linarith [hf.2]
  have ax : |x'.val| = |x.val| := by rw [hn, abs_neg]
  obtain ⟨v, w, hv, hw, hb⟩ := C133_atan2_partial h y (Fixed.mkv (-y.val) ny) x a ha rfl h0.ne' hy hx hD hR
  obtain ⟨v', w', hv', hw', h1, h2⟩ := C147_half_turn_fixed h y (Fixed.mkv (-y.val) ny) x' x a p ha hp rfl (by rw [hn, neg_neg]) h0
    (by rwa [ax]) (by rwa [ax]) (by rwa [ax])
  have e := hw.unique hw'
  rw [e] at hb
  refine ⟨v, v', hv, hv', ?_⟩
  rw [ax] at h1 h2
  rw [abs_le] at hb ⊢
  rcases lt_or_ge |y.val| |x.val| with c | c
  · have := h1 c; constructor <;> omega
  · have := h2 c; constructor <;> omega

example := C147_mirror_fixed (by decide) (fx .checked true 16 8 300) (fx .checked true 16 8 400) (fx .checked true 16 8 (-400)) (fx .checked true 16 8 72)
  (fx .checked true 16 8 804) (by kernel_rfl) (by kernel_rfl) (by decide) (by decide) (by decide) (by decide) (by decide)

/-! ## Floats -/

namespace Flt
variable {f : Format}

/-- The comparison of the magnitudes that selects the octant. -/
theorem octant_lt (hf : f.Wide) {y x : Flt f} {a b : ℚ} (hx : Is x a) (hy : Is y b) :
    (y.abs.sub x.abs).lt (.fin false 0) = decide (|b| < |a|) := by
  have hsub : Is (y.abs.sub x.abs) (rnd f.p f.emin (|b| - |a|)) := by
    refine hy.abs.sub hf.one_le hx.abs ?_
    rcases le_total (|b|) (|a|) with h | h
    · rw [abs_rnd, abs_of_nonpos (by linarith), neg_sub]
      refine lt_of_le_of_lt (roundTo_le_rep hf.one_le (by linarith) (by have := abs_nonneg b; linarith) hx.rep.abs) hx.lt_max
    · rw [abs_rnd, abs_of_nonneg (by linarith)]
      refine lt_of_le_of_lt (roundTo_le_rep hf.one_le (by linarith) (by have := abs_nonneg a; linarith) hy.rep.abs) hy.lt_max
  rw [hsub.lt is_zero]; exact decide_eq_decide.mpr (rnd_neg_iff hf.one_le hy.rep.abs hx.rep.abs)

/-- The two forms of the comparison with zero. -/
theorem octant_le (hf : f.Wide) {y x : Flt f} {a b : ℚ} (hx : Is x a) (hy : Is y b) :
    ((.fin false 0 : Flt f).lt (y.abs.sub x.abs) || (.fin false 0 : Flt f).beq (y.abs.sub x.abs)) = decide (|a| ≤ |b|) := by
  have hsub : Is (y.abs.sub x.abs) (rnd f.p f.emin (|b| - |a|)) := by
    refine hy.abs.sub hf.one_le hx.abs ?_
    rcases le_total (|b|) (|a|) with h | h
    · rw [abs_rnd, abs_of_nonpos (by linarith), neg_sub]
      refine lt_of_le_of_lt (roundTo_le_rep hf.one_le (by linarith) (by have := abs_nonneg b; linarith) hx.rep.abs) hx.lt_max
    · rw [abs_rnd, abs_of_nonneg (by linarith)]
      refine lt_of_le_of_lt (roundTo_le_rep hf.one_le (by linarith) (by have := abs_nonneg a; linarith) hy.rep.abs) hy.lt_max
  have := is_zero.le hsub
  rw [show MixedCmp.le (.fin false 0 : Flt f) (y.abs.sub x.abs) = ((.fin false 0 : Flt f).lt (y.abs.sub x.abs) ||
    (.fin false 0 : Flt f).beq (y.abs.sub x.abs)) from rfl] at this
  rw [this]
  refine decide_eq_decide.mpr ?_
  rw [← not_lt, ← not_lt]
  exact not_congr (rnd_neg_iff hf.one_le hy.rep.abs hx.rep.abs)

end Flt

open Flt
variable {f : Format}

/-- C147: on floats, bit for bit: for finite 0 < y < x the angle of the point with exchanged coordinates is the float π/2 minus the
angle, correctly rounded. -/
theorem C147_swap_float (hf : f.Wide) (y x ph : Flt f) (vy : y.Valid) (vx : x.Valid) (fy : IsFinite y) (fx : IsFinite x)
    (hph : (do NumOps.div (← MixedPi.pi) (← Lit.ofI32 2)) = (pure ph : Prog (Flt f)))
    (hy : 0 < y.val) (hx : y.val < x.val) : ∃ r, Returns (atan2Poly y x) r ∧ Returns (atan2Poly x y) (ph.sub r) := by
  have iy := is_of_finite fy vy
  have ix := is_of_finite fx vx
  have e : ph = (piF f).div (ofExact false ((2:ℤ):ℚ)) := (Prog.pure_inj hph).symm
  have ax : |x.val| = x.val := abs_of_pos (by linarith)
  have ay : |y.val| = y.val := abs_of_pos hy
  refine ⟨_, .of_eq (atan2_run y x), .of_eq ((atan2_run x y).trans ?_)⟩
  dsimp only
  rw [octant_lt hf ix iy, octant_lt hf iy ix, iy.beq is_zero, ix.beq is_zero, iy.isPositive hy.ne', ix.isPositive (by linarith),
    ax, ay, decide_eq_false hy.ne', decide_eq_false (show x.val ≠ 0 by linarith), decide_eq_true hy,
    decide_eq_true (show 0 < x.val by linarith), decide_eq_true hx, decide_eq_false (show ¬ x.val < y.val by linarith),
    Flt.mul_comm y x, e]
  simp

example : F32.Wide := ⟨by decide, by decide, by decide, by decide, by decide⟩

/-- C147: on floats a half turn, bit for bit: for finite y > 0 and finite x other than zero, with q the quotient that the routine
computes: nearer to the real axis the angles differ by adding the float π once (which operand is rounded depends on the side), and
otherwise they are the float π/2 minus q and minus π/2 minus q. -/
theorem C147_half_turn_float (hf : f.Wide) (y x p ph : Flt f) (vy : y.Valid) (vx : x.Valid) (fy : IsFinite y) (fx : IsFinite x)
    (hp : (MixedPi.pi : Prog (Flt f)) = pure p)
    (hph : (do NumOps.div (← MixedPi.pi) (← Lit.ofI32 2)) = (pure ph : Prog (Flt f)))
    (hy : 0 < y.val) (hx : x.val ≠ 0) : ∃ r r', Returns (atan2Poly y x) r ∧ Returns (atan2Poly y.neg x.neg) r' ∧
      (|y.val| < |x.val| → 0 < x.val → r' = p.neg.add r) ∧
      (|y.val| < |x.val| → x.val < 0 → r = p.add r') ∧
      (|x.val| ≤ |y.val| → ∃ q, Returns (atanPoly2 y x) q ∧ r = ph.sub q ∧ r' = ph.neg.sub q) := by
  have iy := is_of_finite fy vy
  have ix := is_of_finite fx vx
  have e : ph = (piF f).div (ofExact false ((2:ℤ):ℚ)) := (Prog.pure_inj hph).symm
  have e' : p = piF f := (Prog.pure_inj hp).symm
  have eq : atanPoly2 y x = pure ((x.mul y).div ((pow y 2).add ((ofExact false (9/32) : Flt f).mul (pow x 2)))) := rfl
  have hm : x.neg.mul y.neg = x.mul y := by
    clear * -
    cases x with
    | nan => cases y <;> rfl
    | inf s => cases y <;> simp [Flt.mul, Flt.neg]
    | fin s n =>
      cases y with
      | nan => rfl
      | inf t => simp [Flt.mul, Flt.neg]
      | fin t k => cases s <;> cases t <;> simp [Flt.mul, Flt.neg, Flt.val]
  refine ⟨_, _, .of_eq (atan2_run y x), .of_eq (atan2_run y.neg x.neg), ?_⟩
  dsimp only
  rw [octant_lt hf ix iy, octant_le hf ix iy, octant_lt hf ix.neg iy.neg, octant_le hf ix.neg iy.neg, iy.beq is_zero,
    ix.beq is_zero, iy.neg.beq is_zero, ix.neg.beq is_zero, iy.isPositive hy.ne', ix.isPositive hx,
    iy.neg.isPositive (neg_ne_zero.mpr hy.ne'), ix.neg.isPositive (neg_ne_zero.mpr hx), hm, abs_neg, abs_neg,
    show pow y.neg 2 = pow y 2 from neg_mul_neg_flt y, show pow x.neg 2 = pow x 2 from neg_mul_neg_flt x,
    decide_eq_false hy.ne', decide_eq_false hx, decide_eq_false (neg_ne_zero.mpr hy.ne'), decide_eq_false (neg_ne_zero.mpr hx),
    decide_eq_true hy, decide_eq_false (show ¬ 0 < -y.val by linarith), e, e']
  refine ⟨fun h1 h2 => ?_, fun h1 h2 => ?_, fun h1 => ⟨_, .of_eq eq, ?_⟩⟩
  · rw [decide_eq_true h1, decide_eq_true h2, decide_eq_false (show ¬ 0 < -x.val by linarith), decide_eq_false (not_le.mpr h1)]
    simp
  · rw [decide_eq_true h1, decide_eq_true (show 0 < -x.val by linarith), decide_eq_false (show ¬ 0 < x.val by linarith),
      decide_eq_false (not_le.mpr h1)]
    simp
  · rw [decide_eq_true h1, decide_eq_false (not_lt.mpr h1)]
    constructor <;> simp

example (p ph : Flt F32) (hp : (MixedPi.pi : Prog (Flt F32)) = pure p) (hph : (do NumOps.div (← MixedPi.pi) (← Lit.ofI32 2)) = (pure ph : Prog (Flt F32))) :=
  C147_half_turn_float Flt.wide_F32 (.fin false 3) (.fin true 1) p ph (by is_float 3 0) (by is_float 1 0) ⟨_, _, rfl⟩ ⟨_, _, rfl⟩ hp hph (by norm_num [Flt.val])
  (by norm_num [Flt.val])

end MixedNum
