import Verif.Spec.Scale
import Verif.Lemmas.FloatSqrtRun
import Verif.Lemmas.AtanFloat
/-! Multiplying by a power of two commutes with rounding. -/

namespace MixedNum

theorem ilog2_shift {q : ℚ} (hq : 0 < q) (k : ℤ) : ilog2 (q * 2 ^ k) = ilog2 q + k := by
  have hk := two_zpow_pos k
  obtain ⟨h1, h2⟩ := ilog2_spec hq
  have hq' : 0 < q * 2 ^ k := mul_pos hq hk
  apply le_antisymm
  · have := ilog2_lt hq' (e := ilog2 q + k + 1) (by
      rw [show ilog2 q + k + 1 = ilog2 q + 1 + k by ring, two_zpow_add]
      exact mul_lt_mul_of_pos_right h2 hk)
    omega
  · refine le_ilog2 hq' ?_
    rw [two_zpow_add]; exact mul_le_mul_of_nonneg_right h1 hk.le

/-- In the normal range a power of two can be taken out of the rounding. -/
theorem roundTo_shift {p : ℕ} {emin : ℤ} {q : ℚ} {k : ℤ} (h : (2:ℚ) ^ (emin + p - 1) ≤ q) (h' : (2:ℚ) ^ (emin + p - 1) ≤ q * 2 ^ k) :
    roundTo p emin (q * 2 ^ k) = roundTo p emin q * 2 ^ k := by
  have hq : 0 < q := (two_zpow_pos _).trans_le h
  have hq' : 0 < q * 2 ^ k := (two_zpow_pos _).trans_le h'
  have l1 := le_ilog2 hq h
  have l2 := le_ilog2 hq' h'
  have e1 : ulpExp p emin (q * 2 ^ k) = ulpExp p emin q + k := by
    unfold ulpExp; rw [ilog2_shift hq] at l2 ⊢; omega
  rw [roundTo_pos hq, roundTo_pos hq', e1, two_zpow_add, ← mul_assoc]
  congr 3
  have := (two_zpow_pos k).ne'; have := (two_zpow_pos (ulpExp p emin q)).ne'
  field_simp

namespace Flt
variable {f : Format}

/-- `q` and `q·2^k` are both in the normal range, or both zero. -/
def Normal2 (f : Format) (q : ℚ) (k : ℤ) : Prop :=
  q = 0 ∨ ((2:ℚ) ^ (f.emin + f.p - 1) ≤ |q| ∧ (2:ℚ) ^ (f.emin + f.p - 1) ≤ |q * 2 ^ k|)

theorem rnd_shift {q : ℚ} {k : ℤ} (h : Normal2 f q k) : rnd f.p f.emin (q * 2 ^ k) = rnd f.p f.emin q * 2 ^ k := by
  have hk := two_zpow_pos k
  rcases h with rfl | ⟨h, h'⟩
  · simp [rnd]
  · have ea : |q * 2 ^ k| = |q| * 2 ^ k := by rw [abs_mul, abs_of_pos hk]
    rw [ea] at h'
    have := roundTo_shift h h'
    unfold rnd
    rw [ea, this]
    have e : q * 2 ^ k < 0 ↔ q < 0 := by
      constructor
      · intro c; by_contra hc; have := mul_nonneg (not_lt.mp hc) hk.le; linarith
      · intro c; exact mul_neg_of_neg_of_pos c hk
    by_cases hn : q < 0
    · rw [if_pos hn, if_pos (e.mpr hn)]; ring
    · rw [if_neg hn, if_neg (fun c => hn (e.mp c))]

/-- Sums of floats need no condition: below the normal range they are exact. -/
theorem rnd_shift_add {a b : ℚ} {k : ℤ} (ha : Rep f.p f.emin a) (hb : Rep f.p f.emin b) (ha' : Rep f.p f.emin (a * 2 ^ k))
    (hb' : Rep f.p f.emin (b * 2 ^ k)) : rnd f.p f.emin ((a + b) * 2 ^ k) = rnd f.p f.emin (a + b) * 2 ^ k := by
  have hk := two_zpow_pos k
  have small : ∀ {a b : ℚ}, Rep f.p f.emin a → Rep f.p f.emin b → |a + b| < (2:ℚ) ^ (f.emin + f.p - 1) →
      Rep f.p f.emin (a + b) := by
    intro a b ha hb h
    obtain ⟨i, hi⟩ := ha.units_emin
    obtain ⟨j, hj⟩ := hb.units_emin
    have hu := two_zpow_pos f.emin
    refine ⟨i + j, f.emin, le_refl _, ?_, by rw [hi, hj]; push_cast; ring⟩
    have e : |a + b| = ((|i + j| : ℤ) : ℚ) * 2 ^ f.emin := by
      rw [hi, hj, ← add_mul, abs_mul, abs_of_pos hu]; push_cast; rfl
    rw [e, show f.emin + f.p - 1 = (f.p - 1 : ℤ) + f.emin by ring, two_zpow_add] at h
    have h1 : ((|i + j| : ℤ) : ℚ) < 2 ^ ((f.p : ℤ) - 1) := lt_of_mul_lt_mul_right h hu.le
    have h2 : (2:ℚ) ^ ((f.p : ℤ) - 1) ≤ 2 ^ (f.p : ℤ) := two_zpow_le (by omega)
    rw [zpow_natCast] at h2
    have h3 := h1.trans_le h2
    exact_mod_cast h3
  have up : ∀ {q : ℚ} {j : ℤ}, 0 ≤ j → Rep f.p f.emin q → Rep f.p f.emin (q * 2 ^ j) := by
    intro q j hj h
    obtain ⟨n, e, h1, h2, h3⟩ := h
    exact ⟨n, e + j, by omega, h2, by rw [h3, two_zpow_add]; ring⟩
  have ea : |(a + b) * 2 ^ k| = |a + b| * 2 ^ k := by rw [abs_mul, abs_of_pos hk]
  have both : Rep f.p f.emin (a + b) → Rep f.p f.emin ((a + b) * 2 ^ k) →
      rnd f.p f.emin ((a + b) * 2 ^ k) = rnd f.p f.emin (a + b) * 2 ^ k := by
    intro h1 h2; rw [rnd_rep h1, rnd_rep h2]
  have small' : |(a + b) * 2 ^ k| < (2:ℚ) ^ (f.emin + f.p - 1) → Rep f.p f.emin ((a + b) * 2 ^ k) := by
    intro h; rw [add_mul] at h ⊢; exact small ha' hb' h
  rcases lt_or_ge |a + b| ((2:ℚ) ^ (f.emin + f.p - 1)) with h | h
  · have r := small ha hb h
    rcases lt_or_ge |(a + b) * 2 ^ k| ((2:ℚ) ^ (f.emin + f.p - 1)) with h' | h'
    · exact both r (small' h')
    · refine both r (up ?_ r)
      by_contra hc
      have : (2:ℚ) ^ k ≤ 1 := by simpa using two_zpow_le (b := 0) (by omega : k ≤ 0)
      rw [ea] at h'
      have := mul_le_mul_of_nonneg_left this (abs_nonneg (a + b))
      linarith
  · rcases lt_or_ge |(a + b) * 2 ^ k| ((2:ℚ) ^ (f.emin + f.p - 1)) with h' | h'
    · have r := small' h'
      refine both ?_ r
      have hj : 0 ≤ -k := by
        by_contra hc
        have : (1:ℚ) ≤ 2 ^ k := by simpa using two_zpow_le (a := 0) (by omega : 0 ≤ k)
        rw [ea] at h'
        have := mul_le_mul_of_nonneg_left this (abs_nonneg (a + b))
        linarith
      have := up hj r
      rwa [mul_assoc, ← two_zpow_add, add_neg_cancel, zpow_zero, mul_one] at this
    · exact rnd_shift (.inr ⟨h, h'⟩)

theorem Shift.val {k : ℤ} {x x' : Flt f} (h : Shift k x x') : x'.val = x.val * 2 ^ k := by
  obtain ⟨s, m, rfl, rfl⟩ := h
  cases s <;> simp [Flt.val]

theorem Shift.abs {k : ℤ} {x x' : Flt f} (h : Shift k x x') : Shift k x.abs x'.abs := by
  obtain ⟨s, m, rfl, rfl⟩ := h; exact ⟨false, m, rfl, rfl⟩

/-- Rounded results shift, given that the rounding does. -/
theorem shift_ofExact {z : Bool} {q : ℚ} {k : ℤ} (hr : rnd f.p f.emin (q * 2 ^ k) = rnd f.p f.emin q * 2 ^ k)
    (h : |rnd f.p f.emin q| < 2 ^ f.emax) (h' : |rnd f.p f.emin (q * 2 ^ k)| < 2 ^ f.emax) :
    Shift k (ofExact z q : Flt f) (ofExact z (q * 2 ^ k)) := by
  have hk := two_zpow_pos k
  by_cases hq : q = 0
  · subst hq; refine ⟨z, 0, ?_, ?_⟩ <;> simp [ofExact]
  · have hq' : q * 2 ^ k ≠ 0 := mul_ne_zero hq hk.ne'
    have e : (q * 2 ^ k < 0) = (q < 0) := by
      apply propext; constructor
      · intro c; by_contra hc; have := mul_nonneg (not_lt.mp hc) hk.le; linarith
      · intro c; exact mul_neg_of_neg_of_pos c hk
    have hr' := congrArg (fun t : ℚ => |t|) hr
    simp only [abs_mul, abs_of_pos hk] at hr'
    rw [abs_rnd, abs_rnd] at hr'
    rw [abs_rnd] at h h'
    refine ⟨decide (q < 0), roundTo f.p f.emin |q|, ?_, ?_⟩
    · simp only [ofExact]; rw [if_neg hq, if_pos h]
    · simp only [ofExact]; rw [if_neg hq', if_pos h', hr']; simp only [e]

theorem Shift.mul {j k : ℤ} {x x' y y' : Flt f} (hx : Shift j x x') (hy : Shift k y y') (hn : Normal2 f (x.val * y.val) (j + k))
    (h : |rnd f.p f.emin (x.val * y.val)| < 2 ^ f.emax) (h' : |rnd f.p f.emin (x.val * y.val * 2 ^ (j + k))| < 2 ^ f.emax) :
    Shift (j + k) (x.mul y) (x'.mul y') := by
  have ex := hx.val; have ey := hy.val
  obtain ⟨s, m, rfl, rfl⟩ := hx; obtain ⟨t, n, rfl, rfl⟩ := hy
  show Shift _ (ofExact _ (Flt.val _ * Flt.val _)) (ofExact _ (Flt.val _ * Flt.val _))
  rw [ex, ey, show ∀ a b : ℚ, a * 2 ^ j * (b * 2 ^ k) = a * b * 2 ^ (j + k) by intro a b; rw [two_zpow_add]; ring]
  exact shift_ofExact (rnd_shift hn) h h'

theorem Shift.add {k : ℤ} {x x' y y' : Flt f} (hx : Shift k x x') (hy : Shift k y y') (rx : Rep f.p f.emin x.val)
    (ry : Rep f.p f.emin y.val) (rx' : Rep f.p f.emin x'.val) (ry' : Rep f.p f.emin y'.val)
    (h : |rnd f.p f.emin (x.val + y.val)| < 2 ^ f.emax) (h' : |rnd f.p f.emin ((x.val + y.val) * 2 ^ k)| < 2 ^ f.emax) :
    Shift k (x.add y) (x'.add y') := by
  have ex := hx.val; have ey := hy.val
  rw [ex] at rx'; rw [ey] at ry'
  obtain ⟨s, m, rfl, rfl⟩ := hx; obtain ⟨t, n, rfl, rfl⟩ := hy
  show Shift _ (ofExact _ (Flt.val _ + Flt.val _)) (ofExact _ (Flt.val _ + Flt.val _))
  rw [ex, ey, ← add_mul]
  exact shift_ofExact (rnd_shift_add rx ry rx' ry') h h'

theorem Shift.neg {k : ℤ} {x x' : Flt f} (h : Shift k x x') : Shift k x.neg x'.neg := by
  obtain ⟨s, m, rfl, rfl⟩ := h; exact ⟨!s, m, rfl, rfl⟩

/-- The quotient of two numbers shifted alike is the same float. -/
theorem Shift.div {k : ℤ} {x x' y y' : Flt f} (hx : Shift k x x') (hy : Shift k y y') : x'.div y' = x.div y := by
  have hk := (two_zpow_pos k).ne'
  have ex := hx.val; have ey := hy.val
  obtain ⟨s, m, rfl, rfl⟩ := hx; obtain ⟨t, n, rfl, rfl⟩ := hy
  simp only [Flt.div]
  rw [ex, ey, mul_div_mul_right _ _ hk]
  simp only [mul_eq_zero, hk, or_false]

/-! ### Products and sums in the middle of the range -/

theorem prod_range {a b : ℚ} (ha : Middle f a) (hb : Middle f b) :
    a * b = 0 ∨ ((2:ℚ) ^ (f.emin + f.p + 1) ≤ |a * b| ∧ 4 * |a * b| ≤ 2 ^ f.emax) := by
  rcases ha with rfl | ⟨a1, a2⟩
  · exact .inl (by simp)
  rcases hb with rfl | ⟨b1, b2⟩
  · exact .inl (by simp)
  have hL := two_zpow_pos (f.emin + f.p + 1)
  set L := (2:ℚ) ^ (f.emin + f.p + 1)
  set M := (2:ℚ) ^ f.emax
  have e : |a * b| ^ 2 = a ^ 2 * b ^ 2 := by rw [sq_abs, mul_pow]
  have h0 := abs_nonneg (a * b)
  refine .inr ⟨?_, ?_⟩
  · refine abs_le_of_sq_le_sq' ?_ h0 |>.2
    rw [e, sq]; exact mul_le_mul a1 b1 hL.le (sq_nonneg a)
  · have : (4 * |a * b|) ^ 2 ≤ M ^ 2 := by
      rw [mul_pow, e, sq M]
      have := mul_le_mul a2 b2 (by positivity) (hL.le.trans (by linarith [sq_nonneg a] : L ≤ M))
      linarith
    have hM : 0 ≤ M := by positivity
    nlinarith [abs_le_of_sq_le_sq' this hM]

/-- Two floats in the middle of the range, or zero, and their multiples. -/
theorem prod_shift (hf : f.Wide) {j k : ℤ} {x x' y y' : Flt f} {a b a' b' : ℚ} (ix : Is x a) (iy : Is y b) (ix' : Is x' a')
    (iy' : Is y' b') (hx : Shift j x x') (hy : Shift k y y') (ma : Middle f a) (mb : Middle f b) (ma' : Middle f a')
    (mb' : Middle f b') : ∃ q q', Is (x.mul y) q ∧ Is (x'.mul y') q' ∧ Shift (j + k) (x.mul y) (x'.mul y') ∧
      (q = 0 ∨ (2:ℚ) ^ (f.emin + f.p + 1) ≤ |q| ∧ 4 * |q| ≤ 2 ^ f.emax) ∧
      (q' = 0 ∨ (2:ℚ) ^ (f.emin + f.p + 1) ≤ |q'| ∧ 4 * |q'| ≤ 2 ^ f.emax) := by
  have hp := hf.one_le; have := hf.p; have h1 := hf.emin; have h2 := hf.emax
  have r1 := prod_range ma mb; have r2 := prod_range ma' mb'
  have ea : a' = a * 2 ^ j := by rw [← ix'.val, ← ix.val]; exact hx.val
  have eb : b' = b * 2 ^ k := by rw [← iy'.val, ← iy.val]; exact hy.val
  have e : a' * b' = a * b * 2 ^ (j + k) := by rw [ea, eb, two_zpow_add]; ring
  have eM : (2:ℚ) ^ f.emax = 4 * 2 ^ ((f.emax:ℤ) - 2) := by
    rw [← zpow_natCast, show (f.emax:ℤ) = 2 + (f.emax - 2) by ring, two_zpow_add]; norm_num
  have lt : ∀ {q : ℚ}, (q = 0 ∨ (2:ℚ) ^ (f.emin + f.p + 1) ≤ |q| ∧ 4 * |q| ≤ 2 ^ f.emax) → |rnd f.p f.emin q| < 2 ^ f.emax ∧
      (rnd f.p f.emin q = 0 ∨ (2:ℚ) ^ (f.emin + f.p + 1) ≤ |rnd f.p f.emin q| ∧ 4 * |rnd f.p f.emin q| ≤ 2 ^ f.emax) := by
    intro q h
    rcases h with rfl | ⟨h3, h4⟩
    · rw [rnd_rep ⟨0, f.emin, le_refl _, by positivity, by simp⟩]; exact ⟨by rw [abs_zero]; positivity, .inl rfl⟩
    · rw [eM] at h4
      have h5 : |q| ≤ 2 ^ ((f.emax:ℤ) - 2) := by linarith
      refine ⟨abs_rnd_lt hp h5 (by omega) (by omega), .inr ⟨?_, ?_⟩⟩ <;> rw [abs_rnd]
      · exact rep_le_roundTo hp (two_zpow_pos _).le h3 (Rep.zpow hp (by omega))
      · rw [eM]; have := roundTo_le_rep hp (abs_nonneg q) h5 (Rep.zpow hp (by omega : f.emin ≤ (f.emax:ℤ) - 2)); linarith
  have l1 := lt r1; have l2 := lt r2
  refine ⟨_, _, ix.mul hp iy l1.1, ix'.mul hp iy' l2.1, ?_, l1.2, l2.2⟩
  refine hx.mul hy ?_ (by rw [ix.val, iy.val]; exact l1.1) (by rw [ix.val, iy.val, ← e]; exact l2.1)
  rw [ix.val, iy.val]
  rcases r1 with r1 | r1
  · exact .inl r1
  · rcases r2 with r2 | r2
    · refine .inl ?_
      rw [e] at r2
      exact (mul_eq_zero.mp r2).resolve_right (two_zpow_pos _).ne'
    · have : (2:ℚ) ^ (f.emin + f.p - 1) ≤ 2 ^ (f.emin + f.p + 1) := two_zpow_le (by omega)
      exact .inr ⟨this.trans r1.1, by rw [← e]; exact this.trans r2.1⟩

/-- The sum of two floats and of their multiples. -/
theorem sum_shift (hf : f.Wide) {k : ℤ} {x x' y y' : Flt f} {a b a' b' : ℚ} (ix : Is x a) (iy : Is y b) (ix' : Is x' a')
    (iy' : Is y' b') (hx : Shift k x x') (hy : Shift k y y') (h : 2 * |a + b| ≤ 2 ^ f.emax) (h' : 2 * |a' + b'| ≤ 2 ^ f.emax) :
    Shift k (x.add y) (x'.add y') := by
  have hp := hf.one_le; have := hf.p; have h1 := hf.emin; have h2 := hf.emax
  have ea : a' = a * 2 ^ k := by rw [← ix'.val, ← ix.val]; exact hx.val
  have eb : b' = b * 2 ^ k := by rw [← iy'.val, ← iy.val]; exact hy.val
  have eM : (2:ℚ) ^ f.emax = 2 * 2 ^ ((f.emax:ℤ) - 1) := by
    rw [← zpow_natCast, show (f.emax:ℤ) = 1 + (f.emax - 1) by ring, two_zpow_add]; norm_num
  refine hx.add hy (ix.val ▸ ix.rep) (iy.val ▸ iy.rep) (ix'.val ▸ ix'.rep) (iy'.val ▸ iy'.rep) ?_ ?_ <;> rw [ix.val, iy.val]
  · exact abs_rnd_lt hp (e := (f.emax:ℤ) - 1) (by linarith) (by omega) (by omega)
  · rw [add_mul, ← ea, ← eb]
    exact abs_rnd_lt hp (e := (f.emax:ℤ) - 1) (by linarith) (by omega) (by omega)

/-- Signs do not change. -/
theorem Shift.lt_zero {k : ℤ} {x x' : Flt f} (h : Shift k x x') (s : Bool) : x'.lt (.fin s 0) = x.lt (.fin s 0) := by
  have hk := two_zpow_pos k
  have e := h.val
  obtain ⟨t, m, rfl, rfl⟩ := h
  simp only [Flt.lt]; rw [e]
  have z : (Flt.fin s 0 : Flt f).val = 0 := by cases s <;> simp [Flt.val]
  rw [z, decide_eq_decide]
  exact ⟨fun c => by by_contra hc; have := mul_nonneg (not_lt.mp hc) hk.le; linarith, fun c => mul_neg_of_neg_of_pos c hk⟩

theorem Shift.zero_lt {k : ℤ} {x x' : Flt f} (h : Shift k x x') (s : Bool) : (Flt.fin s 0 : Flt f).lt x' = (Flt.fin s 0 : Flt f).lt x := by
  have hk := two_zpow_pos k
  have e := h.val
  obtain ⟨t, m, rfl, rfl⟩ := h
  simp only [Flt.lt]; rw [e]
  have z : (Flt.fin s 0 : Flt f).val = 0 := by cases s <;> simp [Flt.val]
  rw [z, decide_eq_decide]
  exact ⟨fun c => by by_contra hc; have := mul_nonpos_of_nonpos_of_nonneg (not_lt.mp hc) hk.le; linarith, fun c => mul_pos c hk⟩

theorem Shift.beq_zero {k : ℤ} {x x' : Flt f} (h : Shift k x x') (s : Bool) :
    x'.beq (.fin s 0) = x.beq (.fin s 0) ∧ (Flt.fin s 0 : Flt f).beq x' = (Flt.fin s 0 : Flt f).beq x := by
  have hk := (two_zpow_pos k).ne'
  have e := h.val
  obtain ⟨t, m, rfl, rfl⟩ := h
  simp only [Flt.beq]; rw [e]
  have z : (Flt.fin s 0 : Flt f).val = 0 := by cases s <;> simp [Flt.val]
  rw [z, decide_eq_decide, decide_eq_decide]
  simp [hk, eq_comm]

end Flt
end MixedNum
