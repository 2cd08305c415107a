import Verif.Props.AddSub
import Verif.Lemmas.Powi
import Verif.Lemmas.WrapInst
import Verif.Lemmas.Run
/-! # C25–C29: integer power, sign, absolute value, sign tests -/

namespace MixedNum
variable {m : Mode} {s : Bool} {W F : ℕ}

theorem usizeOfI32_nat (n : ℕ) (h : n < 2 ^ 31) : usizeOfI32 n = n := by
  unfold usizeOfI32; omega

theorem usizeOfI32_neg {e : ℤ} (h1 : -2 ^ 31 ≤ e) (h2 : e < 0) : (usizeOfI32 e : ℤ) = 2 ^ 64 + e := by
  unfold usizeOfI32; omega

/-! ## C25 -/

/-- C25: for a non-negative exponent the integer power is b^n if it fits, otherwise a panic (checks on) or its
reduction (checks off). -/
theorem C25_int_powi (hW : 2 ≤ W) (b : PInt m s W) (n : ℕ) (hn : n < 2 ^ 31) :
    Outcome (fun a : PInt m s W => a.val) m s W (b.val ^ n) (MixedPowi.powi b (n : ℤ)) := by
  have e : MixedPowi.powi b (n : ℤ) = powi b n := by
    show mixedPowiVia b n = _; unfold mixedPowiVia; rw [usizeOfI32_nat n hn]
  rw [e]
  obtain ⟨h1, h2, h3⟩ := powi_pint_eq hW b n
  refine ⟨fun h => ⟨_, .of_eq (h1 (inRange_iff.mp h)), rfl⟩, fun h => ?_⟩
  rw [inRange_iff] at h
  cases m with
  | checked => exact .of_eq (h2 h rfl)
  | wrapping =>
    obtain ⟨r, hr, e⟩ := h3 rfl
    exact ⟨r, .of_eq hr, inRange_iff.mpr r.fits, e⟩

example := C25_int_powi (by decide) (i .checked true 8 (-3)) 4 (by decide)

/-- C25: b^0 = 1, also for b = 0. -/
theorem C25_zero_exponent (hW : 2 ≤ W) (b : PInt m s W) : ∃ r, Returns (MixedPowi.powi b 0) r ∧ r.val = 1 := by
  have := (C25_int_powi hW b 0 (by norm_num)).1 (by rw [pow_zero]; exact inRange_iff.mpr (fits_one hW))
  simpa using this

/-- C25, the generic function `powi` on any exponent that fits a `usize`. -/
theorem C25_trigonometry_powi (hW : 2 ≤ W) (b : PInt m s W) (n : ℕ) :
    Outcome (fun a : PInt m s W => a.val) m s W (b.val ^ n) (powi b n) := by
  obtain ⟨h1, h2, h3⟩ := powi_pint_eq hW b n
  refine ⟨fun h => ⟨_, .of_eq (h1 (inRange_iff.mp h)), rfl⟩, fun h => ?_⟩
  rw [inRange_iff] at h
  cases m with
  | checked => exact .of_eq (h2 h rfl)
  | wrapping =>
    obtain ⟨r, hr, e⟩ := h3 rfl
    exact ⟨r, .of_eq hr, inRange_iff.mpr r.fits, e⟩

example : MixedPowi.powi (i .checked true 8 (-2)) 7 = pure (i .checked true 8 (-128)) := by rfl
example : MixedPowi.powi (i .checked true 8 2) 7 = Prog.fail .overflow := by rfl
example : MixedPowi.powi (i .wrapping true 8 3) 5 = pure (i .wrapping true 8 (-13)) := by rfl

/-! ## C26 -/

/-- C26: with overflow checks every base of absolute value at least 2 panics on a negative exponent. -/
theorem C26_panics (hW : 2 ≤ W) (hW' : W ≤ 2 ^ 63) (b : PInt .checked s W) (hb : 2 ≤ |b.val|) (e : ℤ)
    (h1 : -2 ^ 31 ≤ e) (h2 : e < 0) : Panics (MixedPowi.powi b e) .overflow := by
  have hu := usizeOfI32_neg h1 h2
  have hbig : W ≤ usizeOfI32 e := by omega
  refine .of_eq ((powi_pint_eq hW b (usizeOfI32 e)).2.1 ?_ rfl)
  intro hf
  have hp : (2:ℤ) ^ W ≤ |b.val ^ usizeOfI32 e| := by
    rw [abs_pow]
    calc (2:ℤ) ^ W ≤ 2 ^ usizeOfI32 e := pow_le_pow_right₀ (by norm_num) hbig
      _ ≤ |b.val| ^ usizeOfI32 e := pow_le_pow_left₀ (by norm_num) hb _
  have hw : (2:ℤ) ^ W = 2 * 2 ^ (W - 1) := by
    rw [← pow_succ']; congr 1; omega
  have hpos : (0:ℤ) < 2 ^ (W - 1) := by positivity
  have := hf.1; have := hf.2
  cases s with
  | false => 
    simp only [wlo, whi, Bool.false_eq_true, if_false] at *
    rw [abs_of_nonneg (by omega)] at hp; omega
  | true =>
    simp only [wlo, whi, if_true] at *
    rw [le_abs] at hp; omega

example := C26_panics (by decide) (by decide) (i .checked true 8 (-3)) (by decide) (-1) (by decide) (by decide)

/-- C26: 0, 1 and -1 return 0, 1 and (-1)^|e|. -/
theorem C26_units (hW : 2 ≤ W) (b : PInt m s W) (e : ℤ) (h1 : -2 ^ 31 ≤ e) (h2 : e < 0) :
    (b.val = 0 → ∃ r, Returns (MixedPowi.powi b e) r ∧ r.val = 0) ∧
    (b.val = 1 → ∃ r, Returns (MixedPowi.powi b e) r ∧ r.val = 1) ∧
    (b.val = -1 → ∃ r, Returns (MixedPowi.powi b e) r ∧ r.val = (-1) ^ e.natAbs) := by
  have hu := usizeOfI32_neg h1 h2
  have key := fun h => (powi_pint_eq hW b (usizeOfI32 e)).1 h
  refine ⟨fun hb => ?_, fun hb => ?_, fun hb => ?_⟩
  · have e0 : b.val ^ usizeOfI32 e = 0 := by rw [hb, zero_pow (by omega)]
    have hf : Fits s W (b.val ^ usizeOfI32 e) := by rw [e0]; exact fits_zero s W
    exact ⟨_, .of_eq (key hf), e0⟩
  · have e0 : b.val ^ usizeOfI32 e = 1 := by rw [hb, one_pow]
    have hf : Fits s W (b.val ^ usizeOfI32 e) := by rw [e0]; exact fits_one hW
    exact ⟨_, .of_eq (key hf), e0⟩
  · have e0 : b.val ^ usizeOfI32 e = (-1) ^ e.natAbs := by
      rw [hb]
      rcases Nat.even_or_odd e.natAbs with h | h
      · rw [h.neg_one_pow]; apply Even.neg_one_pow; rw [Nat.even_iff] at *; omega
      · rw [h.neg_one_pow]; apply Odd.neg_one_pow; rw [Nat.odd_iff] at *; omega
    have hf : Fits s W (b.val ^ usizeOfI32 e) := by
      rw [e0]
      rcases neg_one_pow_eq_or ℤ e.natAbs with h | h <;> rw [h]
      · exact fits_one hW
      · rw [← hb]; exact b.fits
    exact ⟨_, .of_eq (key hf), e0⟩

example := (C26_units (by decide) (i .checked true 8 (-1)) (-3) (by decide) (by decide)).2.2 rfl

/-- C26, checks off: the result is b^(2^64 + e) reduced; it is 0 for even b. -/
theorem C26_wrapping (hW : 2 ≤ W) (hW' : W ≤ 2 ^ 63) (b : PInt .wrapping s W) (e : ℤ) (h1 : -2 ^ 31 ≤ e) (h2 : e < 0) :
    ∃ r, Returns (MixedPowi.powi b e) r ∧ IsReduction s W (b.val ^ (2 ^ 64 + e).toNat) r.val ∧
      (Even b.val → r.val = 0) := by
  have hu := usizeOfI32_neg h1 h2
  have hn : (2 ^ 64 + e).toNat = usizeOfI32 e := by omega
  obtain ⟨r, hr, he⟩ := (powi_pint_eq hW b (usizeOfI32 e)).2.2 rfl
  refine ⟨r, .of_eq hr, ⟨inRange_iff.mpr r.fits, by rw [hn]; exact he⟩, ?_⟩
  intro hev
  refine eq_of_modEq_of_fits (by omega) r.fits (fits_zero s W) (he.trans ?_)
  apply (Int.modEq_zero_iff_dvd).mpr
  have hd : (2:ℤ) ∣ b.val := hev.two_dvd
  exact (pow_dvd_pow 2 (by omega)).trans (pow_dvd_pow_of_dvd hd _)

example := C26_wrapping (by decide) (by decide) (i .wrapping true 8 (-3)) (-1) (by decide) (by decide)

/-- Squaring gains a factor 2: 2^(k+1) divides b^(2^k) - 1 for odd b. -/
theorem odd_pow_two_pow (b : ℤ) (hb : Odd b) (k : ℕ) : (2:ℤ) ^ (k + 1) ∣ b ^ 2 ^ k - 1 := by
  induction k with
  | zero => obtain ⟨c, rfl⟩ := hb; exact ⟨c, by ring⟩
  | succ k ih =>
    have h2 : (2:ℤ) ∣ b ^ 2 ^ k + 1 := by
      have : Odd (b ^ 2 ^ k) := hb.pow
      obtain ⟨c, hc⟩ := this; exact ⟨c + 1, by rw [hc]; ring⟩
    have e : b ^ 2 ^ (k + 1) - 1 = (b ^ 2 ^ k - 1) * (b ^ 2 ^ k + 1) := by
      rw [pow_succ 2 k, pow_mul]; ring
    rw [e, pow_succ]; exact mul_dvd_mul ih h2

/-- C26, checks off, widths up to 64: for odd b the result is the inverse of b^|e| modulo 2^W. -/
theorem C26_wrapping_odd (hW : 2 ≤ W) (hW' : W ≤ 64) (b : PInt .wrapping s W) (hb : Odd b.val) (e : ℤ)
    (h1 : -2 ^ 31 ≤ e) (h2 : e < 0) :
    ∃ r, Returns (MixedPowi.powi b e) r ∧ r.val * b.val ^ e.natAbs ≡ 1 [ZMOD 2 ^ W] := by
  have hu := usizeOfI32_neg h1 h2
  obtain ⟨r, hr, he⟩ := (powi_pint_eq hW b (usizeOfI32 e)).2.2 rfl
  refine ⟨r, .of_eq hr, (he.mul_right _).trans ?_⟩
  rw [← pow_add, show usizeOfI32 e + e.natAbs = 2 ^ 64 by omega]
  refine (Int.modEq_iff_dvd.mpr ?_).symm
  exact (pow_dvd_pow 2 (by omega)).trans (odd_pow_two_pow b.val hb 64)

example : 2 ≤ |(i .checked true 32 3).val| ∧ Odd (i .wrapping true 32 3).val := by decide

/-! ## C27 -/

theorem fits_neg_one (hW : 2 ≤ W) : Fits true W (-1) := by
  have h1 : (1:ℤ) < 2 ^ (W - 1) := one_lt_pow₀ (by norm_num) (by omega)
  simp only [Fits, wlo, whi, if_true]; omega

/-- C27, signed integers: the sign is -1 below zero, else 1. -/
theorem C27_sign_int (hW : 2 ≤ W) (x : PInt m true W) :
    ∃ r, Returns (sign x) r ∧ r.val = if x.val < 0 then -1 else 1 := by
  have h0 : wrapInt true W 0 = 0 := wrapInt_of_fits (fits_zero _ W)
  by_cases h : x.val < 0
  · refine ⟨_, .of_eq (by simp [sign, h0, h]; rfl), ?_⟩
    rw [if_pos h]; exact wrapInt_of_fits (fits_neg_one hW)
  · refine ⟨_, .of_eq (by simp [sign, h0, h]; rfl), ?_⟩
    rw [if_neg h]; exact wrapInt_of_fits (fits_one hW)

/-- C27, unsigned integers: always 1. -/
theorem C27_sign_unsigned (hW : 2 ≤ W) (x : PInt m false W) : ∃ r, Returns (sign x) r ∧ r.val = 1 := by
  have h0 : wrapInt false W 0 = 0 := wrapInt_of_fits (fits_zero _ W)
  have h : ¬ x.val < 0 := by have := x.fits.1; simp [wlo] at this; omega
  refine ⟨_, .of_eq (by simp [sign, h0, h]; rfl), ?_⟩
  exact wrapInt_of_fits (fits_one hW)

/-- C27, signed integers: sign times absolute value is the number, whenever the absolute value is returned and is right. -/
theorem C27_sign_mul_abs_int (hW : 2 ≤ W) (x a : PInt m true W) (ha : a.val = |x.val|) :
    Returns (do let s ← sign x; NumOps.mul s a) x := by
  obtain ⟨r, hr, e⟩ := C27_sign_int hW x
  refine hr.bind (.of_eq ?_)
  have e' : r.val * a.val = x.val := by
    rw [e, ha]; split_ifs with h
    · rw [abs_of_neg h]; ring
    · rw [abs_of_nonneg (by omega)]; ring
  have hf : Fits true W (r.val * a.val) := by rw [e']; exact x.fits
  rw [PInt.mul_def, PInt.fit_of_fits hf]; congr 1; ext; exact e'

example := C27_sign_mul_abs_int (by decide) (i .checked true 8 (-3)) (i .checked true 8 3) (by decide)

theorem fits_scale (h : F + 2 ≤ W) : Fits s W (1 * 2 ^ F) := by
  have h1 : (2:ℤ) ^ F < 2 ^ (W - 1) := pow_lt_pow_right₀ (by norm_num) (by omega)
  have h2 : (2:ℤ) ^ F < 2 ^ W := pow_lt_pow_right₀ (by norm_num) (by omega)
  have h3 : (0:ℤ) < 2 ^ F := by positivity
  cases s <;> simp only [Fits, wlo, whi, if_true, Bool.false_eq_true, if_false] <;> omega

theorem fits_neg_scale (h : F + 2 ≤ W) : Fits true W (-1 * 2 ^ F) := by
  have h1 : (2:ℤ) ^ F < 2 ^ (W - 1) := pow_lt_pow_right₀ (by norm_num) (by omega)
  have h3 : (0:ℤ) < 2 ^ F := by positivity
  simp only [Fits, wlo, whi, if_true]; omega

theorem Fixed.ofI32_zero : (Lit.ofI32 0 : Prog (Fixed m s W F)) = pure (Fixed.mkv 0 (fits_zero s W)) := by
  rw [Fixed.ofI32_def]; simp only [zero_mul]; exact Fixed.fit_of_fits _

/-- C27, signed fixed point: -2^F or 2^F units in the last place, that is -1 or 1. -/
theorem C27_sign_fixed (h : F + 2 ≤ W) (x : Fixed m true W F) :
    ∃ r, Returns (sign x) r ∧ r.val = (if x.val < 0 then -1 else 1) * 2 ^ F := by
  by_cases hx : x.val < 0
  · refine ⟨_, .of_eq (a := Fixed.mkv _ (fits_neg_scale h)) ?_, by rw [if_pos hx]; rfl⟩
    unfold sign; rw [Fixed.ofI32_zero, pure_bind, Fixed.lt_def, Fixed.mkv_val, decide_eq_true hx, if_pos rfl]
    exact Fixed.fit_of_fits _
  · refine ⟨_, .of_eq (a := Fixed.mkv _ (fits_scale h)) ?_, by rw [if_neg hx]; rfl⟩
    unfold sign; rw [Fixed.ofI32_zero, pure_bind, Fixed.lt_def, Fixed.mkv_val, decide_eq_false hx, if_neg Bool.false_ne_true]
    exact Fixed.fit_of_fits _

/-- C27, unsigned fixed point: always 1. -/
theorem C27_sign_fixed_unsigned (h : F + 2 ≤ W) (x : Fixed m false W F) :
    ∃ r, Returns (sign x) r ∧ r.val = 2 ^ F := by
  have hx : ¬ x.val < 0 := by have := x.fits.1; simp [wlo] at this; omega
  refine ⟨_, .of_eq (a := Fixed.mkv _ (fits_scale h)) ?_, by simp⟩
  unfold sign; rw [Fixed.ofI32_zero, pure_bind, Fixed.lt_def, Fixed.mkv_val, decide_eq_false hx, if_neg Bool.false_ne_true]
  exact Fixed.fit_of_fits _

/-- C27, signed fixed point: sign times absolute value is the number. -/
theorem C27_sign_mul_abs_fixed (h : F + 2 ≤ W) (x a : Fixed m true W F) (ha : a.val = |x.val|) :
    Returns (do let s ← sign x; NumOps.mul s a) x := by
  obtain ⟨r, hr, e⟩ := C27_sign_fixed h x
  refine hr.bind (.of_eq ?_)
  have e' : r.val * a.val / 2 ^ F = x.val := by
    rw [show r.val * a.val = x.val * 2 ^ F by
      rw [e, ha]; split_ifs with h
      · rw [abs_of_neg h]; ring
      · rw [abs_of_nonneg (by omega)]; ring]
    exact Int.mul_ediv_cancel _ (by positivity)
  have hf : Fits true W (r.val * a.val / 2 ^ F) := by rw [e']; exact x.fits
  rw [Fixed.mul_def, Fixed.fit_of_fits hf]; congr 1; ext; exact e'

example := C27_sign_mul_abs_fixed (by decide) (fx .checked true 8 4 (-3)) (fx .checked true 8 4 3) (by decide)

/-- C27, exact reals. -/
theorem C27_real (x : ℝ) : Returns (sign x) (if x < 0 then -1 else 1) ∧
    Returns (do let s ← sign x; let a ← MixedAbs.abs x; NumOps.mul s a) x := by
  by_cases h : x < 0
  · constructor
    · exact .of_eq (by simp [sign, h])
    · exact .of_eq (by simp [sign, h, abs_of_neg h])
  · constructor
    · exact .of_eq (by simp [sign, h])
    · exact .of_eq (by simp [sign, h, abs_of_nonneg (not_lt.mp h)])

example : ∃ a : PInt .checked true 8, a.val = |(i .checked true 8 (-5)).val| := ⟨i _ _ _ 5, rfl⟩

/-! ## C28 -/

/-- C28, signed integers. The absolute value of the minimum does not fit, so the outcome there is a panic, or
(checks off) the minimum itself, see `C28_min_wrapping`. -/
theorem C28_abs_int (hW : 0 < W) (x : PInt m true W) :
    Outcome (fun a : PInt m true W => a.val) m true W |x.val| (MixedAbs.abs x) := by
  have e : (MixedAbs.abs x : Prog (PInt m true W)) = PInt.fit |x.val| := by
    show (if _ then _ else _) = _
    rw [if_pos rfl]
    by_cases h : 0 ≤ x.val
    · rw [if_pos h]
      have hf : Fits true W |x.val| := by rw [abs_of_nonneg h]; exact x.fits
      rw [PInt.fit_of_fits hf]; congr 1; ext; simp [abs_of_nonneg h]
    · rw [if_neg h, abs_of_neg (by omega)]
  rw [e]; exact PInt.outcome hW _

/-- C28, signed fixed point. -/
theorem C28_abs_fixed (hW : 0 < W) (x : Fixed m true W F) :
    Outcome (fun a : Fixed m true W F => a.val) m true W |x.val| (MixedAbs.abs x) := by
  show Outcome _ _ _ _ _ (if _ then _ else _)
  rw [if_pos rfl]; exact Fixed.outcome hW _

/-- C28: the only value whose absolute value does not fit is the minimum -2^(W-1). -/
theorem C28_in_range_iff (x : Word true W) : InRange true W |x.val| ↔ x.val ≠ -(2 ^ (W - 1)) := by
  have := x.fits
  have hpos : (0:ℤ) < 2 ^ (W - 1) := by positivity
  simp only [Fits, wlo, whi, if_true, InRange] at *
  rcases abs_cases x.val with ⟨h, _⟩ | ⟨h, _⟩ <;> rw [h] <;> omega

theorem wrapInt_neg_min (hW : 0 < W) : wrapInt true W (2 ^ (W - 1)) = -(2 ^ (W - 1)) := by
  have hf : Fits true W (-(2 ^ (W - 1))) := ⟨by simp [wlo], by
    have hpos : (0:ℤ) < 2 ^ (W - 1) := by positivity
    simp only [whi, if_true]; omega⟩
  refine eq_of_modEq_of_fits hW (fits_wrapInt _ _ _) hf ((wrapInt_modEq hW _).trans ?_)
  refine Int.modEq_iff_dvd.mpr ⟨-1, ?_⟩
  have : (2:ℤ) ^ W = 2 * 2 ^ (W - 1) := by rw [← pow_succ']; congr 1; omega
  rw [this]; ring

/-- C28, checks off: the absolute value of the minimum is the minimum, for integers and fixed point. -/
theorem C28_min_wrapping (hW : 0 < W) (x : PInt .wrapping true W) (y : Fixed .wrapping true W F)
    (hx : x.val = -(2 ^ (W - 1))) (hy : y.val = -(2 ^ (W - 1))) :
    Returns (MixedAbs.abs x) x ∧ Returns (MixedAbs.abs y) y := by
  have hpos : (0:ℤ) < 2 ^ (W - 1) := by positivity
  constructor
  · refine .of_eq ?_
    show (if _ then _ else _) = _
    rw [if_pos rfl, if_neg (by omega), PInt.fit_wrapping]; congr 1; ext
    rw [PInt.mkv_val, hx, neg_neg, wrapInt_neg_min hW]
  · refine .of_eq ?_
    show (if _ then _ else _) = _
    rw [if_pos rfl, Fixed.fit_wrapping]; congr 1; ext
    rw [Fixed.mkv_val, hy, abs_neg, abs_of_pos hpos, wrapInt_neg_min hW]

/-- C28, checks on: the absolute value of the minimum panics. -/
theorem C28_min_checked (hW : 0 < W) (x : PInt .checked true W) (y : Fixed .checked true W F)
    (hx : x.val = -(2 ^ (W - 1))) (hy : y.val = -(2 ^ (W - 1))) :
    Panics (MixedAbs.abs x) .overflow ∧ Panics (MixedAbs.abs y) .overflow :=
  ⟨(C28_abs_int hW x).2 (fun h => (C28_in_range_iff x.toWord).mp h hx),
   (C28_abs_fixed hW y).2 (fun h => (C28_in_range_iff y.toWord).mp h hy)⟩

example := C28_min_checked (by decide) (i .checked true 8 (-128)) (fx .checked true 8 4 (-128)) (by decide) (by decide)

/-- C28: on unsigned types the absolute value is the identity. -/
theorem C28_abs_unsigned (x : PInt m false W) (y : Fixed m false W F) :
    Returns (MixedAbs.abs x) x ∧ Returns (MixedAbs.abs y) y := ⟨.of_eq rfl, .of_eq rfl⟩

example : MixedAbs.abs (i .checked true 8 (-5)) = pure (i .checked true 8 5) := by rfl
example : MixedAbs.abs (i .checked true 8 (-128)) = Prog.fail .overflow := by rfl

/-! ## C29 -/

/-- C29, integers of any type. -/
theorem C29_exclusive_int (x : PInt m s W) : ¬ (MixedReal.isPositive x = true ∧ MixedReal.isNegative x = true) := by
  cases s with
  | false => rintro ⟨_, h⟩; exact Bool.false_ne_true h
  | true =>
    rintro ⟨h1, h2⟩
    have h1 : 0 < x.val := of_decide_eq_true h1
    have h2 : x.val < 0 := of_decide_eq_true h2
    omega

/-- C29, fixed point of any type. -/
theorem C29_exclusive_fixed (x : Fixed m s W F) :
    ¬ (MixedReal.isPositive x = true ∧ MixedReal.isNegative x = true) := by
  cases s with
  | false => rintro ⟨_, h⟩; exact Bool.false_ne_true h
  | true =>
    rintro ⟨h1, h2⟩
    have h1 : 0 < x.val := of_decide_eq_true h1
    have h2 : x.val < 0 := of_decide_eq_true h2
    omega

/-- C29, signed: positive is > 0 and negative is < 0, so both are false exactly for zero. -/
theorem C29_signed (x : PInt m true W) (y : Fixed m true W F) :
    (MixedReal.isPositive x = true ↔ 0 < x.val) ∧ (MixedReal.isNegative x = true ↔ x.val < 0) ∧
    (MixedReal.isPositive y = true ↔ 0 < y.val) ∧ (MixedReal.isNegative y = true ↔ y.val < 0) ∧
    ((MixedReal.isPositive x = false ∧ MixedReal.isNegative x = false) ↔ x.val = 0) ∧
    ((MixedReal.isPositive y = false ∧ MixedReal.isNegative y = false) ↔ y.val = 0) := by
  have h1 : MixedReal.isPositive x = decide (0 < x.val) := rfl
  have h2 : MixedReal.isNegative x = decide (x.val < 0) := rfl
  have h3 : MixedReal.isPositive y = decide (0 < y.val) := rfl
  have h4 : MixedReal.isNegative y = decide (y.val < 0) := rfl
  rw [h1, h2, h3, h4]
  simp only [decide_eq_true_eq, decide_eq_false_iff_not, true_and]
  constructor <;> omega

/-- C29, unsigned: every value, zero included, counts as positive and none as negative. -/
theorem C29_unsigned (x : PInt m false W) (y : Fixed m false W F) :
    MixedReal.isPositive x = true ∧ MixedReal.isNegative x = false ∧
    MixedReal.isPositive y = true ∧ MixedReal.isNegative y = false := ⟨rfl, rfl, rfl, rfl⟩

/-- C29, floats: exactly one of the two holds, zeros and NaN included. -/
theorem C29_float {f : Format} (x : Flt f) : MixedReal.isPositive x = !MixedReal.isNegative x := by
  cases x <;> simp [MixedReal.isPositive, MixedReal.isNegative]

end MixedNum
