import Verif.Props.Mul
import Verif.Props.Div
import Verif.Lemmas.Round
import Verif.Lemmas.FixedReal
import Verif.Lemmas.Run
import Verif.Props.AddSub
/-! # C124: scaling fixed-point complex numbers by integers and floats -/

namespace MixedNum
variable {m : Mode} {s s' : Bool} {W W' F : ℕ} {f : Format}
open Fixed

theorem fromNum_int (n : PInt m s' W') (h : InRange s W (n.val * 2 ^ F)) :
    (Conv.fromNum n : Prog (Fixed m s W F)) = pure (mkv _ (inRange_iff.mp h)) := fit_of_fits (inRange_iff.mp h)

/-- C124: multiplying by an integer that the component type can hold is exact: both parts times the integer, or an overflow. -/
theorem C124_mul_int (hW : 0 < W) (z : Cartesian (Fixed m s W F)) (n : PInt m s' W') (h : InRange s W (n.val * 2 ^ F)) :
    PairOutcome (fun c : Fixed m s W F => c.val) m s W (z.re.val * n.val) (z.im.val * n.val) (z.mulScalar n) := by
  have e : z.mulScalar n = (do let re ← fit (z.re.val * n.val); let im ← fit (z.im.val * n.val); pure ⟨re, im⟩) := by
    rw [C09_generic z n _ (fromNum_int n h)]
    simp only [mul_def, mkv_val, ← mul_assoc]
    rw [Int.mul_ediv_cancel _ (by positivity), Int.mul_ediv_cancel _ (by positivity)]
  rw [e]; exact Fixed.pairOutcome hW _ _

/-- C124: dividing by a non-zero integer that the component type can hold divides both parts by the integer, rounding towards zero. -/
theorem C124_div_int (hW : 0 < W) (z : Cartesian (Fixed m s W F)) (n : PInt m s' W') (h0 : n.val ≠ 0)
    (h : InRange s W (n.val * 2 ^ F)) :
    PairOutcome (fun c : Fixed m s W F => c.val) m s W (z.re.val.tdiv n.val) (z.im.val.tdiv n.val) (z.divScalar n) := by
  have hp : (2:ℤ) ^ F ≠ 0 := by positivity
  have e : z.divScalar n = (do let re ← fit (z.re.val.tdiv n.val); let im ← fit (z.im.val.tdiv n.val); pure ⟨re, im⟩) := by
    rw [C11_nonzero z n _ (by simp [h0]) (fromNum_int n h)]
    simp only [div_def, mkv_val, mul_eq_zero, h0, hp, or_self, if_false]
    rw [Int.mul_tdiv_mul_of_pos_left _ _ (by positivity), Int.mul_tdiv_mul_of_pos_left _ _ (by positivity)]
  rw [e]; exact Fixed.pairOutcome hW _ _

/-- C124: adding or subtracting an integer that the component type can hold changes the real part only, exactly. -/
theorem C124_add_int (hW : 0 < W) (z : Cartesian (Fixed m s W F)) (n : PInt m s' W') (h : InRange s W (n.val * 2 ^ F)) :
    PairOutcome (fun c : Fixed m s W F => c.val) m s W (z.re.val + n.val * 2 ^ F) z.im.val (z.addScalar n) ∧
    PairOutcome (fun c : Fixed m s W F => c.val) m s W (z.re.val - n.val * 2 ^ F) z.im.val (z.subScalar n) := by
  have hi : (fit z.im.val : Prog (Fixed m s W F)) = pure z.im := fit_of_fits z.im.fits
  constructor
  · have := Fixed.pairOutcome (m := m) (s := s) (F := F) hW (z.re.val + n.val * 2 ^ F) z.im.val
    rw [hi] at this
    simpa [Cartesian.addScalar, fromNum_int n h] using this
  · have := Fixed.pairOutcome (m := m) (s := s) (F := F) hW (z.re.val - n.val * 2 ^ F) z.im.val
    rw [hi] at this
    simpa [Cartesian.subScalar, fromNum_int n h] using this

/-- C124, overflow checks on: with an integer that the component type cannot hold every scalar operation panics, whatever `z` is; so
`0 * n`, `n` large, panics. -/
theorem C124_int_panics (z : Cartesian (Fixed .checked s W F)) (n : PInt .checked s' W') (h : ¬ InRange s W (n.val * 2 ^ F)) :
    Panics (z.mulScalar n) .overflow ∧ Panics (z.divScalar n) .overflow ∧ Panics (z.addScalar n) .overflow ∧
    Panics (z.subScalar n) .overflow := by
  have hc : (Conv.fromNum n : Prog (Fixed .checked s W F)) = Prog.fail .overflow := fit_checked (fun hf => h (inRange_iff.mpr hf))
  have h0 : n.val ≠ 0 := by
    intro h0; rw [h0, zero_mul] at h; exact h (inRange_iff.mpr (fits_zero s W))
  refine ⟨.of_eq ?_, .of_eq ?_, .of_eq ?_, .of_eq ?_⟩
  · simp [Cartesian.mulScalar, hc]
  · simp [Cartesian.divScalar, hc, h0]
  · simp [Cartesian.addScalar, hc]
  · simp [Cartesian.subScalar, hc]

/-- C124, overflow checks off: dividing by an integer panics with a division by zero exactly if the integer is not zero but zero modulo the
range of the type (256 on a 16-bit type with 8 fraction bits). -/
theorem C124_div_int_wrapping (hW : 0 < W) (z : Cartesian (Fixed .wrapping s W F)) (n : PInt .wrapping s' W') :
    Panics (z.divScalar n) .divByZero ↔ n.val ≠ 0 ∧ (2:ℤ) ^ W ∣ n.val * 2 ^ F := by
  by_cases h0 : n.val = 0
  · obtain ⟨c, hc, _⟩ := (C11_fixed_zero (f := F32) z n h0 false).1
    simp [h0, hc.not_panics]
  rw [C11_nonzero z n (mkv (wrapInt s W (n.val * 2 ^ F)) (fits_wrapInt _ _ _)) (by simp [h0]) (fit_wrapping _)]
  have hz : wrapInt s W (n.val * 2 ^ F) = 0 ↔ (2:ℤ) ^ W ∣ n.val * 2 ^ F := by
    constructor
    · intro h
      have := wrapInt_modEq (s := s) hW (n.val * 2 ^ F)
      rw [h] at this
      exact (Int.modEq_zero_iff_dvd).mp this.symm
    · intro h
      refine eq_of_modEq_of_fits hW (fits_wrapInt _ _ _) (fits_zero s W) ?_
      exact (wrapInt_modEq hW _).trans (Int.modEq_zero_iff_dvd.mpr h)
  by_cases hd : (2:ℤ) ^ W ∣ n.val * 2 ^ F
  · refine ⟨fun _ => ⟨h0, hd⟩, fun _ => .of_eq ?_⟩
    simp [div_def, hz.mpr hd]
  · refine ⟨fun h => ?_, fun h => absurd h.2 hd⟩
    exfalso
    have hne := mt hz.mp hd
    simp only [div_def, mkv_val, hne, if_false, fit_wrapping, pure_bind] at h
    exact (returns_pure.mpr rfl).not_panics h

/-- The conversion of a finite float: the nearest number of the type, halves to the even bit pattern. -/
theorem fromNum_float (t : Bool) (q : ℚ) :
    (Conv.fromNum (Flt.fin t q : Flt f) : Prog (Fixed m s W F)) = fit (roundHalfEven ((Flt.fin t q : Flt f).val * 2 ^ F)) := rfl

/-- C124: multiplying by a float rounds the float to the nearest number of the type first; the result is within half a unit in the last
place times the part, plus one unit, of the exact product. -/
theorem C124_mul_float (z c : Cartesian (Fixed .checked s W F)) (t : Bool) (q : ℚ)
    (h : Returns (z.mulScalar (Flt.fin t q : Flt f)) c) :
    |c.re.r - z.re.r * (Flt.fin t q : Flt f).val| < (|z.re.r| / 2 + 1) / 2 ^ F ∧
    |c.im.r - z.im.r * (Flt.fin t q : Flt f).val| < (|z.im.r| / 2 + 1) / 2 ^ F := by
  set v := (Flt.fin t q : Flt f).val with hv
  by_cases hr : Fits s W (roundHalfEven (v * 2 ^ F))
  swap
  · rw [C09_conversion_panics z _ .overflow (by rw [fromNum_float]; exact fit_checked hr)] at h
    exact absurd h (by simp)
  have hc : (Conv.fromNum (Flt.fin t q : Flt f) : Prog (Fixed .checked s W F)) = pure (mkv _ hr) := by
    rw [fromNum_float]; exact fit_of_fits hr
  rw [C09_generic z _ _ hc] at h
  simp only [mul_def, mkv_val] at h
  set R := roundHalfEven (v * 2 ^ F) with hR
  have k1 : Fits s W (z.re.val * R / 2 ^ F) := by
    by_contra hn; rw [fit_checked hn] at h; exact absurd h (by simp)
  rw [fit_of_fits k1, pure_bind] at h
  have k2 : Fits s W (z.im.val * R / 2 ^ F) := by
    by_contra hn; rw [fit_checked hn] at h; exact absurd h (by simp)
  rw [fit_of_fits k2, pure_bind] at h
  obtain rfl := returns_pure.mp h
  have hp : (0:ℝ) < 2 ^ F := by positivity
  have key : ∀ x : Fixed .checked s W F, ∀ k : Fits s W (x.val * R / 2 ^ F),
      |(mkv (F := F) (m := .checked) _ k).r - x.r * v| < (|x.r| / 2 + 1) / 2 ^ F := by
    intro x k
    have e1 : |((x.val * R / 2 ^ F : ℤ) : ℝ) - (x.val * R : ℤ) / 2 ^ F| < 1 := by
      have h1 : x.val * R / 2 ^ F * 2 ^ F ≤ x.val * R := Int.ediv_mul_le _ (by positivity)
      have h2 : x.val * R < (x.val * R / 2 ^ F + 1) * 2 ^ F := Int.lt_ediv_add_one_mul_self _ (by positivity)
      have h1 : ((x.val * R / 2 ^ F : ℤ) : ℝ) ≤ (x.val * R : ℤ) / 2 ^ F := by
        rw [le_div_iff₀ hp]; exact_mod_cast h1
      have h2 : ((x.val * R : ℤ) : ℝ) / 2 ^ F < ((x.val * R / 2 ^ F : ℤ) : ℝ) + 1 := by
        rw [div_lt_iff₀ hp]; exact_mod_cast h2
      rw [abs_lt]; constructor <;> linarith
    have e2 : |(R : ℝ) - v * 2 ^ F| ≤ 1 / 2 := by
      have := abs_roundHalfEven_sub (v * 2 ^ F)
      rw [← hR] at this
      have : ((|(R : ℚ) - v * 2 ^ F| : ℚ) : ℝ) ≤ ((1 / 2 : ℚ) : ℝ) := by exact_mod_cast this
      push_cast at this; exact this
    have e3 : (mkv (F := F) (m := .checked) _ k).r - x.r * v =
        ((((x.val * R / 2 ^ F : ℤ) : ℝ) - (x.val * R : ℤ) / 2 ^ F) + x.r * ((R : ℝ) - v * 2 ^ F)) / 2 ^ F := by
      unfold Fixed.r; rw [mkv_val]; push_cast; field_simp; ring
    rw [e3, abs_div, abs_of_pos hp, div_lt_div_iff_of_pos_right hp]
    refine (abs_add_le _ _).trans_lt ?_
    rw [abs_mul]
    have := mul_le_mul_of_nonneg_left e2 (abs_nonneg x.r)
    linarith
  exact ⟨key _ k1, key _ k2⟩

example := C124_mul_float (f := F32) ⟨fx .checked true 16 4 17, fx .checked true 16 4 23⟩ ⟨fx .checked true 16 4 (-43), fx .checked true 16 4 (-58)⟩ true (5 / 2)
  (by run 0)

theorem roundHalfEven_zero_iff (q : ℚ) : roundHalfEven q = 0 ↔ |q| ≤ 1 / 2 := by
  constructor
  · intro h; have := abs_roundHalfEven_sub q; rw [h] at this; simpa using this
  · intro h
    obtain ⟨h1, h2⟩ := abs_le.mp h
    rw [roundHalfEven_eq]
    by_cases hq : 0 ≤ q
    · have hf : ⌊q⌋ = 0 := Int.floor_eq_zero_iff.mpr ⟨hq, by linarith⟩
      rw [hf]
      norm_num
      intro _; exact h2
    · have hf : ⌊q⌋ = -1 := by rw [Int.floor_eq_iff]; push_cast; constructor <;> linarith
      rw [hf]
      norm_num
      linarith

/-- Division by a float whose conversion is in range. -/
theorem div_float_zero (z : Cartesian (Fixed m s W F)) (t : Bool) (q : ℚ)
    (hq : InRange s W (roundHalfEven ((Flt.fin t q : Flt f).val * 2 ^ F))) :
    Panics (z.divScalar (Flt.fin t q : Flt f)) .divByZero ↔
      (Flt.fin t q : Flt f).val ≠ 0 ∧ |(Flt.fin t q : Flt f).val| ≤ 1 / 2 ^ (F + 1) := by
  rw [inRange_iff] at hq
  set v := (Flt.fin t q : Flt f).val with hv
  have hb : MixedCmp.beq (Flt.fin t q : Flt f) MixedZero.zero = decide (v = 0) := by
    simp [Flt.beq, hv, Flt.val]
  have hiff : roundHalfEven (v * 2 ^ F) = 0 ↔ |v| ≤ 1 / 2 ^ (F + 1) := by
    rw [roundHalfEven_zero_iff, abs_mul, abs_of_pos (by positivity : (0:ℚ) < 2 ^ F), pow_succ, le_div_iff₀ (by positivity),
      le_div_iff₀ (by norm_num), mul_assoc]
  by_cases h0 : v = 0
  · have hr : ∃ c, z.divScalar (Flt.fin t q : Flt f) = pure c := by
      have hm : ∃ x : Fixed m s W F, (MixedReal.maxValue : Prog (Fixed m s W F)) = pure x := ⟨_, rfl⟩
      obtain ⟨x, hx⟩ := hm
      refine ⟨⟨x, x⟩, ?_⟩
      unfold Cartesian.divScalar
      rw [hb, h0, if_pos (by simp), hx]; rfl
    obtain ⟨c, hc⟩ := hr
    simp [h0, hc]
  have hc : (Conv.fromNum (Flt.fin t q : Flt f) : Prog (Fixed m s W F)) = pure (mkv _ hq) := by
    rw [fromNum_float]; exact fit_of_fits hq
  rw [C11_nonzero z _ _ (by rw [hb]; simp [h0]) hc]
  by_cases hz : roundHalfEven (v * 2 ^ F) = 0
  · refine ⟨fun _ => ⟨h0, hiff.mp hz⟩, fun _ => .of_eq ?_⟩
    simp [div_def, hz]
  · refine ⟨fun h => ?_, fun h => absurd (hiff.mpr h.2) hz⟩
    exfalso
    simp only [div_def, mkv_val, hz, if_false] at h
    have nd : ∀ x : ℤ, (∃ v, (fit x : Prog (Fixed m s W F)) = pure v) ∨ (fit x : Prog (Fixed m s W F)) = Prog.fail .overflow := by
      intro x
      by_cases hf : Fits s W x
      · exact .inl ⟨_, fit_of_fits hf⟩
      · cases m with
        | checked => exact .inr (fit_checked hf)
        | wrapping => exact .inl ⟨_, fit_wrapping _⟩
    rcases nd ((z.re.val * 2 ^ F).tdiv (roundHalfEven (v * 2 ^ F))) with ⟨a, ha⟩ | ha <;>
    rcases nd ((z.im.val * 2 ^ F).tdiv (roundHalfEven (v * 2 ^ F))) with ⟨b, hb⟩ | hb <;>
    rw [ha] at h <;> simp [hb] at h

/-- C124, overflow checks on: a finite float is a divisor that panics with a division by zero exactly if it is not zero but at most half a
unit in the last place: it is tested before the conversion to the component type and divided by after it. -/
theorem C124_div_float (z : Cartesian (Fixed .checked s W F)) (t : Bool) (q : ℚ) :
    Panics (z.divScalar (Flt.fin t q : Flt f)) .divByZero ↔
      (Flt.fin t q : Flt f).val ≠ 0 ∧ |(Flt.fin t q : Flt f).val| ≤ 1 / 2 ^ (F + 1) := by
  by_cases hq : InRange s W (roundHalfEven ((Flt.fin t q : Flt f).val * 2 ^ F))
  · exact div_float_zero z t q hq
  rw [inRange_iff] at hq
  set v := (Flt.fin t q : Flt f).val with hv
  have hn : ¬ |v| ≤ 1 / 2 ^ (F + 1) := by
    intro h
    have : roundHalfEven (v * 2 ^ F) = 0 := by
      rw [roundHalfEven_zero_iff, abs_mul, abs_of_pos (by positivity : (0:ℚ) < 2 ^ F)]
      rw [pow_succ, le_div_iff₀ (by positivity)] at h
      linarith
    rw [this] at hq; exact hq (fits_zero s W)
  have h0 : v ≠ 0 := fun h => hn (by rw [h]; simp)
  have e : z.divScalar (Flt.fin t q : Flt f) = Prog.fail .overflow := by
    have hb : MixedCmp.beq (Flt.fin t q : Flt f) MixedZero.zero = decide (v = 0) := by simp [Flt.beq, hv, Flt.val]
    unfold Cartesian.divScalar
    rw [hb, if_neg (by simp [h0]), fromNum_float, fit_checked hq]; rfl
  rw [e]; exact ⟨fun h => absurd h (by simp), fun h => absurd h.2 hn⟩

/-- C124, overflow checks off: the same for the floats within the range of a signed component type. -/
theorem C124_div_float_wrapping (z : Cartesian (Fixed .wrapping true W F)) (t : Bool) (q : ℚ)
    (hq : |(Flt.fin t q : Flt f).val| * 2 ^ F ≤ 2 ^ (W - 1) - 1) :
    Panics (z.divScalar (Flt.fin t q : Flt f)) .divByZero ↔
      (Flt.fin t q : Flt f).val ≠ 0 ∧ |(Flt.fin t q : Flt f).val| ≤ 1 / 2 ^ (F + 1) := by
  refine div_float_zero z t q (inRange_iff.mpr ?_)
  have hp : (0:ℚ) < 2 ^ F := by positivity
  have h1 : |(Flt.fin t q : Flt f).val * 2 ^ F| ≤ 2 ^ (W - 1) - 1 := by rwa [abs_mul, abs_of_pos hp]
  obtain ⟨h1, h2⟩ := abs_le.mp h1
  simp only [Fits, wlo, whi, if_true]
  constructor
  · exact le_roundHalfEven_of_le (by push_cast; linarith)
  · have : roundHalfEven ((Flt.fin t q : Flt f).val * 2 ^ F) ≤ 2 ^ (W - 1) - 1 := roundHalfEven_le_of_le (by push_cast; linarith)
    omega

example := (C124_div_float_wrapping (f := F32) ⟨fx .wrapping true 16 4 17, fx .wrapping true 16 4 23⟩ true (1 / 64) (by norm_num [Flt.val])).mpr
  (by norm_num [Flt.val])

/-- C124: dividing by 0.001 panics with a division by zero on every type with 8 fraction bits, for every `z`. -/
theorem C124_div_by_thousandth (z : Cartesian (Fixed m true 16 8)) :
    Panics (z.divScalar (Flt.fin false (f64Round 0.001) : Flt F64)) .divByZero := by
  rw [div_float_zero _ _ _ (by decide +kernel)]; constructor <;> decide +kernel

-- 1.5 - 2.25 i in I12F4, times 7, by 2, plus 100; 0 times 2048 panics
example : let z : Cartesian (Fixed .checked true 16 4) := ⟨fx .checked true 16 4 24, fx .checked true 16 4 (-36)⟩
    (∃ c, Returns (z.mulScalar (i .checked false 8 7)) c ∧ c.re.val = 168 ∧ c.im.val = -252) ∧
    (∃ c, Returns (z.divScalar (i .checked false 8 5)) c ∧ c.re.val = 4 ∧ c.im.val = -7) ∧
    (∃ c, Returns (z.addScalar (i .checked false 8 100)) c ∧ c.re.val = 1624 ∧ c.im.val = -36) ∧
    Panics (Cartesian.mulScalar ⟨fx .checked true 16 4 0, fx .checked true 16 4 0⟩ (i .checked false 16 2048)) .overflow :=
  ⟨(C124_mul_int (by norm_num) _ _ (by decide)).1 (by decide), (C124_div_int (by norm_num) _ _ (by decide) (by decide)).1 (by decide),
    (C124_add_int (by norm_num) _ _ (by decide)).1.1 (by decide), (C124_int_panics _ _ (by decide)).1⟩
-- without overflow checks, division of an I8F8 by 256
example (z : Cartesian (Fixed .wrapping true 16 8)) : Panics (z.divScalar (i .wrapping true 16 256)) .divByZero :=
  (C124_div_int_wrapping (by norm_num) z _).mpr (by decide)
-- 1.5 · 0.7 in I8F8: 0.7 is taken as 179/256, the result is 268/256
example : Returns (Cartesian.mulScalar ⟨fx .checked true 16 8 384, fx .checked true 16 8 0⟩ (Flt.fin false (f64Round 0.7) : Flt F64))
    ⟨fx .checked true 16 8 268, fx .checked true 16 8 0⟩ := by run 0

end MixedNum
