import Verif.Lemmas.Extremes
import Verif.Lemmas.FloatConv
import Verif.Props.Conv
import Verif.Props.AddSub
import Verif.Lemmas.Run
import Verif.Lemmas.Case
import Verif.Lemmas.RoundTie
/-! # C67–C69: conversions between floats, integers and fixed point; largest and smallest values -/

namespace MixedNum
variable {m : Mode} {s : Bool} {W F : ℕ} {f g : Format}
open Flt

/-! ## C67 -/

/-- C67: an integer of at most p bits (24 for `f32`, 53 for `f64`) is converted exactly, and back without change. -/
theorem C67_exact (hf : f.Ok) (x : PInt m s W) (h : |x.val| ≤ 2 ^ f.p) :
    ∃ y : Flt f, Returns (Conv.fromNum x) y ∧ y.Valid ∧ (∃ b q, y = .fin b q) ∧ y.val = x.val ∧
      Returns (Conv.toNum y : Prog (PInt m s W)) x := by
  have hi := is_int (f := f) hf false h
  refine ⟨_, .of_eq rfl, hi.valid, hi.fin, hi.val, .of_eq ?_⟩
  show pure _ = _
  congr 1; ext
  show (toWord (ofExact false (x.val : ℚ) : Flt f) : Word s W).val = _
  rw [toWord_is hi, truncQ_intCast, saturate_of_fits x.fits]

example := C67_exact ok_F32 (i .checked true 32 (-12345678)) (by decide)

/-- C67: every other integer becomes one of relative error at most 2^-p (the type being narrower than the float's range). -/
theorem C67_nearest (hf : f.Ok) (hW : W < f.emax) (x : PInt m s W) :
    ∃ y : Flt f, Returns (Conv.fromNum x) y ∧ y.Valid ∧ (∃ b q, y = .fin b q) ∧
      |y.val - x.val| ≤ |(x.val : ℚ)| * 2 ^ (-(f.p:ℤ)) := by
  have hp : 1 ≤ f.p := by have := hf.p; omega
  have hx : |(x.val : ℚ)| ≤ 2 ^ (W:ℤ) := by
    have := x.fits
    have h1 : (2:ℤ) ^ (W - 1) ≤ 2 ^ W := pow_le_pow_right₀ (by norm_num) (by omega)
    have : |x.val| ≤ 2 ^ W := by
      rw [abs_le]
      cases s <;> simp only [Fits, wlo, whi, if_true, Bool.false_eq_true, if_false] at this <;> omega
    rw [zpow_natCast]; exact_mod_cast this
  have hi := is_ofExact (f := f) hp false (abs_rnd_lt hp hx (by have := hf.emin; omega) (by omega))
  refine ⟨_, .of_eq rfl, hi.valid, hi.fin, ?_⟩
  rw [hi.val]
  by_cases h0 : x.val = 0
  · rw [h0]; simp [rnd]
  · refine abs_rnd_rel ?_
    have h1 : (1:ℚ) ≤ |(x.val : ℚ)| := by exact_mod_cast Int.one_le_abs h0
    refine le_trans ?_ h1
    rw [← zpow_zero (2:ℚ)]; exact two_zpow_le (by have := hf.emin; omega)

example := C67_nearest ok_F32 (by decide) (i .checked true 32 (-123456789))

/-- C67: the conversion keeps the order. -/
theorem C67_mono (hf : f.Ok) (hW : W < f.emax) (x y : PInt m s W) (h : x.val ≤ y.val) :
    ∃ a b : Flt f, Returns (Conv.fromNum x) a ∧ Returns (Conv.fromNum y) b ∧ MixedCmp.le a b = true := by
  have hp : 1 ≤ f.p := by have := hf.p; omega
  have hx : ∀ x : PInt m s W, |(x.val : ℚ)| ≤ 2 ^ (W:ℤ) := by
    intro x
    have := x.fits
    have h1 : (2:ℤ) ^ (W - 1) ≤ 2 ^ W := pow_le_pow_right₀ (by norm_num) (by omega)
    have : |x.val| ≤ 2 ^ W := by
      rw [abs_le]
      cases s <;> simp only [Fits, wlo, whi, if_true, Bool.false_eq_true, if_false] at this <;> omega
    rw [zpow_natCast]; exact_mod_cast this
  have hi := fun x : PInt m s W =>
    is_ofExact (f := f) hp false (abs_rnd_lt hp (hx x) (by have := hf.emin; omega) (by omega))
  refine ⟨_, _, .of_eq rfl, .of_eq rfl, ?_⟩
  rw [(hi x).le (hi y), decide_eq_true_iff]
  exact rnd_mono hp (by exact_mod_cast h)

example := C67_mono ok_F32 (by decide) (i .checked true 32 (-123456789)) (i .checked true 32 123456789) (by decide)

/-- C67: float to integer drops the fraction when the result is representable. -/
theorem C67_truncates (x : Flt f) (hx : x.Valid) (b : Bool) (q : ℚ) (e : x = .fin b q) :
    ∃ t : ℤ, |(t:ℚ)| ≤ |x.val| ∧ |x.val| < |(t:ℚ)| + 1 ∧ 0 ≤ x.val * t ∧
      ∃ y : PInt m s W, Returns (Conv.toNum x) y ∧
        (InRange s W t → y.val = t) ∧ (¬ InRange s W t → 0 < t → y.val = greatest s W) ∧
        (¬ InRange s W t → t < 0 → y.val = least s W) := by
  simp only [least_eq, greatest_eq]
  subst e
  have hi := is_of_valid hx
  obtain ⟨h1, h2, h3⟩ := truncQ_spec (Flt.fin b q : Flt f).val
  have hz := fits_zero s W
  refine ⟨_, h1, h2, h3, ⟨toWord _⟩, .of_eq rfl, ?_, ?_, ?_⟩
  · intro h
    show (toWord (Flt.fin b q : Flt f) : Word s W).val = _
    rw [toWord_is hi]; exact saturate_of_fits (inRange_iff.mp h)
  all_goals
    intro h ht
    show (toWord (Flt.fin b q : Flt f) : Word s W).val = _
    rw [inRange_iff] at h
    have h' : ¬ (wlo s W ≤ PInt.truncQ (Flt.fin b q : Flt f).val ∧ PInt.truncQ (Flt.fin b q : Flt f).val < whi s W) := h
    have hz' : wlo s W ≤ 0 ∧ 0 < whi s W := hz
    rw [toWord_is hi, saturate_val]
  · rw [if_neg (by omega), if_pos (by omega)]
  · rw [if_pos (by omega)]

example := C67_truncates (f := F32) (m := .checked) (s := true) (W := 8) (.fin true (7 / 2)) (by is_float 7 (-1)) _ _ rfl

/-- C67: NaN becomes 0 and the infinities the extreme values; nothing panics. -/
theorem C67_special :
    (∃ y : PInt m s W, Returns (Conv.toNum (Flt.nan : Flt f)) y ∧ y.val = 0) ∧
    (∃ y : PInt m s W, Returns (Conv.toNum (Flt.inf false : Flt f)) y ∧ y.val = greatest s W) ∧
    (∃ y : PInt m s W, Returns (Conv.toNum (Flt.inf true : Flt f)) y ∧ y.val = least s W) :=
  ⟨⟨_, .of_eq rfl, saturate_of_fits (fits_zero s W)⟩, ⟨_, .of_eq rfl, rfl⟩, ⟨_, .of_eq rfl, rfl⟩⟩

/-- C67: a float converted to a format at least as large (`f32` to `f64`) and back is the same float, zeros' signs
included. -/
theorem C67_widening (hg : g.Ok) (h1 : f.p ≤ g.p) (h2 : g.emin ≤ f.emin) (h3 : f.emax ≤ g.emax)
    (x : Flt f) (hx : x.Valid) :
    ∃ y : Flt g, Returns (Conv.fromNum x) y ∧ y.Valid ∧ y.val = x.val ∧ Returns (Conv.fromNum y : Prog (Flt f)) x := by
  rcases x with _ | b | ⟨b, q⟩
  · exact ⟨.nan, .of_eq rfl, trivial, rfl, .of_eq rfl⟩
  · exact ⟨.inf b, .of_eq rfl, trivial, rfl, .of_eq rfl⟩
  · have hi := is_of_valid hx
    have hr : Rep g.p g.emin (Flt.val (.fin b q : Flt f)) := by
      obtain ⟨n, e, r1, r2, r3⟩ := hi.rep
      exact ⟨n, e, by omega, r2.trans_le (pow_le_pow_right₀ (by norm_num) h1), r3⟩
    have hm : |Flt.val (.fin b q : Flt f)| < 2 ^ g.emax := hi.lt_max.trans_le (pow_le_pow_right₀ (by norm_num) h3)
    have hy := is_exact hg b hr hm
    refine ⟨_, .of_eq rfl, hy.valid, hy.val, .of_eq ?_⟩
    show pure _ = _
    congr 1
    have h0 : 0 ≤ q := by obtain ⟨_, _, he, h0, _⟩ := hi; cases he; exact h0
    have hsame : ∀ (k : Format), Rep k.p k.emin (Flt.val (.fin b q : Flt f)) → |Flt.val (.fin b q : Flt f)| < 2 ^ k.emax →
        (ofExact b (Flt.val (.fin b q : Flt f)) : Flt k) = .fin b q := by
      intro k hr hm
      unfold ofExact
      by_cases hq : Flt.val (.fin b q : Flt f) = 0
      · rw [if_pos hq]
        congr 1
        cases b
        · exact hq.symm
        · have : -q = 0 := hq
          linarith
      · rw [if_neg hq]
        simp only [roundTo_rep (abs_nonneg _) hr.abs, if_pos hm]
        cases b
        · have e : Flt.val (.fin false q : Flt f) = q := rfl
          rw [e, abs_of_nonneg h0, decide_eq_false (not_lt.mpr h0)]
        · have e : Flt.val (.fin true q : Flt f) = -q := rfl
          rw [e] at hq ⊢
          have : 0 < q := lt_of_le_of_ne h0 (fun h => hq (by rw [← h, neg_zero]))
          rw [abs_neg, abs_of_nonneg h0, decide_eq_true (by linarith)]
    show cast (ofExact b (Flt.val (.fin b q : Flt f)) : Flt g) = _
    rw [hsame g hr hm]
    exact hsame f hi.rep hi.lt_max

example : ∃ y : Flt F64, Returns (Conv.fromNum (.fin true (5/4) : Flt F32)) y ∧ y.Valid ∧ y.val = -5/4 ∧
    Returns (Conv.fromNum y : Prog (Flt F32)) (.fin true (5/4)) := by
  have := C67_widening (f := F32) (g := F64) ok_F64 (by decide) (by decide) (by decide) (.fin true (5/4))
    ⟨5, -2, by norm_num, by norm_num, by rw [pow2_eq]; norm_num, by norm_num⟩
  rwa [show (Flt.fin true (5/4) : Flt F32).val = -5/4 by norm_num [Flt.val]] at this

/-! ## C68 -/

/-- C68: a fixed-point number of at most p bits becomes the float of the same value, and back without change. -/
theorem C68_exact (hf : f.Ok) (hW : W ≤ f.p) (hF : (F:ℤ) ≤ -f.emin) (x : Fixed m s W F) :
    ∃ y : Flt f, Returns (Conv.toNum x) y ∧ y.Valid ∧ (∃ b q, y = .fin b q) ∧ y.val = x.val / 2 ^ F ∧
      Returns (Conv.fromNum y : Prog (Fixed m s W F)) x := by
  have hb : |x.val| ≤ 2 ^ f.p := by
    have := x.fits
    have h1 : (2:ℤ) ^ (W - 1) ≤ 2 ^ W := pow_le_pow_right₀ (by norm_num) (by omega)
    have h2 : (2:ℤ) ^ W ≤ 2 ^ f.p := pow_le_pow_right₀ (by norm_num) hW
    rw [abs_le]
    cases s <;> simp only [Fits, wlo, whi, if_true, Bool.false_eq_true, if_false] at this <;> omega
  have e : x.toRat = x.val * (2:ℚ) ^ (-(F:ℤ)) := by
    unfold Fixed.toRat; rw [zpow_neg, zpow_natCast, div_eq_mul_inv]
  have hm : |(x.val : ℚ)| ≤ 2 ^ f.p := by exact_mod_cast hb
  have hr : Rep f.p f.emin x.toRat := by
    rcases hb.eq_or_lt with hb | hb
    · rw [e]
      have hp := hf.p
      have e2 : (2:ℤ) ^ f.p = 2 ^ (f.p - 1) * 2 := by rw [← pow_succ]; congr 1; omega
      have lt : (2:ℤ) ^ (f.p - 1) < 2 ^ f.p := pow_lt_pow_right₀ (by norm_num) (by omega)
      have hp : (0:ℤ) < 2 ^ (f.p - 1) := by positivity
      rcases abs_cases x.val with ⟨ea, _⟩ | ⟨ea, _⟩
      · refine ⟨2 ^ (f.p - 1), -(F:ℤ) + 1, by omega, by rwa [abs_of_pos hp], ?_⟩
        rw [← ea, hb, e2, two_zpow_add]; push_cast; ring
      · refine ⟨-2 ^ (f.p - 1), -(F:ℤ) + 1, by omega, by rwa [abs_neg, abs_of_pos hp], ?_⟩
        rw [show x.val = -(2 ^ f.p) by omega, e2, two_zpow_add]; push_cast; ring
    · exact ⟨x.val, -(F:ℤ), by omega, hb, e⟩
  have hi : Is (ofExact false x.toRat : Flt f) x.toRat := by
    refine is_exact hf false hr ?_
    have := hf.emax
    have h1 : |x.toRat| ≤ |(x.val : ℚ)| := by
      unfold Fixed.toRat
      rw [abs_div, abs_of_pos (show (0:ℚ) < 2 ^ F by positivity)]
      exact div_le_self (abs_nonneg _) (one_le_pow₀ (by norm_num))
    calc |x.toRat| ≤ 2 ^ f.p := h1.trans hm
      _ < 2 ^ f.emax := pow_lt_pow_right₀ (by norm_num) (by omega)
  refine ⟨_, .of_eq rfl, hi.valid, hi.fin, hi.val, .of_eq ?_⟩
  obtain ⟨b, q, hy⟩ := hi.fin
  have hv := hi.val
  rw [hy] at hv ⊢
  show Fixed.fit (roundHalfEven ((Flt.fin b q : Flt f).val * 2 ^ F)) = _
  have hq : (Flt.fin b q : Flt f).val * 2 ^ F = x.val := by rw [hv]; unfold Fixed.toRat; field_simp
  rw [hq, roundHalfEven_intCast, Fixed.fit_self]

/-- C68: a finite float becomes the nearest fixed-point number, of two equally near the one with the even bit pattern, or a
reported overflow. -/
theorem C68_nearest (hW : 0 < W) (x : Flt f) (b : Bool) (q : ℚ) (e : x = .fin b q) :
    ∃ n : ℤ, |(n:ℚ) / 2 ^ F - x.val| ≤ 1 / 2 / 2 ^ F ∧ (|(n:ℚ) / 2 ^ F - x.val| = 1 / 2 / 2 ^ F → Even n) ∧
      Outcome (fun a : Fixed m s W F => a.val) m s W n (Conv.fromNum x) := by
  subst e
  have h := abs_roundHalfEven_sub ((Flt.fin b q : Flt f).val * 2 ^ F)
  have hp : (0:ℚ) < 2 ^ F := by positivity
  have e : ∀ n : ℚ, |n / 2 ^ F - (Flt.fin b q : Flt f).val| = |n - (Flt.fin b q : Flt f).val * 2 ^ F| / 2 ^ F := by
    intro n
    rw [← abs_of_pos hp, ← abs_div, abs_of_pos hp]; congr 1; field_simp
  refine ⟨_, ?_, fun ht => ?_, Fixed.outcome hW _⟩
  · rw [e]; exact div_le_div_of_nonneg_right h hp.le
  · rw [e] at ht
    exact Int.even_iff.mpr (roundHalfEven_tie (by rwa [div_left_inj' hp.ne'] at ht))

example := C68_nearest (f := F32) (m := .checked) (s := true) (W := 8) (F := 2) (by decide) (.fin true (7 / 16)) _ _ rfl

/-- 3/8 lies halfway between 1/4 and 2/4; the bit pattern 2 is even. -/
example : Returns (Conv.fromNum (.fin false (3 / 8) : Flt F32)) (fx .checked true 8 2 2) := .of_eq (by kernel_rfl)

/-- C68: NaN and the infinities panic in every build. -/
theorem C68_nonfinite : Panics (Conv.fromNum (Flt.nan : Flt f) : Prog (Fixed m s W F)) .nonFinite ∧
    ∀ b, Panics (Conv.fromNum (Flt.inf b : Flt f) : Prog (Fixed m s W F)) .nonFinite :=
  ⟨.of_eq rfl, fun _ => .of_eq rfl⟩

/-- C68: 64-bit fixed point does not survive the way through `f64` in general, so the width bound is needed. -/
theorem C68_bound_needed : ∃ x : Fixed .checked true 64 0,
    ∃ y : Flt F64, Returns (Conv.toNum x) y ∧ y.val ≠ x.val := by
  refine ⟨fx .checked true 64 0 (2 ^ 53 + 1), _, .of_eq rfl, ?_⟩
  decide +kernel

example : ∃ y : Flt F32, Returns (Conv.toNum (fx .checked true 16 8 (-384))) y ∧ y.val = -3/2 := by
  obtain ⟨y, h1, -, -, h2, -⟩ := C68_exact (f := F32) ok_F32 (by decide) (by decide) (fx .checked true 16 8 (-384))
  refine ⟨y, h1, h2.trans ?_⟩
  have : (fx .checked true 16 8 (-384)).val = -384 := rfl
  rw [this]; norm_num

/-! ## C69 -/

/-- C69, integers: `mixed_min_value` and `mixed_max_value` bound every value, and one more than the largest is not
representable. -/
theorem C69_int (x : PInt m s W) : ∃ lo hi : PInt m s W, Returns MixedReal.minValue lo ∧ Returns MixedReal.maxValue hi ∧
    MixedCmp.le lo x = true ∧ MixedCmp.le x hi = true ∧ ¬ InRange s W (hi.val + 1) ∧ ¬ InRange s W (lo.val - 1) := by
  have h := x.fits
  refine ⟨_, _, .of_eq rfl, .of_eq rfl, decide_eq_true h.1, decide_eq_true ?_, ?_, ?_⟩
  · have := h.2; show x.val ≤ whi s W - 1; omega
  · rw [inRange_iff]; intro h; have := h.2; change whi s W - 1 + 1 < whi s W at this; omega
  · rw [inRange_iff]; intro h; have := h.1; change wlo s W ≤ wlo s W - 1 at this; omega

/-- C69, fixed point. -/
theorem C69_fixed (x : Fixed m s W F) : ∃ lo hi : Fixed m s W F, Returns MixedReal.minValue lo ∧
    Returns MixedReal.maxValue hi ∧ MixedCmp.le lo x = true ∧ MixedCmp.le x hi = true ∧
    ¬ InRange s W (hi.val + 1) ∧ ¬ InRange s W (lo.val - 1) := by
  have h := x.fits
  refine ⟨_, _, .of_eq rfl, .of_eq rfl, decide_eq_true h.1, decide_eq_true ?_, ?_, ?_⟩
  · have := h.2; show x.val ≤ whi s W - 1; omega
  · rw [inRange_iff]; intro h; have := h.2; change whi s W - 1 + 1 < whi s W at this; omega
  · rw [inRange_iff]; intro h; have := h.1; change wlo s W ≤ wlo s W - 1 at this; omega

theorem Flt.mag_le_max {q : ℚ} (hr : Rep f.p f.emin q) (h : q < 2 ^ f.emax) :
    q ≤ 2 ^ f.emax - pow2 (f.emax - f.p) := by
  obtain ⟨n, e, h1, h2, h3⟩ := hr
  have hn : (n:ℚ) + 1 ≤ 2 ^ f.p := by exact_mod_cast (abs_lt.mp h2).2
  have hE : (2:ℚ) ^ f.emax = 2 ^ (f.emax:ℤ) := (zpow_natCast _ _).symm
  rw [hE] at h
  rw [pow2_eq, hE]
  have hP : (2:ℚ) ^ f.p = 2 ^ (f.p:ℤ) := (zpow_natCast _ _).symm
  rw [hP] at hn
  rcases le_or_gt e ((f.emax:ℤ) - f.p) with he | he
  · rcases le_or_gt 0 n with h0 | h0
    · have h0' : (0:ℚ) ≤ n := by exact_mod_cast h0
      calc q ≤ n * 2 ^ ((f.emax:ℤ) - f.p) := by rw [h3]; exact mul_le_mul_of_nonneg_left (two_zpow_le he) h0'
        _ ≤ (2 ^ (f.p:ℤ) - 1) * 2 ^ ((f.emax:ℤ) - f.p) := mul_le_mul_of_nonneg_right (by linarith) (two_zpow_pos _).le
        _ = _ := by rw [sub_mul, ← two_zpow_add, one_mul]; congr 2; ring
    · have h0' : (n:ℚ) < 0 := by exact_mod_cast h0
      have : q < 0 := by rw [h3]; exact mul_neg_of_neg_of_pos h0' (two_zpow_pos _)
      have := two_zpow_le (show (f.emax:ℤ) - f.p ≤ f.emax by omega)
      linarith
  · -- both are multiples of 2^e
    rcases le_or_gt e f.emax with he2 | he2
    · obtain ⟨d, hd⟩ := Int.le.dest he2
      rw [← hd, two_zpow_add, zpow_natCast] at h ⊢
      have h' : (n:ℚ) < 2 ^ d := by
        rw [h3, mul_comm] at h; exact lt_of_mul_lt_mul_left h (two_zpow_pos _).le
      have h' : n + 1 ≤ 2 ^ d := by exact_mod_cast h'
      have h' : (n:ℚ) + 1 ≤ 2 ^ d := by exact_mod_cast h'
      have h5 := mul_le_mul_of_nonneg_right h' (two_zpow_pos e).le
      have h6 := two_zpow_le (show (e + d - f.p : ℤ) ≤ e by rw [hd]; exact he.le)
      rw [h3]; linarith
    · have h0 : n ≤ 0 := by
        by_contra hc
        have : (1:ℚ) ≤ n := by exact_mod_cast (show 1 ≤ n by omega)
        have h5 := mul_le_mul_of_nonneg_right this (two_zpow_pos e).le
        have := two_zpow_lt he2
        linarith
      have h0' : (n:ℚ) ≤ 0 := by exact_mod_cast h0
      have : q ≤ 0 := by rw [h3]; exact mul_nonpos_of_nonpos_of_nonneg h0' (two_zpow_pos _).le
      have := two_zpow_le (show (f.emax:ℤ) - f.p ≤ f.emax by omega)
      linarith

/-- C69, floats: the two values are finite floats and bound every finite float. -/
theorem C69_float (hf : f.Ok) : ∃ lo hi : Flt f, Returns MixedReal.minValue lo ∧ Returns MixedReal.maxValue hi ∧
    lo.Valid ∧ hi.Valid ∧ (∃ q, lo = .fin true q) ∧ (∃ q, hi = .fin false q) ∧
    ∀ x : Flt f, x.Valid → ∀ b q, x = .fin b q → MixedCmp.le lo x = true ∧ MixedCmp.le x hi = true := by
  set M : ℚ := 2 ^ f.emax - pow2 (f.emax - f.p) with hM
  have hp := hf.p; have hmin := hf.emin; have hmax := hf.emax
  have hpow : M = ((2 ^ f.p - 1 : ℕ) : ℚ) * pow2 (f.emax - f.p) := by
    rw [Nat.cast_sub Nat.one_le_two_pow, hM, pow2_eq, sub_mul]
    push_cast
    rw [← zpow_natCast, ← zpow_natCast, ← two_zpow_add]; congr 2
    · ring
    · ring
  have hpos : 0 < pow2 (f.emax - f.p) := by rw [pow2_eq]; exact two_zpow_pos _
  have hv : ∀ b, (Flt.fin b M : Flt f).Valid := fun b =>
    ⟨2 ^ f.p - 1, f.emax - f.p, by have := Nat.one_le_two_pow (n := f.p); omega, by omega, hpow, by linarith⟩
  have hi := is_of_valid (hv false)
  have lo := is_of_valid (hv true)
  refine ⟨_, _, .of_eq rfl, .of_eq rfl, hv true, hv false, ⟨_, rfl⟩, ⟨_, rfl⟩, ?_⟩
  rintro x hx b q rfl
  have h := is_of_valid hx
  have hle := Flt.mag_le_max h.rep.abs h.lt_max
  have := abs_le.mp hle
  constructor
  · rw [lo.le h, decide_eq_true_iff]; show -M ≤ _; linarith [this.1]
  · rw [h.le hi, decide_eq_true_iff]; show _ ≤ M; linarith [this.2]

example : (MixedReal.maxValue : Prog (PInt .checked true 8)) = pure (i .checked true 8 127) := rfl

end MixedNum
