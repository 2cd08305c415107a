import Verif.Props.SqrtFixed
import Verif.Props.AddSub
import Verif.Lemmas.Run
/-! # C115: the square root of the most negative fixed-point number, and magnitudes that wrap round to it -/

namespace MixedNum
variable {W F : ℕ}
open Fixed

namespace Fixed

/-- Without overflow checks four times the most negative number is zero, and so is four times zero. -/
theorem four_times_min (hW : F < W) (y : Fixed .wrapping true W F) (hy : y.val = -2 ^ (W - 1) ∨ y.val = 0) :
    ∃ z, (do NumOps.mul y (← Lit.ofI32 4) : Prog (Fixed .wrapping true W F)) = pure z ∧ z.val = 0 := by
  have hW0 : 0 < W := by omega
  refine ⟨mkv (wrapInt true W (y.val * wrapInt true W (4 * 2 ^ F) / 2 ^ F)) (fits_wrapInt ..), ?_, ?_⟩
  · rw [ofI32_def, fit_wrapping, pure_bind, mul_def, fit_wrapping]
    rfl
  · show wrapInt true W (y.val * wrapInt true W (4 * 2 ^ F) / 2 ^ F) = 0
    refine eq_of_modEq_of_fits (s := true) hW0 (fits_wrapInt ..) (fits_zero ..) ((wrapInt_modEq hW0 _).trans ?_)
    rcases hy with hy | hy
    · obtain ⟨c, hc⟩ := (Int.modEq_iff_dvd.mp (wrapInt_modEq (s := true) hW0 (4 * 2 ^ F)))
      have e : wrapInt true W (4 * 2 ^ F) = (4 - 2 ^ (W - F) * c) * 2 ^ F := by
        have : (2:ℤ) ^ W = 2 ^ (W - F) * 2 ^ F := by rw [← pow_add]; congr 1; omega
        rw [this] at hc
        linarith
      rw [e, ← mul_assoc, Int.mul_ediv_cancel _ (by positivity), hy]
      refine (Int.modEq_zero_iff_dvd.mpr ⟨-(2 - 2 ^ (W - F - 1) * c), ?_⟩)
      obtain ⟨k, rfl⟩ : ∃ k, W = F + k + 1 := ⟨W - F - 1, by omega⟩
      rw [show F + k + 1 - F = k + 1 by omega, show F + k + 1 - 1 = F + k by omega, show k + 1 - 1 = k by omega]
      ring
    · rw [hy, zero_mul, Int.zero_ediv]

theorem quarter_above (hF : 2 ≤ F) (hW : F < W) (y : Fixed .wrapping true W F) (hy : y.val ≤ 0) :
    (do pure (MixedCmp.lt y (← Lit.ofF64 (1 / 4))) : Prog Bool) = pure true := by
  have lq := lit_quarter hF
  have hP : (0:ℤ) < 2 ^ F := by positivity
  have hle : (2:ℤ) ^ F ≤ 2 ^ (W - 1) := pow_le_pow_right₀ (by norm_num) (by omega)
  have f : Fits true W (lit F (1 / 4)) := by rw [fits_signed]; constructor <;> omega
  obtain ⟨q, eq, vq⟩ := fit_val (m := .wrapping) (F := F) f
  have e : (Lit.ofF64 (1 / 4) : Prog (Fixed .wrapping true W F)) = pure q := eq
  rw [e, pure_bind]
  congr 1
  show decide (y.val < q.val) = true
  rw [vq]
  exact decide_eq_true (by omega)

end Fixed

/-- C115: without overflow checks the square root of the most negative number of a signed type never returns. -/
theorem C115_release (hF : 2 ≤ F) (hW : F < W) (x : Fixed .wrapping true W F) (hx : x.val = -2 ^ (W - 1)) (n : ℕ) :
    Diverges (niirf (.i32 .wrapping) x n) ∧ Diverges (MixedSqrt.sqrt x) := by
  have hP : (0:ℤ) < 2 ^ (W - 1) := by positivity
  have hW0 : 0 < W := by omega
  have main (n : ℕ) : Diverges (niirf (.i32 .wrapping) x n) := by
    unfold niirf
    have hb : MixedCmp.beq x MixedZero.zero = false := by
      show decide (x.val = 0) = false
      exact decide_eq_false (by omega)
    rw [hb, if_neg Bool.false_ne_true]
    have ha : MixedAbs.abs x = pure x := by
      show fit |x.val| = pure x
      rw [fit_wrapping]
      congr 1
      refine Fixed.ext ?_
      show wrapInt true W |x.val| = x.val
      refine eq_of_modEq_of_fits (s := true) hW0 (fits_wrapInt ..) x.fits ((wrapInt_modEq hW0 _).trans ?_)
      rw [hx, abs_neg, abs_of_pos hP]
      refine Int.modEq_iff_dvd.mpr ⟨-1, ?_⟩
      obtain ⟨k, rfl⟩ : ∃ k, W = k + 1 := ⟨W - 1, by omega⟩
      rw [show k + 1 - 1 = k by omega]
      ring
    rw [ha, pure_bind]
    refine Diverges.bind ?_
    unfold niirfNormalize
    refine Diverges.bind ?_
    refine whileLoop_diverges (fun s => s.1.val = -2 ^ (W - 1) ∨ s.1.val = 0) ?_ _ (.inl hx)
    rintro ⟨y, k⟩ hy
    refine ⟨quarter_above hF hW y (by rcases hy with h | h <;> simp only [] at h <;> omega), ?_⟩
    obtain ⟨z, ez, vz⟩ := four_times_min hW y hy
    refine ⟨(z, wrapInt true 32 (k - 1)), ?_, .inr vz⟩
    show (do let k ← (pure (wrapInt true 32 (k - 1)) : Prog ℤ); pure (← NumOps.mul y (← Lit.ofI32 4), k)) = _
    rw [pure_bind]
    calc _ = (do let w ← (do NumOps.mul y (← Lit.ofI32 4)); pure (w, wrapInt true 32 (k - 1))) := by rw [bind_assoc]
      _ = _ := by rw [ez, pure_bind]
  exact ⟨main n, main 2⟩

/-- C115: with overflow checks it panics, because the absolute value does not fit. -/
theorem C115_debug (c : Counter) (x : Fixed .checked true W F) (hx : x.val = -2 ^ (W - 1)) (n : ℕ) :
    Panics (niirf c x n) .overflow ∧ Panics (MixedSqrt.sqrt x) .overflow := by
  have hP : (0:ℤ) < 2 ^ (W - 1) := by positivity
  have main (c : Counter) (n : ℕ) : niirf c x n = Prog.fail .overflow := by
    unfold niirf
    have hb : MixedCmp.beq x MixedZero.zero = false := by
      show decide (x.val = 0) = false
      exact decide_eq_false (by omega)
    rw [hb, if_neg Bool.false_ne_true]
    have ha : MixedAbs.abs x = Prog.fail .overflow := by
      show fit |x.val| = _
      refine fit_checked ?_
      rw [fits_signed, hx, abs_neg, abs_of_pos hP]
      omega
    rw [ha, Prog.fail_bind]
  exact ⟨.of_eq (main c n), .of_eq (main _ 2)⟩

/-- The sum of the squares of the parts of `z`, each rounded down to the type, in units of the last place. -/
def rawNormSq {m : Mode} (z : Cartesian (Fixed m true W F)) : ℤ := z.re.val * z.re.val / 2 ^ F + z.im.val * z.im.val / 2 ^ F

theorem normSq_wrapping (hW : 0 < W) (z : Cartesian (Fixed .wrapping true W F)) :
    ∃ a b v : Fixed .wrapping true W F, MixedPowi.powi z.re 2 = pure a ∧ MixedPowi.powi z.im 2 = pure b ∧
      NumOps.add a b = pure v ∧ v.val ≡ rawNormSq z [ZMOD 2 ^ W] := by
  have fw (n : ℤ) : ∃ d : Fixed .wrapping true W F, fit n = pure d ∧ d.val = wrapInt true W n := ⟨_, fit_wrapping n, rfl⟩
  obtain ⟨a, ea, va⟩ := fw (z.re.val * z.re.val / 2 ^ F)
  obtain ⟨b, eb, vb⟩ := fw (z.im.val * z.im.val / 2 ^ F)
  obtain ⟨v, ev, vv⟩ := fw (a.val + b.val)
  refine ⟨a, b, v, by rw [sq_eq, ea], by rw [sq_eq, eb], by rw [add_def, ev], ?_⟩
  rw [vv, va, vb]
  exact (wrapInt_modEq hW _).trans ((wrapInt_modEq hW _).add (wrapInt_modEq hW _))

theorem min_of_modEq (hW : 0 < W) {v : Fixed .wrapping true W F} (h : v.val ≡ 2 ^ (W - 1) [ZMOD 2 ^ W]) : v.val = -2 ^ (W - 1) := by
  have hP : (0:ℤ) < 2 ^ (W - 1) := by positivity
  refine eq_of_modEq_of_fits (s := true) hW v.fits (by rw [fits_signed]; constructor <;> omega) (h.trans ?_)
  refine Int.modEq_iff_dvd.mpr ⟨-1, ?_⟩
  obtain ⟨k, rfl⟩ : ∃ k, W = k + 1 := ⟨W - 1, by omega⟩
  rw [show k + 1 - 1 = k by omega]
  ring

/-- C115: without overflow checks no function that starts with the magnitude of `z` returns if the squares of its parts
add up to the first number above the range, or to that number modulo the range. -/
theorem C115_magnitude [MixedAtan (Fixed .wrapping true W F)] [MixedSinCos (Fixed .wrapping true W F)]
    [FromUsize (Fixed .wrapping true W F)] (hF : 2 ≤ F) (hW : F < W) (z : Cartesian (Fixed .wrapping true W F))
    (hz : rawNormSq z ≡ 2 ^ (W - 1) [ZMOD 2 ^ W]) (p : ℕ) :
    Diverges (Cartesian.mag z) ∧ Diverges (Cartesian.abs z) ∧ Diverges (Cartesian.mixedAbs z) ∧ Diverges (ops.abs z) ∧
      Diverges (Cartesian.toPolar z) ∧ Diverges (ops.powi z p) := by
  obtain ⟨a, b, v, ea, eb, ev, hv⟩ := normSq_wrapping (by omega) z
  have d := (C115_release hF hW v (min_of_modEq (by omega) (hv.trans hz)) 2).2
  have d1 : Diverges (ops.abs z) := by
    unfold ops.abs
    rw [ea, pure_bind, eb, pure_bind, ev, pure_bind]
    exact d
  have d2 : Diverges (Cartesian.mag z) := d1
  refine ⟨d2, d2, d2.bind, d1, d1.bind, ?_⟩
  unfold ops.powi
  rw [ea, pure_bind, eb, pure_bind, ev, pure_bind]
  exact d.bind

example [MixedAtan (Fixed .wrapping true 8 4)] [MixedSinCos (Fixed .wrapping true 8 4)] [FromUsize (Fixed .wrapping true 8 4)] :=
  C115_magnitude (by decide) (by decide) ⟨fx .wrapping true 8 4 32, fx .wrapping true 8 4 32⟩ (by decide) 3

/-- C115: every signed type has such numbers, with parts far inside the range: `|z|²` is exactly the first number above
the range, and neither part exceeds its square root. -/
theorem C115_every_type (hF : 2 ≤ F) (hW : F + 3 ≤ W) :
    ∃ z : Cartesian (Fixed .wrapping true W F), 0 < z.re.val ∧ 0 ≤ z.im.val ∧
      z.re.val ^ 2 + z.im.val ^ 2 = 2 ^ (W - 1) * 2 ^ F ∧ Diverges (Cartesian.mag z) := by
  obtain ⟨k, hk⟩ : ∃ k, W = F + 2 * k + 1 ∨ W = F + 2 * k + 2 := ⟨(W - 1 - F) / 2, by omega⟩
  have hlt : (2:ℤ) ^ (F + k) < 2 ^ (W - 1) := pow_lt_pow_right₀ (by norm_num) (by omega)
  have hpos : (0:ℤ) < 2 ^ (F + k) := by positivity
  have ff : Fits true W (2 ^ (F + k)) := by rw [fits_signed]; constructor <;> omega
  have sq : (2:ℤ) ^ (F + k) * 2 ^ (F + k) / 2 ^ F = 2 ^ (F + 2 * k) := by
    rw [show (2:ℤ) ^ (F + k) * 2 ^ (F + k) = 2 ^ (F + 2 * k) * 2 ^ F by ring, Int.mul_ediv_cancel _ (by positivity)]
  have d (z : Cartesian (Fixed .wrapping true W F)) (h : rawNormSq z ≡ 2 ^ (W - 1) [ZMOD 2 ^ W]) : Diverges (Cartesian.mag z) := by
    obtain ⟨a, b, v, ea, eb, ev, hv⟩ := normSq_wrapping (by omega) z
    unfold Cartesian.mag
    rw [ea, pure_bind, eb, pure_bind, ev, pure_bind]
    exact (C115_release hF (by omega) v (min_of_modEq (by omega) (hv.trans h)) 2).2
  rcases hk with hk | hk
  · refine ⟨⟨mkv (2 ^ (F + k)) ff, mkv 0 (fits_zero ..)⟩, hpos, le_rfl, ?_, d _ ?_⟩
    · show ((2:ℤ) ^ (F + k)) ^ 2 + 0 ^ 2 = _
      rw [hk, show F + 2 * k + 1 - 1 = F + 2 * k by omega]
      ring
    · show (2:ℤ) ^ (F + k) * 2 ^ (F + k) / 2 ^ F + 0 * 0 / 2 ^ F ≡ _ [ZMOD _]
      rw [sq, zero_mul, Int.zero_ediv, add_zero, show W - 1 = F + 2 * k by omega]
  · refine ⟨⟨mkv (2 ^ (F + k)) ff, mkv (2 ^ (F + k)) ff⟩, hpos, hpos.le, ?_, d _ ?_⟩
    · show ((2:ℤ) ^ (F + k)) ^ 2 + (2 ^ (F + k)) ^ 2 = _
      rw [hk, show F + 2 * k + 2 - 1 = F + 2 * k + 1 by omega]
      ring
    · show (2:ℤ) ^ (F + k) * 2 ^ (F + k) / 2 ^ F + 2 ^ (F + k) * 2 ^ (F + k) / 2 ^ F ≡ _ [ZMOD _]
      rw [sq, show W - 1 = F + 2 * k + 1 by omega]
      exact (by ring : (2:ℤ) ^ (F + 2 * k) + 2 ^ (F + 2 * k) = 2 ^ (F + 2 * k + 1)) ▸ Int.ModEq.refl _

theorem returns_unless_min (hF : 2 ≤ F) (hW : 8 ≤ W) (hW' : W ≤ 128) (hK : F + 4 ≤ W) (x : Fixed .wrapping true W F)
    (hx : x.val ≠ -2 ^ (W - 1)) : ∃ y, Returns (MixedSqrt.sqrt x) y := by
  by_cases h0 : x.val = 0
  · obtain ⟨y, hy, -⟩ := C49_zero x h0
    exact ⟨y, hy⟩
  · have f := fits_signed.mp x.fits
    obtain ⟨y, hy, -⟩ := sqrt_signed (Counter.upto_width .wrapping hW') hF hW hK h0
      (by rw [fits_signed]; rcases abs_cases x.val with h | h <;> constructor <;> omega)
    exact ⟨y, hy⟩

/-- C115: on the types with a working square root these are all the calls that do not return without overflow checks. -/
theorem C115_exactly (hF : 2 ≤ F) (hW : 8 ≤ W) (hW' : W ≤ 128) (hK : F + 4 ≤ W) :
    (∀ x : Fixed .wrapping true W F, (Diverges (MixedSqrt.sqrt x) ↔ x.val = -2 ^ (W - 1)) ∧
      (x.val ≠ -2 ^ (W - 1) → ∃ y, Returns (MixedSqrt.sqrt x) y)) ∧
    ∀ z : Cartesian (Fixed .wrapping true W F), (Diverges (Cartesian.mag z) ↔ rawNormSq z ≡ 2 ^ (W - 1) [ZMOD 2 ^ W]) ∧
      (¬ rawNormSq z ≡ 2 ^ (W - 1) [ZMOD 2 ^ W] → ∃ y, Returns (Cartesian.mag z) y) := by
  have one (x : Fixed .wrapping true W F) := returns_unless_min hF hW hW' hK x
  refine ⟨fun x => ⟨⟨fun hd => ?_, fun h => (C115_release hF (by omega) x h 2).2⟩, one x⟩, fun z => ?_⟩
  · by_contra hx
    obtain ⟨y, hy⟩ := one x hx
    exact hy.not_diverges hd
  · obtain ⟨a, b, v, ea, eb, ev, hv⟩ := normSq_wrapping (by omega) z
    have e : Cartesian.mag z = MixedSqrt.sqrt v := by
      unfold Cartesian.mag
      rw [ea, pure_bind, eb, pure_bind, ev, pure_bind]
    rw [e]
    have back (h : v.val = -2 ^ (W - 1)) : rawNormSq z ≡ 2 ^ (W - 1) [ZMOD 2 ^ W] := by
      refine hv.symm.trans ?_
      rw [h]
      refine Int.modEq_iff_dvd.mpr ⟨1, ?_⟩
      obtain ⟨k, rfl⟩ : ∃ k, W = k + 1 := ⟨W - 1, by omega⟩
      rw [show k + 1 - 1 = k by omega]
      ring
    refine ⟨⟨fun hd => ?_, fun h => (C115_release hF (by omega) v (min_of_modEq (by omega) (hv.trans h)) 2).2⟩,
      fun h => one v fun hv' => h (back hv')⟩
    by_contra h
    obtain ⟨y, hy⟩ := one v fun hv' => h (back hv')
    exact hy.not_diverges hd

-- the hypotheses on a 16.16 bit type: the number -32768, and the magnitude of 128 + 128i
example : Diverges (MixedSqrt.sqrt (fx .wrapping true 32 16 (-2147483648))) :=
  (C115_release (by norm_num) (by norm_num) _ (by decide) 2).2
example : Panics (MixedSqrt.sqrt (fx .checked true 32 16 (-2147483648))) .overflow := (C115_debug (.i32 .checked) _ (by decide) 2).2
example : rawNormSq ⟨fx .wrapping true 32 16 (128 * 65536), fx .wrapping true 32 16 (128 * 65536)⟩ ≡ 2 ^ 31 [ZMOD 2 ^ 32] := by
  decide

end MixedNum
