import Mathlib.Analysis.Real.Pi.Bounds
import Verif.Model.Db
import Verif.Lemmas.WrapInst
import Verif.Props.Conv
import Verif.Props.AddSub
import Verif.Lemmas.Run
/-! # C53, C58, C59, C64: decibels, pi and tau, comparison -/

namespace MixedNum
variable {m : Mode} {s : Bool} {W F : ℕ}

/-! ## C53 -/

/-- C53: magnitude to decibel and back. -/
theorem C53_mag (x : ℝ) (hx : 0 < x) : Returns (do db2mag (← mag2db x)) x := by
  refine .of_eq ?_
  simp only [mag2db, db2mag, RealI.ofI32_def, pure_bind, RealI.log10_pos hx, RealI.mul_def]
  rw [RealI.div_ne _ (by norm_num), pure_bind, RealI.exp10_def]
  congr 1
  rw [show ((20 : ℤ) : ℝ) * Real.logb 10 x / ((20 : ℤ) : ℝ) = Real.logb 10 x by push_cast; ring]
  exact Real.rpow_logb (by norm_num) (by norm_num) hx

example := C53_mag 3 (by norm_num)

/-- C53: power to decibel and back. -/
theorem C53_pow (x : ℝ) (hx : 0 < x) : Returns (do db2pow (← pow2db x)) x := by
  refine .of_eq ?_
  simp only [pow2db, db2pow, RealI.ofI32_def, pure_bind, RealI.log10_pos hx, RealI.mul_def]
  rw [RealI.div_ne _ (by norm_num), pure_bind, RealI.exp10_def]
  congr 1
  rw [show ((10 : ℤ) : ℝ) * Real.logb 10 x / ((10 : ℤ) : ℝ) = Real.logb 10 x by push_cast; ring]
  exact Real.rpow_logb (by norm_num) (by norm_num) hx

example := C53_pow 3 (by norm_num)

/-- C53: decibel to magnitude and back, for every real. -/
theorem C53_mag_inv (x : ℝ) : Returns (do mag2db (← db2mag x)) x := by
  refine .of_eq ?_
  simp only [mag2db, db2mag, RealI.ofI32_def, pure_bind]
  rw [RealI.div_ne _ (by norm_num), pure_bind, RealI.exp10_def, pure_bind,
    RealI.log10_pos (Real.rpow_pos_of_pos (by norm_num) _), pure_bind, RealI.mul_def,
    Real.logb_rpow (by norm_num) (by norm_num)]
  congr 1; push_cast; ring

/-- C53: decibel to power and back, for every real. -/
theorem C53_pow_inv (x : ℝ) : Returns (do pow2db (← db2pow x)) x := by
  refine .of_eq ?_
  simp only [pow2db, db2pow, RealI.ofI32_def, pure_bind]
  rw [RealI.div_ne _ (by norm_num), pure_bind, RealI.exp10_def, pure_bind,
    RealI.log10_pos (Real.rpow_pos_of_pos (by norm_num) _), pure_bind, RealI.mul_def,
    Real.logb_rpow (by norm_num) (by norm_num)]
  congr 1; push_cast; ring

/-- C53: the decibels of a magnitude are those of the power, its square. -/
theorem C53_square (x : ℝ) (hx : 0 < x) : ∃ d, Returns (mag2db x) d ∧ Returns (pow2db (x ^ 2)) d := by
  refine ⟨20 * Real.logb 10 x, .of_eq ?_, .of_eq ?_⟩
  · simp only [mag2db, RealI.ofI32_def, pure_bind, RealI.log10_pos hx, RealI.mul_def]; norm_num
  · simp only [pow2db, RealI.ofI32_def, pure_bind, RealI.log10_pos (pow_pos hx 2), RealI.mul_def]
    congr 1
    rw [← Real.rpow_natCast, Real.logb_rpow_eq_mul_logb_of_pos hx]; push_cast; ring

example : Returns (mag2db (10 : ℝ)) 20 := by
  refine .of_eq ?_
  simp only [mag2db, RealI.ofI32_def, pure_bind, RealI.log10_pos (show (0:ℝ) < 10 by norm_num), RealI.mul_def]
  rw [Real.logb_self_eq_one (by norm_num)]; norm_num

/-! ## C58 -/

namespace Fixed
theorem fits_pi_unsigned (h : F + 2 ≤ W) : Fits false W (piRaw F) := by
  have := piRaw_bounds F
  have h1 : (2:ℤ) ^ 2 * 2 ^ F ≤ 2 ^ W := by rw [← pow_add]; exact pow_le_pow_right₀ (by norm_num) (by omega)
  have : (0:ℤ) < 2 ^ F := by positivity
  simp only [Fits, wlo, whi, Bool.false_eq_true, if_false]; omega

theorem fits_pi_any (h : F + 3 ≤ W) : Fits s W (piRaw F) := by
  cases s
  · exact fits_pi_unsigned (by omega)
  · exact fits_pi h

theorem tauLit_eq : tauLit = 2 * piLit := by decide +kernel

/-- The stored integer of `mixed_tau`. -/
def tauRaw (F : ℕ) : ℤ := roundHalfEven (tauLit * 2 ^ F)

theorem tauRaw_bounds (F : ℕ) : 6 * 2 ^ F ≤ tauRaw F ∧ tauRaw F < 8 * 2 ^ F := by
  have hF : (1:ℚ) ≤ 2 ^ F := one_le_pow₀ (by norm_num)
  constructor
  · refine le_roundHalfEven_of_le ?_
    rw [tauLit_eq, piLit_eq]; push_cast; nlinarith
  · have := roundHalfEven_le (tauLit * 2 ^ F)
    have h : (tauRaw F : ℚ) < 8 * 2 ^ F := by
      refine lt_of_le_of_lt this ?_
      rw [tauLit_eq, piLit_eq]; linarith
    exact_mod_cast h

theorem fits_tauRaw (h : F + 4 ≤ W ∨ (s = false ∧ F + 3 ≤ W)) : Fits s W (tauRaw F) := by
  have := tauRaw_bounds F
  have : (0:ℤ) < 2 ^ F := by positivity
  rcases s with _ | _
  · have h1 : (2:ℤ) ^ 3 * 2 ^ F ≤ 2 ^ W := by rw [← pow_add]; exact pow_le_pow_right₀ (by norm_num) (by omega)
    simp only [Fits, wlo, whi, Bool.false_eq_true, if_false]; omega
  · have h1 := pow_le_of_bits (k := 3) (show F + 3 + 1 ≤ W by rcases h with h | ⟨h, -⟩ <;> [omega; cases h])
    rw [fits_signed]; omega

theorem close_of_round {q : ℚ} {r e : ℝ} (hq : |(q : ℝ) - r| ≤ e) :
    |((roundHalfEven (q * 2 ^ F) : ℤ) : ℝ) / 2 ^ F - r| ≤ 1 / 2 / 2 ^ F + e := by
  have hp : (0:ℝ) < 2 ^ F := by positivity
  have h : |((roundHalfEven (q * 2 ^ F) : ℤ) : ℚ) - q * 2 ^ F| ≤ 1 / 2 := abs_roundHalfEven_sub _
  have h' : |((roundHalfEven (q * 2 ^ F) : ℤ) : ℝ) - q * 2 ^ F| ≤ 1 / 2 := by
    have := (Rat.cast_le (K := ℝ)).mpr h
    push_cast at this; exact this
  have h1 : |((roundHalfEven (q * 2 ^ F) : ℤ) : ℝ) / 2 ^ F - q| ≤ 1 / 2 / 2 ^ F := by
    rw [show ((roundHalfEven (q * 2 ^ F) : ℤ) : ℝ) / 2 ^ F - q =
      (((roundHalfEven (q * 2 ^ F) : ℤ) : ℝ) - q * 2 ^ F) / 2 ^ F by field_simp, abs_div, abs_of_pos hp]
    gcongr
  calc _ = |(((roundHalfEven (q * 2 ^ F) : ℤ) : ℝ) / 2 ^ F - q) + (q - r)| := by congr 1; ring
    _ ≤ _ := (abs_add_le _ _).trans (add_le_add h1 hq)

theorem piLit_close : |(piLit : ℝ) - Real.pi| ≤ 1 / 2 ^ 52 := by
  have h1 := Real.pi_gt_d20; have h2 := Real.pi_lt_d20
  rw [piLit_eq, abs_le]; push_cast
  constructor <;> norm_num at * <;> linarith

theorem tauLit_close : |(tauLit : ℝ) - 2 * Real.pi| ≤ 1 / 2 ^ 51 := by
  have h := piLit_close
  rw [tauLit_eq]; push_cast
  rw [show (2:ℝ) * piLit - 2 * Real.pi = 2 * (piLit - Real.pi) by ring, abs_mul, abs_two]
  norm_num at *; linarith
end Fixed

/-- C58: pi on every supported fixed-point type, for any number of fraction bits. -/
theorem C58_pi (h : F + 3 ≤ W) : ∃ a : Fixed m s W F, Returns MixedPi.pi a ∧
    |(a.val : ℝ) / 2 ^ F - Real.pi| ≤ 1 / 2 / 2 ^ F + 1 / 2 ^ 52 :=
  ⟨Fixed.mkv _ (Fixed.fits_pi_any h), .of_eq (Fixed.fit_of_fits _), Fixed.close_of_round Fixed.piLit_close⟩

/-- C58: the bound is not met by luck; the constant has the claimed bits, here for `U28` and `U60`. -/
example : Fixed.piRaw 28 = 843314857 ∧ Fixed.piRaw 60 = 3622009729038561280 := by
  unfold Fixed.piRaw; rw [Fixed.piLit_eq]; decide +kernel

/-! ## C59 -/

/-- C59 is false: on a signed type with two integer bits (besides the sign) 2 pi does not fit; it panics
in checked builds. -/
theorem C59_counterexample (h : F + 3 = W) : Panics (MixedPi.tau : Prog (Fixed .checked true W F)) .overflow := by
  refine .of_eq (Fixed.fit_checked ?_)
  have := Fixed.tauRaw_bounds F
  rw [Fixed.fits_signed]; rintro ⟨_, h2⟩
  rw [show W - 1 = 2 + F by omega, pow_add] at h2
  have : (0:ℤ) < 2 ^ F := by positivity
  change Fixed.tauRaw F < _ at h2
  omega

/-- C59, wrapping builds: on those types the result is `2 pi - 8`. -/
theorem C59_wrapping (h : F + 3 = W) : ∃ a : Fixed .wrapping true W F, Returns MixedPi.tau a ∧
    |(a.val : ℝ) / 2 ^ F - (2 * Real.pi - 8)| ≤ 1 / 2 / 2 ^ F + 1 / 2 ^ 51 := by
  have hp : (0:ℝ) < 2 ^ F := by positivity
  have hv : wrapInt true W (Fixed.tauRaw F) = Fixed.tauRaw F - 8 * 2 ^ F := by
    have hb := Fixed.tauRaw_bounds F
    have : (0:ℤ) < 2 ^ F := by positivity
    have hW : (2:ℤ) ^ W = 8 * 2 ^ F := by rw [← h, pow_add]; ring
    have hf : Fits true W (Fixed.tauRaw F - 8 * 2 ^ F) := by
      rw [Fixed.fits_signed, show W - 1 = 2 + F by omega, pow_add]; omega
    rw [← wrapInt_of_fits hf]
    refine wrapInt_congr (by omega) (Int.ModEq.symm ?_)
    rw [hW]
    exact (Int.modEq_iff_dvd.mpr ⟨1, by ring⟩)
  refine ⟨_, .of_eq (Fixed.fit_wrapping _), ?_⟩
  show |((wrapInt true W (Fixed.tauRaw F) : ℤ) : ℝ) / 2 ^ F - _| ≤ _
  rw [hv]
  have h := Fixed.close_of_round (F := F) Fixed.tauLit_close
  rw [show ((Fixed.tauRaw F - 8 * 2 ^ F : ℤ) : ℝ) / 2 ^ F - (2 * Real.pi - 8) =
    ((Fixed.tauRaw F : ℤ) : ℝ) / 2 ^ F - 2 * Real.pi by push_cast; field_simp; ring]
  exact h

example := C59_wrapping (W := 16) (F := 13) rfl

/-- C59, the part that holds: signed types with three or more integer bits and every supported unsigned type.
Missing for the full statement: signed types with `F = W - 3`, where it is false. -/
theorem C59_tau_partial (h : F + 4 ≤ W ∨ (s = false ∧ F + 3 ≤ W)) : ∃ a : Fixed m s W F, Returns MixedPi.tau a ∧
    |(a.val : ℝ) / 2 ^ F - 2 * Real.pi| ≤ 1 / 2 / 2 ^ F + 1 / 2 ^ 51 :=
  ⟨Fixed.mkv _ (Fixed.fits_tauRaw h), .of_eq (Fixed.fit_of_fits _), Fixed.close_of_round Fixed.tauLit_close⟩

example : (28 + 4 ≤ 32) ∧ (29 + 3 = 32) := by decide

/-! ## C64 -/

section order
variable {α L : Type} [MixedCmp α] [LinearOrder L]

/-- The comparison operators of `α` are those of `L` through `v`. -/
structure CmpBy (v : α → L) : Prop where
  inj : Function.Injective v
  lt : ∀ a b, MixedCmp.lt a b = true ↔ v a < v b
  beq : ∀ a b, MixedCmp.beq a b = true ↔ v a = v b

variable {v : α → L}

theorem CmpBy.partialCmp (h : CmpBy v) (a b : α) : partialCmp a b = some (cmp (v a) (v b)) := by
  unfold MixedNum.partialCmp
  rcases lt_trichotomy (v a) (v b) with h1 | h1 | h1
  · rw [if_neg (by rw [h.beq]; exact h1.ne), if_pos ((h.lt _ _).mpr h1), (cmp_eq_lt_iff _ _).mpr h1]
  · rw [if_pos ((h.beq _ _).mpr h1), (cmp_eq_eq_iff _ _).mpr h1]
  · rw [if_neg (by rw [h.beq]; exact h1.ne'), if_neg (by rw [h.lt]; exact h1.not_gt), if_pos ((h.lt _ _).mpr h1),
      (cmp_eq_gt_iff _ _).mpr h1]

theorem CmpBy.cartesian (h : CmpBy v) : CmpBy (fun z : Cartesian α => toLex (v z.re, v z.im)) where
  inj := by
    rintro ⟨a, b⟩ ⟨c, d⟩ e
    have e := Prod.mk.inj (toLex_inj.mp e)
    exact congrArg₂ _ (h.inj e.1) (h.inj e.2)
  beq a b := by
    show (MixedCmp.beq a.re b.re && MixedCmp.beq a.im b.im) = true ↔ _
    rw [Bool.and_eq_true, h.beq, h.beq, toLex_inj, Prod.mk.injEq]
  lt a b := by
    show (a.partialCmp b == some .lt) = true ↔ _
    rw [Prod.Lex.toLex_lt_toLex]
    unfold Cartesian.partialCmp
    rw [h.partialCmp, h.partialCmp]
    rcases lt_trichotomy (v a.re) (v b.re) with h1 | h1 | h1
    · rw [(cmp_eq_lt_iff _ _).mpr h1]; simp [h1]
    · rw [(cmp_eq_eq_iff _ _).mpr h1]; simp [h1, cmp_eq_lt_iff]
    · rw [(cmp_eq_gt_iff _ _).mpr h1]; simp [h1.not_gt, h1.ne']

theorem CmpBy.polar (h : CmpBy v) : CmpBy (fun z : Polar α => toLex (v z.mag, v z.ang)) where
  inj := by
    rintro ⟨a, b⟩ ⟨c, d⟩ e
    have e := Prod.mk.inj (toLex_inj.mp e)
    exact congrArg₂ _ (h.inj e.1) (h.inj e.2)
  beq a b := by
    show (MixedCmp.beq a.mag b.mag && MixedCmp.beq a.ang b.ang) = true ↔ _
    rw [Bool.and_eq_true, h.beq, h.beq, toLex_inj, Prod.mk.injEq]
  lt a b := by
    show (a.partialCmp b == some .lt) = true ↔ _
    rw [Prod.Lex.toLex_lt_toLex]
    unfold Polar.partialCmp
    rw [h.partialCmp, h.partialCmp]
    rcases lt_trichotomy (v a.mag) (v b.mag) with h1 | h1 | h1
    · rw [(cmp_eq_lt_iff _ _).mpr h1]; simp [h1]
    · rw [(cmp_eq_eq_iff _ _).mpr h1]; simp [h1, cmp_eq_lt_iff]
    · rw [(cmp_eq_gt_iff _ _).mpr h1]; simp [h1.not_gt, h1.ne']
end order

theorem PInt.cmpBy : CmpBy (fun a : PInt m s W => a.val) :=
  ⟨fun _ _ => PInt.ext, fun _ _ => decide_eq_true_iff, fun _ _ => decide_eq_true_iff⟩
theorem Fixed.cmpBy : CmpBy (fun a : Fixed m s W F => a.val) :=
  ⟨fun _ _ => Fixed.ext, fun _ _ => decide_eq_true_iff, fun _ _ => decide_eq_true_iff⟩
theorem RealI.cmpBy : CmpBy (fun a : ℝ => a) :=
  ⟨fun _ _ h => h, fun _ _ => by simp, fun _ _ => by simp⟩

/-- C64, any component type compared like a linear order: equality is part-wise, `<` is lexicographic, and the
order is total. -/
theorem C64_order {α L : Type} [MixedCmp α] [LinearOrder L] {v : α → L} (h : CmpBy v) (a b c : Cartesian α)
    (p q r : Polar α) :
    (MixedCmp.beq a b = true ↔ a = b) ∧
    (MixedCmp.lt a b = true ↔ v a.re < v b.re ∨ v a.re = v b.re ∧ v a.im < v b.im) ∧
    (MixedCmp.lt a b = true ∨ a = b ∨ MixedCmp.lt b a = true) ∧
    (MixedCmp.lt a b = true → MixedCmp.lt b c = true → MixedCmp.lt a c = true) ∧
    (MixedCmp.beq p q = true ↔ p = q) ∧
    (MixedCmp.lt p q = true ↔ v p.mag < v q.mag ∨ v p.mag = v q.mag ∧ v p.ang < v q.ang) ∧
    (MixedCmp.lt p q = true ∨ p = q ∨ MixedCmp.lt q p = true) ∧
    (MixedCmp.lt p q = true → MixedCmp.lt q r = true → MixedCmp.lt p r = true) := by
  have hc := h.cartesian; have hp := h.polar
  refine ⟨(hc.beq a b).trans hc.inj.eq_iff, (hc.lt a b).trans Prod.Lex.toLex_lt_toLex, ?_, ?_,
    (hp.beq p q).trans hp.inj.eq_iff, (hp.lt p q).trans Prod.Lex.toLex_lt_toLex, ?_, ?_⟩
  · rw [hc.lt, hc.lt, ← hc.inj.eq_iff]; exact lt_trichotomy _ _
  · rw [hc.lt, hc.lt, hc.lt]; exact lt_trans
  · rw [hp.lt, hp.lt, ← hp.inj.eq_iff]; exact lt_trichotomy _ _
  · rw [hp.lt, hp.lt, hp.lt]; exact lt_trans

example := C64_order (PInt.cmpBy (m := .checked) (s := true) (W := 8)) ⟨i .checked true 8 1, i .checked true 8 4⟩ ⟨i .checked true 8 1, i .checked true 8 3⟩
  ⟨i .checked true 8 0, i .checked true 8 4⟩ ⟨i .checked true 8 1, i .checked true 8 4⟩ ⟨i .checked true 8 1, i .checked true 8 3⟩
  ⟨i .checked true 8 0, i .checked true 8 4⟩

/-- C64, integers. -/
theorem C64_int (a b : Cartesian (PInt m s W)) :
    (MixedCmp.beq a b = true ↔ a = b) ∧
    (MixedCmp.lt a b = true ↔ a.re.val < b.re.val ∨ a.re.val = b.re.val ∧ a.im.val < b.im.val) ∧
    (MixedCmp.lt a b = true ∨ a = b ∨ MixedCmp.lt b a = true) :=
  have h := C64_order PInt.cmpBy a b a ⟨a.re, a.im⟩ ⟨a.re, a.im⟩ ⟨a.re, a.im⟩
  ⟨h.1, h.2.1, h.2.2.1⟩

/-- C64, fixed point: ordered by value. -/
theorem C64_fixed (a b : Cartesian (Fixed m s W F)) :
    (MixedCmp.beq a b = true ↔ a = b) ∧
    (MixedCmp.lt a b = true ↔ a.re.toRat < b.re.toRat ∨ a.re.toRat = b.re.toRat ∧ a.im.toRat < b.im.toRat) ∧
    (MixedCmp.lt a b = true ∨ a = b ∨ MixedCmp.lt b a = true) := by
  have h := C64_order Fixed.cmpBy a b a ⟨a.re, a.im⟩ ⟨a.re, a.im⟩ ⟨a.re, a.im⟩
  have hp : (0:ℚ) < 2 ^ F := by positivity
  refine ⟨h.1, h.2.1.trans ?_, h.2.2.1⟩
  simp only [Fixed.toRat, div_lt_div_iff_of_pos_right hp, div_left_inj' hp.ne', Int.cast_lt, Int.cast_inj]

example : MixedCmp.lt (⟨i .checked true 8 1, i .checked true 8 9⟩ : Cartesian (PInt .checked true 8))
    ⟨i .checked true 8 2, i .checked true 8 (-9)⟩ = true := by decide

end MixedNum
