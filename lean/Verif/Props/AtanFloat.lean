import Verif.Lemmas.AtanFloat
import Verif.Lemmas.RndNearest
import Verif.Props.AddSub
import Verif.Lemmas.Run
import Verif.Lemmas.Case
/-! C79, C80: the polynomial arctangent on floats: accuracy, and the floats on which it is NaN. -/

namespace MixedNum
variable {f : Format}
open Flt

/-! ## C79 -/

/-- C79: two finite floats of which the larger in magnitude has a square that neither overflows nor underflows. -/
theorem C79_accuracy (hf : f.Wide) (h60 : f.p ≤ 60) (y x : Flt f) (hy : y.Valid) (hx : x.Valid) (s t : Bool) (m n : ℚ)
    (ey : y = .fin s m) (ex : x = .fin t n)
    (hlo : (2:ℝ) ^ (f.emin + f.p) ≤ max (|(x.val : ℝ)|) (|(y.val : ℝ)|) ^ 2)
    (hhi : 4 * max (|(x.val : ℝ)|) (|(y.val : ℝ)|) ^ 2 ≤ 2 ^ f.emax) :
    ∃ z : Flt f, Returns (atan2Poly y x) z ∧ z.Valid ∧ (∃ b q, z = .fin b q) ∧
      |(z.val : ℝ) - Complex.arg ⟨x.val, y.val⟩| ≤ (Real.pi / 4 - 32 / 41) + 12 / 2 ^ f.p := by
  subst ey ex
  have e1 : eta f = 1 / 2 ^ f.p := by unfold eta; rw [zpow_neg, zpow_natCast, one_div]
  obtain ⟨z, v, h1, ⟨q, h2, h3⟩, h4⟩ := atan2_flt hf h60 (is_of_valid hx) (is_of_valid hy) ⟨by
    rw [e1, one_div, inv_mul_eq_div, le_div_iff₀ (by positivity), ← zpow_natCast (2:ℝ) f.p, ← zpow_add₀ (by norm_num)]
    exact hlo, hhi⟩
  refine ⟨z, .of_eq h1, h2.valid, h2.fin, ?_⟩
  rw [h2.val, show (12:ℝ) / 2 ^ f.p = 12 * eta f by rw [e1]; ring]
  have h5 := h4.error.le.trans (abs_ratanErr (by
    rw [abs_of_nonneg (ratio_nonneg _ _)]; exact ratio_le_one _ _))
  have := abs_sub_le (q:ℝ) v (Complex.arg ⟨(Flt.fin t n : Flt f).val, (Flt.fin s m : Flt f).val⟩)
  linarith

example := C79_accuracy wide_F32 (by decide) (.fin false 3) (.fin true 4) (by is_float 3 0) (by is_float 4 0) _ _ _ _ rfl rfl
  (by norm_num [Flt.val, F32]) (by norm_num [Flt.val, F32])

/-- C79, single precision. -/
theorem C79_f32 (y x : Flt F32) (hy : y.Valid) (hx : x.Valid) (s t : Bool) (m n : ℚ) (ey : y = .fin s m) (ex : x = .fin t n)
    (hlo : 1 / 10 ^ 18 ≤ |x.val| ∨ 1 / 10 ^ 18 ≤ |y.val|) (h1 : |x.val| ≤ 9 * 10 ^ 18) (h2 : |y.val| ≤ 9 * 10 ^ 18) :
    ∃ z : Flt F32, Returns (atan2Poly y x) z ∧ z.Valid ∧ (∃ b q, z = .fin b q) ∧
      |(z.val : ℝ) - Complex.arg ⟨x.val, y.val⟩| ≤ 0.00492 := by
  have hl : (1:ℝ) / 10 ^ 18 ≤ max (|(x.val : ℝ)|) (|(y.val : ℝ)|) := by
    rcases hlo with h | h
    · refine le_max_of_le_left ?_; have := (Rat.cast_le (K := ℝ)).mpr h; push_cast at this; exact this
    · refine le_max_of_le_right ?_; have := (Rat.cast_le (K := ℝ)).mpr h; push_cast at this; exact this
  have hu : max (|(x.val : ℝ)|) (|(y.val : ℝ)|) ≤ 9 * 10 ^ 18 :=
    max_le (by exact_mod_cast (Rat.cast_le (K := ℝ)).mpr h1) (by exact_mod_cast (Rat.cast_le (K := ℝ)).mpr h2)
  obtain ⟨z, z1, z2, zf, z3⟩ := C79_accuracy wide_F32 (by decide) y x hy hx s t m n ey ex
    ((by norm_num : _ ≤ ((1:ℝ) / 10 ^ 18) ^ 2).trans (pow_le_pow_left₀ (by norm_num) hl 2))
    ((mul_le_mul_of_nonneg_left (pow_le_pow_left₀ (le_max_of_le_left (abs_nonneg _)) hu 2) (by norm_num)).trans (by norm_num))
  refine ⟨z, z1, z2, zf, z3.trans ?_⟩
  have := Real.pi_lt_d6
  norm_num at this ⊢; linarith

example := C79_f32 (.fin false 3) (.fin true 4) (by is_float 3 0) (by is_float 4 0) _ _ _ _ rfl rfl
  (by norm_num [Flt.val]) (by norm_num [Flt.val]) (by norm_num [Flt.val])

/-- C79, double precision. -/
theorem C79_f64 (y x : Flt F64) (hy : y.Valid) (hx : x.Valid) (s t : Bool) (m n : ℚ) (ey : y = .fin s m) (ex : x = .fin t n)
    (hlo : 1 / 10 ^ 153 ≤ |x.val| ∨ 1 / 10 ^ 153 ≤ |y.val|) (h1 : |x.val| ≤ 10 ^ 153) (h2 : |y.val| ≤ 10 ^ 153) :
    ∃ z : Flt F64, Returns (atan2Poly y x) z ∧ z.Valid ∧ (∃ b q, z = .fin b q) ∧
      |(z.val : ℝ) - Complex.arg ⟨x.val, y.val⟩| ≤ 0.00492 := by
  have hl : (1:ℝ) / 10 ^ 153 ≤ max (|(x.val : ℝ)|) (|(y.val : ℝ)|) := by
    rcases hlo with h | h
    · refine le_max_of_le_left ?_; have := (Rat.cast_le (K := ℝ)).mpr h; push_cast at this; exact this
    · refine le_max_of_le_right ?_; have := (Rat.cast_le (K := ℝ)).mpr h; push_cast at this; exact this
  have hu : max (|(x.val : ℝ)|) (|(y.val : ℝ)|) ≤ 10 ^ 153 :=
    max_le (by exact_mod_cast (Rat.cast_le (K := ℝ)).mpr h1) (by exact_mod_cast (Rat.cast_le (K := ℝ)).mpr h2)
  have key : (10:ℝ) ^ 153 ≤ 2 ^ 510 := by
    rw [show 153 = 3 * 51 from rfl, show 510 = 10 * 51 from rfl, pow_mul, pow_mul]
    exact pow_le_pow_left₀ (by norm_num) (by norm_num) 51
  obtain ⟨z, z1, z2, zf, z3⟩ := C79_accuracy wide_F64 (by decide) y x hy hx s t m n ey ex
    (by
      refine le_trans ?_ (pow_le_pow_left₀ (by positivity) hl 2)
      rw [div_pow, one_pow, le_div_iff₀ (by positivity)]
      calc (2:ℝ) ^ (F64.emin + F64.p) * (10 ^ 153) ^ 2 ≤ 2 ^ (F64.emin + F64.p) * (2 ^ 510) ^ 2 := by gcongr
        _ = 2 ^ (-1 : ℤ) := by
          rw [← pow_mul, ← zpow_natCast (2:ℝ) (510 * 2), ← zpow_add₀ (by norm_num)]; rfl
        _ ≤ 1 := by norm_num)
    (by
      refine (mul_le_mul_of_nonneg_left (pow_le_pow_left₀ (le_max_of_le_left (abs_nonneg _)) hu 2) (by norm_num)).trans ?_
      calc (4:ℝ) * (10 ^ 153) ^ 2 ≤ 2 ^ 2 * (2 ^ 510) ^ 2 := by gcongr; norm_num
        _ = 2 ^ 1022 := by rw [← pow_mul, ← pow_add]
        _ ≤ 2 ^ 1024 := pow_le_pow_right₀ (by norm_num) (by norm_num))
  refine ⟨z, z1, z2, zf, z3.trans ?_⟩
  have := Real.pi_lt_d6
  norm_num at this ⊢; linarith

example := C79_f64 (.fin false 3) (.fin true 4) (by is_float 3 0) (by is_float 4 0) _ _ _ _ rfl rfl
  (by norm_num [Flt.val]) (by norm_num [Flt.val]) (by norm_num [Flt.val])

/-- C79: the one-argument form. -/
theorem C79_atan (hf : f.Wide) (h60 : f.p ≤ 60) (x : Flt f) (hx : x.Valid) (s : Bool) (m : ℚ) (ex : x = .fin s m)
    (hhi : 4 * (x.val : ℝ) ^ 2 ≤ 2 ^ f.emax) :
    ∃ z : Flt f, Returns (atanPoly x) z ∧ z.Valid ∧
      |(z.val : ℝ) - Real.arctan x.val| ≤ (Real.pi / 4 - 32 / 41) + 12 / 2 ^ f.p := by
  have hone : Is (ofExact false 1 : Flt f) 1 := by
    have := lit_int (f := f) hf (n := 1) (by norm_num); simpa using this
  obtain ⟨t, n, e⟩ := hone.fin
  have hp := hf.p; have hmin := hf.emin; have hmax := hf.emax
  have hv : (ofExact false 1 : Flt f).val = 1 := hone.val
  have hm1 : (1:ℝ) ≤ max (|((ofExact false 1 : Flt f).val : ℝ)|) (|(x.val : ℝ)|) := by rw [hv]; simp
  obtain ⟨z, z1, z2, -, z3⟩ := C79_accuracy hf h60 x (ofExact false 1) hx hone.valid s t m n ex e
    (by
      refine le_trans ?_ (one_le_pow₀ hm1)
      exact zpow_le_one_of_nonpos₀ (by norm_num) (by omega))
    (by
      rw [hv]
      rcases le_total (|((1:ℚ):ℝ)|) (|(x.val : ℝ)|) with h | h
      · rw [max_eq_right h, sq_abs]; exact hhi
      · rw [max_eq_left h]
        have : (2:ℝ) ^ 2 ≤ 2 ^ f.emax := pow_le_pow_right₀ (by norm_num) (by omega)
        norm_num at this ⊢; exact this)
  refine ⟨z, ?_, z2, ?_⟩
  · show Returns (atan2Poly x (ofExact false 1)) z
    exact z1
  · rw [hv] at z3
    have : Complex.arg ⟨((1:ℚ):ℝ), x.val⟩ = Real.arctan x.val := by
      rw [Rat.cast_one]
      rcases lt_trichotomy (x.val : ℝ) 0 with hx | hx | hx
      · rw [arg_lower hx, arctan_flip_neg (div_neg_of_pos_of_neg one_pos hx)]; simp
      · rw [hx]
        have e : (⟨1, 0⟩ : ℂ) = ((1:ℝ) : ℂ) := by apply Complex.ext <;> simp
        rw [e, Complex.arg_ofReal_of_nonneg zero_le_one]; simp
      · rw [arg_upper hx, arctan_flip_pos (div_pos one_pos hx)]; simp
    rwa [this] at z3

example : (Flt.fin false (3/4) : Flt F32).Valid ∧ (Flt.fin true 2 : Flt F32).Valid ∧
    (1:ℚ) / 10 ^ 18 ≤ |(Flt.fin true 2 : Flt F32).val| :=
  ⟨⟨3, -2, by decide, by decide, by norm_num [pow2_eq], by norm_num⟩,
    ⟨2, 0, by decide, by decide, by norm_num [pow2_eq], by norm_num⟩, by norm_num [Flt.val]⟩

/-! ## C80 -/

theorem ofExact_over (hf : f.Wide) (z : Bool) {q : ℚ} (h : 2 ^ f.emax ≤ q) : (ofExact z q : Flt f) = .inf false := by
  have hp := hf.p; have hmin := hf.emin; have hmax := hf.emax
  have h0 : (0:ℚ) < 2 ^ f.emax := by positivity
  rcases ofExact_cases hf.one_le z q with h1 | ⟨-, h1⟩
  · have h2 := h1.lt_max
    have h3 : (2:ℚ) ^ f.emax ≤ rnd f.p f.emin q := by
      rw [← zpow_natCast]
      exact rep_le_rnd hf.one_le (by rw [zpow_natCast]; exact h) (Rep.zpow hf.one_le (by omega))
    have := le_abs_self (rnd f.p f.emin q)
    linarith
  · rw [h1, decide_eq_false (by linarith)]

theorem ofExact_under (hf : f.Wide) (z : Bool) {q : ℚ} (h0 : 0 ≤ q) (h : 2 * q < 2 ^ f.emin) :
    ∃ t, (ofExact z q : Flt f) = .fin t 0 := by
  have hp := hf.p; have hmin := hf.emin; have hmax := hf.emax
  have hr : rnd f.p f.emin q = 0 := by
    have h1 := rnd_nearest (p := f.p) (emin := f.emin) q Rep.zero
    rw [zero_sub, abs_neg, abs_of_nonneg h0] at h1
    have h2 := (abs_le.mp h1).2
    have h3 : 0 ≤ rnd f.p f.emin q := rep_le_rnd hf.one_le h0 Rep.zero
    obtain ⟨k, hk⟩ := (rep_rnd (p := f.p) (emin := f.emin) hf.one_le q).units_emin
    have hpos := two_zpow_pos f.emin
    have h4 : (k:ℚ) * 2 ^ f.emin < 1 * 2 ^ f.emin := by rw [← hk]; linarith
    have h5 : (0:ℚ) * 2 ^ f.emin ≤ k * 2 ^ f.emin := by rw [← hk, zero_mul]; exact h3
    have h6 : k < 1 := by exact_mod_cast lt_of_mul_lt_mul_right h4 hpos.le
    have h7 : 0 ≤ k := by exact_mod_cast le_of_mul_le_mul_right h5 hpos
    have : k = 0 := by omega
    rw [hk, this]; simp
  rcases ofExact_cases hf.one_le z q with h1 | ⟨h1, -⟩
  · rw [hr] at h1
    obtain ⟨t, m, e, hm, hv, -⟩ := h1
    refine ⟨t, ?_⟩
    rw [e] at hv ⊢
    have : m = 0 := by
      cases t
      · exact hv
      · have : -m = 0 := hv
        linarith
    rw [this]
  · rw [hr] at h1
    have h0 : (0:ℚ) < 2 ^ f.emax := by positivity
    simp at h1; linarith

/-- C80 is false: on the diagonal, the angle is NaN when the square of the coordinate overflows, and when it
underflows to zero. -/
theorem C80_diagonal (hf : f.Wide) (m : ℚ) (hm : 0 < m) (hv : (Flt.fin false m : Flt f).Valid)
    (h : 2 ^ f.emax ≤ m * m ∨ 2 * (m * m) < 2 ^ f.emin) :
    Returns (atan2Poly (Flt.fin false m : Flt f) (.fin false m)) .nan := by
  refine .of_eq ?_
  have hi : Is (Flt.fin false m : Flt f) m := is_of_valid hv
  have hb : (Flt.fin false m : Flt f).beq (.fin false 0) = false := by
    rw [hi.beq is_zero]; exact decide_eq_false hm.ne'
  have hp : MixedReal.isPositive (Flt.fin false m : Flt f) = true := rfl
  have hs : ((Flt.fin false m : Flt f).abs.sub (Flt.fin false m : Flt f).abs).lt (ofExact false 0) = false := by
    have e : (Flt.fin false m : Flt f).abs.sub (Flt.fin false m : Flt f).abs = ofExact false (m + -m) := rfl
    have e0 : (ofExact false 0 : Flt f) = .fin false 0 := by unfold ofExact; rw [if_pos rfl]
    rw [e, add_neg_cancel, e0, is_zero.lt is_zero]; exact decide_eq_false (lt_irrefl _)
  have hpoly : atanPoly2 (Flt.fin false m : Flt f) (.fin false m) = pure .nan := by
    show (pure ((ofExact false (m * m) : Flt f).div ((ofExact false (m * m)).add
      ((ofExact false (9 / 32 : ℚ)).mul (ofExact false (m * m))))) : Prog (Flt f)) = _
    obtain ⟨b, c, ec, -, evc, -⟩ := lit_coef hf
    rcases h with h | h
    · rw [ofExact_over hf _ h, ec]
      have hc : c ≠ 0 := by
        rintro rfl; rw [ec] at evc; cases b <;> norm_num [Flt.val] at evc
      have hb' : b = false := by
        cases b
        · rfl
        · have : ofExact false (9 / 32 : ℚ) = (Flt.fin true c : Flt f) := ec
          unfold ofExact at this
          rw [if_neg (by norm_num)] at this
          simp only [] at this
          split at this
          · have := (Flt.fin.inj this).1; norm_num at this
          · cases this
      subst hb'
      show (pure ((Flt.inf false).div ((Flt.inf false).add (if c = 0 then .nan else .inf false))) : Prog (Flt f)) = _
      rw [if_neg hc]; rfl
    · obtain ⟨t, e⟩ := ofExact_under hf false (mul_pos hm hm).le h
      rw [e, ec]
      have e0 : (Flt.fin b c : Flt f).mul (.fin t 0) = .fin (xor b t) 0 := by
        show (ofExact (xor b t) (Flt.val (.fin b c : Flt f) * Flt.val (.fin t 0 : Flt f)) : Flt f) = _
        have : Flt.val (.fin t 0 : Flt f) = 0 := by cases t <;> simp [Flt.val]
        rw [this, mul_zero]; unfold ofExact; rw [if_pos rfl]
      have e1 : (Flt.fin t 0 : Flt f).add (.fin (xor b t) 0) = .fin (t && xor b t) 0 := by
        show (ofExact (t && xor b t) (Flt.val (.fin t 0 : Flt f) + Flt.val (.fin (xor b t) 0 : Flt f)) : Flt f) = _
        have : ∀ u : Bool, Flt.val (.fin u 0 : Flt f) = 0 := by intro u; cases u <;> simp [Flt.val]
        rw [this, this, add_zero]; unfold ofExact; rw [if_pos rfl]
      rw [e0, e1]
      congr 1
  rw [atan2_unfold]
  simp only [hb, hp, hs, hpoly, pure_bind, if_true, if_false, Bool.false_eq_true]
  show (pure (((piF f).div (ofExact false ((2:ℤ):ℚ))).sub .nan) : Prog (Flt f)) = pure .nan
  congr 1
  cases (piF f).div (ofExact false ((2:ℤ):ℚ)) <;> rfl

example : Returns (atan2Poly (Flt.fin false (2 ^ 64) : Flt F32) (.fin false (2 ^ 64))) .nan :=
  C80_diagonal wide_F32 _ (by norm_num) ⟨1, 64, by decide, by decide, by norm_num [pow2_eq], by norm_num⟩ (.inl (by norm_num [F32]))

/-- C80: witnesses in single precision, `2^64` and `2^-76`: both coordinates finite, the angle 45 degrees, the result NaN. -/
theorem C80_counterexample :
    ((Flt.fin false (2 ^ 64) : Flt F32).Valid ∧
      Returns (atan2Poly (Flt.fin false (2 ^ 64) : Flt F32) (.fin false (2 ^ 64))) .nan) ∧
    ((Flt.fin false (1 / 2 ^ 76) : Flt F32).Valid ∧
      Returns (atan2Poly (Flt.fin false (1 / 2 ^ 76) : Flt F32) (.fin false (1 / 2 ^ 76))) .nan) := by
  have h1 : (Flt.fin false (2 ^ 64) : Flt F32).Valid :=
    ⟨1, 64, by decide, by decide, by norm_num [pow2_eq], by norm_num⟩
  have h2 : (Flt.fin false (1 / 2 ^ 76) : Flt F32).Valid :=
    ⟨1, -76, by decide, by decide, by norm_num [pow2_eq], by norm_num⟩
  exact ⟨⟨h1, C80_diagonal wide_F32 _ (by norm_num) h1 (.inl (by norm_num))⟩,
    ⟨h2, C80_diagonal wide_F32 _ (by norm_num) h2 (.inr (by norm_num))⟩⟩

/-- C80, the part that holds: if the square of the larger coordinate neither overflows nor underflows, the result is a
finite float. Missing for the full statement: the other floats, where it is false. -/
theorem C80_partial (hf : f.Wide) (h60 : f.p ≤ 60) (y x : Flt f) (hy : y.Valid) (hx : x.Valid) (s t : Bool) (m n : ℚ)
    (ey : y = .fin s m) (ex : x = .fin t n)
    (hlo : (2:ℝ) ^ (f.emin + f.p) ≤ max (|(x.val : ℝ)|) (|(y.val : ℝ)|) ^ 2)
    (hhi : 4 * max (|(x.val : ℝ)|) (|(y.val : ℝ)|) ^ 2 ≤ 2 ^ f.emax) :
    ∃ z : Flt f, Returns (atan2Poly y x) z ∧ z.Valid ∧ ∃ b q, z = .fin b q := by
  obtain ⟨z, h1, h2, h3, -⟩ := C79_accuracy hf h60 y x hy hx s t m n ey ex hlo hhi
  exact ⟨z, h1, h2, h3⟩

example : ∃ z : Flt F32, Returns (atan2Poly (Flt.fin false 3 : Flt F32) (.fin true 4)) z ∧ z.Valid ∧ ∃ b q, z = .fin b q :=
  C80_partial wide_F32 (by norm_num [F32]) _ _ ⟨3, 0, by decide, by decide, by norm_num [pow2_eq], by norm_num⟩ ⟨4, 0, by decide, by decide, by norm_num [pow2_eq], by norm_num⟩ _ _ _ _ rfl rfl (by norm_num [Flt.val, F32]) (by norm_num [Flt.val, F32])

end MixedNum
