import Verif.Lemmas.PowFloat
import Verif.Lemmas.Prog
import Verif.Props.AddSub
import Verif.Lemmas.Run
import Verif.Lemmas.Case
/-! C81: integer powers on floats. -/

namespace MixedNum
variable {f : Format}
open Flt

/-- C81, positive exponents: the relative error is that of `n - 1` roundings. -/
theorem C81_accuracy (hf : f.Wide) (x : Flt f) (hx : x.Valid) (s : Bool) (m : ℚ) (ex : x = .fin s m) (n : ℕ) (h0 : 1 ≤ n)
    (hi : n < 2 ^ 31) (hn : n ≤ 2 ^ (f.p - 2)) (hlo : (2:ℚ) ^ (f.emin + f.p) ≤ |x.val| ^ n) (hhi : 2 * |x.val| ^ n ≤ 2 ^ f.emax) :
    ∃ z : Flt f, Returns (MixedPowi.powi x (n : ℤ)) z ∧ z.Valid ∧ (∃ b q, z = .fin b q) ∧
      |z.val - x.val ^ n| ≤ ((1 + 1 / 2 ^ f.p) ^ (n - 1) - 1) * |x.val| ^ n := by
  subst ex
  have hu : uq f = 1 / 2 ^ f.p := by unfold uq; rw [zpow_neg, zpow_natCast, one_div]
  obtain ⟨q, h1, h2⟩ := pow_rel hf (w := 1) h0 (by omega) (powRange hf hlo hhi) (by omega) (le_refl _) (is_of_valid hx).rel
  refine ⟨_, .of_eq ?_, h1.valid, h1.fin, ?_⟩
  · show (pure (if (n:ℤ) < 0 then _ else _) : Prog (Flt f)) = _
    rw [if_neg (by omega), Int.natAbs_natCast]
  · rw [h1.val, ← abs_pow, ← hu]; rwa [Nat.one_mul] at h2

example := C81_accuracy wide_F32 (.fin true (3 / 2)) (by is_float 3 (-1)) _ _ rfl 7 (by decide) (by decide) (by decide) (by norm_num [Flt.val, F32])
  (by norm_num [Flt.val, F32])

/-- C81, negative exponents: the reciprocal is rounded once, and its error is raised to the power too. -/
theorem C81_negative (hf : f.Wide) (x : Flt f) (hx : x.Valid) (s : Bool) (m : ℚ) (ex : x = .fin s m) (n : ℕ) (h0 : 1 ≤ n)
    (hi : n ≤ 2 ^ 31) (hn : 2 * n ≤ 2 ^ (f.p - 2)) (hlo : (2:ℚ) ^ (f.emin + f.p) ≤ |x.val|⁻¹ ^ n)
    (hhi : 2 * |x.val|⁻¹ ^ n ≤ 2 ^ f.emax) :
    ∃ z : Flt f, Returns (MixedPowi.powi x (-(n : ℤ))) z ∧ z.Valid ∧ (∃ b q, z = .fin b q) ∧
      |z.val - x.val⁻¹ ^ n| ≤ ((1 + 1 / 2 ^ f.p) ^ (2 * n - 1) - 1) * |x.val|⁻¹ ^ n := by
  subst ex
  have hu : uq f = 1 / 2 ^ f.p := by unfold uq; rw [zpow_neg, zpow_natCast, one_div]
  set A : ℚ := (Flt.fin s m : Flt f).val with hA
  have hA0 : A ≠ 0 := by
    intro h
    rw [h, abs_zero, inv_zero, zero_pow (by omega)] at hlo
    exact absurd ((two_zpow_pos _).trans_le hlo) (lt_irrefl _)
  rw [← abs_inv] at hlo hhi
  have hr := powRange hf hlo hhi
  have h1 : Is (ofExact false 1 : Flt f) 1 := by
    have h := lit_sixteenth hf (n := 16) (by norm_num) (by norm_num)
    norm_num at h; exact h
  have hr1 := hr 1 (le_refl _) h0
  rw [pow_one] at hr1
  have h3 := rel_round hf (q := 1 / A) (A := A⁻¹) (k := 0) (by rw [one_div]; simp) (by norm_num) hr1.1 hr1.2
  have hx1 : Rel ((ofExact false 1 : Flt f).div (.fin s m)) A⁻¹ (2 - 1) :=
    ⟨_, h1.div hf.one_le (is_of_valid hx) hA0 h3.1, h3.2⟩
  obtain ⟨q, h4, h5⟩ := pow_rel hf (w := 2) h0 (by omega) hr hn (by norm_num) hx1
  refine ⟨_, .of_eq ?_, h4.valid, h4.fin, ?_⟩
  · show (pure (if -(n:ℤ) < 0 then _ else _) : Prog (Flt f)) = _
    rw [if_pos (by omega), Int.natAbs_neg, Int.natAbs_natCast]
  · rw [h4.val, ← abs_inv, ← abs_pow, ← hu]; exact h5

example := C81_negative wide_F32 (.fin true (3 / 2)) (by is_float 3 (-1)) _ _ rfl 7 (by decide) (by decide) (by decide) (by norm_num [Flt.val, F32])
  (by norm_num [Flt.val, F32])

/-- C81: whole numbers have exact powers as long as these are at most `2^p`. -/
theorem C81_whole (hf : f.Wide) (x : Flt f) (hx : x.Valid) (s : Bool) (m : ℚ) (ex : x = .fin s m) (k : ℤ) (hk : x.val = k) (n : ℕ)
    (h0 : 1 ≤ n) (hi : n < 2 ^ 31) (hn : |k| ^ n < 2 ^ f.p) :
    ∃ z : Flt f, Returns (MixedPowi.powi x (n : ℤ)) z ∧ z.Valid ∧ z.val = (k:ℚ) ^ n := by
  subst ex
  have hp := hf.p; have hmin := hf.emin; have hmax := hf.emax
  have hj : ∀ j, j ≤ n → |k| ^ j < 2 ^ f.p := by
    intro j hj
    rcases eq_or_ne k 0 with rfl | hk0
    · have : (1:ℤ) < 2 ^ f.p := one_lt_pow₀ (by norm_num) (by omega)
      rcases Nat.eq_zero_or_pos j with rfl | h
      · simpa using this
      · rw [abs_zero, zero_pow (by omega)]; linarith
    · exact (pow_le_pow_right₀ (Int.one_le_abs hk0) hj).trans_lt hn
  have h1 := is_of_valid hx
  rw [hk] at h1
  have h2 := pow_exact hf h0 (by omega : n < 2 ^ 64) (fun j h => by
    have h3 := hj j h
    rw [← abs_pow] at h3
    have h4 : |(k:ℚ) ^ j| < 2 ^ f.p := by exact_mod_cast h3
    exact ⟨⟨k ^ j, 0, by omega, h3, by push_cast; simp⟩,
      h4.trans_le (pow_le_pow_right₀ (by norm_num) (by omega))⟩) h1
  refine ⟨_, .of_eq ?_, h2.valid, h2.val⟩
  show (pure (if (n:ℤ) < 0 then _ else _) : Prog (Flt f)) = _
  rw [if_neg (by omega), Int.natAbs_natCast]

example := C81_whole wide_F32 (.fin true 3) (by is_float 3 0) _ _ rfl (-3) (by norm_num [Flt.val]) 7 (by decide) (by decide) (by decide)

/-- C81: the zeroth power is 1 for every float, NaN and infinities included; the first is the float itself. -/
theorem C81_zero_one (hf : f.Wide) (x : Flt f) :
    (∃ z : Flt f, Returns (MixedPowi.powi x 0) z ∧ z.val = 1) ∧ Returns (MixedPowi.powi x 1) x := by
  have h1 : Is (ofExact false 1 : Flt f) 1 := by
    have h := lit_sixteenth hf (n := 16) (by norm_num) (by norm_num)
    norm_num at h; exact h
  exact ⟨⟨_, .of_eq rfl, h1.val⟩, .of_eq rfl⟩

example : (Flt.fin true (3/2) : Flt F32).Valid ∧ (1:ℕ) ≤ 10 ∧ (10:ℕ) ≤ 2 ^ (F32.p - 2) ∧
    (2:ℚ) ^ (F32.emin + F32.p) ≤ |(Flt.fin true (3/2) : Flt F32).val| ^ 10 ∧
    2 * |(Flt.fin true (3/2) : Flt F32).val| ^ 10 ≤ 2 ^ F32.emax :=
  ⟨⟨3, -1, by decide, by decide, by norm_num [pow2_eq], by norm_num⟩, by norm_num, by norm_num [F32],
    by norm_num [Flt.val, F32], by norm_num [Flt.val, F32]⟩

example : (Flt.fin true 3 : Flt F32).Valid ∧ (Flt.fin true 3 : Flt F32).val = ((-3 : ℤ) : ℚ) ∧ |(-3 : ℤ)| ^ 15 < 2 ^ F32.p :=
  ⟨⟨3, 0, by decide, by decide, by norm_num [pow2_eq], by norm_num⟩, by norm_num [Flt.val], by norm_num [F32]⟩

end MixedNum
