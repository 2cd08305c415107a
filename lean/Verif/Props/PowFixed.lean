import Verif.Props.FixedComplex
import Verif.Lemmas.AtanFixed
import Verif.Props.AddSub
import Verif.Lemmas.Run
/-! # C107: integer powers on fixed point, of any base -/

namespace MixedNum
variable {m : Mode} {s : Bool} {W F : ℕ}
open Fixed

/-- Specification: the stored integer `a` times itself `k` times, rounded down to a multiple of `2^-F` after each product. -/
def roundedPow (F : ℕ) (a : ℤ) : ℕ → ℤ
  | 0 => a
  | k + 1 => ⌊(roundedPow F a k * a : ℚ) / 2 ^ F⌋

theorem roundedPow_succ (F : ℕ) (a : ℤ) (k : ℕ) : roundedPow F a (k + 1) = roundedPow F a k * a / 2 ^ F := by
  have hp : (0:ℚ) < 2 ^ F := by positivity
  have hz : (0:ℤ) < 2 ^ F := by positivity
  rw [roundedPow, Int.floor_eq_iff, le_div_iff₀ hp, div_lt_iff₀ hp]
  have h1 := Int.ediv_mul_le (roundedPow F a k * a) hz.ne'
  have h2 := Int.lt_ediv_add_one_mul_self (roundedPow F a k * a) hz
  exact ⟨by exact_mod_cast h1, by exact_mod_cast h2⟩

theorem powiLoop_exact {x : Fixed m s W F} : ∀ (k j : ℕ) (t : Fixed m s W F), t.val = roundedPow F x.val j →
    (∀ i, i ≤ j + k → Fits s W (roundedPow F x.val i)) →
    ∃ z : Fixed m s W F, powiLoop x k t = pure z ∧ z.val = roundedPow F x.val (j + k) := by
  intro k
  induction k with
  | zero => intro j t h _; exact ⟨t, rfl, h⟩
  | succ k ih =>
    intro j t h hf
    have h1 := hf (j + 1) (by omega)
    rw [roundedPow_succ, ← h] at h1
    obtain ⟨z, hz, hv⟩ := ih (j + 1) (mkv _ h1) (by rw [mkv_val, roundedPow_succ, ← h]) (fun i hi => hf i (by omega))
    refine ⟨z, ?_, by rw [hv]; congr 1; omega⟩
    rw [powiLoop, mul_def, fit_of_fits h1, pure_bind, hz]

theorem powiLoop_overflow {x : Fixed .checked s W F} : ∀ (k j : ℕ) (t : Fixed .checked s W F), t.val = roundedPow F x.val j →
    (∃ i, i ≤ j + k ∧ j < i ∧ ¬ Fits s W (roundedPow F x.val i)) → powiLoop x k t = Prog.fail .overflow := by
  intro k
  induction k with
  | zero => rintro j t h ⟨i, h1, h2, -⟩; omega
  | succ k ih =>
    rintro j t h ⟨i, h1, h2, h3⟩
    by_cases hf : Fits s W (t.val * x.val / 2 ^ F)
    · rw [powiLoop, mul_def, fit_of_fits hf, pure_bind]
      have e : (mkv (m := .checked) (F := F) _ hf).val = roundedPow F x.val (j + 1) := by rw [mkv_val, roundedPow_succ, ← h]
      refine ih (j + 1) _ e ⟨i, by omega, ?_, h3⟩
      by_contra hc
      obtain rfl : i = j + 1 := by omega
      rw [roundedPow_succ, ← h] at h3; exact h3 hf
    · rw [powiLoop, mul_def, fit_checked hf, Prog.fail_bind]

/-- C107: if all rounded powers up to the exponent are representable, the result is the last of them, in both modes. -/
theorem C107_returns (x : Fixed m s W F) (n : ℕ) (hn : 1 ≤ n) (hn' : n < 2 ^ 31)
    (h : ∀ i, i < n → InRange s W (roundedPow F x.val i)) :
    ∃ z : Fixed m s W F, Returns (MixedPowi.powi x (n : ℤ)) z ∧ z.val = roundedPow F x.val (n - 1) := by
  obtain ⟨z, hz, hv⟩ := powiLoop_exact (n - 1) 0 x rfl (fun i hi => inRange_iff.mp (h i (by omega)))
  refine ⟨z, .of_eq ?_, by rw [hv, Nat.zero_add]⟩
  show mixedPowiVia x n = _
  rw [mixedPowiVia, usizeOfI32_nat n hn', powi, if_neg (by omega), hz]

example := C107_returns (fx .checked true 16 4 30) 2 (by decide) (by decide) (fun
  | 0, _ => by decide
  | 1, _ => by rw [roundedPow_succ]; decide)

/-- C107: with overflow checks on it panics as soon as one of them is not. -/
theorem C107_panics (x : Fixed .checked s W F) (n : ℕ) (hn' : n < 2 ^ 31)
    (h : ∃ i, i < n ∧ ¬ InRange s W (roundedPow F x.val i)) : Panics (MixedPowi.powi x (n : ℤ)) .overflow := by
  obtain ⟨i, hi, hf⟩ := h
  rw [inRange_iff] at hf
  refine .of_eq ?_
  show mixedPowiVia x n = _
  rw [mixedPowiVia, usizeOfI32_nat n hn', powi, if_neg (by omega)]
  refine powiLoop_overflow (n - 1) 0 x rfl ⟨i, by omega, ?_, hf⟩
  rcases Nat.eq_zero_or_pos i with rfl | h
  · exact absurd x.fits hf
  · exact h

theorem roundedPow_near (a : ℤ) (M : ℝ) (h1 : 1 ≤ M) (h2 : |(a : ℝ) * u F| ≤ M) (k : ℕ) :
    |(roundedPow F a k : ℝ) * u F - ((a : ℝ) * u F) ^ (k + 1)| ≤ k * M ^ k * u F := by
  have hu := u_pos F
  induction k with
  | zero => simp [roundedPow]
  | succ k ih =>
    obtain ⟨f1, f2⟩ := floor_mul_close F (roundedPow F a k) a
    rw [← roundedPow_succ] at f1 f2
    set P := (roundedPow F a k : ℝ) * u F
    set A := (a : ℝ) * u F
    have e : (roundedPow F a (k + 1) : ℝ) * u F - A ^ (k + 1 + 1) =
        ((roundedPow F a (k + 1) : ℝ) * u F - P * A) + (P - A ^ (k + 1)) * A := by ring
    rw [e]
    refine (abs_add_le _ _).trans ?_
    have g1 : |(roundedPow F a (k + 1) : ℝ) * u F - P * A| ≤ u F := by rw [abs_le]; constructor <;> linarith
    have g2 : |(P - A ^ (k + 1)) * A| ≤ k * M ^ k * u F * M := by
      rw [abs_mul]; exact mul_le_mul ih h2 (abs_nonneg _) (by positivity)
    have g3 : u F ≤ M ^ (k + 1) * u F := le_mul_of_one_le_left hu.le (one_le_pow₀ h1)
    push_cast
    calc _ ≤ M ^ (k + 1) * u F + k * M ^ k * u F * M := by linarith
      _ = _ := by ring

/-- C107: with `K` integer bits, a power that stays below `2^K` with room for its error is returned in both modes, and the error
is at most `n - 1` units in the last place times the largest power of the base (or of 1). -/
theorem C107_accuracy {K : ℕ} (hK : F + K + 1 ≤ W) (x : Fixed m true W F) (M : ℝ) (hM : 1 ≤ M) (hx : |x.r| ≤ M) (n : ℕ)
    (hn : 1 ≤ n) (hn' : n < 2 ^ 31) (hfit : M ^ n + ((n - 1 : ℕ) : ℝ) * M ^ (n - 1) / 2 ^ F < 2 ^ K) :
    ∃ z : Fixed m true W F, Returns (MixedPowi.powi x (n : ℤ)) z ∧
      |z.r - x.r ^ n| ≤ ((n - 1 : ℕ) : ℝ) * M ^ (n - 1) / 2 ^ F := by
  have hu := u_pos F
  have e1 : ∀ t : ℝ, t / 2 ^ F = t * u F := fun t => by unfold u; ring
  rw [e1] at hfit ⊢
  rw [r_eq] at hx
  have near := roundedPow_near (F := F) x.val M hM hx
  obtain ⟨z, hz, hv⟩ := C107_returns x n hn hn' (fun i hi => by
    refine inRange_iff.mpr (fits_of_abs hK ?_)
    have g1 := abs_sub_abs_le_abs_sub ((roundedPow F x.val i : ℝ) * u F) (((x.val : ℝ) * u F) ^ (i + 1))
    have g2 : |((x.val : ℝ) * u F) ^ (i + 1)| ≤ M ^ n := by
      rw [abs_pow]
      exact (pow_le_pow_left₀ (abs_nonneg _) hx _).trans (pow_le_pow_right₀ hM (by omega))
    have g3 : (i : ℝ) * M ^ i * u F ≤ ((n - 1 : ℕ) : ℝ) * M ^ (n - 1) * u F := by
      refine mul_le_mul_of_nonneg_right ?_ hu.le
      refine mul_le_mul (by exact_mod_cast (by omega : i ≤ n - 1)) (pow_le_pow_right₀ hM (by omega)) (by positivity) (by positivity)
    have := near i
    linarith)
  refine ⟨z, hz, ?_⟩
  have := near (n - 1)
  rw [show n - 1 + 1 = n by omega] at this
  rw [r_eq, r_eq, hv]; exact this

/-- A case of C107: -1.5 to the fifth power with 16 fraction bits, exact -7.59375. -/
example : ∃ z : Fixed .checked true 32 16, Returns (MixedPowi.powi (fx .checked true 32 16 (-98304)) 5) z ∧
    |z.r - (-3/2) ^ 5| ≤ 4 * (3/2) ^ 4 / 2 ^ 16 := by
  have e : (fx .checked true 32 16 (-98304)).r = -3/2 := by
    rw [r, show (fx .checked true 32 16 (-98304)).val = -98304 by decide]; norm_num
  have := C107_accuracy (K := 15) (by norm_num) (fx .checked true 32 16 (-98304)) (3/2) (by norm_num)
    (by rw [e]; norm_num [abs_le]) 5 (by norm_num) (by norm_num) (by norm_num)
  rw [e] at this; exact_mod_cast this
/-- ... and 200 squared does not fit 16 bits with 4 fraction bits. -/
example : Panics (MixedPowi.powi (fx .checked true 16 4 3200) 2) .overflow :=
  C107_panics (fx .checked true 16 4 3200) 2 (by norm_num) ⟨1, by norm_num, by rw [roundedPow_succ]; decide⟩

end MixedNum
