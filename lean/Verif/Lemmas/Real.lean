import Verif.Model.Ideal
import Verif.Lemmas.Prog
/-! Evaluation rules for the exact-real instances. -/

namespace MixedNum
namespace RealI

variable (a b : ℝ)
@[simp] theorem add_def : NumOps.add a b = pure (a + b) := rfl
@[simp] theorem sub_def : NumOps.sub a b = pure (a - b) := rfl
@[simp] theorem mul_def : NumOps.mul a b = pure (a * b) := rfl
theorem div_def : NumOps.div a b = if b = 0 then Prog.fail .divByZero else pure (a / b) := rfl
@[simp] theorem div_ne {b : ℝ} (h : b ≠ 0) : NumOps.div a b = pure (a / b) := if_neg h
@[simp] theorem div_zero : NumOps.div a (0:ℝ) = Prog.fail .divByZero := if_pos rfl
@[simp] theorem ofI32_def (n : ℤ) : (Lit.ofI32 n : Prog ℝ) = pure (n : ℝ) := rfl
@[simp] theorem ofF64_def (q : ℚ) : (Lit.ofF64 q : Prog ℝ) = pure (q : ℝ) := rfl
@[simp] theorem ofUsize_def (n : ℕ) : (FromUsize.ofUsize n : Prog ℝ) = pure (n : ℝ) := rfl
@[simp] theorem fromNum_def : (Conv.fromNum a : Prog ℝ) = pure a := rfl
@[simp] theorem toNum_def : (Conv.toNum a : Prog ℝ) = pure a := rfl
@[simp] theorem zero_def : (MixedZero.zero : ℝ) = 0 := rfl
@[simp] theorem one_def : (MixedOne.one : Prog ℝ) = pure 1 := rfl
@[simp] theorem pi_def : (MixedPi.pi : Prog ℝ) = pure Real.pi := rfl
@[simp] theorem tau_def : (MixedPi.tau : Prog ℝ) = pure (2 * Real.pi) := rfl
@[simp] theorem neg_def : MixedNumSigned.neg a = pure (-a) := rfl
@[simp] theorem abs_def : MixedAbs.abs a = pure |a| := rfl
@[simp] theorem sincos_def : MixedSinCos.sincos a = pure (Real.sin a, Real.cos a) := rfl
@[simp] theorem atan2_def : MixedAtan.atan2 a b = pure (Complex.arg ⟨b, a⟩) := rfl
@[simp] theorem exp_def : MixedExp.exp a = pure (Real.exp a) := rfl
@[simp] theorem exp10_def : MixedExp10.exp10 a = pure ((10:ℝ) ^ a) := rfl
theorem powi_def (e : ℤ) : MixedPowi.powi a e = if a = 0 ∧ e < 0 then Prog.fail .divByZero else pure (a ^ e) := by
  show (if _ then _ else _) = _; congr
@[simp] theorem powi_nat (n : ℕ) : MixedPowi.powi a (n : ℤ) = pure (a ^ n) := by
  rw [powi_def, if_neg (by rintro ⟨_, h⟩; omega)]; simp
@[simp] theorem powi_two : MixedPowi.powi a (2 : ℤ) = pure (a ^ 2) := powi_nat a 2
theorem sqrt_def : MixedSqrt.sqrt a = if a < 0 then Prog.fail .domain else pure (Real.sqrt a) := by
  show (if _ then _ else _) = _; congr
@[simp] theorem sqrt_nonneg {a : ℝ} (h : 0 ≤ a) : MixedSqrt.sqrt a = pure (Real.sqrt a) := by
  rw [sqrt_def, if_neg (not_lt.mpr h)]
theorem log10_pos {a : ℝ} (h : 0 < a) : MixedLog10.log10 a = pure (Real.logb 10 a) := by
  show (if _ then _ else _) = _; rw [if_neg (not_le.mpr h)]
open Classical in
@[simp] theorem lt_def : MixedCmp.lt a b = decide (a < b) := rfl
open Classical in
@[simp] theorem le_def : MixedCmp.le a b = decide (a ≤ b) := rfl
open Classical in
@[simp] theorem beq_def : MixedCmp.beq a b = decide (a = b) := rfl
open Classical in
@[simp] theorem isPositive_def : MixedReal.isPositive a = decide (0 ≤ a) := rfl
open Classical in
@[simp] theorem isNegative_def : MixedReal.isNegative a = decide (a < 0) := rfl

end RealI
end MixedNum
