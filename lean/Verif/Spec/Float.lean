import Verif.Model.Float
import Mathlib.Analysis.SpecialFunctions.Trigonometric.Basic
/-!
# Correct rounding

Specification only: stated with rational numbers, not with the model's rounding function.
-/

namespace MixedNum

/-- The rational numbers that are values of a finite float of format `f`. -/
def Representable (f : Format) (b : ℚ) : Prop :=
  ∃ n e : ℤ, |n| < 2 ^ f.p ∧ f.emin ≤ e ∧ b = n * 2 ^ e ∧ |b| < 2 ^ f.emax

/-- `z` is the float IEEE rounding to nearest gives for the exact result `v`: below the overflow threshold
`2^emax - 2^(emax-p-1)` a finite float such that no other is nearer to `v`, and if another is as near, an even multiple of the gap between the
two; from there on the infinity of `v`'s sign. -/
def RoundsTo {f : Format} (z : Flt f) (v : ℚ) : Prop :=
  (|v| < 2 ^ f.emax - 2 ^ ((f.emax : ℤ) - f.p - 1) ∧ (∃ s m, z = .fin s m) ∧ Representable f z.val ∧
    ∀ b, Representable f b → |z.val - v| ≤ |b - v| ∧
      (b ≠ z.val → |z.val - v| = |b - v| → ∃ k : ℤ, z.val = 2 * k * |z.val - b|)) ∨
  (2 ^ f.emax - 2 ^ ((f.emax : ℤ) - f.p - 1) ≤ |v| ∧ z = .inf (decide (v < 0)))

/-- Neither infinite nor NaN. -/
def Flt.IsFinite {f : Format} (x : Flt f) : Prop := ∃ s m, x = .fin s m

/-- The external square root (`libm`/`std`, not modelled) returns on every finite float that is not negative, within relative
error `ε`. IEEE 754 requires `2^-p`. -/
def SqrtWithin (f : Format) [MixedSqrt (Flt f)] (ε : ℝ) : Prop :=
  ∀ x : Flt f, x.Valid → x.IsFinite → 0 ≤ x.val →
    ∃ r : Flt f, Returns (MixedSqrt.sqrt x) r ∧ r.Valid ∧ r.IsFinite ∧ |(r.val : ℝ) - √(x.val : ℝ)| ≤ ε * √(x.val : ℝ)

/-- The external `sin`/`cos` pair (`libm`/`std`, not modelled) returns on every finite float within `[-4, 4]`, both within `ε`. -/
def SinCosWithin (f : Format) [MixedSinCos (Flt f)] (ε : ℝ) : Prop :=
  ∀ x : Flt f, x.Valid → x.IsFinite → |(x.val : ℝ)| ≤ 4 →
    ∃ s c : Flt f, Returns (MixedSinCos.sincos x) (s, c) ∧ (s.Valid ∧ s.IsFinite) ∧ (c.Valid ∧ c.IsFinite) ∧
      |(s.val : ℝ) - Real.sin x.val| ≤ ε ∧ |(c.val : ℝ) - Real.cos x.val| ≤ ε

end MixedNum
