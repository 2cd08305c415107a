import Verif.Model.Delegate
import Verif.Spec.Float
import Mathlib.Analysis.SpecialFunctions.Trigonometric.Arctan
import Mathlib.Analysis.SpecialFunctions.Trigonometric.Inverse
import Mathlib.Analysis.SpecialFunctions.Arsinh
import Mathlib.Analysis.SpecialFunctions.Log.Base
import Mathlib.Analysis.SpecialFunctions.Pow.Real
/-!
# What the external functions are expected to compute

Specification only. Each field of `LibmWithin` says which real function an external one approximates, and where.
-/

namespace MixedNum

/-- `r` approximates `v` with relative error `δ`, or with absolute error `2^emin` where `v` is tiny, unless `v` is within a factor
of two of the largest float or beyond. -/
def Approx {f : Format} (δ : ℝ) (r : Flt f) (v : ℝ) : Prop :=
  2 * |v| ≤ 2 ^ f.emax → r.Valid ∧ r.IsFinite ∧ |(r.val : ℝ) - v| ≤ δ * |v| + 2 ^ f.emin

/-- `r` approximates every solution of `P`. -/
def ApproxRoot {f : Format} (δ : ℝ) (r : Flt f) (P : ℝ → Prop) : Prop := ∀ v, P v → Approx δ r v

/-- Every function of `libm` the crate uses approximates the real function of its name, on finite floats in its domain. The
inverse functions are given by the equation they solve. -/
structure LibmWithin (f : Format) [Libm f] (δ : ℝ) : Prop where
  sin : ∀ x : Flt f, x.Valid → x.IsFinite → Approx δ (Libm.sin x) (Real.sin x.val)
  cos : ∀ x : Flt f, x.Valid → x.IsFinite → Approx δ (Libm.cos x) (Real.cos x.val)
  sincos : ∀ x : Flt f, x.Valid → x.IsFinite →
    Approx δ (Libm.sincos x).1 (Real.sin x.val) ∧ Approx δ (Libm.sincos x).2 (Real.cos x.val)
  tan : ∀ x : Flt f, x.Valid → x.IsFinite → Approx δ (Libm.tan x) (Real.tan x.val)
  asin : ∀ x : Flt f, x.Valid → x.IsFinite →
    ApproxRoot δ (Libm.asin x) fun v => -(Real.pi / 2) ≤ v ∧ v ≤ Real.pi / 2 ∧ Real.sin v = x.val
  acos : ∀ x : Flt f, x.Valid → x.IsFinite → ApproxRoot δ (Libm.acos x) fun v => 0 ≤ v ∧ v ≤ Real.pi ∧ Real.cos v = x.val
  atan : ∀ x : Flt f, x.Valid → x.IsFinite →
    ApproxRoot δ (Libm.atan x) fun v => -(Real.pi / 2) < v ∧ v < Real.pi / 2 ∧ Real.tan v = x.val
  atan2 : ∀ y x : Flt f, y.Valid → x.Valid → y.IsFinite → x.IsFinite → (x.val ≠ 0 ∨ y.val ≠ 0) →
    Approx δ (Libm.atan2 y x) (Complex.arg ⟨x.val, y.val⟩)
  sinh : ∀ x : Flt f, x.Valid → x.IsFinite → Approx δ (Libm.sinh x) (Real.sinh x.val)
  cosh : ∀ x : Flt f, x.Valid → x.IsFinite → Approx δ (Libm.cosh x) (Real.cosh x.val)
  tanh : ∀ x : Flt f, x.Valid → x.IsFinite → Approx δ (Libm.tanh x) (Real.tanh x.val)
  asinh : ∀ x : Flt f, x.Valid → x.IsFinite → ApproxRoot δ (Libm.asinh x) fun v => Real.sinh v = x.val
  acosh : ∀ x : Flt f, x.Valid → x.IsFinite → ApproxRoot δ (Libm.acosh x) fun v => 0 ≤ v ∧ Real.cosh v = x.val
  atanh : ∀ x : Flt f, x.Valid → x.IsFinite → ApproxRoot δ (Libm.atanh x) fun v => Real.tanh v = x.val
  /-- Roots of non-zero floats are never tiny and the root of zero is exact, so there is no absolute error here. -/
  sqrt : ∀ x : Flt f, x.Valid → x.IsFinite → ∀ v : ℝ, 0 ≤ v → v ^ 2 = x.val →
    (Libm.sqrt x).Valid ∧ (Libm.sqrt x).IsFinite ∧ |((Libm.sqrt x).val : ℝ) - v| ≤ δ * v
  cbrt : ∀ x : Flt f, x.Valid → x.IsFinite → ApproxRoot δ (Libm.cbrt x) fun v => v ^ 3 = x.val
  exp : ∀ x : Flt f, x.Valid → x.IsFinite → Approx δ (Libm.exp x) (Real.exp x.val)
  exp2 : ∀ x : Flt f, x.Valid → x.IsFinite → Approx δ (Libm.exp2 x) ((2:ℝ) ^ (x.val : ℝ))
  exp10 : ∀ x : Flt f, x.Valid → x.IsFinite → Approx δ (Libm.exp10 x) ((10:ℝ) ^ (x.val : ℝ))
  pow : ∀ b e : Flt f, b.Valid → b.IsFinite → e.Valid → e.IsFinite → 0 < b.val →
    Approx δ (Libm.pow b e) ((b.val : ℝ) ^ (e.val : ℝ))
  log : ∀ x : Flt f, x.Valid → x.IsFinite → ApproxRoot δ (Libm.log x) fun v => Real.exp v = x.val
  log2 : ∀ x : Flt f, x.Valid → x.IsFinite → ApproxRoot δ (Libm.log2 x) fun v => (2:ℝ) ^ v = x.val
  log10 : ∀ x : Flt f, x.Valid → x.IsFinite → ApproxRoot δ (Libm.log10 x) fun v => (10:ℝ) ^ v = x.val

/-! ## Fixed point -/

/-- If `v` is in range of the signed type with a unit to spare, `P` returns within `δ` of it. -/
def FixedApprox {m : Mode} {W F : ℕ} (δ : ℝ) (P : Prog (Fixed m true W F)) (v : ℝ) : Prop :=
  |v| * 2 ^ F + 1 < 2 ^ (W - 1) → ∃ r : Fixed m true W F, Returns P r ∧ |(r.val : ℝ) / 2 ^ F - v| ≤ δ

/-- The functions of `cordic` the crate uses approximate the real functions of their names. Angles are reduced by the caller: the
trigonometric functions are only asked about arguments within `[-4, 4]`. -/
structure CordicWithin (m : Mode) (W F : ℕ) [Cordic m W F] (δ : ℝ) : Prop where
  sin : ∀ x : Fixed m true W F, |(x.val : ℝ) / 2 ^ F| ≤ 4 → FixedApprox δ (Cordic.sin x) (Real.sin (x.val / 2 ^ F))
  cos : ∀ x : Fixed m true W F, |(x.val : ℝ) / 2 ^ F| ≤ 4 → FixedApprox δ (Cordic.cos x) (Real.cos (x.val / 2 ^ F))
  /-- The pair needs one integer bit. -/
  sinCos : F + 2 ≤ W → 1 ≤ F → ∀ x : Fixed m true W F, |(x.val : ℝ) / 2 ^ F| ≤ 4 → ∃ s c : Fixed m true W F,
    Returns (Cordic.sinCos x) (s, c) ∧ |(s.val : ℝ) / 2 ^ F - Real.sin (x.val / 2 ^ F)| ≤ δ ∧
    |(c.val : ℝ) / 2 ^ F - Real.cos (x.val / 2 ^ F)| ≤ δ
  asin : ∀ x : Fixed m true W F, ∀ v, -(Real.pi / 2) ≤ v → v ≤ Real.pi / 2 → Real.sin v = x.val / 2 ^ F →
    FixedApprox δ (Cordic.asin x) v
  acos : ∀ x : Fixed m true W F, ∀ v, 0 ≤ v → v ≤ Real.pi → Real.cos v = x.val / 2 ^ F → FixedApprox δ (Cordic.acos x) v
  atan : ∀ x : Fixed m true W F, ∀ v, -(Real.pi / 2) < v → v < Real.pi / 2 → Real.tan v = x.val / 2 ^ F →
    FixedApprox δ (Cordic.atan x) v
  atan2 : ∀ y x : Fixed m true W F, (x.val ≠ 0 ∨ y.val ≠ 0) →
    FixedApprox δ (Cordic.atan2 y x) (Complex.arg ⟨x.val / 2 ^ F, y.val / 2 ^ F⟩)
  exp : ∀ x : Fixed m true W F, FixedApprox δ (Cordic.exp x) (Real.exp (x.val / 2 ^ F))

end MixedNum
