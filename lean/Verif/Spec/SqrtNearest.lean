import Verif.Spec.Float
/-! # A correctly rounded square root (specification only) -/

namespace MixedNum

/-- The external square root (`libm`/`std`, not modelled) is correctly rounded, as IEEE 754 requires: on every finite float that
is not negative it returns a finite float such that no other is nearer to the exact root. -/
def SqrtNearest (f : Format) [MixedSqrt (Flt f)] : Prop :=
  ∀ x : Flt f, x.Valid → x.IsFinite → 0 ≤ x.val →
    ∃ r : Flt f, Returns (MixedSqrt.sqrt x) r ∧ r.Valid ∧ r.IsFinite ∧
      ∀ b : Flt f, b.Valid → b.IsFinite → |(r.val : ℝ) - √(x.val : ℝ)| ≤ |(b.val : ℝ) - √(x.val : ℝ)|

end MixedNum
