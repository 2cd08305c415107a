import Mathlib.Analysis.SpecialFunctions.Trigonometric.Arctan
import Mathlib.Analysis.SpecialFunctions.Complex.Arg
import Mathlib.Analysis.SpecialFunctions.Pow.Real
import Mathlib.Analysis.SpecialFunctions.Log.Base
import Verif.Model.Complex
import Verif.Model.Atan
import Verif.Model.Sqrt
/-!
# Exact real arithmetic

The component type `ℝ`: the crate's algorithms with no rounding and no overflow, and with the mathematical
functions in place of `libm`/`cordic`. Where a float would become NaN or infinite (division by zero, root or
logarithm outside the domain) the call *fails*; nothing is totalised to 0.
No Rust type has these instances; they say what the algorithms compute, as opposed to how they round.
-/

namespace MixedNum
open Classical

noncomputable section

/-- Comparison of reals. -/
instance : MixedCmp ℝ where
  lt a b := decide (a < b)
  le a b := decide (a ≤ b)
  beq a b := decide (a = b)

/-- Exact `+ - * /`; division by zero fails. -/
instance : NumOps ℝ where
  add a b := pure (a + b)
  sub a b := pure (a - b)
  mul a b := pure (a * b)
  div a b := if b = 0 then Prog.fail .divByZero else pure (a / b)

/-- Literals are converted exactly (an `f64` literal has the value of the `f64`). -/
instance : Lit ℝ where
  ofI32 n := pure n
  ofF64 q := pure q

/-- Conversion of a `usize` is exact. -/
instance : FromUsize ℝ where
  ofUsize n := pure n

/-- Scalar conversion of a real to a real. -/
instance : Conv ℝ ℝ where
  fromNum x := pure x
  toNum x := pure x

/-- The constant 0 (src/traits.rs:26-30). -/
instance : MixedZero ℝ where
  zero := 0

/-- The constant 1 (src/traits.rs:32-36). -/
instance : MixedOne ℝ where
  one := pure 1

/-- The constants π and 2π (src/traits.rs:38-43). -/
instance : MixedPi ℝ where
  pi := pure Real.pi
  tau := pure (2 * Real.pi)

/-- Unary minus. -/
instance : MixedNumSigned ℝ where
  neg a := pure (-a)

/-- `ℝ` has no largest or smallest value. The sign tests follow the floats: zero has sign `+`
(src/float_impl.rs:136-143). -/
instance : MixedReal ℝ where
  maxValue := Prog.fail .domain
  minValue := Prog.fail .domain
  isPositive a := decide (0 ≤ a)
  isNegative a := decide (a < 0)

/-- The absolute value. -/
instance : MixedAbs ℝ where
  abs a := pure |a|

/-- `powi` of the floats (src/float_impl.rs:107-113): a negative power of zero fails. -/
instance : MixedPowi ℝ where
  powi a e := if a = 0 ∧ e < 0 then Prog.fail .divByZero else pure (a ^ e)

/-- `libm::sqrt` (src/float_impl/f64_impl.rs:107-111): fails on negative arguments. -/
instance : MixedSqrt ℝ where
  sqrt a := if a < 0 then Prog.fail .domain else pure (Real.sqrt a)

/-- `libm::sincos` (src/float_impl/f64_impl.rs:9-14). -/
instance : MixedSinCos ℝ where
  sincos a := pure (Real.sin a, Real.cos a)

/-- `libm::atan2` (src/float_impl/f64_impl.rs:95-98): the principal argument of the point (x, y). -/
instance : MixedAtan ℝ where
  atan2 y x := pure (Complex.arg ⟨x, y⟩)

/-- `libm::exp` (src/float_impl/f64_impl.rs:133-139). -/
instance : MixedExp ℝ where
  exp a := pure (Real.exp a)

/-- `libm::log10` (src/float_impl/f64_impl.rs:172-178): fails outside the domain. -/
instance : MixedLog10 ℝ where
  log10 a := if a ≤ 0 then Prog.fail .domain else pure (Real.logb 10 a)

/-- `libm::exp10` (src/float_impl/f64_impl.rs:140-146). -/
instance : MixedExp10 ℝ where
  exp10 a := pure ((10 : ℝ) ^ a)

end

end MixedNum
