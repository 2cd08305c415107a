import Verif.Model.Float
import Verif.Model.Atan
import Verif.Model.Sqrt
/-!
# Methods that hand their argument to `libm` (floats) or `cordic` (signed fixed point)

The external functions are parameters: `Libm f` and `Cordic m W F` hold arbitrary functions of the right type. What is modelled
here is the crate's part: which external function is called, with which arguments in which order.
-/

namespace MixedNum

/-- The functions of crate `libm` called by src/float_impl/f32_impl.rs (with suffix `f`) and src/float_impl/f64_impl.rs. They
cannot panic. -/
class Libm (f : Format) where
  sin : Flt f → Flt f
  cos : Flt f → Flt f
  sincos : Flt f → Flt f × Flt f
  tan : Flt f → Flt f
  asin : Flt f → Flt f
  acos : Flt f → Flt f
  atan : Flt f → Flt f
  /-- `libm::atan2(y, x)`. -/
  atan2 : Flt f → Flt f → Flt f
  sinh : Flt f → Flt f
  cosh : Flt f → Flt f
  tanh : Flt f → Flt f
  asinh : Flt f → Flt f
  acosh : Flt f → Flt f
  atanh : Flt f → Flt f
  sqrt : Flt f → Flt f
  cbrt : Flt f → Flt f
  exp : Flt f → Flt f
  exp2 : Flt f → Flt f
  exp10 : Flt f → Flt f
  /-- `libm::pow(base, exponent)`. -/
  pow : Flt f → Flt f → Flt f
  log : Flt f → Flt f
  log2 : Flt f → Flt f
  log10 : Flt f → Flt f

/-- The functions of crate `cordic` called by src/fixed_impl.rs:261-325. They may panic, so they are programs. -/
class Cordic (m : Mode) (W F : ℕ) where
  sin : Fixed m true W F → Prog (Fixed m true W F)
  cos : Fixed m true W F → Prog (Fixed m true W F)
  /-- `cordic::sin_cos`: the pair (sin, cos). -/
  sinCos : Fixed m true W F → Prog (Fixed m true W F × Fixed m true W F)
  asin : Fixed m true W F → Prog (Fixed m true W F)
  acos : Fixed m true W F → Prog (Fixed m true W F)
  atan : Fixed m true W F → Prog (Fixed m true W F)
  /-- `cordic::atan2(y, x)`. -/
  atan2 : Fixed m true W F → Fixed m true W F → Prog (Fixed m true W F)
  exp : Fixed m true W F → Prog (Fixed m true W F)

namespace Flt
variable {f : Format} [Libm f]

/-- `mixed_sin` (f32_impl.rs:6-8, f64_impl.rs:6-8). -/
def mixedSin (x : Flt f) : Prog (Flt f) := pure (Libm.sin x)
/-- `mixed_asin` (f32_impl.rs:16-18, f64_impl.rs:16-18). -/
def mixedAsin (x : Flt f) : Prog (Flt f) := pure (Libm.asin x)
/-- `mixed_sinh` (f32_impl.rs:24-26, f64_impl.rs:24-26). -/
def mixedSinh (x : Flt f) : Prog (Flt f) := pure (Libm.sinh x)
/-- `mixed_asinh` (f32_impl.rs:28-30, f64_impl.rs:28-30). -/
def mixedAsinh (x : Flt f) : Prog (Flt f) := pure (Libm.asinh x)
/-- `mixed_cos` (f32_impl.rs:36-38, f64_impl.rs:36-38). -/
def mixedCos (x : Flt f) : Prog (Flt f) := pure (Libm.cos x)
/-- `mixed_acos` (f32_impl.rs:40-42, f64_impl.rs:40-42). -/
def mixedAcos (x : Flt f) : Prog (Flt f) := pure (Libm.acos x)
/-- `mixed_cosh` (f32_impl.rs:48-50, f64_impl.rs:48-50). -/
def mixedCosh (x : Flt f) : Prog (Flt f) := pure (Libm.cosh x)
/-- `mixed_acosh` (f32_impl.rs:52-54, f64_impl.rs:52-54). -/
def mixedAcosh (x : Flt f) : Prog (Flt f) := pure (Libm.acosh x)
/-- `mixed_tan` (f32_impl.rs:64-66, f64_impl.rs:64-66). -/
def mixedTan (x : Flt f) : Prog (Flt f) := pure (Libm.tan x)
/-- `mixed_tanh` (f32_impl.rs:72-74, f64_impl.rs:72-74). -/
def mixedTanh (x : Flt f) : Prog (Flt f) := pure (Libm.tanh x)
/-- `mixed_atanh` (f32_impl.rs:76-78, f64_impl.rs:76-78). -/
def mixedAtanh (x : Flt f) : Prog (Flt f) := pure (Libm.atanh x)
/-- `mixed_atan` (f32_impl.rs:84-86, f64_impl.rs:92-94). -/
def mixedAtan (x : Flt f) : Prog (Flt f) := pure (Libm.atan x)
/-- `mixed_cbrt` (f32_impl.rs:113-115, f64_impl.rs:84-86). -/
def mixedCbrt (x : Flt f) : Prog (Flt f) := pure (Libm.cbrt x)
/-- `mixed_exp2` (f32_impl.rs:152-154, f64_impl.rs:151-153). -/
def mixedExp2 (x : Flt f) : Prog (Flt f) := pure (Libm.exp2 x)
/-- `mixed_pow` (f32_impl.rs:160-162, f64_impl.rs:159-161). -/
def mixedPow (x power : Flt f) : Prog (Flt f) := pure (Libm.pow x power)
/-- `mixed_log` (f32_impl.rs:168-170, f64_impl.rs:167-169). -/
def mixedLog (x : Flt f) : Prog (Flt f) := pure (Libm.log x)
/-- `mixed_log2` (f32_impl.rs:184-186, f64_impl.rs:183-185). -/
def mixedLog2 (x : Flt f) : Prog (Flt f) := pure (Libm.log2 x)

/-- `mixed_sincos` (f32_impl.rs:10-14, f64_impl.rs:10-14). -/
instance : MixedSinCos (Flt f) where sincos x := pure (Libm.sincos x)
/-- `mixed_atan2` (f32_impl.rs:88-90, f64_impl.rs:96-98). -/
instance : MixedAtan (Flt f) where atan2 y x := pure (Libm.atan2 y x)
/-- `mixed_sqrt` (f32_impl.rs:100-102, f64_impl.rs:108-110). -/
instance : MixedSqrt (Flt f) where sqrt x := pure (Libm.sqrt x)
/-- `mixed_exp` (f32_impl.rs:136-138, f64_impl.rs:136-138). -/
instance : MixedExp (Flt f) where exp x := pure (Libm.exp x)
/-- `mixed_exp10` (f32_impl.rs:144-146, f64_impl.rs:143-145). -/
instance : MixedExp10 (Flt f) where exp10 x := pure (Libm.exp10 x)
/-- `mixed_log10` (f32_impl.rs:176-178, f64_impl.rs:175-177). -/
instance : MixedLog10 (Flt f) where log10 x := pure (Libm.log10 x)

omit [Libm f]

/-- `mixed_atan2_poly` (f32_impl.rs:92-94, f64_impl.rs:100-102). -/
def mixedAtan2Poly (y x : Flt f) : Prog (Flt f) := atan2Poly y x
/-- `mixed_niirf` (src/float_impl/f32_impl.rs:105-107, src/float_impl/f64_impl.rs:113-115) in a build of mode `m`, which decides what
happens when the counter overflows. -/
def mixedNiirf (m : Mode) (x : Flt f) : Prog (Flt f) := niirf (.i32 m) x 2
/-- `mixed_wrap_phase` (src/float_impl.rs:91-97). -/
def mixedWrapPhase (x : Flt f) : Prog (Flt f) := wrapPhase x

/-- `mixed_floor` (f32_impl.rs:128-130, f64_impl.rs:128-130). `libm::floor` is exact (the largest whole number not above the
argument, with the argument's sign when it is zero), so it is modelled rather than left as a parameter. -/
def mixedFloor (x : Flt f) : Prog (Flt f) := pure <| match x with
  | .nan => .nan
  | .inf s => .inf s
  | .fin s m => ofExact s (val (.fin s m : Flt f)).floor

/-- `mixed_ceil` (f32_impl.rs:121-123, f64_impl.rs:121-123). `libm::ceil`, exact likewise. -/
def mixedCeil (x : Flt f) : Prog (Flt f) := pure <| match x with
  | .nan => .nan
  | .inf s => .inf s
  | .fin s m => ofExact s (val (.fin s m : Flt f)).ceil

end Flt

namespace Fixed
variable {m : Mode} {W F : ℕ} [Cordic m W F]

/-- `mixed_sin` (src/fixed_impl.rs:265-267). -/
def mixedSin (x : Fixed m true W F) : Prog (Fixed m true W F) := Cordic.sin x
/-- `mixed_asin` (src/fixed_impl.rs:276-278). -/
def mixedAsin (x : Fixed m true W F) : Prog (Fixed m true W F) := Cordic.asin x
/-- `mixed_cos` (src/fixed_impl.rs:285-287). -/
def mixedCos (x : Fixed m true W F) : Prog (Fixed m true W F) := Cordic.cos x
/-- `mixed_acos` (src/fixed_impl.rs:290-292). -/
def mixedAcos (x : Fixed m true W F) : Prog (Fixed m true W F) := Cordic.acos x
/-- `mixed_atan` (src/fixed_impl.rs:303-305). -/
def mixedAtan (x : Fixed m true W F) : Prog (Fixed m true W F) := Cordic.atan x
/-- `mixed_sincos` (src/fixed_impl.rs:269-273). -/
instance : MixedSinCos (Fixed m true W F) where sincos := Cordic.sinCos
/-- `mixed_atan2` (src/fixed_impl.rs:308-310). -/
instance : MixedAtan (Fixed m true W F) where atan2 := Cordic.atan2
/-- `mixed_exp` (src/fixed_impl.rs:322-324). -/
instance : MixedExp (Fixed m true W F) where exp := Cordic.exp

omit [Cordic m W F]

/-- `mixed_atan2_poly` (src/fixed_impl.rs:313-315). -/
def mixedAtan2Poly (y x : Fixed m true W F) : Prog (Fixed m true W F) := atan2Poly y x
/-- `mixed_niirf` (src/fixed_impl.rs:144-146). -/
def mixedNiirf {s : Bool} (x : Fixed m s W F) : Prog (Fixed m s W F) := niirf (.i32 m) x 2
/-- `mixed_wrap_phase` (src/fixed_impl.rs:253-259). -/
def mixedWrapPhase (x : Fixed m true W F) : Prog (Fixed m true W F) := wrapPhase x

end Fixed

end MixedNum
