import Verif.Model.Float
import Verif.Model.Fmt
import Verif.Model.Atan
import Verif.Model.Sqrt
import Verif.Model.Trig
import Verif.Model.Db
/-!
# The crate's own doc-tests, run on the model

Not proofs: evaluations that check that the model, rounding included, computes what the crate's documentation asserts
the compiled code computes. Each `#guard` cites the assertion. Only assertions that do not go through `cordic` or `libm`.
-/

namespace MixedNum.DocTests
open MixedNum

/-- An `f32` literal. -/
def l32 (q : ℚ) : Flt F32 := Flt.ofExact false q

/-- An `f64` literal. -/
def l64 (q : ℚ) : Flt F64 := Flt.ofExact false q

/-- The program returns the `f32` nearest to `q`. -/
def gives (p : Prog (Flt F32)) (q : ℚ) : Bool :=
  match p 1000 with
  | .ok (.fin s m) => (Flt.fin s m : Flt F32).val == (l32 q).val
  | _ => false

abbrev X28 := Fixed .checked true 32 28
abbrev X22 := Fixed .checked true 32 22

def x28 (q : ℚ) : Prog X28 := Conv.fromNum (l64 q)
def x22 (q : ℚ) : Prog X22 := Conv.fromNum (l64 q)
def to28 (p : Prog X28) : Prog (Flt F32) := do Conv.toNum (← p)
def to22 (p : Prog X22) : Prog (Flt F32) := do Conv.toNum (← p)

-- src/trigonometry.rs:17-23
#guard gives (to22 (do sign (← x22 (-0.2)))) (-1)
#guard gives (to22 (do sign (← x22 0.2))) 1
-- src/trigonometry.rs:55-65
#guard gives (sin (l32 0)) 0
#guard gives (do sin (← NumOps.div (l32 3.1415) (l32 2))) 1.0000035
#guard gives (sin (l32 3.1415)) 9.274483e-5
-- src/trigonometry.rs:111-117
#guard gives (cos (l32 0)) 1.0000035
#guard gives (do cos (← NumOps.div (l32 3.1415) (l32 2))) 4.6491623e-5
-- src/trigonometry.rs:159-161
#guard gives (to28 (do wrapPhase (← x28 6))) (-0.2831853)
-- src/trigonometry.rs:196-198
#guard gives (to22 (do powi (← x22 (-2)) 2)) 4
-- src/trigonometry/sqrt.rs:36-46
#guard gives (to28 (do niirf (.i32 .checked) (← x28 0.23) 2)) 0.47960657
#guard gives (to28 (do niirf (.i32 .checked) (← x28 1.6) 2)) 1.2644687
#guard gives (to28 (do niirf (.i32 .checked) (← x28 0) 2)) 0
-- src/trigonometry/atan.rs:59-66, 181-182
#guard gives (to28 (do atan2Poly (← x28 0.6) (← x28 0.4))) 0.9782037
#guard gives (to28 (do atan2Poly (← x28 0) (← x28 0.4))) 0
#guard gives (to28 (do atan2Poly (← x28 0) (← x28 0))) 0
#guard gives (to28 (do atanPoly (← NumOps.div (← x28 0.6) (← x28 0.4)))) 0.9782037

/-- Both parts of a complex `f32` result. -/
def givesC (p : Prog (Cartesian (Flt F32))) (re im : ℚ) : Bool :=
  gives (do pure (← p).re) re && gives (do pure (← p).im) im

/-- The crate's example number. -/
def z12 : Cartesian (Flt F32) := ⟨l32 1, l32 2⟩

def zm24 : Cartesian (Flt F32) := ⟨l32 (-2), l32 4⟩

-- src/lib.rs:54-57
#guard givesC (Cartesian.mul z12 z12) (-3) 4
-- src/complex/cartesian_impl.rs:206-213
#guard givesC (Cartesian.mulScalar z12 (l64 2)) 2 4
#guard givesC (Cartesian.mulScalar z12 (l32 2)) 2 4
-- src/complex/cartesian_impl.rs:270-273, 288-291
#guard givesC (Cartesian.addScalar z12 (l64 2)) 3 2
#guard givesC (Cartesian.addAssignScalar z12 (l64 2)) 3 2
-- src/complex/cartesian_impl.rs:352-355
#guard givesC (Cartesian.subScalar z12 (l64 2)) (-1) 2
-- src/complex/cartesian_impl.rs:430-433, 451-454
#guard givesC (Cartesian.divScalar zm24 (l64 2)) (-1) 2
#guard givesC (Cartesian.divAssignScalar zm24 (l64 2)) (-1) 2
-- src/complex/cartesian_impl.rs:477-480
#guard givesC (Cartesian.conj ⟨l32 (-2), l32 (-4)⟩) (-2) 4

/-- cordic's results in the next assertion: atan2 is not looked at, and (sin, cos) of about π/2 are one ulp below 1 and
8 ulp below 0, the only values for which the assertion can hold. -/
local instance : MixedAtan X22 := ⟨fun _ _ => x22 0.785398⟩
local instance : MixedSinCos X22 := ⟨fun _ => do pure (← x22 (1 - 1 / 2 ^ 22), ← x22 (-8 / 2 ^ 22))⟩

-- src/complex/ops.rs:150-154: the magnitude of `powi((1+i), 2)` is 1.99603... because of the approximate square root
#guard
  match (do
    let y ← ops.powi ⟨← x22 1, ← x22 1⟩ 2
    pure (decide (y.re.val = (← x22 (-0.0000038)).val ∧ y.im.val = (← x22 1.996035).val)) : Prog Bool) 1000 with
  | .ok b => b
  | _ => false

/-- A component text for small whole floats, enough for the assertions below. -/
def showWhole (_ : Option ℕ) (x : Flt F32) : List Char :=
  match x with
  | .fin s m => (if s then ['-'] else []) ++ Nat.toDigits 10 m.floor.natAbs
  | _ => ['?']

def text (z : Cartesian (Flt F32)) : String :=
  match writeComplex true {} [] showWhole z 10 with
  | .ok t => String.ofList t
  | _ => ""

-- src/complex/cartesian_impl/num_complex_impl.rs:109-112; tests/cartesian_traits.rs:6-7
#guard text zm24 = "-2+4i"
#guard text ⟨l32 2, l32 (-4)⟩ = "2-4i"
#guard text ⟨l32 1, l32 (-1)⟩ = "1-1i"
-- tests/cartesian_traits.rs:13-16: a negative zero prints as `+-0`
#guard text ⟨l32 (-1), .fin true 0⟩ = "-1+-0i"

-- src/lib.rs:34-36, tests/cartesian_traits.rs:9-10
#guard text z12 = "1+2i"
#guard (match Cartesian.mulScalar (⟨l32 1, l32 (-1)⟩ : Cartesian (Flt F32)) (l32 2) 10 with | .ok z => text z | _ => "") = "2-2i"

/-- A component text in exponent form for the two floats of the next assertions. -/
def showExp (e : Char) (_ : Option ℕ) (x : Flt F32) : List Char :=
  if x = l32 2000000000 then ['2', e, '9'] else if x = l32 4 then ['4', e, '0'] else ['?']

def textExp (e : Char) (z : Cartesian (Flt F32)) : String :=
  match writeComplex true {} [] (showExp e) z 10 with
  | .ok t => String.ofList t
  | _ => ""

-- src/complex/cartesian_impl/num_complex_impl.rs:129-130, 147-148
#guard textExp 'e' ⟨l32 2000000000, l32 (-4)⟩ = "2e9-4e0i"
#guard textExp 'E' ⟨l32 2000000000, l32 (-4)⟩ = "2E9-4E0i"

/-- The results of `libm` in the next assertions: the `f32` nearest to the exact value. -/
local instance : MixedLog10 (Flt F32) := ⟨fun _ => pure (l32 0.30102999566)⟩
local instance : MixedExp10 (Flt F32) := ⟨fun x => pure (if x = l32 1 then l32 10 else if x = l32 0.5 then l32 3.16227766017 else .nan)⟩
local instance : MixedSqrt (Flt F32) := ⟨fun x => pure (if x = l32 1 then l32 1 else if x = l32 5 then l32 2.2360679775 else .nan)⟩
local instance : MixedAtan (Flt F32) := ⟨fun y x => pure (if y = l32 2 ∧ x = l32 1 then l32 1.10714871779 else .nan)⟩

-- src/float_impl.rs:216-236
#guard gives (pow2db (l32 2)) 3.0103002
#guard gives (db2pow (l32 10)) 10
#guard gives (mag2db (l32 2)) 6.0206003
#guard gives (db2mag (l32 10)) 3.1622777
-- src/complex/ops.rs:31-32
#guard gives (ops.abs ⟨l32 1, l32 0⟩) 1
-- src/lib.rs:38-43
#guard gives (do pure (← Cartesian.toPolar z12).mag) 2.236068
#guard gives (do pure (← Cartesian.toPolar z12).ang) 1.1071488
#guard gives (do pure (← Polar.conj (← Cartesian.toPolar z12)).mag) 2.236068
#guard gives (do pure (← Polar.conj (← Cartesian.toPolar z12)).ang) (-1.1071488)

end MixedNum.DocTests
