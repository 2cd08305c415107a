import Verif.Model.Assign
import Verif.Model.Atan
import Verif.Model.Complex
import Verif.Model.Db
import Verif.Model.Delegate
import Verif.Model.Derive
import Verif.Model.Fixed
import Verif.Model.Float
import Verif.Model.Fmt
import Verif.Model.PInt
import Verif.Model.Sqrt
import Verif.Model.Target
import Verif.Model.Trig
import Verif.Spec.Text
/-! # Instances of property theorems, evaluated

Used only on wrong programs (see seeded/LOG.jsonl), never as a proof. When an edit to the model breaks a helper lemma, the property
theorems above it are no longer built, so the build does not show whether their statements became false or only their proofs broke.
Each line below evaluates the statement of one property theorem at concrete arguments, with its own ranges, reductions and tolerances,
and `report` prints `FALSE` and the name of the theorem if the statement fails there. On the model as it is nothing is printed.

Run by evaluating `Falsify.report` in the edited copy. -/

open MixedNum

namespace Falsify

/-! Ranges, reductions and accuracies, independent of the model. -/
def lo (s : Bool) (W : ℕ) : ℤ := if s then -(2 ^ (W - 1)) else 0
def hi (s : Bool) (W : ℕ) : ℤ := if s then 2 ^ (W - 1) else 2 ^ W
def inr (s : Bool) (W : ℕ) (n : ℤ) : Bool := decide (lo s W ≤ n ∧ n < hi s W)
def red (s : Bool) (W : ℕ) (n : ℤ) : ℤ :=
  let r := n % 2 ^ W
  if s && decide (2 ^ (W - 1) ≤ r) then r - 2 ^ W else r
def pick {α β : Type} (v : α → β) (p : Prog α) : Out β :=
  match p 6000 with
  | .ok a => .ok (v a)
  | .panic e => .panic e
  | .timeout => .timeout
def pi' (m : Mode) (s : Bool) (W : ℕ) (n : ℤ) : PInt m s W := ⟨Word.wrap n⟩
def fx' (m : Mode) (s : Bool) (W F : ℕ) (n : ℤ) : Fixed m s W F := ⟨Word.wrap n⟩
def fl (f : Format) (q : ℚ) : Flt f := .fin (decide (q < 0)) |q|
def qf (q : ℚ) : Float := Float.ofInt q.num / Float.ofNat q.den
def near (a b tol : Float) : Bool := (a - b).abs ≤ tol
/-- What a pair of exact results has to give. -/
def want (m : Mode) (s : Bool) (W : ℕ) (a b : ℤ) : Out (ℤ × ℤ) :=
  match m with
  | .checked => if inr s W a && inr s W b then .ok (a, b) else .panic .overflow
  | .wrapping => .ok (red s W a, red s W b)
def pv {m s W} (z : Cartesian (PInt m s W)) : ℤ × ℤ := (z.re.val, z.im.val)
def fv {m s W F} (z : Cartesian (Fixed m s W F)) : ℤ × ℤ := (z.re.val, z.im.val)
def samples : List (ℤ × ℤ × ℤ × ℤ) :=
  [(3, 4, 5, -6), (-128, 0, 0, 127), (100, 1, 28, 0), (127, -128, 1, -1), (-100, 5, 27, 0), (5, -100, 7, 29), (1, 0, -128, 0), (0, 127, 0, -127)]

def addInt (m : Mode) (s : Bool) : Bool := samples.all fun (a, b, c, d) =>
  (!(inr s 8 a && inr s 8 b && inr s 8 c && inr s 8 d)) ||
  (pick pv (Cartesian.add ⟨pi' m s 8 a, pi' m s 8 b⟩ ⟨pi' m s 8 c, pi' m s 8 d⟩) == want m s 8 (a + c) (b + d))
def subInt (m : Mode) (s : Bool) : Bool := samples.all fun (a, b, c, d) =>
  (!(inr s 8 a && inr s 8 b && inr s 8 c && inr s 8 d)) ||
  (pick pv (Cartesian.sub ⟨pi' m s 8 a, pi' m s 8 b⟩ ⟨pi' m s 8 c, pi' m s 8 d⟩) == want m s 8 (a - c) (b - d))
def addFix (m : Mode) (s : Bool) : Bool := samples.all fun (a, b, c, d) =>
  (!(inr s 8 a && inr s 8 b && inr s 8 c && inr s 8 d)) ||
  (pick fv (Cartesian.add ⟨fx' m s 8 3 a, fx' m s 8 3 b⟩ ⟨fx' m s 8 3 c, fx' m s 8 3 d⟩) == want m s 8 (a + c) (b + d))
def both (p : Mode → Bool → Bool) : Bool := p .checked true && p .checked false && p .wrapping true && p .wrapping false

/-- Instance of `C01_add_int`. -/
def t1 : String × (Unit → Bool) := ("C01_add_int", fun _ => (both addInt))
/-- Instance of `C01_sub_int`. -/
def t2 : String × (Unit → Bool) := ("C01_sub_int", fun _ => (both subInt))
/-- Instance of `C01_add_fixed`. -/
def t3 : String × (Unit → Bool) := ("C01_add_fixed", fun _ => (both addFix))

/-! Unsigned extremes: the sum 255 of unsigned bytes is in range. -/
/-- Instance of `C01_add_int`. -/
def t4 : String × (Unit → Bool) := ("C01_add_int", fun _ => (pick pv (Cartesian.add ⟨pi' .checked false 8 200, pi' .checked false 8 0⟩ ⟨pi' .checked false 8 55, pi' .checked false 8 1⟩) == .ok (255, 1)))
/-- Instance of `C01_add_int`. -/
def t5 : String × (Unit → Bool) := ("C01_add_int", fun _ => (pick pv (Cartesian.add ⟨pi' .checked true 8 (-100), pi' .checked true 8 0⟩ ⟨pi' .checked true 8 (-28), pi' .checked true 8 1⟩) == .ok (-128, 1)))

/-- Instance of `C14_int`. -/
def t6 : String × (Unit → Bool) := ("C14_int", fun _ => (pick pv (Cartesian.conj ⟨pi' .checked true 8 7, pi' .checked true 8 9⟩) == .ok (7, -9) &&
  pick pv (Cartesian.conj ⟨pi' .checked true 8 7, pi' .checked true 8 (-128)⟩) == .panic .overflow &&
  pick pv (Cartesian.conj ⟨pi' .wrapping true 8 7, pi' .wrapping true 8 (-128)⟩) == .ok (7, -128)))
/-- Instance of `C14_fixed`. -/
def t7 : String × (Unit → Bool) := ("C14_fixed", fun _ => (pick fv (Cartesian.conj ⟨fx' .checked true 8 3 7, fx' .checked true 8 3 9⟩) == .ok (7, -9) &&
  pick fv (Cartesian.conj ⟨fx' .checked true 8 3 7, fx' .checked true 8 3 (-128)⟩) == .panic .overflow))
/-- Instance of `C14_fixed_min`. -/
def t8 : String × (Unit → Bool) := ("C14_fixed_min", fun _ => (pick fv (Cartesian.conj ⟨fx' .wrapping true 8 3 7, fx' .wrapping true 8 3 (-128)⟩) == .ok (7, -128)))

/-! Division. -/
def divInt (a b c : ℤ) : Out (ℤ × ℤ) :=
  let P := [a * c, b * c, a * c + b * c, c * c, c * c + c * c, b * c - a * c].all (inr true 8)
  if !P then .panic .overflow else if c = 0 then .panic .divByZero else .ok ((a + b).tdiv (2 * c), (b - a).tdiv (2 * c))
/-- Instance of `C113_int_checked`. -/
def t9 : String × (Unit → Bool) := ("C113_int_checked", fun _ => ([(7, -20, -3), (-7, 2, 1), (5, 0, 0), (60, 60, 2), (-5, 0, 2)].all fun (a, b, c) =>
  pick pv (Cartesian.div ⟨pi' .checked true 8 a, pi' .checked true 8 b⟩ ⟨pi' .checked true 8 c, pi' .checked true 8 5⟩) == divInt a b c))
/-- Instance of `C113_fixed_checked`. -/
def t10 : String × (Unit → Bool) := ("C113_fixed_checked", fun _ => (
  let ac : ℤ := -300 * 512 / 2 ^ 8
  let bc : ℤ := 71 * 512 / 2 ^ 8
  let cc : ℤ := 512 * 512 / 2 ^ 8
  pick fv (Cartesian.div ⟨fx' .checked true 16 8 (-300), fx' .checked true 16 8 71⟩ ⟨fx' .checked true 16 8 512, fx' .checked true 16 8 1⟩) ==
    .ok (((ac + bc) * 2 ^ 8).tdiv (2 * cc), ((bc - ac) * 2 ^ 8).tdiv (2 * cc)) &&
  pick fv (Cartesian.div ⟨fx' .checked true 16 8 (-300), fx' .checked true 16 8 71⟩ ⟨fx' .checked true 16 8 3, fx' .checked true 16 8 1⟩) ==
    .panic .divByZero &&
  let ac : ℤ := -3 * 19 / 2 ^ 4
  let bc : ℤ := 5 * 19 / 2 ^ 4
  let cc : ℤ := 19 * 19 / 2 ^ 4
  pick fv (Cartesian.div ⟨fx' .checked true 16 4 (-3), fx' .checked true 16 4 5⟩ ⟨fx' .checked true 16 4 19, fx' .checked true 16 4 1⟩) ==
    .ok (((ac + bc) * 2 ^ 4).tdiv (2 * cc), ((bc - ac) * 2 ^ 4).tdiv (2 * cc))))
/-- Instance of `C126_div_zero`. -/
def t11 : String × (Unit → Bool) := ("C126_div_zero", fun _ => (
  let z : Cartesian (Fixed .checked true 8 3) := ⟨fx' _ _ _ _ 5, fx' _ _ _ _ (-6)⟩
  match Cartesian.divAssignScalarM (pi' .checked true 16 0) z 100 with
  | (.panic .divByZero, v) => v.re.val == 127 && v.im.val == 127
  | _ => false))

/-! Powers. -/
/-- Instance of `C26_panics`. -/
def t12 : String × (Unit → Bool) := ("C26_panics", fun _ => (pick (·.val) (MixedPowi.powi (pi' .checked true 8 2) (-3)) == .panic .overflow &&
  pick (·.val) (MixedPowi.powi (pi' .checked true 8 (-3)) (-1)) == .panic .overflow))
/-- Instance of `C25_zero_exponent`. -/
def t13 : String × (Unit → Bool) := ("C25_zero_exponent", fun _ => (pick (·.val) (MixedPowi.powi (pi' .checked true 8 7) 0) == .ok 1))
/-- Instance of `C25_int_powi`. -/
def t14 : String × (Unit → Bool) := ("C25_int_powi", fun _ => (pick (·.val) (MixedPowi.powi (pi' .checked true 16 (-7)) 3) == .ok (-343)))

/-! Constants and conversions. -/
def fout {f : Format} (p : Prog (Flt f)) : Out (Flt f) := p 6000
/-- Instance of `C57_fixed`. -/
def t15 : String × (Unit → Bool) := ("C57_fixed", fun _ => (pick (·.val) (do NumOps.mul (fx' .checked true 16 8 77) (← MixedOne.one)) == .ok 77 &&
  pick (·.val) (NumOps.add (fx' .checked true 16 8 77) MixedZero.zero) == .ok 77))
/-- Instance of `C57_int`. -/
def t16 : String × (Unit → Bool) := ("C57_int", fun _ => (pick (·.val) (do NumOps.mul (pi' .checked true 16 77) (← MixedOne.one)) == .ok 77 &&
  pick (·.val) (NumOps.add (pi' .checked true 16 77) MixedZero.zero) == .ok 77))
/-- Instance of `C58_pi`. -/
def t17 : String × (Unit → Bool) := ("C58_pi", fun _ => (match (MixedPi.pi : Prog (Fixed .checked true 64 40)) 10 with
  | .ok a => near (Float.ofInt a.val / Float.ofInt (2 ^ 40)) 3.141592653589793 1e-9
  | _ => false))
/-- Instance of `C94_pi_f64`. -/
def t18 : String × (Unit → Bool) := ("C94_pi_f64", fun _ => (fout (MixedPi.pi : Prog (Flt F64)) == .ok (.fin false (884279719003555 / 281474976710656))))
/-- Instance of `C94_pi_f32`. -/
def t19 : String × (Unit → Bool) := ("C94_pi_f32", fun _ => (fout (MixedPi.pi : Prog (Flt F32)) == .ok (.fin false (13176795 / 4194304))))
/-- Instance of `C67_special`. -/
def t20 : String × (Unit → Bool) := ("C67_special", fun _ => (pick (·.val) (Conv.toNum (Flt.nan : Flt F32) : Prog (PInt .checked true 8)) == .ok 0))
/-- Instance of `C67_truncates`. -/
def t21 : String × (Unit → Bool) := ("C67_truncates", fun _ => (pick (·.val) (Conv.toNum (fl F32 (-7 / 2)) : Prog (PInt .checked true 8)) == .ok (-3) &&
  pick (·.val) (Conv.toNum (fl F32 300) : Prog (PInt .checked true 8)) == .ok 127 &&
  pick (·.val) (Conv.toNum (fl F32 (-300)) : Prog (PInt .checked true 8)) == .ok (-128) &&
  pick (·.val) (Conv.toNum (fl F32 (-3)) : Prog (PInt .checked false 8)) == .ok 0))
/-- Instance of `C68_nearest`. -/
def t22 : String × (Unit → Bool) := ("C68_nearest", fun _ => ([((7 : ℚ) / 16, (2 : ℤ)), (-7 / 16, -2), (3 / 8, 2), (1 / 8, 0), (5 / 8, 2), (-3 / 8, -2)].all fun (q, n) =>
  pick (·.val) (Conv.fromNum (fl F32 q) : Prog (Fixed .checked true 8 2)) == .ok n))
/-- Instance of `C69_int`. -/
def t23 : String × (Unit → Bool) := ("C69_int", fun _ => (pick (·.val) (MixedReal.minValue : Prog (PInt .checked true 8)) == .ok (-128) &&
  pick (·.val) (MixedReal.maxValue : Prog (PInt .checked true 8)) == .ok 127 &&
  pick (·.val) (MixedReal.maxValue : Prog (PInt .checked false 8)) == .ok 255))
/-- Instance of `C69_fixed`. -/
def t24 : String × (Unit → Bool) := ("C69_fixed", fun _ => (pick (·.val) (MixedReal.minValue : Prog (Fixed .checked true 8 3)) == .ok (-128) &&
  pick (·.val) (MixedReal.maxValue : Prog (Fixed .checked false 8 3)) == .ok 255))
/-- Instance of `C109_constants_float`. -/
def t25 : String × (Unit → Bool) := ("C109_constants_float", fun _ => (match (MixedOne.one : Prog (Polar (Flt F32))) 10 with
  | .ok o => o.mag == .fin false 1 && o.ang == .fin false 0 && (MixedZero.zero : Polar (Flt F32)).mag == .fin false 0
  | _ => false))
/-- Instance of `C109_scale_fixed`. -/
def t26 : String × (Unit → Bool) := ("C109_scale_fixed", fun _ => (pick (·.val) (NumOps.mul (fx' .checked true 16 8 (-3)) (fx' .checked true 16 8 5)) == .ok (-1)))
/-- Instance of `C117_default`. -/
def t27 : String × (Unit → Bool) := ("C117_default", fun _ => ((RustDefault.default : Polar (PInt .checked true 8)).mag.val == 0 && (RustDefault.default : Polar (PInt .checked true 8)).ang.val == 0))

/-! Floats: rounding. -/
/-- Instance of `C82_add`. -/
def t28 : String × (Unit → Bool) := ("C82_add", fun _ => (match (Cartesian.add ⟨fl F32 1, fl F32 1⟩ ⟨fl F32 (1 / 2 ^ 24), fl F32 (3 / 2 ^ 24)⟩ : Prog (Cartesian (Flt F32))) 10 with
  | .ok c => c.re.val == 1 && c.im.val == 1 + 4 / 2 ^ 24
  | _ => false))
/-- Instance of `C82_scalar`. -/
def t29 : String × (Unit → Bool) := ("C82_scalar", fun _ => (match (Cartesian.mulScalar ⟨fl F32 (3 / 2 ^ 149), fl F32 (2 ^ 127)⟩ (fl F32 (1 / 2)) : Prog (Cartesian (Flt F32))) 10 with
  | .ok c => c.re.val == 2 / 2 ^ 149 && c.im.val == 2 ^ 126
  | _ => false))
/-- Instance of `C82_scalar`. -/
def t30 : String × (Unit → Bool) := ("C82_scalar", fun _ => (match (Cartesian.mulScalar ⟨fl F32 (2 ^ 127), fl F32 (-2 ^ 127)⟩ (fl F32 4) : Prog (Cartesian (Flt F32))) 10 with
  | .ok c => c.re == .inf false && c.im == .inf true
  | _ => false))
/-- Instance of `C82_scalar`. -/
def t31 : String × (Unit → Bool) := ("C82_scalar", fun _ => (match (Cartesian.addScalar ⟨fl F32 0, fl F32 1⟩ (fl F64 (1 / 3 + 1 / 2 ^ 30)) : Prog (Cartesian (Flt F32))) 10 with
  | .ok c => (c.re.val * 2 ^ 25).den == 1
  | _ => false))
/-- Instance of `C83_whole`. -/
def t32 : String × (Unit → Bool) := ("C83_whole", fun _ => (match (Cartesian.mul ⟨fl F32 3, fl F32 (-4)⟩ ⟨fl F32 (-5), fl F32 6⟩ : Prog (Cartesian (Flt F32))) 10 with
  | .ok c => c.re.val == -15 + 24 && c.im.val == 18 + 20
  | _ => false))
/-- Instance of `C81_whole`. -/
def t33 : String × (Unit → Bool) := ("C81_whole", fun _ => ([(3, 5), (-2, 7), (5, 4), (2, 11), (3, 1), (-3, 6), (2, 20)].all fun ((k, n) : ℤ × ℕ) =>
  match (MixedPowi.powi (fl F32 k) (n : ℤ)) 10 with
  | .ok z => z.val == (k : ℚ) ^ n
  | _ => false))
/-- Instance of `C93_abs`. -/
def t34 : String × (Unit → Bool) := ("C93_abs", fun _ => (fout (MixedAbs.abs (.fin true 3 : Flt F32)) == .ok (.fin false 3) && fout (MixedAbs.abs (.fin true 0 : Flt F32)) == .ok (.fin false 0) &&
  fout (MixedAbs.abs (.inf true : Flt F32)) == .ok (.inf false)))
/-- Instance of `C93_neg`. -/
def t35 : String × (Unit → Bool) := ("C93_neg", fun _ => (fout (MixedNumSigned.neg (.fin false 0 : Flt F32)) == .ok (.fin true 0) && fout (MixedNumSigned.neg (.inf true : Flt F32)) == .ok (.inf false)))
/-- Instance of `C95_nan`. -/
def t36 : String × (Unit → Bool) := ("C95_nan", fun _ => (!MixedCmp.le (.nan : Flt F32) (fl F32 1) && !MixedCmp.le (fl F32 1) (.nan : Flt F32) && !MixedCmp.lt (.inf true : Flt F32) (.inf true)))
/-- Instance of `C168_ops_partial`. -/
def t37 : String × (Unit → Bool) := ("C168_ops_partial", fun _ => ((Flt.inf true : Flt F32).add (.inf false) == .nan && (Flt.inf true : Flt F32).add (.inf true) != .nan))
/-- Instance of `C178_times_infinity`. -/
def t38 : String × (Unit → Bool) := ("C178_times_infinity", fun _ => (match (Cartesian.mulScalar ⟨fl F32 (-3), .inf true⟩ (.inf true : Flt F64) : Prog (Cartesian (Flt F32))) 10 with
  | .ok c => c.re == .inf false && c.im == .inf false
  | _ => false))
/-- Instance of `C178_infinite_part`. -/
def t39 : String × (Unit → Bool) := ("C178_infinite_part", fun _ => (match (Cartesian.divScalar ⟨.inf false, .inf true⟩ (fl F64 (-2)) : Prog (Cartesian (Flt F32))) 10 with
  | .ok c => c.re == .inf true && c.im == .inf false
  | _ => false))
/-- Instance of `C178_conj`. -/
def t40 : String × (Unit → Bool) := ("C178_conj", fun _ => (match (Cartesian.conj ⟨fl F32 1, .inf false⟩ : Prog (Cartesian (Flt F32))) 10 with
  | .ok c => c.im == .inf true
  | _ => false))

/-! Square root. -/
def rootFix (n : ℤ) : Bool := match (MixedSqrt.sqrt (fx' .checked true 32 16 n)) 6000 with
  | .ok z =>
    let e := (Float.ofInt n.natAbs / 65536).sqrt
    near (Float.ofInt z.val / 65536) e ((1 / 1000 + 12 / 65536) * e + 4 / 65536)
  | _ => false
/-- Instance of `C49_accuracy`. -/
def t41 : String × (Unit → Bool) := ("C49_accuracy", fun _ => ([1, 7, 100, 16384, 20000, 30000, 40000, 45000, 50000, 60000, 65535, 65536, 65537, 262144, 1000000, 2 ^ 31 - 1].all rootFix))
/-- Instance of `C49_negative`. -/
def t42 : String × (Unit → Bool) := ("C49_negative", fun _ => ([-1, -70000, -(2 ^ 31) + 1].all rootFix))
def rootFlt (q : ℚ) : Bool := match (niirf (.i32 .checked) (fl F32 q) 2) 6000 with
  | .ok z => let e := (qf |q|).sqrt; near (qf z.val) e (0.000996 * e)
  | _ => false
/-- Instance of `C70_f32`. -/
def t43 : String × (Unit → Bool) := ("C70_f32", fun _ => ((List.range 49).all fun k => rootFlt ((k + 16 : ℚ) / 64)))
/-- Instance of `C70_f32`. -/
def t44 : String × (Unit → Bool) := ("C70_f32", fun _ => ([1, 4, -9, 100, 1 / 1024, 2 ^ 40, -(1 / 2 ^ 60)].all rootFlt))
/-- Instance of `C71_nan_partial`. -/
def t45 : String × (Unit → Bool) := ("C71_nan_partial", fun _ => (fout (niirf (.i32 .checked) (.nan : Flt F32) 2) == .ok .nan))
/-- Instance of `C70_accuracy`. -/
def t46 : String × (Unit → Bool) := ("C70_accuracy", fun _ => ((List.range 49).all fun k => match (niirf (.i32 .checked) (fl F32 ((k + 16 : ℚ) / 64)) 3) 6000 with
  | .ok z => let e := (qf ((k + 16 : ℚ) / 64)).sqrt; near (qf z.val) e ((0.000995 / 10 + 0.000001) * e)
  | _ => false))
/-- Instance of `C159_counterexample_sqrt`. -/
def t47 : String × (Unit → Bool) := ("C159_counterexample_sqrt", fun _ => (fout (niirf (.i32 .checked) (.fin false 1 : Flt F64) 2) == .ok (.fin false (563373247057445 / 562949953421312)) &&
  pick (·.val) (MixedSqrt.sqrt (fx' .checked true 32 16 65536)) == .ok 65586))

/-! Sine, phases, arctangent. -/
/-- Instance of `C76_f32`. -/
def t48 : String × (Unit → Bool) := ("C76_f32", fun _ => ((List.range 38).all fun k =>
  let q : ℚ := (k : ℚ) / 4 - 37 / 8
  match (sin (fl F32 q)) 6000 with
  | .ok z => near (qf z.val) (qf q).sin 4.41e-6
  | _ => false))
/-- Instance of `C30_wrap_fixed`. -/
def t49 : String × (Unit → Bool) := ("C30_wrap_fixed", fun _ => ([0, 3, 2573, 2574, 2575, -2573, -2574, -2575, 20000, -20000].all fun n =>
  match (MixedPi.pi : Prog (Fixed .checked true 16 8)) 10 with
  | .ok p => [n, p.val, -p.val, 3 * p.val, -3 * p.val].all fun n => match (wrapPhase (fx' .checked true 16 8 n)) 6000 with
    | .ok r => decide (-p.val ≤ r.val) && decide (r.val < p.val) && decide ((r.val - n) % (2 * p.val) = 0)
    | _ => false
  | _ => false))
def arg (y x : ℚ) : Float := Float.atan2 (qf y) (qf x)
def pts : List (ℚ × ℚ) := [(1, 3), (3, 1), (3, -1), (1, -3), (-1, 3), (-3, 1), (-3, -1), (-1, -3), (1 / 2, 2 / 3), (5, -7), (-7, 5), (2, 2), (2, -2), (-2, 2), (-2, -2)]
/-- Instance of `C79_f32`. -/
def t50 : String × (Unit → Bool) := ("C79_f32", fun _ => (pts.all fun (y, x) => match (atan2Poly (Flt.ofExact false y : Flt F32) (Flt.ofExact false x)) 100 with
  | .ok z => near (qf z.val) (arg y x) 0.00492
  | _ => false))
/-- Instance of `C79_f32`. -/
def t51 : String × (Unit → Bool) := ("C79_f32", fun _ => ([(0, 1), (0, -1), (1, 0), (-1, 0)].all fun ((y, x) : ℚ × ℚ) => match (atan2Poly (fl F32 y) (fl F32 x)) 100 with
  | .ok z => near (qf z.val) (arg y x) 0.00492
  | _ => false))
/-- Instance of `C65_accuracy`. -/
def t52 : String × (Unit → Bool) := ("C65_accuracy", fun _ => ([(1, 3), (3, 1), (3, -1), (1, -3), (-1, 3), (-3, 1), (-3, -1), (-1, -3), (2, 2), (-2, 2)].all fun ((y, x) : ℤ × ℤ) =>
  match (atan2Poly (fx' .checked true 32 16 (y * 65536)) (fx' .checked true 32 16 (x * 65536))) 100 with
  | .ok z => near (Float.ofInt z.val / 65536) (arg y x) (0.00492 + (3 + 7 / (Float.ofInt (max x.natAbs y.natAbs)) ^ 2) / 65536)
  | _ => false))
/-- Instance of `C65_axes`. -/
def t53 : String × (Unit → Bool) := ("C65_axes", fun _ => ([(0, 3), (0, -3), (3, 0), (-3, 0)].all fun ((y, x) : ℤ × ℤ) =>
  match (atan2Poly (fx' .checked true 32 16 (y * 65536)) (fx' .checked true 32 16 (x * 65536))) 100 with
  | .ok z => near (Float.ofInt z.val / 65536) (arg y x) (1 / 65536 + 1e-9)
  | _ => false))
/-- C147 on fixed point: the diagonals, seen from one another by mirror and half turn. -/
def at2 (y x : ℤ) : ℤ := match (atan2Poly (fx' .checked true 32 16 (y * 65536)) (fx' .checked true 32 16 (x * 65536))) 100 with
  | .ok z => z.val
  | _ => 0
def piRaw : ℤ := match (MixedPi.pi : Prog (Fixed .checked true 32 16)) 10 with
  | .ok p => p.val
  | _ => 0
/-- Instance of `C147_diagonal`. -/
def t54 : String × (Unit → Bool) := ("C147_diagonal", fun _ => (near (Float.ofInt (at2 1 1) / 65536) (3.141592653589793 / 2 - 32 / 41) 0.0005))
/-- Instance of `C147_mirror_fixed`. -/
def t55 : String × (Unit → Bool) := ("C147_mirror_fixed", fun _ => ([(1, 1), (1, 3), (3, 1)].all fun ((y, x) : ℤ × ℤ) => decide (|at2 y (-x) - (piRaw - at2 y x)| ≤ 4)))
/-- Instance of `C147_half_turn_fixed`. -/
def t56 : String × (Unit → Bool) := ("C147_half_turn_fixed", fun _ => ([(1, 1), (1, 3), (3, 1), (1, -1)].all fun ((y, x) : ℤ × ℤ) => decide (|at2 (-y) (-x) - (at2 y x - piRaw)| ≤ 4)))

/-! Comparison of polar numbers. -/
def pp (a b : ℤ) : Polar (PInt .checked true 8) := ⟨pi' _ _ _ a, pi' _ _ _ b⟩
/-- Instance of `C64_order`. -/
def t57 : String × (Unit → Bool) := ("C64_order", fun _ => (!MixedCmp.beq (pp 1 2) (pp 1 3) && MixedCmp.lt (pp 1 5) (pp 2 3) && MixedCmp.lt (pp 1 2) (pp 1 3) && !MixedCmp.lt (pp 2 3) (pp 1 5)))

/-! Assigning operators. -/
def cp (a b : ℤ) : Cartesian (PInt .checked true 8) := ⟨pi' _ _ _ a, pi' _ _ _ b⟩
def left {α : Type} (r : Out Unit × Cartesian (PInt .checked true 8)) (_ : α) : Option Panic × ℤ × ℤ :=
  (match r.1 with | .panic e => some e | _ => none, r.2.re.val, r.2.im.val)
/-- Instance of `C126_add_int`. -/
def t58 : String × (Unit → Bool) := ("C126_add_int", fun _ => (left (Cartesian.addAssignM (pi' _ _ _ 20) (pi' _ _ _ 20) (cp 100 0) 100) () == (some .overflow, 120, 0) &&
  left (Cartesian.addAssignM (pi' _ _ _ 20) (pi' _ _ _ (-30)) (cp 100 50) 100) () == (none, 120, 90) &&
  left (Cartesian.addAssignM (pi' _ _ _ 50) (pi' _ _ _ 20) (cp 100 7) 100) () == (some .overflow, 100, 7)))
def cp16 (a b : ℤ) : Cartesian (PInt .checked true 16) := ⟨pi' _ _ _ a, pi' _ _ _ b⟩
/-- Instance of `C126_counterexample`. -/
def t59 : String × (Unit → Bool) := ("C126_counterexample", fun _ => (left (Cartesian.subAssignM (pi' _ _ _ 20) (pi' _ _ _ 20) (cp (-100) 0) 100) () == (some .overflow, -120, 0) &&
  (let r := Cartesian.divAssignM (pi' .checked true 16 100) (cp16 (-300) 300) 100
   (match r.1 with | .panic .overflow => true | _ => false) && r.2.re.val == 0 && r.2.im.val == 300)))
/-- Instance of `C126_value`. -/
def t60 : String × (Unit → Bool) := ("C126_value", fun _ => (pick pv (Mut.run (Cartesian.divAssignM (pi' .checked true 16 7)) (cp16 (-30) 41)) ==
  pick pv ((cp16 (-30) 41).divAssign (cp16 7 3)) &&
  pick pv (Mut.run (Cartesian.subAssignM (pi' _ _ _ 7) (pi' _ _ _ 3)) (cp 30 41)) == pick pv ((cp 30 41).subAssign (cp 7 3))))

/-! Text. -/
def text (p : Prog (List Char)) : String := match p 100 with
  | .ok t => String.ofList t
  | _ => "?"
def ren (x : Option ℕ) (n : PInt .checked true 8) : List Char := (toString n.val ++ (match x with | some k => "." ++ toString k | none => "")).toList
/-- Instance of `C61_layout`. -/
def t61 : String × (Unit → Bool) := ("C61_layout", fun _ => ([(3, 4), (-3, 4), (3, -4), (-3, -4), (0, 0)].all fun ((a, b) : ℤ × ℤ) => [true, false].all fun plus => [true, false].all fun alt =>
  text (writeComplex false { signPlus := plus, alternate := alt, precision := some 2 } "0q".toList ren (cp a b)) ==
    layout plus (decide (a < 0)) (decide (b < 0)) (if alt then "0q" else "") (toString a.natAbs ++ ".2") (toString b.natAbs ++ ".2")))
/-- Instance of `C61_layout`. -/
def t62 : String × (Unit → Bool) := ("C61_layout", fun _ => (text (writeComplex true { width := some 8 } [] ren (cp 3 4)) == "    3+4i" &&
  text (writeComplex true { width := some 2 } [] ren (cp 3 4)) == "3+4i"))
/-- Instance of `C60_checked`. -/
def t63 : String × (Unit → Bool) := ("C60_checked", fun _ => ([(3, 4), (-3, 4), (3, -4), (-30, -41), (0, 0)].all fun ((a, b) : ℤ × ℤ) =>
  readCartesian (text (displayInt (cp a b))).toList == some (a, b)))
/-- Instance of `C66_reads`. -/
def t64 : String × (Unit → Bool) := ("C66_reads", fun _ => ([(3, 4), (-3, 4), (-128, -41)].all fun ((a, b) : ℤ × ℤ) => readPolar (polarDisplay (decimal none) (pp a b)) == some (a, b)))
/-- Instance of `C116_formats`. -/
def t65 : String × (Unit → Bool) := ("C116_formats", fun _ => ([(31, 90), (-31, 90), (0, -127), (8, 0)].all fun ((a, b) : ℤ × ℤ) => [true, false].all fun alt =>
  let t r := text (displayRadix r true { alternate := alt } (cp a b))
  let pre (x : String) := if alt then x.toList else []
  readRadix 16 (pre "0x") (t .lowerHex).toList == some (a, b) && readRadix 16 (pre "0x") (t .upperHex).toList == some (a, b) &&
  readRadix 8 (pre "0o") (t .octal).toList == some (a, b) && readRadix 2 (pre "0b") (t .binary).toList == some (a, b) &&
  (t .upperHex).toList.all (fun c => !c.isLower || c == 'x' || c == 'i') && (t .lowerHex).toList.all (fun c => !c.isUpper)))
/-- Instance of `C117_pretty`. -/
def t66 : String × (Unit → Bool) := ("C117_pretty", fun _ => (String.ofList (debugCartesian true (decimal none) (cp 3 (-4))) == "Cartesian {\n    re: 3,\n    im: -4,\n}" &&
  String.ofList (debugPolar true (decimal none) (pp 3 (-4))) == "Polar {\n    mag: 3,\n    ang: -4,\n}"))

/-! Division by a number, constants. -/
/-- Instance of `C13_overflow_iff`. -/
def t67 : String × (Unit → Bool) := ("C13_overflow_iff", fun _ => [(-128, 0), (0, -128), (-127, 3)].all fun ((a, b) : ℤ × ℤ) =>
  let want (m : Mode) := pick pv (Cartesian.divScalar ⟨pi' m true 8 a, pi' m true 8 b⟩ (pi' m true 16 (-1))) ==
    (if a = -128 ∨ b = -128 then .panic .overflow else .ok (-a, -b))
  want .checked && want .wrapping)
/-- Instance of `C22_int_nonzero`. -/
def t68 : String × (Unit → Bool) := ("C22_int_nonzero", fun _ => [.checked, .wrapping].all fun m =>
  pick (fun p => (p.mag.val, p.ang.val)) (Polar.divScalar ⟨pi' m true 8 (-128), pi' m true 8 3⟩ (pi' m true 8 (-1))) == .panic .overflow &&
  pick (fun p => (p.mag.val, p.ang.val)) (Polar.divScalar ⟨pi' m true 8 (-7), pi' m true 8 3⟩ (pi' m true 8 2)) == .ok (-3, 3))
/-- Instance of `C179_f64_fixed`. -/
def t69 : String × (Unit → Bool) := ("C179_f64_fixed", fun _ => [(1 : ℚ) / 2, 3 / 8, 5 / 8, -3 / 8, 7 / 16].all fun q =>
  pick (·.val) (Lit.ofF64 q : Prog (Fixed .checked true 8 2)) == pick (·.val) (Conv.fromNum (fl F64 q) : Prog (Fixed .checked true 8 2)))
/-- Instance of `C179_i32_int`. -/
def t70 : String × (Unit → Bool) := ("C179_i32_int", fun _ => [(3 : ℤ), 300, -129].all fun n =>
  pick (·.val) (Lit.ofI32 n : Prog (PInt .checked true 8)) == pick (·.val) (Conv.fromNum (pi' .checked true 32 n) : Prog (PInt .checked true 8)))
/-- Instance of `C179_f64_int`. -/
def t71 : String × (Unit → Bool) := ("C179_f64_int", fun _ => [(7 : ℚ) / 2, 300, -300].all fun q =>
  pick (·.val) (Lit.ofF64 q : Prog (PInt .checked true 8)) == pick (·.val) (Conv.fromNum (fl F64 q) : Prog (PInt .checked true 8)))
/-- Instance of `C179_f64_float`. -/
def t72 : String × (Unit → Bool) := ("C179_f64_float", fun _ => [f64Round 0.354167, f64Round 0.961914, 2 ^ 200, -3].all fun q =>
  fout (Lit.ofF64 q : Prog (Flt F32)) == fout (Conv.fromNum (fl F64 q) : Prog (Flt F32)))

/-- Instance of `C179_i32_float`. -/
def t73 : String × (Unit → Bool) := ("C179_i32_float", fun _ => [(3 : ℤ), -1, 362880, 2 ^ 25 + 1].all fun n =>
  fout (Lit.ofI32 n : Prog (Flt F32)) == fout (Conv.fromNum (pi' .checked true 32 n) : Prog (Flt F32)))
/-- Instance of `C179_i32_fixed`. -/
def t74 : String × (Unit → Bool) := ("C179_i32_fixed", fun _ => [(3 : ℤ), -1, 6, 120, -200].all fun n => [.checked, .wrapping].all fun m =>
  pick (·.val) (Lit.ofI32 n : Prog (Fixed m true 8 4)) == pick (·.val) (Conv.fromNum (pi' m true 32 n) : Prog (Fixed m true 8 4)))

/-! Products, comparisons, signs, cosine. -/
/-- Instance of `C01_sub_fixed`. -/
def t75 : String × (Unit → Bool) := ("C01_sub_fixed", fun _ => both fun m s => samples.all fun (a, b, c, d) =>
  (!(inr s 8 a && inr s 8 b && inr s 8 c && inr s 8 d)) ||
  (pick fv (Cartesian.sub ⟨fx' m s 8 3 a, fx' m s 8 3 b⟩ ⟨fx' m s 8 3 c, fx' m s 8 3 d⟩) == want m s 8 (a - c) (b - d)))
/-- Instance of `C02_checked_exact`. -/
def t76 : String × (Unit → Bool) := ("C02_checked_exact", fun _ => [(3, 4, 5, -6), (100, 0, 100, 0), (-7, 11, 3, 2), (1, 0, -128, 0)].all fun ((a, b, c, d) : ℤ × ℤ × ℤ × ℤ) =>
  match pick pv (Cartesian.mul ⟨pi' .checked true 8 a, pi' .checked true 8 b⟩ ⟨pi' .checked true 8 c, pi' .checked true 8 d⟩) with
  | .ok r => r == (a * c - b * d, a * d + b * c)
  | _ => true)
/-- Instance of `C02_wrapping`. -/
def t77 : String × (Unit → Bool) := ("C02_wrapping", fun _ => samples.all fun (a, b, c, d) =>
  pick pv (Cartesian.mul ⟨pi' .wrapping true 8 a, pi' .wrapping true 8 b⟩ ⟨pi' .wrapping true 8 c, pi' .wrapping true 8 d⟩) ==
    .ok (red true 8 (a * c - b * d), red true 8 (a * d + b * c)))
/-- Instance of `C28_abs_fixed`. -/
def t78 : String × (Unit → Bool) := ("C28_abs_fixed", fun _ => pick (·.val) (MixedAbs.abs (fx' .checked true 8 3 (-128))) == .panic .overflow &&
  pick (·.val) (MixedAbs.abs (fx' .wrapping true 8 3 (-128))) == .ok (-128) && pick (·.val) (MixedAbs.abs (fx' .checked true 8 3 (-5))) == .ok 5)
/-- Instance of `C29_unsigned`. -/
def t79 : String × (Unit → Bool) := ("C29_unsigned", fun _ => MixedReal.isPositive (pi' .checked false 8 0) && MixedReal.isPositive (fx' .checked false 8 3 0))
/-- Instance of `C95_nan`. -/
def t80 : String × (Unit → Bool) := ("C95_nan", fun _ => !MixedCmp.beq (.nan : Flt F32) (.nan : Flt F32) && !MixedCmp.beq (.nan : Flt F32) (fl F32 1))
/-- Instance of `C64_components`. -/
def t81 : String × (Unit → Bool) := ("C64_components", fun _ => [(3, 3), (3, -3), (-3, 3), (-4, 100), (0, 0)].all fun ((a, b) : ℤ × ℤ) =>
  (MixedCmp.lt (pi' .checked true 8 a) (pi' .checked true 8 b) == decide (a < b)) && (MixedCmp.le (pi' .checked true 8 a) (pi' .checked true 8 b) == decide (a ≤ b)) &&
  (MixedCmp.beq (pi' .checked true 8 a) (pi' .checked true 8 b) == decide (a = b)) && (MixedCmp.lt (fx' .checked true 8 2 a) (fx' .checked true 8 2 b) == decide (a < b)) &&
  (MixedCmp.le (fx' .checked true 8 2 a) (fx' .checked true 8 2 b) == decide (a ≤ b)) && (MixedCmp.beq (fx' .checked true 8 2 a) (fx' .checked true 8 2 b) == decide (a = b)))
/-- Instance of `C159_counterexample_cos`. -/
def t82 : String × (Unit → Bool) := ("C159_counterexample_cos", fun _ => fout (cos (.fin false 0 : Flt F32)) == .ok (.fin false (8388637 / 8388608)) &&
  pick (·.val) (cos (fx' .checked true 32 10 0)) == .ok 1025)
/-- Instance of `C77_f32`. -/
def t83 : String × (Unit → Bool) := ("C77_f32", fun _ => [(-3 : ℚ), -2, -1 / 2, 1 / 4, 1, 5 / 2, 3].all fun q => match (cos (fl F32 q)) 6000 with
  | .ok z => near (qf z.val) (qf q).cos 5.9e-6
  | _ => false)
/-- Instance of `C27_sign_int`. -/
def t84 : String × (Unit → Bool) := ("C27_sign_int", fun _ => pick (·.val) (sign (pi' .checked true 8 5)) == .ok 1 && pick (·.val) (sign (pi' .checked true 8 (-5))) == .ok (-1))

def instances : List (String × (Unit → Bool)) :=
  [t1, t2, t3, t4, t5, t6, t7, t8, t9, t10, t11, t12, t13, t14, t15, t16, t17, t18, t19, t20, t21, t22, t23, t24, t25, t26, t27, t28, t29, t30, t31, t32, t33, t34, t35, t36, t37, t38, t39, t40, t41, t42, t43, t44, t45, t46, t47, t48, t49, t50, t51, t52, t53, t54, t55, t56, t57, t58, t59, t60, t61, t62, t63, t64, t65, t66, t67, t68, t69, t70, t71, t72, t73, t74,
   t75, t76, t77, t78, t79, t80, t81, t82, t83, t84]

/-- The theorems with an instance that fails. -/
def report : IO Unit := do
  for (name, b) in instances do
    unless b () do IO.println ("FALSE " ++ name)

end Falsify
