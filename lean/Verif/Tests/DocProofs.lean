import Verif.Lemmas.SimInst
/-!
# The examples in the documentation of the crate

No property of `properties.jsonl` rests on this file. It tests the model: the outputs stated in the documentation of the crate (which
`cargo test` compares with what the crate computes) are the outputs of the model, bit for bit, in both builds. Each of them depends on
every rounding on the way. The kernel evaluates the model.

Examples that go through `libm` or `cordic` are left out, because these crates are not modelled.
-/

namespace MixedNum.Docs
open MixedNum

/-- A decimal literal of type `f32`: the nearest float. -/
def f32 (q : ℚ) : Flt F32 := if q < 0 then Flt.neg (Flt.ofExact false (-q)) else Flt.ofExact false q

/-- A decimal literal of type `f64`. -/
def f64 (q : ℚ) : Flt F64 := if q < 0 then Flt.neg (Flt.ofExact false (-q)) else Flt.ofExact false q

/-- The program comes to an end with this budget and gives this value. -/
def ran {α : Type} [DecidableEq α] (p : Prog α) (n : ℕ) (a : α) : Bool := match p n with
  | .ok b => decide (b = a)
  | _ => false

theorem eq_of_ran {α : Type} [DecidableEq α] {p : Prog α} {n : ℕ} {a : α} (h : ran p n a = true) : p n = .ok a := by
  unfold ran at h
  split at h
  · rename_i b hb; rw [hb, of_decide_eq_true h]
  · cases h

/-- On floats. -/
theorem flt {p : Prog (Flt F32)} (h : Sim (To id) p p) {a : Flt F32} (n : ℕ) (hr : ran p n a = true) : Returns p a :=
  (h.returns_of_run (eq_of_ran hr)).1

/-- In either build, from the build with checks. -/
theorem both {p : (m : Mode) → Prog (Flt F32)} (h : Sim (To id) (p .checked) (p .wrapping)) {a : Flt F32} (n : ℕ)
    (hr : ran (p .checked) n a = true) (m : Mode) : Returns (p m) a := by
  cases m
  · exact (h.returns_of_run (eq_of_ran hr)).1
  · exact (h.returns_of_run (eq_of_ran hr)).2

variable (m : Mode)

/-- `FixedI32::<U{F}>::from_num(q)` of an `f64` literal. -/
def fix (m : Mode) (F : ℕ) (q : ℚ) : Prog (Fixed m true 32 F) := Conv.fromNum (f64 q)

/-- `x.to_num::<f32>()`. -/
def toF32 {m : Mode} {F : ℕ} (x : Fixed m true 32 F) : Prog (Flt F32) := Conv.toNum x

theorem sim_fix {F : ℕ} (q : ℚ) : Sim (To Fixed.release) (fix .checked F q) (fix .wrapping F q) :=
  Sim.Convs.fromNum (R := To id) (S := To Fixed.release) rfl

theorem sim_toF32 {F : ℕ} {x : Fixed .checked true 32 F} {y : Fixed .wrapping true 32 F} (h : To Fixed.release x y) :
    Sim (To id) (toF32 x) (toF32 y) :=
  Sim.Convs.toNum (R := To id) (S := To Fixed.release) h

/-! ### `sin`, `cos` (src/trigonometry.rs:55-65, 111-117) -/

example : Returns (sin (f32 0)) (f32 0) := flt (Sim.sin rfl) 1 (by decide +kernel)
example : Returns (sin (Flt.div (f32 3.1415) (f32 2))) (f32 1.0000035) := flt (Sim.sin rfl) 1 (by decide +kernel)
example : Returns (sin (f32 3.1415)) (f32 9.274483e-5) := flt (Sim.sin rfl) 1 (by decide +kernel)
example : Returns (cos (f32 0)) (f32 1.0000035) := flt (Sim.cos rfl) 2 (by decide +kernel)
example : Returns (cos (Flt.div (f32 3.1415) (f32 2))) (f32 4.6491623e-5) := flt (Sim.cos rfl) 2 (by decide +kernel)

/-! ### `sign`, `wrap_phase`, `powi` (src/trigonometry.rs:17-23, 159-161, 196-198) -/

example : Returns (do toF32 (← sign (← fix m 22 (-0.2)))) (f32 (-1)) :=
  both (p := fun m => do toF32 (← sign (← fix m 22 (-0.2))))
    (Sim.bind (sim_fix _) fun _ _ h => Sim.bind (Sim.sign h) fun _ _ h => sim_toF32 h) 1 (by decide +kernel) m
example : Returns (do toF32 (← sign (← fix m 22 0.2))) (f32 1) :=
  both (p := fun m => do toF32 (← sign (← fix m 22 0.2)))
    (Sim.bind (sim_fix _) fun _ _ h => Sim.bind (Sim.sign h) fun _ _ h => sim_toF32 h) 1 (by decide +kernel) m
example : Returns (do toF32 (← wrapPhase (← (Lit.ofI32 6 : Prog (Fixed m true 32 28))))) (f32 (-0.2831853)) :=
  both (p := fun m => do toF32 (← wrapPhase (← (Lit.ofI32 6 : Prog (Fixed m true 32 28)))))
    (Sim.bind (Sim.Lits.ofI32 6) fun _ _ h => Sim.bind (Sim.wrapPhase h) fun _ _ h => sim_toF32 h) 3 (by decide +kernel) m
example : Returns (do toF32 (← powi (← (Lit.ofI32 (-2) : Prog (Fixed m true 32 22))) 2)) (f32 4) :=
  both (p := fun m => do toF32 (← powi (← (Lit.ofI32 (-2) : Prog (Fixed m true 32 22))) 2))
    (Sim.bind (Sim.Lits.ofI32 (-2)) fun _ _ h => Sim.bind (Sim.powi 2 h) fun _ _ h => sim_toF32 h) 3 (by decide +kernel) m

/-! ### `niirf` (src/trigonometry/sqrt.rs:36-46) -/

theorem sim_niirf (q : ℚ) : Sim (To id) (do toF32 (← niirf (.i32 .checked) (← fix .checked 28 q) 2))
    (do toF32 (← niirf (.i32 .wrapping) (← fix .wrapping 28 q) 2)) :=
  Sim.bind (sim_fix _) fun _ _ h => Sim.bind (Sim.niirf Sim.counter 2 h) fun _ _ h => sim_toF32 h

example : Returns (do toF32 (← niirf (.i32 m) (← fix m 28 0.23) 2)) (f32 0.47960657) :=
  both (p := fun m => do toF32 (← niirf (.i32 m) (← fix m 28 0.23) 2)) (sim_niirf _) 5 (by decide +kernel) m
example : Returns (do toF32 (← niirf (.i32 m) (← fix m 28 1.6) 2)) (f32 1.2644687) :=
  both (p := fun m => do toF32 (← niirf (.i32 m) (← fix m 28 1.6) 2)) (sim_niirf _) 5 (by decide +kernel) m
example : Returns (do toF32 (← niirf (.i32 m) (← fix m 28 0) 2)) (f32 0) :=
  both (p := fun m => do toF32 (← niirf (.i32 m) (← fix m 28 0) 2)) (sim_niirf _) 5 (by decide +kernel) m

/-! ### `atan2`, `atan` (src/trigonometry/atan.rs:59-66, 181-182) -/

theorem sim_atan2 (y x : ℚ) : Sim (To id) (do toF32 (← atan2Poly (← fix .checked 28 y) (← fix .checked 28 x)))
    (do toF32 (← atan2Poly (← fix .wrapping 28 y) (← fix .wrapping 28 x))) :=
  Sim.bind (sim_fix _) fun _ _ h => Sim.bind (sim_fix _) fun _ _ h' => Sim.bind (Sim.atan2Poly h h') fun _ _ h => sim_toF32 h

example : Returns (do toF32 (← atan2Poly (← fix m 28 0.6) (← fix m 28 0.4))) (f32 0.9782037) :=
  both (p := fun m => do toF32 (← atan2Poly (← fix m 28 0.6) (← fix m 28 0.4))) (sim_atan2 _ _) 1 (by decide +kernel) m
example : Returns (do toF32 (← atan2Poly (← fix m 28 0) (← fix m 28 0.4))) (f32 0) :=
  both (p := fun m => do toF32 (← atan2Poly (← fix m 28 0) (← fix m 28 0.4))) (sim_atan2 _ _) 1 (by decide +kernel) m
example : Returns (do toF32 (← atan2Poly (← fix m 28 0) (← fix m 28 0))) (f32 0) :=
  both (p := fun m => do toF32 (← atan2Poly (← fix m 28 0) (← fix m 28 0))) (sim_atan2 _ _) 1 (by decide +kernel) m
example : Returns (do toF32 (← atanPoly (← NumOps.div (← fix m 28 0.6) (← fix m 28 0.4)))) (f32 0.9782037) :=
  both (p := fun m => do toF32 (← atanPoly (← NumOps.div (← fix m 28 0.6) (← fix m 28 0.4))))
    (Sim.bind (sim_fix _) fun _ _ h => Sim.bind (sim_fix _) fun _ _ h' => Sim.bind (Sim.Num.div h h') fun _ _ h =>
      Sim.bind (Sim.atanPoly h) fun _ _ h => sim_toF32 h) 1 (by decide +kernel) m

/-! ### Complex numbers (src/lib.rs:55-71, src/complex/cartesian_impl.rs:206-213, 270-291, 352-373, 430-454, 477-480,
src/float_impl.rs:36-39, 54-56); the text of a float is a parameter of the model, so the parts are compared -/

/-- `Cartesian::new(re, im)` of `f32` literals. -/
def c (re im : ℚ) : Cartesian (Flt F32) := ⟨f32 re, f32 im⟩

/-- Two complex floats are the same. -/
def sameC (z w : Cartesian (Flt F32)) : Bool := decide (z.re = w.re) && decide (z.im = w.im)

theorem of_sameC {z w : Cartesian (Flt F32)} (h : sameC z w = true) : z = w := by
  rcases z with ⟨a, b⟩; rcases w with ⟨x, y⟩
  unfold sameC at h
  rw [Bool.and_eq_true] at h
  obtain ⟨h1, h2⟩ := h
  have h1 : a = x := of_decide_eq_true h1
  have h2 : b = y := of_decide_eq_true h2
  rw [h1, h2]

/-- A program without loops that gives this complex number. -/
theorem cartesian {p : Prog (Cartesian (Flt F32))} {w z : Cartesian (Flt F32)} (hp : p = pure w) (h : sameC w z = true) : Returns p z := by
  rw [hp, ← of_sameC h]; exact .of_eq rfl

example : Returns (Cartesian.mul (c 1 2) (c 1 2)) (c (-3) 4) := cartesian rfl (by decide +kernel)
example : Returns (Cartesian.mulScalar (c 1 2) (f64 2)) (c 2 4) := cartesian rfl (by decide +kernel)
example : Returns (Cartesian.mulScalar (c 1 2) (f32 2)) (c 2 4) := cartesian rfl (by decide +kernel)
example : Returns (Cartesian.mulScalar (c 1 (-1)) (f32 2)) (c 2 (-2)) := cartesian rfl (by decide +kernel)
example : Returns (Cartesian.addScalar (c 1 2) (f64 2)) (c 3 2) := cartesian rfl (by decide +kernel)
example : Returns (Cartesian.addAssignScalar (c 1 2) (f64 2)) (c 3 2) := cartesian rfl (by decide +kernel)
example : Returns (Cartesian.subScalar (c 1 2) (f64 2)) (c (-1) 2) := cartesian rfl (by decide +kernel)
example : Returns (Cartesian.subAssignScalar (c 1 2) (f64 2)) (c (-1) 2) := cartesian rfl (by decide +kernel)
example : Returns (Cartesian.conj (c (-2) (-4))) (c (-2) 4) := cartesian rfl (by decide +kernel)
example : Returns (Cartesian.divScalar (c (-2) 4) (f64 2)) (c (-1) 2) :=
  cartesian (w := ⟨Flt.div (c (-2) 4).re (Flt.cast (f64 2)), Flt.div (c (-2) 4).im (Flt.cast (f64 2))⟩)
    (if_neg (by decide +kernel)) (by decide +kernel)
example : Returns (Cartesian.divAssignScalar (c (-2) 4) (f64 2)) (c (-1) 2) :=
  cartesian (w := ⟨Flt.div (c (-2) 4).re (Flt.cast (f64 2)), Flt.div (c (-2) 4).im (Flt.cast (f64 2))⟩)
    (if_neg (by decide +kernel)) (by decide +kernel)
example : Returns (Conv.toNum (f32 2) : Prog (Cartesian (Flt F64))) ⟨f64 2, f64 0⟩ := .of_eq (by
  show (pure (⟨Flt.cast (f32 2), .fin false 0⟩ : Cartesian (Flt F64)) : Prog _) = _
  rw [show (Flt.cast (f32 2) : Flt F64) = f64 2 by decide +kernel, show (.fin false 0 : Flt F64) = f64 0 by decide +kernel])
example : Returns (Conv.fromNum (c 1 0) : Prog (Flt F64)) (f64 1) := .of_eq (by
  show (pure (Flt.cast (f32 1)) : Prog (Flt F64)) = _
  rw [show (Flt.cast (f32 1) : Flt F64) = f64 1 by decide +kernel])

end MixedNum.Docs
