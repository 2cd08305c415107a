import Verif.Model.Word
import Verif.Model.Trig
/-! # Primitive integers: `src/int_impl.rs`

`PInt m s W` is the `W`-bit integer type (`s = true` signed) in build mode `m`.
The crate instantiates W ∈ {8,16,32,64,128} and `isize`/`usize`; the model is for every W. -/

namespace MixedNum

/-- The primitive integer types (src/int_impl.rs:1-182). -/
structure PInt (m : Mode) (s : Bool) (W : ℕ) extends Word s W

namespace PInt
variable {m : Mode} {s : Bool} {W : ℕ}

@[ext] theorem ext {a b : PInt m s W} (h : a.val = b.val) : a = b := by
  rcases a with ⟨⟨a, _, _⟩⟩; rcases b with ⟨⟨b, _, _⟩⟩; simp at h; subst h; rfl

/-- Equality of integers is decidable (for concrete cases). -/
instance : DecidableEq (PInt m s W) := fun a b =>
  if h : a.val = b.val then isTrue (ext h) else isFalse (fun e => h (by rw [e]))

/-- Arithmetic result in mode `m` (Rust integer overflow rules). -/
def fit (n : ℤ) : Prog (PInt m s W) := do pure ⟨← Word.fit m n⟩

/-- Operators `<`, `<=`, `==`. -/
instance : MixedCmp (PInt m s W) where
  lt a b := decide (a.val < b.val)
  le a b := decide (a.val ≤ b.val)
  beq a b := decide (a.val = b.val)

/-- `+ - * /` of Rust integers. `/` truncates toward zero and panics on zero and on `MIN / -1` in both modes. -/
instance : NumOps (PInt m s W) where
  add a b := fit (a.val + b.val)
  sub a b := fit (a.val - b.val)
  mul a b := fit (a.val * b.val)
  div a b :=
    if b.val = 0 then Prog.fail .divByZero
    else if h : Fits s W (a.val.tdiv b.val) then pure ⟨⟨_, h.1, h.2⟩⟩
    else Prog.fail .overflow

/-- Truncation toward zero of a rational (float-to-integer `as` casts). -/
def truncQ (q : ℚ) : ℤ := Int.tdiv q.num q.den

/-- `number as Self` from an `i32` (wraps) and from a finite `f64` (truncates and saturates)
(src/int_impl.rs:3-17). -/
instance : Lit (PInt m s W) where
  ofI32 n := pure ⟨Word.wrap n⟩
  ofF64 q := pure ⟨Word.saturate (truncQ q)⟩

/-- `mixed_from_num` / `mixed_to_num` between integer types: `as` casts (src/int_impl.rs:3-17). -/
instance {s' : Bool} {W' : ℕ} : Conv (PInt m s' W') (PInt m s W) where
  fromNum n := pure ⟨Word.wrap n.val⟩
  toNum n := pure ⟨Word.wrap n.val⟩

theorem zero_fits : wlo s W ≤ 0 ∧ 0 < whi s W := by
  have h1 : (0:ℤ) < 2 ^ (W - 1) := by positivity
  have h2 : (0:ℤ) < 2 ^ W := by positivity
  cases s <;> simp [wlo, whi]

/-- `0 as $T` (src/int_impl.rs:56-62). -/
instance : MixedZero (PInt m s W) where
  zero := ⟨⟨0, zero_fits.1, zero_fits.2⟩⟩

/-- `1 as $T` (src/int_impl.rs:64-70). -/
instance : MixedOne (PInt m s W) where
  one := pure ⟨Word.wrap 1⟩

/-- Unary minus; only the signed types implement `MixedNumSigned` (src/int_impl.rs:149-151). -/
instance : MixedNumSigned (PInt m true W) where
  neg a := fit (-a.val)

/-- `MixedReal` (src/int_impl.rs:76-97 unsigned, 111-132 signed). -/
instance : MixedReal (PInt m s W) where
  maxValue := pure ⟨⟨whi s W - 1, by have := wlo_lt_whi s W; omega, by omega⟩⟩
  minValue := pure ⟨⟨wlo s W, le_refl _, wlo_lt_whi s W⟩⟩
  isPositive a := if s then decide (0 < a.val) else true
  isNegative a := if s then decide (a.val < 0) else false

/-- `MixedAbs` (src/int_impl.rs:99-105 unsigned, 134-147 signed). -/
instance : MixedAbs (PInt m s W) where
  abs a := if s then (if 0 ≤ a.val then pure a else fit (-a.val)) else pure a

/-- `MixedPowi` (src/int_impl.rs:48-54). -/
instance : MixedPowi (PInt m s W) where
  powi x e := mixedPowiVia x e

end PInt
end MixedNum
