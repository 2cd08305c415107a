import Verif.Model.Word
import Verif.Model.Complex
import Verif.Model.Sqrt
/-! # Fixed-point numbers: `src/fixed_impl.rs` over the `fixed` crate

`Fixed m s W F` is `FixedI{W}<U{F}>` (`s = true`) or `FixedU{W}<U{F}>` in build mode `m`; the value is `val / 2^F`.
The crate instantiates W ∈ {8,16,32,64} and 0 ≤ F ≤ W-3 (src/fixed_impl.rs:329-586); the model is for every W, F.
Arithmetic follows the `fixed` crate (1.x) documentation; see DESIGN.md, trusted base. -/

namespace MixedNum

/-- `FixedI8<F>` to `FixedI64<F>` and `FixedU8<F>` to `FixedU64<F>` (src/fixed_impl.rs:329-586). -/
structure Fixed (m : Mode) (s : Bool) (W F : ℕ) extends Word s W

namespace Fixed
variable {m : Mode} {s : Bool} {W F : ℕ}

@[ext] theorem ext {a b : Fixed m s W F} (h : a.val = b.val) : a = b := by
  rcases a with ⟨⟨a, _, _⟩⟩; rcases b with ⟨⟨b, _, _⟩⟩; simp at h; subst h; rfl

/-- Equality of numbers is decidable (for concrete cases). -/
instance : DecidableEq (Fixed m s W F) := fun a b =>
  if h : a.val = b.val then isTrue (ext h) else isFalse (fun e => h (by rw [e]))

/-- The number with bit pattern `n`, if it fits; otherwise panic or wrap according to the mode. -/
def fit (n : ℤ) : Prog (Fixed m s W F) := do pure ⟨← Word.fit m n⟩

/-- The rational value. -/
def toRat (x : Fixed m s W F) : ℚ := x.val / 2 ^ F

/-- `PartialOrd`, `PartialEq` of the `fixed` crate: comparison of the values (used in src/trigonometry.rs:72-86). -/
instance : MixedCmp (Fixed m s W F) where
  lt a b := decide (a.val < b.val)
  le a b := decide (a.val ≤ b.val)
  beq a b := decide (a.val = b.val)

/-- `+ - * /` of the `fixed` crate: `*` rounds toward minus infinity, `/` toward zero and always panics on zero. -/
instance : NumOps (Fixed m s W F) where
  add a b := fit (a.val + b.val)
  sub a b := fit (a.val - b.val)
  mul a b := fit (a.val * b.val / 2 ^ F)
  div a b := if b.val = 0 then Prog.fail .divByZero else fit ((a.val * 2 ^ F).tdiv b.val)

/-- `from_num` of an `i32` (exact shift) and of a finite `f64` (round to nearest, ties to even)
(src/fixed_impl.rs:6-16). -/
instance : Lit (Fixed m s W F) where
  ofI32 n := fit (n * 2 ^ F)
  ofF64 q := fit (roundHalfEven (q * 2 ^ F))

/-- `from_num` of a `usize` (used by complex `powi`). -/
instance : FromUsize (Fixed m s W F) where
  ofUsize n := fit (n * 2 ^ F)

theorem zero_fits : wlo s W ≤ 0 ∧ 0 < whi s W := by
  have h1 : (0:ℤ) < 2 ^ (W - 1) := by positivity
  have h2 : (0:ℤ) < 2 ^ W := by positivity
  cases s <;> simp [wlo, whi]

/-- `from_num(0)` (src/fixed_impl.rs:113-120). -/
instance : MixedZero (Fixed m s W F) where
  zero := ⟨⟨0, zero_fits.1, zero_fits.2⟩⟩

/-- `from_num(1)` (src/fixed_impl.rs:122-129). -/
instance : MixedOne (Fixed m s W F) where
  one := fit (1 * 2 ^ F)

/-- The literal of `mixed_pi` (src/fixed_impl.rs:105). -/
def piLit : ℚ := f64Round 3.1415926535897932384626433832795028841971693993751058209749445923078164062
/-- The literal of `mixed_tau` (src/fixed_impl.rs:109). -/
def tauLit : ℚ := f64Round 6.2831853071795864769252867665590057683943387987502116419498891846156328124

/-- `MixedPi` (src/fixed_impl.rs:101-111). -/
instance : MixedPi (Fixed m s W F) where
  pi := Lit.ofF64 piLit
  tau := Lit.ofF64 tauLit

/-- Unary minus; signed types only (src/fixed_impl.rs:205-207). -/
instance : MixedNumSigned (Fixed m true W F) where
  neg a := fit (-a.val)

/-- `MixedReal` (src/fixed_impl.rs:175-197 unsigned, 229-251 signed; `fixed`'s `is_positive` is `> 0`). -/
instance : MixedReal (Fixed m s W F) where
  maxValue := pure ⟨⟨whi s W - 1, by have := wlo_lt_whi s W; omega, by omega⟩⟩
  minValue := pure ⟨⟨wlo s W, le_refl _, wlo_lt_whi s W⟩⟩
  isPositive a := if s then decide (0 < a.val) else true
  isNegative a := if s then decide (a.val < 0) else false

/-- `MixedAbs` (src/fixed_impl.rs:159-165 unsigned, 213-219 signed). -/
instance : MixedAbs (Fixed m s W F) where
  abs a := if s then fit |a.val| else pure a

/-- `MixedPowi` (src/fixed_impl.rs:167-173, 221-227). -/
instance : MixedPowi (Fixed m s W F) where
  powi x e := mixedPowiVia x e

/-- `MixedSqrt` (src/fixed_impl.rs:135-147): both methods are `niirf(self, 2)`. -/
instance : MixedSqrt (Fixed m s W F) where
  sqrt x := niirf (.i32 m) x 2

end Fixed
end MixedNum
