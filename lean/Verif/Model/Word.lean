import Mathlib.Algebra.Order.Ring.Int
import Mathlib.Tactic.Positivity
import Verif.Model.Prog
/-! # Machine words: two's-complement integers of any width, with and without overflow checks -/

namespace MixedNum

/-- Build mode: `checked` = overflow checks / debug assertions on; `wrapping` = off. -/
inductive Mode where
  | checked | wrapping
  deriving DecidableEq, Repr

/-- Least value of a `W`-bit word (`s = true`: signed). -/
def wlo (s : Bool) (W : ℕ) : ℤ := if s then -(2 ^ (W - 1)) else 0

/-- One more than the greatest value of a `W`-bit word. -/
def whi (s : Bool) (W : ℕ) : ℤ := if s then 2 ^ (W - 1) else 2 ^ W

/-- A `W`-bit word. -/
structure Word (s : Bool) (W : ℕ) where
  val : ℤ
  lo_le : wlo s W ≤ val
  lt_hi : val < whi s W

theorem wlo_lt_whi (s : Bool) (W : ℕ) : wlo s W < whi s W := by
  have h1 : (0:ℤ) < 2 ^ (W - 1) := by positivity
  have h2 : (0:ℤ) < 2 ^ W := by positivity
  cases s <;> simp [wlo, whi]

/-- Two's-complement reduction of an integer into the word range. -/
def wrapInt (s : Bool) (W : ℕ) (n : ℤ) : ℤ := wlo s W + (n - wlo s W) % (whi s W - wlo s W)

theorem wlo_le_wrapInt (s : Bool) (W : ℕ) (n : ℤ) : wlo s W ≤ wrapInt s W n := by
  have := Int.emod_nonneg (n - wlo s W) (b := whi s W - wlo s W) (by have := wlo_lt_whi s W; omega)
  unfold wrapInt; omega

theorem wrapInt_lt_whi (s : Bool) (W : ℕ) (n : ℤ) : wrapInt s W n < whi s W := by
  have := Int.emod_lt_of_pos (n - wlo s W) (b := whi s W - wlo s W) (by have := wlo_lt_whi s W; omega)
  unfold wrapInt; omega

/-- The value is representable. -/
def Fits (s : Bool) (W : ℕ) (n : ℤ) : Prop := wlo s W ≤ n ∧ n < whi s W

/-- Being in range is decidable. -/
instance (s : Bool) (W : ℕ) (n : ℤ) : Decidable (Fits s W n) := by unfold Fits; infer_instance

/-- The word with the given value, reduced modulo `2^W` if necessary (`as` casts; wrapping arithmetic). -/
def Word.wrap {s : Bool} {W : ℕ} (n : ℤ) : Word s W := ⟨wrapInt s W n, wlo_le_wrapInt s W n, wrapInt_lt_whi s W n⟩

/-- Result of an arithmetic operation with mathematical result `n`:
the word if it fits; otherwise a panic (`checked`) or the wrapped word (`wrapping`). -/
def Word.fit (m : Mode) {s : Bool} {W : ℕ} (n : ℤ) : Prog (Word s W) :=
  if h : Fits s W n then pure ⟨n, h.1, h.2⟩
  else match m with
    | .checked => Prog.fail .overflow
    | .wrapping => pure (Word.wrap n)

/-- The word nearest to `n` (saturating casts). -/
def Word.saturate {s : Bool} {W : ℕ} (n : ℤ) : Word s W :=
  if h : Fits s W n then ⟨n, h.1, h.2⟩
  else if n < wlo s W then ⟨wlo s W, le_refl _, wlo_lt_whi s W⟩
  else ⟨whi s W - 1, by have := wlo_lt_whi s W; omega, by omega⟩

end MixedNum
