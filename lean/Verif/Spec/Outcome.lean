import Mathlib.Data.Int.ModEq
import Verif.Model.Word
import Verif.Model.Complex
/-!
# What an arithmetic call on machine numbers may do

Specification only: stated with integers, not with the model's arithmetic.
-/

namespace MixedNum

/-- `n` lies in the range of a `W`-bit (un)signed word. -/
def InRange (s : Bool) (W : ℕ) (n : ℤ) : Prop :=
  if s then -(2 ^ (W - 1)) ≤ n ∧ n < 2 ^ (W - 1) else 0 ≤ n ∧ n < 2 ^ W

instance (s : Bool) (W : ℕ) (n : ℤ) : Decidable (InRange s W n) := by unfold InRange; infer_instance

/-- `r` is the two's-complement reduction of `n`: in range and congruent modulo `2^W`. -/
def IsReduction (s : Bool) (W : ℕ) (n r : ℤ) : Prop := InRange s W r ∧ r ≡ n [ZMOD 2 ^ W]

/-- The outcome a two-component call must have when its exact results are `x` and `y`:
the exact values if both are representable; otherwise a panic (checks on) or the reductions (checks off).
`v` reads the stored integer of a component. -/
def PairOutcome {α : Type} (v : α → ℤ) (m : Mode) (s : Bool) (W : ℕ) (x y : ℤ) (p : Prog (Cartesian α)) : Prop :=
  (InRange s W x ∧ InRange s W y → ∃ c, Returns p c ∧ v c.re = x ∧ v c.im = y) ∧
  (¬ (InRange s W x ∧ InRange s W y) →
    match m with
    | .checked => Panics p .overflow
    | .wrapping => ∃ c, Returns p c ∧ IsReduction s W x (v c.re) ∧ IsReduction s W y (v c.im))

/-- The same for a call with one component. -/
def Outcome {α : Type} (v : α → ℤ) (m : Mode) (s : Bool) (W : ℕ) (x : ℤ) (p : Prog α) : Prop :=
  (InRange s W x → ∃ c, Returns p c ∧ v c = x) ∧
  (¬ InRange s W x →
    match m with
    | .checked => Panics p .overflow
    | .wrapping => ∃ c, Returns p c ∧ IsReduction s W x (v c))

/-- Two calls that return the same value, or panic for the same reason, or both run on. -/
def SameOutcome {α : Type} (p q : Prog α) : Prop := ∃ N, ∀ n, N ≤ n → p n = q n

end MixedNum
