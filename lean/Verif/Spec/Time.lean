import Verif.Model.Traits
/-!
# How long a call runs

Specification only. The budget of a `Prog` bounds the number of times each `while` loop of the call evaluates its
condition, so a loop that makes `k` passes needs a budget above `k`. The crate's `for` loops are recursions of known
length and do not use the budget.
-/

namespace MixedNum

/-- No `while` loop of the call makes more than `K` passes: every budget above `K` is enough to return or panic. -/
def PassesAtMost {α : Type} (p : Prog α) (K : Nat) : Prop := ∀ n, K < n → p n ≠ .timeout

/-- Some `while` loop of the call makes at least `K` passes: no budget up to `K` is enough. -/
def PassesAtLeast {α : Type} (p : Prog α) (K : Nat) : Prop := ∀ n, n ≤ K → p n = .timeout

/-- The call has no `while` loop that is entered: it returns or panics under every budget, always in the same way. -/
def LoopFree {α : Type} (p : Prog α) : Prop := (∃ a, p = pure a) ∨ ∃ e, p = Prog.fail e

/-- A number that counts the multiplications that went into it. -/
structure Count where
  muls : ℕ

/-- Arithmetic on counts; only multiplication counts. -/
instance : NumOps Count where
  add a b := pure ⟨a.muls + b.muls⟩
  sub a b := pure ⟨a.muls + b.muls⟩
  mul a b := pure ⟨a.muls + b.muls + 1⟩
  div a b := pure ⟨a.muls + b.muls⟩

/-- Literals cost nothing. -/
instance : Lit Count where
  ofI32 _ := pure ⟨0⟩
  ofF64 _ := pure ⟨0⟩

end MixedNum
