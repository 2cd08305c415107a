/-!
# Effects of a Rust call

A Rust function of the crate either returns a value, panics, or keeps looping.
`Prog α` is a program with result type `α`: given a budget of loop steps it returns
`ok`, `panic`, or `timeout` (budget exhausted inside some `while`).
The budget is a modelling device only; properties are stated with `Returns`, `Panics`, `Diverges`.
-/

namespace MixedNum

/-- Why a call panicked.
* `overflow`: arithmetic or conversion overflow with overflow checks / debug assertions on.
* `divByZero`: division by zero (always panics for integers and for the `fixed` crate).
* `nonFinite`: `fixed`'s `from_num` applied to a NaN or an infinity (always panics).
* `domain`: used by the exact-real instance only, where the Rust float code would produce NaN. -/
inductive Panic where
  | overflow | divByZero | nonFinite | domain
  deriving DecidableEq, Repr

/-- Outcome of running a program with a given step budget. -/
inductive Out (α : Type) where
  | ok (a : α)
  | panic (e : Panic)
  | timeout
  deriving DecidableEq, Repr

/-- A program: step budget to outcome. -/
def Prog (α : Type) : Type := Nat → Out α

namespace Prog

/-- Sequencing: panics and timeouts propagate. -/
def bind {α β : Type} (p : Prog α) (f : α → Prog β) : Prog β := fun n =>
  match p n with
  | .ok a => f a n
  | .panic e => .panic e
  | .timeout => .timeout

/-- Programs form a monad. -/
instance : Monad Prog where
  pure a := fun _ => .ok a
  bind := bind

/-- A call that panics. -/
def fail {α : Type} (e : Panic) : Prog α := fun _ => .panic e

end Prog

/-- `while cond(s) { s = body(s) }` with at most `k` evaluations of the condition. -/
def whileGo {σ : Type} (cond : σ → Prog Bool) (body : σ → Prog σ) : Nat → σ → Prog σ
  | 0, _ => fun _ => .timeout
  | k + 1, s => do
    if ← cond s then
      let s' ← body s
      whileGo cond body k s'
    else
      pure s

/-- A Rust `while` loop over the loop state `σ`. -/
def whileLoop {σ : Type} (cond : σ → Prog Bool) (body : σ → Prog σ) (s : σ) : Prog σ :=
  fun n => whileGo cond body n s n

/-- The call returns `a` (for every large enough step budget). -/
def Returns {α : Type} (p : Prog α) (a : α) : Prop := ∃ N, ∀ n, N ≤ n → p n = .ok a

/-- The call panics with reason `e`. -/
def Panics {α : Type} (p : Prog α) (e : Panic) : Prop := ∃ N, ∀ n, N ≤ n → p n = .panic e

/-- The call never comes back: no step budget is enough. -/
def Diverges {α : Type} (p : Prog α) : Prop := ∀ n, p n = .timeout

end MixedNum
