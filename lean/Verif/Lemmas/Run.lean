import Lean.Elab.Tactic.Basic
import Lean.Meta.AppBuilder
import Verif.Lemmas.Prog
/-! # Evaluating a concrete run

`run` proves that a concrete run returns: it leaves the amount of fuel arbitrary (at least `k`) and asks the kernel to evaluate both
sides. The tactic builds the term `Eq.refl _` and nothing else; whether the two sides evaluate to the same value is checked by the kernel,
as for `decide +kernel`, so nothing is added to the trusted base. -/

namespace MixedNum
open Lean Elab Tactic Meta

/-- Close an equation by `Eq.refl`, leaving the comparison of the two sides to the kernel. -/
elab "kernel_rfl" : tactic => liftMetaTactic fun g => do
  let some (_, l, _) := (← instantiateMVars (← g.getType)).eq? | throwError "not an equation"
  g.assign (← mkEqRefl l)
  pure []

theorem Returns.run {α : Type} {p : Prog α} {a : α} (k : Nat) (h : ∀ n : Nat, p (n + k) = .ok a) : Returns p a :=
  ⟨k, fun n hn => by
    obtain ⟨d, rfl⟩ : ∃ d, n = d + k := ⟨n - k, by omega⟩
    exact h d⟩

/-- `run k`: the concrete program returns the stated value whenever the fuel is at least `k`. -/
macro "run " k:num : tactic => `(tactic| exact Returns.run $k fun _ => by kernel_rfl)

end MixedNum
