import Verif.Model.Prog
/-! For which reasons a call may panic. -/

namespace MixedNum

/-- Whatever the step budget, if the call panics then for a reason in `E`. -/
def OnlyPanics {α : Type} (E : Panic → Prop) (p : Prog α) : Prop := ∀ n e, p n = .panic e → E e

/-- The call does not panic: it returns a value or loops. -/
def NeverPanics {α : Type} (p : Prog α) : Prop := ∀ n e, p n ≠ .panic e

/-- A division by zero. -/
def ByZero (e : Panic) : Prop := e = .divByZero

/-- A division by zero, or a result that is out of range. -/
def Arithmetic (e : Panic) : Prop := e = .divByZero ∨ e = .overflow

/-- A result that is out of range. -/
def OutOfRange (e : Panic) : Prop := e = .overflow

end MixedNum
