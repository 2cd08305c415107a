import Verif.Model.Delegate
import Verif.Spec.Outcome
import Verif.Spec.FloatSame
/-! What is asked of external functions that are odd or even to the last bit (used in C154). -/

namespace MixedNum
variable {f : Format} {m : Mode} {W F : ℕ}

/-- The sine is odd and the cosine even, to the last bit but for the signs of zeros. -/
def SymSinCos (sc : Flt f → Prog (Flt f × Flt f)) : Prop :=
  ∀ x y : Flt f, y.Same x.neg → ∃ s c s' c', Returns (sc x) (s, c) ∧ Returns (sc y) (s', c') ∧ s'.Same s.neg ∧ c'.Same c

/-- The arctangent is odd in the first argument where that is not zero. -/
def SymAtan (at2 : Flt f → Flt f → Prog (Flt f)) : Prop :=
  ∀ y x : Flt f, (∀ s, y ≠ .fin s 0) → ∃ r r', Returns (at2 y x) r ∧ Returns (at2 y.neg x) r' ∧ r'.Same r.neg

/-- The same on fixed point; both may panic. -/
def FixedSymSinCos (sc : Fixed m true W F → Prog (Fixed m true W F × Fixed m true W F)) : Prop :=
  ∀ x y : Fixed m true W F, y.val = -x.val →
    (∃ s c s' : Fixed m true W F, Returns (sc x) (s, c) ∧ Returns (sc y) (s', c) ∧ s'.val = -s.val) ∨
    ∃ e e', Panics (sc x) e ∧ Panics (sc y) e'

/-- The same on fixed point; both may panic. -/
def FixedSymAtan (at2 : Fixed m true W F → Fixed m true W F → Prog (Fixed m true W F)) : Prop :=
  ∀ y y' x : Fixed m true W F, y.val ≠ 0 → y'.val = -y.val →
    (∃ r r' : Fixed m true W F, Returns (at2 y x) r ∧ Returns (at2 y' x) r' ∧ r'.val = -r.val) ∨
    ∃ e e', Panics (at2 y x) e ∧ Panics (at2 y' x) e'

end MixedNum
