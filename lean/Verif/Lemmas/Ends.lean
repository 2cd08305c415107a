import Verif.Lemmas.Word
import Verif.Lemmas.Prog
import Verif.Model.Trig
/-! Straight-line code with one possible panic. -/

namespace MixedNum

/-- The call returns, or panics for reason `e`; it does not depend on fuel. -/
def Ends {α : Type} (e : Panic) (p : Prog α) : Prop := (∃ a, p = pure a) ∨ p = Prog.fail e

theorem Ends.ret {α : Type} {e : Panic} (a : α) : Ends e (pure a : Prog α) := .inl ⟨a, rfl⟩
theorem Ends.fail {α : Type} {e : Panic} : Ends e (Prog.fail e : Prog α) := .inr rfl

theorem Ends.bind {α β : Type} {e : Panic} {p : Prog α} {f : α → Prog β} (hp : Ends e p)
    (hf : ∀ a, p = pure a → Ends e (f a)) : Ends e (p >>= f) := by
  rcases hp with ⟨a, rfl⟩ | rfl
  · rw [pure_bind]; exact hf a rfl
  · rw [Prog.fail_bind]; exact .fail

theorem Ends.bind_fail {α β : Type} {e : Panic} {p : Prog α} {f : α → Prog β} (hp : Ends e p)
    (hf : ∀ a, p = pure a → f a = Prog.fail e) : p >>= f = Prog.fail e := by
  rcases hp with ⟨a, rfl⟩ | rfl
  · rw [pure_bind]; exact hf a rfl
  · rw [Prog.fail_bind]

theorem ends_powiLoop {α : Type} [NumOps α] {e : Panic} (hm : ∀ a b : α, Ends e (NumOps.mul a b)) (x : α) :
    ∀ (k : ℕ) (t : α), Ends e (powiLoop x k t)
  | 0, t => .ret t
  | k + 1, t => (hm t x).bind fun _ _ => ends_powiLoop hm x k _

namespace Fixed
variable {m : Mode} {s : Bool} {W F : ℕ}

/-- The panic that arithmetic other than division by zero can raise: only in checked builds. -/
theorem ends_fit_checked (n : ℤ) : Ends .overflow (fit n : Prog (Fixed .checked s W F)) := by
  by_cases h : Fits s W n
  · exact .inl ⟨_, fit_of_fits h⟩
  · exact .inr (fit_checked h)

theorem ends_fit_wrapping (e : Panic) (n : ℤ) : Ends e (fit n : Prog (Fixed .wrapping s W F)) :=
  .inl ⟨_, fit_wrapping n⟩

theorem ends_div_checked {a b : Fixed .checked s W F} (hb : b.val ≠ 0) : Ends .overflow (NumOps.div a b) := by
  rw [div_def, if_neg hb]; exact ends_fit_checked _

theorem ends_div_wrapping (a b : Fixed .wrapping s W F) : Ends .divByZero (NumOps.div a b) := by
  rw [div_def]; split
  · exact .fail
  · exact ends_fit_wrapping _ _

theorem val_of_fit_checked {n : ℤ} {a : Fixed .checked s W F} (h : fit n = pure a) : a.val = n := by
  by_cases hf : Fits s W n
  · rw [fit_of_fits hf] at h; rw [← Prog.pure_inj h]; rfl
  · rw [fit_checked hf] at h; exact absurd h.symm Prog.pure_ne_fail

theorem val_of_fit_wrapping {n : ℤ} {a : Fixed .wrapping s W F} (h : fit n = pure a) : a.val = wrapInt s W n := by
  rw [fit_wrapping] at h; rw [← Prog.pure_inj h]; rfl

end Fixed
end MixedNum
