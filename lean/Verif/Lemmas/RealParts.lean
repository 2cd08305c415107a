import Verif.Spec.Outcome
import Verif.Lemmas.WrapAcc
import Verif.Lemmas.Word
import Verif.Model.Ideal
import Verif.Lemmas.Prog
/-!
What zero does to the operators on integers, fixed point and reals (for C140).
-/

namespace MixedNum
variable {m : Mode} {s : Bool} {W F : ℕ}

/-- What zero does to the operators. -/
structure ZeroLaws (α : Type) [NumOps α] [MixedZero α] : Prop where
  add_zero : ∀ a : α, NumOps.add a MixedZero.zero = pure a
  zero_add : ∀ a : α, NumOps.add MixedZero.zero a = pure a
  sub_zero : ∀ a : α, NumOps.sub a MixedZero.zero = pure a
  mul_zero : ∀ a : α, NumOps.mul a MixedZero.zero = pure MixedZero.zero
  zero_mul : ∀ a : α, NumOps.mul MixedZero.zero a = pure MixedZero.zero

theorem PInt.zeroLaws : ZeroLaws (PInt m s W) := by
  have key : ∀ {n : ℤ} {a : PInt m s W}, n = a.val → (PInt.fit n : Prog (PInt m s W)) = pure a := by
    rintro n a rfl; rw [PInt.fit_of_fits a.fits]; rfl
  constructor <;> intro a
  · exact key (_root_.add_zero _)
  · exact key (_root_.zero_add _)
  · exact key (_root_.sub_zero _)
  · exact key (a := MixedZero.zero) (MulZeroClass.mul_zero _)
  · exact key (a := MixedZero.zero) (MulZeroClass.zero_mul _)

theorem Fixed.zeroLaws : ZeroLaws (Fixed m s W F) := by
  have key : ∀ {n : ℤ} {a : Fixed m s W F}, n = a.val → (Fixed.fit n : Prog (Fixed m s W F)) = pure a := by
    rintro n a rfl; rw [Fixed.fit_of_fits a.fits]; rfl
  constructor <;> intro a
  · exact key (_root_.add_zero _)
  · exact key (_root_.zero_add _)
  · exact key (_root_.sub_zero _)
  · exact key (a := MixedZero.zero) (by show a.val * 0 / 2 ^ F = 0; rw [MulZeroClass.mul_zero, Int.zero_ediv])
  · exact key (a := MixedZero.zero) (by show 0 * a.val / 2 ^ F = 0; rw [MulZeroClass.zero_mul, Int.zero_ediv])

theorem real_zeroLaws : ZeroLaws ℝ := by
  constructor <;> intro a
  · exact congrArg pure (_root_.add_zero a)
  · exact congrArg pure (_root_.zero_add a)
  · exact congrArg pure (_root_.sub_zero a)
  · exact congrArg pure (MulZeroClass.mul_zero a)
  · exact congrArg pure (MulZeroClass.zero_mul a)

/-- The same value is read twice. -/
theorem Prog.bind_twice {α β γ : Type} (p : Prog α) (q : α → Prog β) (k : α → β → α → Prog γ) :
    (p >>= fun x => q x >>= fun r => p >>= fun y => k x r y) = p >>= fun x => q x >>= fun r => k x r x := by
  funext n
  show Prog.bind _ _ n = Prog.bind _ _ n
  unfold Prog.bind
  cases h : p n with
  | ok x =>
    show Prog.bind _ _ n = Prog.bind _ _ n
    unfold Prog.bind
    cases q x n with
    | ok r =>
      show Prog.bind _ _ n = _
      unfold Prog.bind
      rw [h]
    | panic e => rfl
    | timeout => rfl
  | panic e => rfl
  | timeout => rfl

section
variable {α β : Type} [NumOps β] [MixedZero β] [Conv α β] (h : ZeroLaws β)
include h

theorem ZeroLaws.addScalar (z : Cartesian β) (t : α) :
    z.addScalar t = (do let x ← Conv.fromNum t; z.add ⟨x, MixedZero.zero⟩) := by
  simp [Cartesian.addScalar, Cartesian.add, h.add_zero]

theorem ZeroLaws.subScalar (z : Cartesian β) (t : α) :
    z.subScalar t = (do let x ← Conv.fromNum t; z.sub ⟨x, MixedZero.zero⟩) := by
  simp [Cartesian.subScalar, Cartesian.sub, h.sub_zero]

theorem ZeroLaws.mulScalar (z : Cartesian β) (t : α) :
    z.mulScalar t = (do let x ← Conv.fromNum t; z.mul ⟨x, MixedZero.zero⟩) := by
  simp only [Cartesian.mulScalar, Cartesian.mul, ops.mulCartesian, h.mul_zero, pure_bind, h.sub_zero, h.zero_add]
  rw [Prog.bind_twice]

omit [Conv α β]

theorem ZeroLaws.add (a b : β) : Cartesian.add ⟨a, MixedZero.zero⟩ ⟨b, MixedZero.zero⟩ =
    (do pure ⟨← NumOps.add a b, MixedZero.zero⟩ : Prog (Cartesian β)) := by
  simp [Cartesian.add, h.add_zero]

theorem ZeroLaws.sub (a b : β) : Cartesian.sub ⟨a, MixedZero.zero⟩ ⟨b, MixedZero.zero⟩ =
    (do pure ⟨← NumOps.sub a b, MixedZero.zero⟩ : Prog (Cartesian β)) := by
  simp [Cartesian.sub, h.sub_zero]

theorem ZeroLaws.mul (a b : β) : Cartesian.mul ⟨a, MixedZero.zero⟩ ⟨b, MixedZero.zero⟩ =
    (do pure ⟨← NumOps.mul a b, MixedZero.zero⟩ : Prog (Cartesian β)) := by
  simp [Cartesian.mul, ops.mulCartesian, h.mul_zero, h.zero_mul, h.sub_zero, h.add_zero]

end

theorem SameOutcome.of_eq {α : Type} {p q : Prog α} (h : p = q) : SameOutcome p q := ⟨0, fun _ _ => by rw [h]⟩

variable {f : Format}

theorem ofExact_valid (hf : f.Wide) (b : Bool) (q : ℚ) : (Flt.ofExact b q : Flt f).Valid := by
  rcases Flt.ofExact_cases hf.one_le b q with h | ⟨-, h⟩
  · exact h.valid
  · rw [h]; trivial

theorem mul_valid (hf : f.Wide) (x y : Flt f) : (x.mul y).Valid := by
  cases x <;> cases y <;> unfold Flt.mul <;> dsimp only <;> try split_ifs
  all_goals first | trivial | exact ofExact_valid hf _ _

end MixedNum
