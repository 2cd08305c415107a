import Verif.Model.Assign
import Verif.Model.Delegate
import Verif.Model.Fmt
import Verif.Model.Db
/-!
Simulation between two instances of the same generic code. `Sim R p q`: `p` panics, or neither comes back, or both return and the
results are related by `R`. The generic functions of the crate preserve it.
-/

namespace MixedNum
variable {α β γ δ : Type}

/-- `p`, `q` with budget `n` against `p'`, `q'` with budget `m`: `q` does what `p` does unless `p` panics, and what has come to an end
with `n` is the same with `m`. -/
structure SimAt (R : α → β → Prop) (p p' : Prog α) (q q' : Prog β) (n m : ℕ) : Prop where
  same : (∃ e, p n = .panic e) ∨ (p n = .timeout ∧ q n = .timeout) ∨ ∃ a b, p n = .ok a ∧ q n = .ok b ∧ R a b
  left : p n ≠ .timeout → p' m = p n
  right : q n ≠ .timeout → q' m = q n ∨ ∃ e, p n = .panic e

/-- `q` does what `p` does, unless `p` panics. -/
def Sim (R : α → β → Prop) (p : Prog α) (q : Prog β) : Prop := ∀ n m, n ≤ m → SimAt R p p q q n m

theorem SimAt.bind {R : α → β → Prop} {S : γ → δ → Prop} {p p' : Prog α} {q q' : Prog β} {f f' : α → Prog γ} {g g' : β → Prog δ} {n m : ℕ}
    (h : SimAt R p p' q q' n m) (hf : ∀ a b, R a b → SimAt S (f a) (f' a) (g b) (g' b) n m) :
    SimAt S (p >>= f) (p' >>= f') (q >>= g) (q' >>= g') n m := by
  have e : ∀ {α β : Type} (p : Prog α) (f : α → Prog β) k, (p >>= f) k = Prog.bind p f k := fun _ _ _ => rfl
  obtain ⟨h1, h2, h3⟩ := h
  rcases h1 with ⟨x, hx⟩ | ⟨t1, t2⟩ | ⟨a, b, h4, h5, hr⟩
  · have hx' := h2 (by rw [hx]; exact fun c => nomatch c)
    have ep : (p >>= f) n = .panic x := by rw [e, Prog.bind, hx]
    have ep' : (p' >>= f') m = .panic x := by rw [e, Prog.bind, hx', hx]
    exact ⟨.inl ⟨x, ep⟩, fun _ => ep'.trans ep.symm, fun _ => .inr ⟨x, ep⟩⟩
  · have ep : (p >>= f) n = .timeout := by rw [e, Prog.bind, t1]
    have eq : (q >>= g) n = .timeout := by rw [e, Prog.bind, t2]
    exact ⟨.inr (.inl ⟨ep, eq⟩), fun c => absurd ep c, fun c => absurd eq c⟩
  · have hp' := h2 (by rw [h4]; exact fun c => nomatch c)
    have hq' := (h3 (by rw [h5]; exact fun c => nomatch c)).resolve_right (by rintro ⟨x, hx⟩; rw [h4] at hx; cases hx)
    have ep : (p >>= f) n = f a n := by rw [e, Prog.bind, h4]
    have eq : (q >>= g) n = g b n := by rw [e, Prog.bind, h5]
    have ep' : (p' >>= f') m = f' a m := by rw [e, Prog.bind, hp', h4]
    have eq' : (q' >>= g') m = g' b m := by rw [e, Prog.bind, hq', h5]
    obtain ⟨k1, k2, k3⟩ := hf a b hr
    constructor
    · rw [ep, eq]; exact k1
    · rw [ep, ep']; exact k2
    · rw [eq, eq', ep]; exact k3

theorem SimAt.pure {R : α → β → Prop} {a : α} {b : β} (h : R a b) (n m : ℕ) : SimAt R (pure a) (pure a) (pure b) (pure b) n m :=
  ⟨.inr (.inr ⟨a, b, rfl, rfl, h⟩), fun _ => rfl, fun _ => .inl rfl⟩

namespace Sim

theorem pure {R : α → β → Prop} {a : α} {b : β} (h : R a b) : Sim R (pure a) (pure b) := fun n m _ => .pure h n m

theorem fail {R : α → β → Prop} (e : Panic) (q : Prog β) : Sim R (Prog.fail e) q :=
  fun _ _ _ => ⟨.inl ⟨e, rfl⟩, fun _ => rfl, fun _ => .inr ⟨e, rfl⟩⟩

theorem bind {R : α → β → Prop} {S : γ → δ → Prop} {p : Prog α} {q : Prog β} {f : α → Prog γ} {g : β → Prog δ}
    (h : Sim R p q) (hf : ∀ a b, R a b → Sim S (f a) (g b)) : Sim S (p >>= f) (q >>= g) :=
  fun n m hnm => (h n m hnm).bind fun a b hab => hf a b hab n m hnm

theorem ite {R : α → β → Prop} {c c' : Bool} {p p' : Prog α} {q q' : Prog β} (hc : c = c') (h : Sim R p q) (h' : Sim R p' q') :
    Sim R (if c = true then p else p') (if c' = true then q else q') := by
  subst hc; cases c
  · exact h'
  · exact h

theorem ite_prop {R : α → β → Prop} {c c' : Prop} [Decidable c] [Decidable c'] {p p' : Prog α} {q q' : Prog β} (hc : c ↔ c')
    (h : Sim R p q) (h' : Sim R p' q') : Sim R (if c then p else p') (if c' then q else q') := by
  by_cases hh : c
  · rw [if_pos hh, if_pos (hc.mp hh)]; exact h
  · rw [if_neg hh, if_neg (fun x => hh (hc.mpr x))]; exact h'

theorem loop {R : α → β → Prop} {c : α → Prog Bool} {c' : β → Prog Bool} {f : α → Prog α} {f' : β → Prog β}
    (hc : ∀ a b, R a b → Sim Eq (c a) (c' b)) (hf : ∀ a b, R a b → Sim R (f a) (f' b)) {a : α} {b : β} (h : R a b) :
    Sim R (whileLoop c f a) (whileLoop c' f' b) := by
  have key : ∀ k k' n m, k ≤ k' → n ≤ m → ∀ a b, R a b →
      SimAt R (whileGo c f k a) (whileGo c f k' a) (whileGo c' f' k b) (whileGo c' f' k' b) n m := by
    intro k
    induction k with
    | zero => intro k' n m _ _ a b _; exact ⟨.inr (.inl ⟨rfl, rfl⟩), fun c => absurd rfl c, fun c => absurd rfl c⟩
    | succ k ih =>
      intro k' n m hk hn a b h
      obtain ⟨k', rfl⟩ : ∃ j, k' = j + 1 := ⟨k' - 1, by omega⟩
      unfold whileGo
      refine (hc a b h n m hn).bind fun x y e => ?_
      subst e
      cases x
      · exact .pure h n m
      · exact (hf a b h n m hn).bind fun _ _ h => ih k' n m (by omega) hn _ _ h
  intro n m hnm
  have := key n m n m hnm hnm a b h
  exact ⟨this.same, this.left, this.right⟩

/-- The three possible outcomes. -/
theorem outcome {R : α → β → Prop} {p : Prog α} {q : Prog β} (h : Sim R p q) :
    (∃ e, Panics p e) ∨ (Diverges p ∧ Diverges q) ∨ ∃ a b, Returns p a ∧ Returns q b ∧ R a b := by
  by_cases hd : ∀ n, p n = .timeout
  · refine .inr (.inl ⟨hd, fun n => ?_⟩)
    rcases (h n n (Nat.le_refl n)).same with ⟨e, he⟩ | ⟨-, h⟩ | ⟨a, b, h1, -⟩
    · rw [hd n] at he; cases he
    · exact h
    · rw [hd n] at h1; cases h1
  · obtain ⟨N, hN⟩ := not_forall.mp hd
    rcases (h N N (Nat.le_refl N)).same with ⟨e, he⟩ | ⟨h', -⟩ | ⟨a, b, h1, h2, hr⟩
    · exact .inl ⟨e, N, fun n hn => ((h N n hn).left hN).trans he⟩
    · exact absurd h' hN
    · refine .inr (.inr ⟨a, b, ⟨N, fun n hn => ((h N n hn).left hN).trans h1⟩, ⟨N, fun n hn => ?_⟩, hr⟩)
      refine (((h N n hn).right (by rw [h2]; exact fun c => nomatch c)).resolve_right ?_).trans h2
      rintro ⟨e, he⟩; rw [h1] at he; cases he

/-! ### What the relation has to satisfy for each trait -/

/-- Comparisons of related numbers agree. -/
class Cmp [MixedCmp α] [MixedCmp β] (R : outParam (α → β → Prop)) : Prop where
  lt : ∀ {a b c d}, R a b → R c d → MixedCmp.lt a c = MixedCmp.lt b d
  le : ∀ {a b c d}, R a b → R c d → MixedCmp.le a c = MixedCmp.le b d
  beq : ∀ {a b c d}, R a b → R c d → MixedCmp.beq a c = MixedCmp.beq b d

/-- The four operators. -/
class Num [NumOps α] [NumOps β] (R : outParam (α → β → Prop)) : Prop where
  add : ∀ {a b c d}, R a b → R c d → Sim R (NumOps.add a c) (NumOps.add b d)
  sub : ∀ {a b c d}, R a b → R c d → Sim R (NumOps.sub a c) (NumOps.sub b d)
  mul : ∀ {a b c d}, R a b → R c d → Sim R (NumOps.mul a c) (NumOps.mul b d)
  div : ∀ {a b c d}, R a b → R c d → Sim R (NumOps.div a c) (NumOps.div b d)

/-- Literals. -/
class Lits [Lit α] [Lit β] (R : outParam (α → β → Prop)) : Prop where
  ofI32 : ∀ n, Sim R (Lit.ofI32 n) (Lit.ofI32 n)
  ofF64 : ∀ q, Sim R (Lit.ofF64 q) (Lit.ofF64 q)

/-- Conversions. -/
class Convs [Conv α γ] [Conv β δ] (R : α → β → Prop) (S : γ → δ → Prop) : Prop where
  fromNum : ∀ {a b}, R a b → Sim S (Conv.fromNum a) (Conv.fromNum b)
  toNum : ∀ {c d}, S c d → Sim R (Conv.toNum c) (Conv.toNum d)

/-- Zero. -/
class Zero [MixedZero α] [MixedZero β] (R : outParam (α → β → Prop)) : Prop where
  zero : R MixedZero.zero MixedZero.zero

/-- One. -/
class One [MixedOne α] [MixedOne β] (R : outParam (α → β → Prop)) : Prop where
  one : Sim R MixedOne.one MixedOne.one

/-- Pi. -/
class Pi [MixedPi α] [MixedPi β] (R : outParam (α → β → Prop)) : Prop where
  pi : Sim R MixedPi.pi MixedPi.pi
  tau : Sim R MixedPi.tau MixedPi.tau

/-- Extreme values and signs. -/
class Real [MixedReal α] [MixedReal β] (R : outParam (α → β → Prop)) : Prop where
  maxValue : Sim R MixedReal.maxValue MixedReal.maxValue
  minValue : Sim R MixedReal.minValue MixedReal.minValue
  isPositive : ∀ {a b}, R a b → MixedReal.isPositive a = MixedReal.isPositive b
  isNegative : ∀ {a b}, R a b → MixedReal.isNegative a = MixedReal.isNegative b

/-- Unary minus. -/
class Neg [MixedNumSigned α] [MixedNumSigned β] (R : outParam (α → β → Prop)) : Prop where
  neg : ∀ {a b}, R a b → Sim R (MixedNumSigned.neg a) (MixedNumSigned.neg b)

/-- Absolute value. -/
class Abs [MixedAbs α] [MixedAbs β] (R : outParam (α → β → Prop)) : Prop where
  abs : ∀ {a b}, R a b → Sim R (MixedAbs.abs a) (MixedAbs.abs b)

/-- Integer powers. -/
class Powi [MixedPowi α] [MixedPowi β] (R : outParam (α → β → Prop)) : Prop where
  powi : ∀ {a b} (e : ℤ), R a b → Sim R (MixedPowi.powi a e) (MixedPowi.powi b e)

/-- Square root. -/
class Sqrt [MixedSqrt α] [MixedSqrt β] (R : outParam (α → β → Prop)) : Prop where
  sqrt : ∀ {a b}, R a b → Sim R (MixedSqrt.sqrt a) (MixedSqrt.sqrt b)

/-- Both parts of a pair are related. -/
def Pair (R : α → β → Prop) (p : α × α) (q : β × β) : Prop := R p.1 q.1 ∧ R p.2 q.2

/-- Sine and cosine. -/
class SinCos [MixedSinCos α] [MixedSinCos β] (R : outParam (α → β → Prop)) : Prop where
  sincos : ∀ {a b}, R a b → Sim (Pair R) (MixedSinCos.sincos a) (MixedSinCos.sincos b)

/-- Arctangent. -/
class Atan [MixedAtan α] [MixedAtan β] (R : outParam (α → β → Prop)) : Prop where
  atan2 : ∀ {a b c d}, R a b → R c d → Sim R (MixedAtan.atan2 a c) (MixedAtan.atan2 b d)

/-- Exponential. -/
class Exp [MixedExp α] [MixedExp β] (R : outParam (α → β → Prop)) : Prop where
  exp : ∀ {a b}, R a b → Sim R (MixedExp.exp a) (MixedExp.exp b)

/-- Conversion from `usize`. -/
class Usize [FromUsize α] [FromUsize β] (R : outParam (α → β → Prop)) : Prop where
  ofUsize : ∀ n, Sim R (FromUsize.ofUsize n) (FromUsize.ofUsize n)

/-- Closes goals that relate values. -/
macro "relate" : tactic => `(tactic| repeat' first
  | assumption
  | exact Zero.zero
  | apply Cmp.lt
  | apply Cmp.le
  | apply Cmp.beq
  | apply Real.isPositive
  | apply Real.isNegative
  | rfl
  | constructor)

/-- One step through a program. -/
macro "sim_step" : tactic => `(tactic| first
  | assumption
  | exact Lits.ofI32 _
  | exact Lits.ofF64 _
  | exact One.one
  | exact Pi.pi
  | exact Pi.tau
  | exact Real.maxValue
  | exact Real.minValue
  | exact Usize.ofUsize _
  | (apply Num.add <;> relate; done)
  | (apply Num.sub <;> relate; done)
  | (apply Num.mul <;> relate; done)
  | (apply Num.div <;> relate; done)
  | (apply Neg.neg <;> relate; done)
  | (apply Abs.abs <;> relate; done)
  | (apply Powi.powi <;> relate; done)
  | (apply Sqrt.sqrt <;> relate; done)
  | (apply SinCos.sincos <;> relate; done)
  | (apply Atan.atan2 <;> relate; done)
  | (apply Exp.exp <;> relate; done)
  | (refine Sim.pure ?_; relate; done)
  | (refine Sim.ite ?_ ?_ ?_; focus (relate; done))
  | apply (config := { newGoals := .nonDependentOnly }) Sim.bind
  | intro _ _ _)

/-- Steps through a program. -/
macro "simulate" : tactic => `(tactic| repeat' sim_step)

end Sim
end MixedNum
