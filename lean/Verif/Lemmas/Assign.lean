import Verif.Model.Assign
/-! # Runs of assigning operators, store by store -/

namespace MixedNum
variable {α β : Type}
open Cartesian

/-! ## Running -/

theorem Mut.run_eval {σ : Type} (p : Prog α) (k : α → Mut σ Unit) (z : σ) :
    (Mut.eval p >>= k).run z = p >>= fun a => (k a).run z := by
  funext n
  show Mut.run (Mut.bind (Mut.eval p) k) z n = Prog.bind p _ n
  unfold Mut.run Mut.bind Mut.eval Prog.bind
  cases p n <;> rfl

theorem Mut.run_read {σ : Type} (k : σ → Mut σ Unit) (z : σ) : (Mut.read >>= k).run z = (k z).run z := rfl

theorem Mut.run_store {σ : Type} (f : σ → σ) (k : Unit → Mut σ Unit) (z : σ) :
    (Mut.store f >>= k).run z = (k ()).run (f z) := rfl

theorem Mut.run_store_last {σ : Type} (f : σ → σ) (z : σ) : (Mut.store f).run z = pure (f z) := rfl

/-- One expression, one or more stores after it: a panic leaves everything as it was. -/
theorem Mut.eval_panic {σ : Type} {p : Prog α} {k : α → Mut σ Unit} {z w : σ} {n : ℕ} {e : Panic}
    (hk : ∀ a, p n = .ok a → ∀ e w, k a z n ≠ (.panic e, w)) (h : (Mut.eval p >>= k) z n = (.panic e, w)) : w = z := by
  have h' : Mut.bind (Mut.eval p) k z n = (.panic e, w) := h
  unfold Mut.bind Mut.eval at h'
  cases hp : p n with
  | ok a => rw [hp] at h'; exact absurd h' (hk a hp _ _)
  | panic e' => rw [hp] at h'; simp only [Prod.mk.injEq] at h'; exact h'.2.symm
  | timeout => rw [hp] at h'; simp at h'

/-! ## Two stores, the second computed from the state after the first -/

/-- The common shape of the operators that write both parts. -/
def twoStores (p : Prog α) (q : Cartesian α → Prog α) : Mut (Cartesian α) Unit := fun z n =>
  match p n with
  | .ok a => (match q ⟨a, z.im⟩ n with
    | .ok b => (.ok (), ⟨a, b⟩)
    | .panic e => (.panic e, ⟨a, z.im⟩)
    | .timeout => (.timeout, ⟨a, z.im⟩))
  | .panic e => (.panic e, z)
  | .timeout => (.timeout, z)

theorem twoStores_eq (p : Prog α) (q : Cartesian α → Prog α) (z : Cartesian α) (n : ℕ) :
    (do storeRe (← Mut.eval p); let w ← Mut.read; storeIm (← Mut.eval (q w)) : Mut (Cartesian α) Unit) z n =
      twoStores p q z n := by
  show Mut.bind (Mut.eval p) (fun a => Mut.bind (storeRe a) fun _ => Mut.bind Mut.read fun w =>
    Mut.bind (Mut.eval (q w)) storeIm) z n = _
  unfold Mut.bind Mut.eval Mut.read storeRe storeIm Mut.store twoStores
  cases p n with
  | ok a =>
    dsimp only
    cases q ⟨a, z.im⟩ n <;> rfl
  | panic e => rfl
  | timeout => rfl

section
variable {p : Prog α} {q : Cartesian α → Prog α} {M : Mut (Cartesian α) Unit} {z : Cartesian α} {a b : α} {e : Panic}

theorem twoStores_run (h : ∀ n, M z n = twoStores p q z n) :
    M.run z = (p >>= fun a => q ⟨a, z.im⟩ >>= fun b => pure ⟨a, b⟩) := by
  funext n
  show Mut.run M z n = Prog.bind p (fun a => Prog.bind (q ⟨a, z.im⟩) fun b => pure ⟨a, b⟩) n
  unfold Mut.run Prog.bind
  rw [h]; unfold twoStores
  cases p n with
  | ok a => dsimp only; cases q ⟨a, z.im⟩ n <;> rfl
  | panic e => rfl
  | timeout => rfl

theorem twoStores_returns (h : ∀ n, M z n = twoStores p q z n) (hp : Returns p a) (hq : Returns (q ⟨a, z.im⟩) b) :
    ReturnsLeaving M z ⟨a, b⟩ := by
  obtain ⟨N, hN⟩ := hp; obtain ⟨K, hK⟩ := hq
  refine ⟨max N K, fun n hn => ?_⟩
  rw [h]; unfold twoStores
  rw [hN n (le_trans (le_max_left _ _) hn)]; dsimp only
  rw [hK n (le_trans (le_max_right _ _) hn)]

theorem twoStores_first (h : ∀ n, M z n = twoStores p q z n) (hp : Panics p e) : PanicsLeaving M z e z := by
  obtain ⟨N, hN⟩ := hp
  refine ⟨N, fun n hn => ?_⟩
  rw [h]; unfold twoStores
  rw [hN n hn]

theorem twoStores_second (h : ∀ n, M z n = twoStores p q z n) (hp : Returns p a) (hq : Panics (q ⟨a, z.im⟩) e) :
    PanicsLeaving M z e ⟨a, z.im⟩ := by
  obtain ⟨N, hN⟩ := hp; obtain ⟨K, hK⟩ := hq
  refine ⟨max N K, fun n hn => ?_⟩
  rw [h]; unfold twoStores
  rw [hN n (le_trans (le_max_left _ _) hn)]; dsimp only
  rw [hK n (le_trans (le_max_right _ _) hn)]

theorem twoStores_panic {n : ℕ} {w : Cartesian α} (h : ∀ n, M z n = twoStores p q z n) (hp : M z n = (.panic e, w)) :
    w = z ∨ (w.im = z.im ∧ p n = .ok w.re ∧ q w n = .panic e) := by
  rw [h] at hp; unfold twoStores at hp
  cases hpn : p n with
  | ok a =>
    rw [hpn] at hp; dsimp only at hp
    cases hqn : q ⟨a, z.im⟩ n with
    | ok b => rw [hqn] at hp; simp at hp
    | panic e' =>
      rw [hqn] at hp
      simp only [Prod.mk.injEq, Out.panic.injEq] at hp
      obtain ⟨rfl, rfl⟩ := hp
      exact .inr ⟨rfl, rfl, hqn⟩
    | timeout => rw [hqn] at hp; simp at hp
  | panic e' =>
    rw [hpn] at hp
    simp only [Prod.mk.injEq] at hp
    exact .inl hp.2.symm
  | timeout => rw [hpn] at hp; simp at hp

end

theorem addAssignM_eq [NumOps α] (c d : α) (z : Cartesian α) (n : ℕ) :
    addAssignM c d z n = twoStores (NumOps.add z.re c) (fun w => NumOps.add w.re d) z n := twoStores_eq _ (fun w => NumOps.add w.re d) z n

theorem subAssignM_eq [NumOps α] (c d : α) (z : Cartesian α) (n : ℕ) :
    subAssignM c d z n = twoStores (NumOps.sub z.re c) (fun w => NumOps.sub w.re d) z n := twoStores_eq _ (fun w => NumOps.sub w.re d) z n

/-- The real part a complex division computes. -/
def divRe [NumOps α] [MixedPowi α] (z : Cartesian α) (c : α) : Prog α := do
  NumOps.div (← NumOps.add (← NumOps.mul z.re c) (← NumOps.mul z.im c)) (← NumOps.add (← MixedPowi.powi c 2) (← MixedPowi.powi c 2))

/-- The imaginary part. -/
def divIm [NumOps α] [MixedPowi α] (z : Cartesian α) (c : α) : Prog α := do
  NumOps.div (← NumOps.sub (← NumOps.mul z.im c) (← NumOps.mul z.re c)) (← NumOps.add (← MixedPowi.powi c 2) (← MixedPowi.powi c 2))

theorem divAssignM_eq [NumOps α] [MixedPowi α] (c : α) (z : Cartesian α) (n : ℕ) :
    divAssignM c z n = twoStores (divRe z c) (fun _ => divIm z c) z n := twoStores_eq (divRe z c) (fun _ => divIm z c) z n

theorem divAssignScalarM_eq [MixedCmp α] [MixedZero α] [NumOps β] [MixedReal β] [Conv α β] (r : α) (z : Cartesian β)
    (h : MixedCmp.beq r MixedZero.zero = false) (n : ℕ) :
    divAssignScalarM r z n = twoStores (do NumOps.div z.re (← Conv.fromNum r)) (fun w => do NumOps.div w.im (← Conv.fromNum r)) z n := by
  rw [← twoStores_eq]
  unfold divAssignScalarM
  rw [h]; rfl

theorem divAssignScalarM_zero [MixedCmp α] [MixedZero α] [NumOps β] [MixedReal β] [Conv α β] {r : α} {z : Cartesian β} {x : β}
    {n : ℕ} {e : Panic} (h : MixedCmp.beq r MixedZero.zero = true) (hx : (MixedReal.maxValue : Prog β) n = .ok x)
    (hd : (do NumOps.div x (← Conv.fromNum r) : Prog β) n = .panic e) :
    divAssignScalarM r z n = (.panic e, ⟨x, x⟩) := by
  unfold divAssignScalarM
  rw [h, if_pos rfl]
  show Mut.bind (Mut.eval MixedReal.maxValue) (fun a => Mut.bind (storeRe a) fun _ =>
    Mut.bind (Mut.eval MixedReal.maxValue) fun b => Mut.bind (storeIm b) fun _ => Mut.bind Mut.read fun w => Mut.bind
      (Mut.eval (do NumOps.div w.re (← Conv.fromNum r))) fun v => Mut.bind (storeRe v) fun _ => Mut.bind Mut.read fun w =>
      Mut.bind (Mut.eval (do NumOps.div w.im (← Conv.fromNum r))) storeIm) z n = _
  simp only [Mut.bind, Mut.eval, Mut.read, storeRe, storeIm, Mut.store, hx, hd]

end MixedNum
