import Verif.Model.Prog
/-! Basic facts about `Prog`, `Returns`, `Panics`, `Diverges` and loops. -/

namespace MixedNum

open Prog

theorem Prog.bind_def {α β : Type} (p : Prog α) (f : α → Prog β) : (p >>= f) = Prog.bind p f := rfl

@[simp] theorem Prog.pure_apply {α : Type} (a : α) (n : Nat) : (pure a : Prog α) n = .ok a := rfl
@[simp] theorem Prog.fail_apply {α : Type} (e : Panic) (n : Nat) : (Prog.fail e : Prog α) n = .panic e := rfl

instance : LawfulMonad Prog := LawfulMonad.mk'
  (id_map := by
    intro α x; funext n; show Prog.bind x _ n = x n
    unfold Prog.bind; cases h : x n <;> rfl)
  (pure_bind := by intros; rfl)
  (bind_assoc := by
    intro α β γ x f g; funext n
    show Prog.bind (Prog.bind x f) g n = Prog.bind x (fun a => Prog.bind (f a) g) n
    unfold Prog.bind; cases h : x n <;> rfl)

@[simp] theorem Prog.fail_bind {α β : Type} (e : Panic) (f : α → Prog β) :
    (Prog.fail e >>= f) = Prog.fail e := rfl

@[simp] theorem Prog.map_fail {α β : Type} (e : Panic) (f : α → β) : f <$> (Prog.fail e : Prog α) = Prog.fail e := rfl

theorem Prog.bind_apply_ok {α β : Type} {p : Prog α} {f : α → Prog β} {n : Nat} {a : α}
    (h : p n = .ok a) : (p >>= f) n = f a n := by
  show Prog.bind p f n = _; unfold Prog.bind; rw [h]

theorem Prog.bind_apply_panic {α β : Type} {p : Prog α} {f : α → Prog β} {n : Nat} {e : Panic}
    (h : p n = .panic e) : (p >>= f) n = .panic e := by
  show Prog.bind p f n = _; unfold Prog.bind; rw [h]

theorem Prog.bind_apply_timeout {α β : Type} {p : Prog α} {f : α → Prog β} {n : Nat}
    (h : p n = .timeout) : (p >>= f) n = .timeout := by
  show Prog.bind p f n = _; unfold Prog.bind; rw [h]

theorem Prog.bind_ok_inv {α β : Type} {p : Prog α} {f : α → Prog β} {n : Nat} {b : β}
    (h : (p >>= f) n = .ok b) : ∃ a, p n = .ok a ∧ f a n = .ok b := by
  cases hp : p n with
  | ok a => exact ⟨a, rfl, by rw [← h, Prog.bind_apply_ok hp]⟩
  | panic e => rw [Prog.bind_apply_panic hp] at h; simp at h
  | timeout => rw [Prog.bind_apply_timeout hp] at h; simp at h

/-- Two returning calls seen at one common step budget. -/
theorem Returns.common {α β : Type} {p : Prog α} {q : Prog β} {a : α} {b : β}
    (hp : Returns p a) (hq : Returns q b) : ∃ n, p n = .ok a ∧ q n = .ok b := by
  obtain ⟨N, hN⟩ := hp; obtain ⟨M, hM⟩ := hq
  exact ⟨max N M, hN _ (by omega), hM _ (by omega)⟩

theorem Prog.pure_inj {α : Type} {a b : α} (h : (pure a : Prog α) = pure b) : a = b := by
  have := congrFun h 0; simpa using this

theorem Prog.pure_ne_fail {α : Type} {a : α} {e : Panic} : (pure a : Prog α) ≠ Prog.fail e := by
  intro h; have := congrFun h 0; simp at this

theorem Returns.of_eq {α : Type} {p : Prog α} {a : α} (h : p = pure a) : Returns p a :=
  ⟨0, fun n _ => by rw [h]; rfl⟩

@[simp] theorem returns_pure {α : Type} {a b : α} : Returns (pure a) b ↔ a = b := by
  constructor
  · rintro ⟨N, h⟩; have := h N (Nat.le_refl _); simpa using this
  · rintro rfl; exact .of_eq rfl

@[simp] theorem returns_fail {α : Type} {e : Panic} {b : α} : ¬ Returns (Prog.fail e) b := by
  rintro ⟨N, h⟩; have := h N (Nat.le_refl _); simp at this

theorem Panics.of_eq {α : Type} {p : Prog α} {e : Panic} (h : p = Prog.fail e) : Panics p e :=
  ⟨0, fun n _ => by rw [h]; rfl⟩

@[simp] theorem panics_fail {α : Type} {e e' : Panic} : Panics (Prog.fail e : Prog α) e' ↔ e = e' := by
  constructor
  · rintro ⟨N, h⟩; have := h N (Nat.le_refl _); simpa using this
  · rintro rfl; exact .of_eq rfl

@[simp] theorem panics_pure {α : Type} {a : α} {e : Panic} : ¬ Panics (pure a) e := by
  rintro ⟨N, h⟩; have := h N (Nat.le_refl _); simp at this

theorem Returns.bind {α β : Type} {p : Prog α} {f : α → Prog β} {a : α} {b : β}
    (hp : Returns p a) (hf : Returns (f a) b) : Returns (p >>= f) b := by
  obtain ⟨N, hN⟩ := hp; obtain ⟨M, hM⟩ := hf
  refine ⟨max N M, fun n hn => ?_⟩
  rw [Prog.bind_apply_ok (hN n (by omega))]; exact hM n (by omega)

theorem Returns.bind_panics {α β : Type} {p : Prog α} {f : α → Prog β} {a : α} {e : Panic}
    (hp : Returns p a) (hf : Panics (f a) e) : Panics (p >>= f) e := by
  obtain ⟨N, hN⟩ := hp; obtain ⟨M, hM⟩ := hf
  refine ⟨max N M, fun n hn => ?_⟩
  rw [Prog.bind_apply_ok (hN n (by omega))]; exact hM n (by omega)

theorem Panics.bind {α β : Type} {p : Prog α} {f : α → Prog β} {e : Panic}
    (hp : Panics p e) : Panics (p >>= f) e := by
  obtain ⟨N, hN⟩ := hp
  exact ⟨N, fun n hn => Prog.bind_apply_panic (hN n hn)⟩

theorem Diverges.bind {α β : Type} {p : Prog α} {f : α → Prog β}
    (hp : Diverges p) : Diverges (p >>= f) := fun n => Prog.bind_apply_timeout (hp n)

/-- A call has at most one result. -/
theorem Returns.unique {α : Type} {p : Prog α} {a b : α} (ha : Returns p a) (hb : Returns p b) : a = b := by
  obtain ⟨N, hN⟩ := ha; obtain ⟨M, hM⟩ := hb
  have h1 := hN (max N M) (by omega); have h2 := hM (max N M) (by omega)
  rw [h1] at h2; simpa using h2

theorem Returns.not_panics {α : Type} {p : Prog α} {a : α} {e : Panic} (ha : Returns p a) : ¬ Panics p e := by
  rintro ⟨M, hM⟩; obtain ⟨N, hN⟩ := ha
  have h1 := hN (max N M) (by omega); have h2 := hM (max N M) (by omega)
  rw [h1] at h2; simp at h2

theorem Returns.not_diverges {α : Type} {p : Prog α} {a : α} (ha : Returns p a) : ¬ Diverges p := by
  intro h; obtain ⟨N, hN⟩ := ha; have := hN N (Nat.le_refl _); rw [h N] at this; simp at this

theorem Panics.not_diverges {α : Type} {p : Prog α} {e : Panic} (ha : Panics p e) : ¬ Diverges p := by
  intro h; obtain ⟨N, hN⟩ := ha; have := hN N (Nat.le_refl _); rw [h N] at this; simp at this

/-! ### Loops -/

theorem whileGo_succ {σ : Type} (c : σ → Prog Bool) (b : σ → Prog σ) (k : Nat) (s : σ) :
    whileGo c b (k+1) s = (do if ← c s then (do let s' ← b s; whileGo c b k s') else pure s) := by
  rw [whileGo]

/-- One more step in front of a returning loop. -/
theorem whileGo_step {σ : Type} {c : σ → Prog Bool} {b : σ → Prog σ} {s s' : σ} {k : Nat}
    (hc : c s = pure true) (hb : b s = pure s') : whileGo c b (k+1) s = whileGo c b k s' := by
  rw [whileGo_succ, hc, pure_bind]; simp [hb]

theorem whileGo_done {σ : Type} {c : σ → Prog Bool} {b : σ → Prog σ} {s : σ} {k : Nat}
    (hc : c s = pure false) : whileGo c b (k+1) s = pure s := by
  rw [whileGo_succ, hc, pure_bind]; rfl

/-- A loop whose condition is false at once returns its state. -/
theorem whileLoop_done {σ : Type} {c : σ → Prog Bool} {b : σ → Prog σ} {s : σ}
    (hc : c s = pure false) : Returns (whileLoop c b s) s :=
  ⟨1, fun n hn => by
    obtain ⟨k, rfl⟩ : ∃ k, n = k + 1 := ⟨n - 1, by omega⟩
    show whileGo c b (k+1) s (k+1) = _
    rw [whileGo_done hc]; rfl⟩

/-- `Steps c b k s t`: the loop body runs exactly `k` times, taking `s` to `t`, and then the loop stops. -/
inductive Steps {σ : Type} (c : σ → Prog Bool) (b : σ → Prog σ) : Nat → σ → σ → Prop
  | done {s} : c s = pure false → Steps c b 0 s s
  | step {k s s' t} : c s = pure true → b s = pure s' → Steps c b k s' t → Steps c b (k+1) s t

theorem Steps.go {σ : Type} {c : σ → Prog Bool} {b : σ → Prog σ} {k : Nat} {s t : σ}
    (h : Steps c b k s t) : ∀ n, k < n → whileGo c b n s = pure t := by
  induction h with
  | done hc => intro n hn; obtain ⟨m, rfl⟩ : ∃ m, n = m + 1 := ⟨n - 1, by omega⟩; exact whileGo_done hc
  | step hc hb _ ih =>
    intro n hn; obtain ⟨m, rfl⟩ : ∃ m, n = m + 1 := ⟨n - 1, by omega⟩
    rw [whileGo_step hc hb]; exact ih m (by omega)

theorem Steps.returns {σ : Type} {c : σ → Prog Bool} {b : σ → Prog σ} {k : Nat} {s t : σ}
    (h : Steps c b k s t) : Returns (whileLoop c b s) t :=
  ⟨k + 1, fun n hn => by
    show whileGo c b n s n = _
    rw [h.go n (by omega)]; rfl⟩

/-- Total correctness of a loop from an invariant and a decreasing measure. -/
theorem whileLoop_total {σ : Type} {c : σ → Prog Bool} {b : σ → Prog σ} (Inv : σ → Prop) (μ : σ → Nat)
    (hstep : ∀ s, Inv s → (c s = pure false) ∨
      (c s = pure true ∧ ∃ s', b s = pure s' ∧ Inv s' ∧ μ s' < μ s)) :
    ∀ s, Inv s → ∃ t, Returns (whileLoop c b s) t ∧ Inv t ∧ c t = pure false := by
  have key : ∀ m s, μ s = m → Inv s → ∃ k t, Steps c b k s t ∧ Inv t ∧ c t = pure false := by
    intro m
    induction m using Nat.strongRecOn with
    | _ m ih =>
      intro s hm hs
      rcases hstep s hs with hc | ⟨hc, s', hb, hs', hlt⟩
      · exact ⟨0, s, .done hc, hs, hc⟩
      · obtain ⟨k, t, hk, ht, hct⟩ := ih (μ s') (by omega) s' rfl hs'
        exact ⟨k+1, t, .step hc hb hk, ht, hct⟩
  intro s hs
  obtain ⟨k, t, h, ht, hc⟩ := key _ s rfl hs
  exact ⟨t, h.returns, ht, hc⟩

/-- A loop that can always go on never returns. -/
theorem whileLoop_diverges {σ : Type} {c : σ → Prog Bool} {b : σ → Prog σ} (Inv : σ → Prop)
    (hstep : ∀ s, Inv s → c s = pure true ∧ ∃ s', b s = pure s' ∧ Inv s') :
    ∀ s, Inv s → Diverges (whileLoop c b s) := by
  have key : ∀ k s, Inv s → ∀ n, whileGo c b k s n = .timeout := by
    intro k
    induction k with
    | zero => intro s _ n; rfl
    | succ k ih =>
      intro s hs n
      obtain ⟨hc, s', hb, hs'⟩ := hstep s hs
      rw [whileGo_step hc hb]; exact ih s' hs' n
  intro s hs n
  exact key n s hs n

/-- A loop whose body panics at the first step. -/
theorem whileLoop_panic {σ : Type} {c : σ → Prog Bool} {b : σ → Prog σ} {s : σ} {e : Panic}
    (hc : c s = pure true) (hb : b s = Prog.fail e) : Panics (whileLoop c b s) e :=
  ⟨1, fun n hn => by
    obtain ⟨k, rfl⟩ : ∃ k, n = k + 1 := ⟨n - 1, by omega⟩
    show whileGo c b (k+1) s (k+1) = _
    rw [whileGo_succ, hc, pure_bind]; simp [hb]⟩

/-- A loop that is left at once, followed by something that never ends. -/
theorem whileLoop_done_diverges {σ β : Type} {c : σ → Prog Bool} {b : σ → Prog σ} {s : σ} {f : σ → Prog β}
    (hc : c s = pure false) (hf : Diverges (f s)) : Diverges (whileLoop c b s >>= f) := by
  intro n
  rcases n with _ | k
  · exact Prog.bind_apply_timeout rfl
  · have h : whileLoop c b s (k + 1) = .ok s := by
      show whileGo c b (k+1) s (k+1) = _
      rw [whileGo_done hc]; rfl
    rw [Prog.bind_apply_ok h]; exact hf _

end MixedNum
