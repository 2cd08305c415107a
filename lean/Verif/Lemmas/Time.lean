import Verif.Lemmas.Counter
import Verif.Lemmas.Wrap
import Verif.Spec.Time
/-! Counting the passes of loops. -/

namespace MixedNum
variable {α β σ : Type}

theorem LoopFree.of_pure (a : α) : LoopFree (pure a : Prog α) := .inl ⟨a, rfl⟩
theorem LoopFree.of_fail (e : Panic) : LoopFree (Prog.fail e : Prog α) := .inr ⟨e, rfl⟩

theorem LoopFree.bind {p : Prog α} {f : α → Prog β} (hp : LoopFree p) (hf : ∀ a, LoopFree (f a)) : LoopFree (p >>= f) := by
  rcases hp with ⟨a, rfl⟩ | ⟨e, rfl⟩
  · rw [pure_bind]; exact hf a
  · exact .inr ⟨e, rfl⟩

theorem LoopFree.ite {c : Prop} [Decidable c] {p q : Prog α} (hp : LoopFree p) (hq : LoopFree q) :
    LoopFree (if c then p else q) := by split <;> assumption

theorem LoopFree.atMost {p : Prog α} (h : LoopFree p) (K : ℕ) : PassesAtMost p K := by
  rcases h with ⟨a, rfl⟩ | ⟨e, rfl⟩ <;> intro n _ h <;> simp at h

theorem LoopFree.ne_timeout {p : Prog α} (h : LoopFree p) (n : ℕ) : p n ≠ .timeout := by
  rcases h with ⟨a, rfl⟩ | ⟨e, rfl⟩ <;> intro h <;> simp at h

theorem LoopFree.eq_pure {p : Prog α} (h : LoopFree p) {n : ℕ} {a : α} (e : p n = .ok a) : p = pure a := by
  rcases h with ⟨b, rfl⟩ | ⟨b, rfl⟩
  · rw [Prog.pure_apply] at e; cases e; rfl
  · simp at e

theorem PassesAtMost.bind {p : Prog α} {f : α → Prog β} {K : ℕ} (hp : PassesAtMost p K)
    (hf : ∀ a n, p n = .ok a → PassesAtMost (f a) K) : PassesAtMost (p >>= f) K := by
  intro n hn
  cases h : p n with
  | ok a => rw [Prog.bind_apply_ok h]; exact hf a n h n hn
  | panic e => rw [Prog.bind_apply_panic h]; simp
  | timeout => exact absurd h (hp n hn)

theorem PassesAtLeast.bind {p : Prog α} {f : α → Prog β} {K : ℕ} (hp : PassesAtLeast p K) : PassesAtLeast (p >>= f) K :=
  fun n hn => Prog.bind_apply_timeout (hp n hn)

/-- A loop of loop-free parts that lowers a measure makes no more passes than the measure, and keeps its invariant. -/
theorem whileLoop_time {c : σ → Prog Bool} {b : σ → Prog σ} (Inv : σ → Prop) (μ : σ → ℕ) (hc : ∀ s, LoopFree (c s))
    (hb : ∀ s, LoopFree (b s))
    (hstep : ∀ s s', Inv s → c s = pure true → b s = pure s' → Inv s' ∧ μ s' < μ s) {s : σ} (hs : Inv s) :
    PassesAtMost (whileLoop c b s) (μ s) ∧ ∀ n t, whileLoop c b s n = .ok t → Inv t ∧ c t = pure false := by
  have key : ∀ k s m, Inv s → (μ s < k → whileGo c b k s m ≠ .timeout) ∧
      ∀ t, whileGo c b k s m = .ok t → Inv t ∧ c t = pure false := by
    intro k
    induction k with
    | zero => intro s m _; exact ⟨by omega, by intro t h; cases h⟩
    | succ k ih =>
      intro s m hs
      rw [whileGo_succ]
      rcases hc s with ⟨v, e⟩ | ⟨v, e⟩
      · rw [e, pure_bind]
        cases v
        · refine ⟨fun _ => by simp, fun t h => ?_⟩
          simp only [Bool.false_eq_true, if_false, Prog.pure_apply] at h
          cases h; exact ⟨hs, e⟩
        · rw [if_pos rfl]
          rcases hb s with ⟨s', e'⟩ | ⟨s', e'⟩
          · rw [e', pure_bind]
            obtain ⟨h1, h2⟩ := hstep s s' hs e e'
            exact ⟨fun h => (ih s' m h1).1 (by omega), (ih s' m h1).2⟩
          · rw [e']; exact ⟨fun _ h => by simp at h, fun t h => by simp at h⟩
      · rw [e]; exact ⟨fun _ h => by simp at h, fun t h => by simp at h⟩
  exact ⟨fun n hn => (key n s n hs).1 hn, fun n => (key n s n hs).2⟩

theorem Steps.go_timeout {c : σ → Prog Bool} {b : σ → Prog σ} {k : ℕ} {s t : σ} (h : Steps c b k s t) :
    ∀ n m, n ≤ k → whileGo c b n s m = .timeout := by
  induction h with
  | done hc => intro n m hn; rw [Nat.le_zero.mp hn]; rfl
  | step hc hb _ ih =>
    intro n m hn
    rcases n with _ | n
    · rfl
    · rw [whileGo_step hc hb]; exact ih n m (by omega)

/-- A loop that makes `k` passes: its outcome under every budget. -/
theorem Steps.loop {c : σ → Prog Bool} {b : σ → Prog σ} {k : ℕ} {s t : σ} (h : Steps c b k s t) (n : ℕ) :
    whileLoop c b s n = if n ≤ k then .timeout else .ok t := by
  show whileGo c b n s n = _
  split_ifs with hn
  · exact h.go_timeout n n hn
  · rw [h.go n (by omega)]; rfl

/-- Two loops one after the other. -/
theorem Steps.seq {c c' : σ → Prog Bool} {b b' : σ → Prog σ} {k l : ℕ} {s t u : σ} (h : Steps c b k s t)
    (h' : Steps c' b' l t u) (n : ℕ) :
    (whileLoop c b s >>= whileLoop c' b') n = if n ≤ max k l then .timeout else .ok u := by
  by_cases hn : n ≤ k
  · rw [Prog.bind_apply_timeout (by rw [h.loop, if_pos hn]), if_pos (by omega)]
  · rw [Prog.bind_apply_ok (by rw [h.loop, if_neg hn]), h'.loop]
    by_cases hl : n ≤ l
    · rw [if_pos hl, if_pos (by omega)]
    · rw [if_neg hl, if_neg (by omega)]

/-- A loop that lowers `v` by between `lo` and `hi` in each pass. -/
theorem steps_linear {c : σ → Prog Bool} {b : σ → Prog σ} (Inv : σ → Prop) (v : σ → ℝ) {lo hi L : ℝ} (hlo : 0 < lo)
    (hL : ∀ s, Inv s → L ≤ v s)
    (hstep : ∀ s, Inv s → c s = pure false ∨
      (c s = pure true ∧ ∃ s', b s = pure s' ∧ Inv s' ∧ lo ≤ v s - v s' ∧ v s - v s' ≤ hi)) {s : σ} (hs : Inv s) :
    ∃ k t, Steps c b k s t ∧ Inv t ∧ c t = pure false ∧ lo * k ≤ v s - v t ∧ v s - v t ≤ hi * k := by
  have key : ∀ (m : ℕ) s, Inv s → v s - L < lo * m →
      ∃ k t, Steps c b k s t ∧ Inv t ∧ c t = pure false ∧ lo * k ≤ v s - v t ∧ v s - v t ≤ hi * k := by
    intro m
    induction m with
    | zero => intro s hs h; have := hL s hs; simp at h; linarith
    | succ m ih =>
      intro s hs h
      rcases hstep s hs with hc | ⟨hc, s', hb, hs', h1, h2⟩
      · exact ⟨0, s, .done hc, hs, hc, by simp, by simp⟩
      · obtain ⟨k, t, hk, ht, hct, h3, h4⟩ := ih s' hs' (by push_cast at h; linarith)
        exact ⟨k + 1, t, .step hc hb hk, ht, hct, by push_cast; linarith, by push_cast; linarith⟩
  obtain ⟨m, hm⟩ := exists_nat_gt ((v s - L) / lo)
  rw [div_lt_iff₀ hlo] at hm
  exact key m s hs (by linarith)

/-! ### Phase wrapping without rounding -/

section
variable [MixedCmp α] [NumOps α] [Lit α] [MixedPi α] [MixedNumSigned α]

theorem WrapExact.steps_up (E : WrapExact α) {r : α} (h1 : -E.v E.p ≤ E.v r) (h2 : E.v r < E.v E.p) : ∀ (k : ℕ) (x : α),
    E.v r = E.v x + k * (2 * E.v E.p) →
    Steps (fun t => (do pure (MixedCmp.lt t (← MixedNumSigned.neg E.p)) : Prog Bool)) (fun t => NumOps.add t E.t) k x r := by
  have hp := E.pos
  intro k
  induction k with
  | zero =>
    intro x hx
    obtain rfl : r = x := E.inj (by simpa using hx)
    refine .done ?_
    rw [E.neg_eq, pure_bind]
    have : ¬ E.v r < E.v E.np := by rw [E.neg_v]; linarith
    rw [← E.lt_iff] at this; rw [Bool.eq_false_iff.mpr this]
  | succ k ih =>
    intro x hx
    have hlt : E.v x < -E.v E.p := by
      push_cast at hx
      have : 0 ≤ (k:ℝ) * (2 * E.v E.p) := by positivity
      linarith
    obtain ⟨c, hc, vc⟩ := E.add_eq x hlt
    refine .step ?_ hc (ih c (by rw [vc, hx]; push_cast; ring))
    rw [E.neg_eq, pure_bind]
    rw [← E.neg_v, ← E.lt_iff] at hlt
    rw [hlt]

theorem WrapExact.steps_down (E : WrapExact α) {r : α} (h1 : -E.v E.p ≤ E.v r) (h2 : E.v r < E.v E.p) : ∀ (k : ℕ) (x : α),
    E.v x = E.v r + k * (2 * E.v E.p) →
    Steps (fun t => (pure (MixedCmp.le E.p t) : Prog Bool)) (fun t => NumOps.sub t E.t) k x r := by
  have hp := E.pos
  intro k
  induction k with
  | zero =>
    intro x hx
    obtain rfl : x = r := E.inj (by simpa using hx)
    refine .done ?_
    have : ¬ E.v E.p ≤ E.v x := by linarith
    rw [← E.le_iff] at this; rw [Bool.eq_false_iff.mpr this]
  | succ k ih =>
    intro x hx
    have hle : E.v E.p ≤ E.v x := by
      push_cast at hx
      have : 0 ≤ (k:ℝ) * (2 * E.v E.p) := by positivity
      linarith
    obtain ⟨c, hc, vc⟩ := E.sub_eq x hle
    refine .step ?_ hc (ih c (by rw [vc, hx]; push_cast; ring))
    rw [← E.le_iff] at hle
    rw [hle]

/-- Without rounding `wrap_phase` makes exactly as many passes as turns are taken off. -/
theorem WrapExact.time (E : WrapExact α) (x : α) : ∃ (r : α) (k : ℤ), -E.v E.p ≤ E.v r ∧ E.v r < E.v E.p ∧
    E.v r = E.v x + k * (2 * E.v E.p) ∧ ∀ n, wrapPhase x n = if n ≤ k.natAbs then .timeout else .ok r := by
  obtain ⟨r, -, h1, h2, k, hk⟩ := E.spec x
  refine ⟨r, k, h1, h2, hk, fun n => ?_⟩
  unfold wrapPhase
  rw [E.pi_eq, pure_bind, E.two_eq, pure_bind, E.tau_eq, pure_bind]
  rcases le_total 0 k with h | h
  · have hn : ((k.natAbs : ℕ) : ℝ) = k := by rw [Nat.cast_natAbs, abs_of_nonneg h]
    rw [(E.steps_up h1 h2 k.natAbs x (by rw [hn]; exact hk)).seq (E.steps_down h1 h2 0 r (by simp)), Nat.max_zero]
  · have hn : ((k.natAbs : ℕ) : ℝ) = -k := by rw [Nat.cast_natAbs, abs_of_nonpos h, Int.cast_neg]
    have hx : E.v x = E.v r + k.natAbs * (2 * E.v E.p) := by rw [hn, hk]; ring
    have hstay : Steps (fun t => (do pure (MixedCmp.lt t (← MixedNumSigned.neg E.p)) : Prog Bool)) (fun t => NumOps.add t E.t) 0 x x := by
      refine .done ?_
      rw [E.neg_eq, pure_bind]
      have : ¬ E.v x < E.v E.np := by
        have hp := E.pos
        have : 0 ≤ (k.natAbs:ℝ) * (2 * E.v E.p) := by positivity
        rw [E.neg_v]; linarith
      rw [← E.lt_iff] at this; rw [Bool.eq_false_iff.mpr this]
    rw [hstay.seq (E.steps_down h1 h2 k.natAbs x hx), Nat.zero_max]

end

end MixedNum
