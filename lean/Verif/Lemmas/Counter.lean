import Verif.Lemmas.Word
import Verif.Lemmas.Prog
import Verif.Model.Sqrt
/-! The counter of the NIIRF square root. -/

namespace MixedNum
variable {α : Type}

/-- The counter is exact up to `B`. -/
def Counter.Upto (c : Counter) (B : ℤ) : Prop := ∀ n : ℤ, |n| ≤ B → c.fit n = pure n

theorem Counter.upto_exact (B : ℤ) : Counter.exact.Upto B := fun _ _ => rfl

theorem fits_i32 (n : ℤ) : Fits true 32 n ↔ -2 ^ 31 ≤ n ∧ n < 2 ^ 31 := Iff.rfl

theorem Counter.upto_i32 (m : Mode) {B : ℤ} (hB : B < 2 ^ 31) : (Counter.i32 m).Upto B := by
  intro n hn
  have hn := abs_le.mp hn
  have hf : Fits true 32 n := (fits_i32 n).mpr ⟨by omega, by omega⟩
  cases m
  · exact if_pos hf
  · show pure (wrapInt true 32 n) = _
    rw [wrapInt_of_fits hf]

/-- On a type of at most 128 bits the counter does not overflow. -/
theorem Counter.upto_width (m : Mode) {W : ℕ} (hW : W ≤ 128) : (Counter.i32 m).Upto W :=
  Counter.upto_i32 m (by omega)

/-- Denormalisation with an unbounded counter. -/
def denormalizeExact [NumOps α] [Lit α] (y : α) (norm : ℤ) : Prog α := do
  let s ← whileLoop (fun (s : α × ℤ) => pure (s.2.natAbs != 0))
    (fun s => do
      if 0 < s.2 then pure (← NumOps.mul s.1 (← Lit.ofI32 2), s.2 - 1)
      else if s.2 < 0 then pure (← NumOps.div s.1 (← Lit.ofI32 2), s.2 + 1)
      else pure s) (y, norm)
  pure s.1

/-- A loop whose body runs `N` times and then panics. -/
theorem whileLoop_panics_at {σ : Type} {c : σ → Prog Bool} {b : σ → Prog σ} {e : Panic} {N : ℕ} (st : ℕ → σ)
    (h : ∀ j, j < N → c (st j) = pure true ∧ b (st j) = pure (st (j + 1))) (hc : c (st N) = pure true)
    (hb : b (st N) = Prog.fail e) {n : ℕ} (hn : N < n) : whileLoop c b (st 0) n = .panic e := by
  have key : ∀ d j, j + d = N → ∀ n, d < n → whileGo c b n (st j) = Prog.fail e := by
    intro d
    induction d with
    | zero =>
      intro j hj n hn
      obtain ⟨k, rfl⟩ : ∃ k, n = k + 1 := ⟨n - 1, by omega⟩
      obtain rfl : j = N := by omega
      rw [whileGo_succ, hc, pure_bind, if_pos rfl, hb, Prog.fail_bind]
    | succ d ih =>
      intro j hj n hn
      obtain ⟨k, rfl⟩ : ∃ k, n = k + 1 := ⟨n - 1, by omega⟩
      rw [whileGo_step (h j (by omega)).1 (h j (by omega)).2]
      exact ih (j + 1) (by omega) k (by omega)
  show whileGo c b n (st 0) n = _
  rw [key N 0 (by omega) n hn]; rfl

theorem whileLoop_panics_after {σ : Type} {c : σ → Prog Bool} {b : σ → Prog σ} {e : Panic} {N : ℕ} (st : ℕ → σ)
    (h : ∀ j, j < N → c (st j) = pure true ∧ b (st j) = pure (st (j + 1))) (hc : c (st N) = pure true)
    (hb : b (st N) = Prog.fail e) : Panics (whileLoop c b (st 0)) e :=
  ⟨N + 1, fun _ hn => whileLoop_panics_at st h hc hb hn⟩

/-- Such a loop is still going when the budget is at most `N`. -/
theorem whileLoop_busy {σ : Type} {c : σ → Prog Bool} {b : σ → Prog σ} {N : ℕ} (st : ℕ → σ)
    (h : ∀ j, j < N → c (st j) = pure true ∧ b (st j) = pure (st (j + 1))) {n : ℕ} (hn : n ≤ N) :
    whileLoop c b (st 0) n = .timeout := by
  have key : ∀ d j, j + d ≤ N → ∀ n, whileGo c b d (st j) n = .timeout := by
    intro d
    induction d with
    | zero => intro j _ n; rfl
    | succ d ih =>
      intro j hj n
      rw [whileGo_step (h j (by omega)).1 (h j (by omega)).2]
      exact ih (j + 1) (by omega) n
  exact key n 0 (by omega) n

/-- Two loops that agree on an invariant. -/
theorem whileGo_congr {σ : Type} {c c' : σ → Prog Bool} {b b' : σ → Prog σ} (Inv : σ → Prop)
    (hc : ∀ s, Inv s → c s = c' s) (hb : ∀ s, Inv s → b s = b' s) (hi : ∀ s s' n, Inv s → b' s n = .ok s' → Inv s') :
    ∀ k s, Inv s → whileGo c b k s = whileGo c' b' k s := by
  intro k
  induction k with
  | zero => intro s _; rfl
  | succ k ih =>
    intro s hs
    funext n
    rw [whileGo_succ, whileGo_succ, hc s hs, hb s hs]
    cases h : c' s n with
    | ok v =>
      rw [Prog.bind_apply_ok h, Prog.bind_apply_ok h]
      cases v
      · rfl
      · simp only [if_true]
        cases h' : b' s n with
        | ok s' => rw [Prog.bind_apply_ok h', Prog.bind_apply_ok h', ih s' (hi s s' n hs h')]
        | panic e => rw [Prog.bind_apply_panic h', Prog.bind_apply_panic h']
        | timeout => rw [Prog.bind_apply_timeout h', Prog.bind_apply_timeout h']
    | panic e => rw [Prog.bind_apply_panic h, Prog.bind_apply_panic h]
    | timeout => rw [Prog.bind_apply_timeout h, Prog.bind_apply_timeout h]

theorem denormalize_eq [NumOps α] [Lit α] {c : Counter} {B : ℤ} (hc : c.Upto B) (y : α) {k : ℤ} (hk : |k| ≤ B) :
    niirfDenormalize c y k = denormalizeExact y k := by
  unfold niirfDenormalize denormalizeExact
  congr 1
  funext n
  show whileGo _ _ n (y, k) n = whileGo _ _ n (y, k) n
  refine congrFun (whileGo_congr (fun s : α × ℤ => |s.2| ≤ B) ?_ ?_ ?_ n (y, k) hk) n
  · rintro ⟨a, j⟩ hj
    simp only at hj ⊢
    rw [hc _ (by rwa [abs_abs]), pure_bind]
    congr 1
    rw [Bool.eq_iff_iff]; simp
  · rintro ⟨a, j⟩ hj
    have hj := abs_le.mp hj
    simp only at hj ⊢
    split_ifs with h1 h2
    · rw [hc _ (abs_le.mpr (by omega))]; rfl
    · rw [hc _ (abs_le.mpr (by omega))]; rfl
    · rfl
  · rintro ⟨a, j⟩ s' n hj h
    have hj' := abs_le.mp hj
    simp only at hj' h
    split_ifs at h with h1 h2
    · obtain ⟨v, -, h⟩ := Prog.bind_ok_inv h
      obtain ⟨w, -, h⟩ := Prog.bind_ok_inv h
      cases h
      exact abs_le.mpr (by simp only []; omega)
    · obtain ⟨v, -, h⟩ := Prog.bind_ok_inv h
      obtain ⟨w, -, h⟩ := Prog.bind_ok_inv h
      cases h
      exact abs_le.mpr (by simp only []; omega)
    · cases h; exact hj

theorem four_pow_lt {j N : ℕ} {n : ℤ} (h : 4 ^ j ≤ n) (hn : n < 2 ^ N) : 2 * j < N := by
  have : (2:ℤ) ^ (2 * j) < 2 ^ N := by rw [pow_mul]; norm_num; exact h.trans_lt hn
  exact (pow_lt_pow_iff_right₀ (by norm_num)).mp this

theorem Fits.lt_two_pow {s : Bool} {W : ℕ} {n : ℤ} (h : Fits s W n) : n < 2 ^ W := by
  have h := h.2
  unfold whi at h
  have : (2:ℤ) ^ (W - 1) ≤ 2 ^ W := pow_le_pow_right₀ (by norm_num) (by omega)
  split at h <;> omega

end MixedNum
