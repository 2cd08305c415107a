import Mathlib.Analysis.SpecialFunctions.Trigonometric.Basic
import Mathlib.Algebra.Order.Floor.Semiring
import Verif.Model.Trig
import Verif.Lemmas.Prog
/-! Phase wrapping on any component type whose two loops do not round or overflow. -/

namespace MixedNum

theorem ceil_sub_one_lt {y : ℝ} (h : 0 < y) : ⌈y - 1⌉₊ < ⌈y⌉₊ := by
  rw [Nat.ceil_sub_one]; have := Nat.ceil_pos.mpr h; omega

/-- `v` reads a number as a real; `p` is the type's π, `np` its negation, `t` the value of `2 * π`. -/
structure WrapExact (α : Type) [MixedCmp α] [NumOps α] [Lit α] [MixedPi α] [MixedNumSigned α] where
  v : α → ℝ
  inj : Function.Injective v
  p : α
  np : α
  t : α
  two : α
  pos : 0 < v p
  pi_eq : MixedPi.pi = pure p
  two_eq : Lit.ofI32 2 = pure two
  tau_eq : NumOps.mul two p = pure t
  neg_eq : MixedNumSigned.neg p = pure np
  neg_v : v np = - v p
  lt_iff : ∀ a b : α, MixedCmp.lt a b = true ↔ v a < v b
  le_iff : ∀ a b : α, MixedCmp.le a b = true ↔ v a ≤ v b
  add_eq : ∀ a : α, v a < -v p → ∃ c, NumOps.add a t = pure c ∧ v c = v a + 2 * v p
  sub_eq : ∀ a : α, v p ≤ v a → ∃ c, NumOps.sub a t = pure c ∧ v c = v a - 2 * v p

variable {α : Type} [MixedCmp α] [NumOps α] [Lit α] [MixedPi α] [MixedNumSigned α]

theorem WrapExact.spec (E : WrapExact α) (x : α) :
    ∃ r, Returns (wrapPhase x) r ∧ -E.v E.p ≤ E.v r ∧ E.v r < E.v E.p ∧ ∃ k : ℤ, E.v r = E.v x + k * (2 * E.v E.p) := by
  have hp := E.pos
  obtain ⟨y, hy, ⟨k, hk⟩, hyc⟩ := whileLoop_total (c := fun t => (do pure (MixedCmp.lt t (← MixedNumSigned.neg E.p)) : Prog Bool))
    (b := fun t => NumOps.add t E.t) (fun s => ∃ k : ℤ, E.v s = E.v x + k * (2 * E.v E.p))
    (fun s => ⌈(-E.v E.p - E.v s) / (2 * E.v E.p)⌉₊) (by
      rintro s ⟨k, hk⟩
      rw [E.neg_eq, pure_bind]
      by_cases h : E.v s < E.v E.np
      · right
        have h' := h
        rw [E.neg_v] at h'
        obtain ⟨c, hc, hcv⟩ := E.add_eq s h'
        refine ⟨by rw [(E.lt_iff _ _).mpr h], c, hc, ⟨k + 1, by rw [hcv, hk]; push_cast; ring⟩, ?_⟩
        rw [show (-E.v E.p - E.v c) / (2 * E.v E.p) = (-E.v E.p - E.v s) / (2 * E.v E.p) - 1 by
          rw [hcv]; field_simp; ring]
        apply ceil_sub_one_lt
        apply div_pos <;> linarith
      · left
        rw [← E.lt_iff] at h; rw [Bool.eq_false_iff.mpr h]) x ⟨0, by simp⟩
  have hylo : -E.v E.p ≤ E.v y := by
    rw [E.neg_eq, pure_bind] at hyc
    have := Prog.pure_inj hyc
    rw [← E.neg_v]; by_contra hc; rw [not_le, ← E.lt_iff] at hc; simp [hc] at this
  obtain ⟨r, hr, ⟨hrlo, k', hk'⟩, hrc⟩ := whileLoop_total (c := fun t => (pure (MixedCmp.le E.p t) : Prog Bool))
    (b := fun t => NumOps.sub t E.t) (fun s => -E.v E.p ≤ E.v s ∧ ∃ k : ℤ, E.v s = E.v x + k * (2 * E.v E.p))
    (fun s => ⌈(E.v s - E.v E.p) / (2 * E.v E.p) + 1⌉₊) (by
      rintro s ⟨hs, k, hk⟩
      by_cases h : E.v E.p ≤ E.v s
      · right
        obtain ⟨c, hc, hcv⟩ := E.sub_eq s h
        refine ⟨by rw [(E.le_iff _ _).mpr h], c, hc, ⟨by rw [hcv]; linarith, k - 1, by rw [hcv, hk]; push_cast; ring⟩, ?_⟩
        rw [show (E.v c - E.v E.p) / (2 * E.v E.p) + 1 = ((E.v s - E.v E.p) / (2 * E.v E.p) + 1) - 1 by
          rw [hcv]; field_simp; ring]
        apply ceil_sub_one_lt
        have : 0 ≤ (E.v s - E.v E.p) / (2 * E.v E.p) := by apply div_nonneg <;> linarith
        linarith
      · left
        rw [← E.le_iff] at h; rw [Bool.eq_false_iff.mpr h]) y ⟨hylo, k, hk⟩
  refine ⟨r, ?_, hrlo, ?_, k', hk'⟩
  · unfold wrapPhase
    rw [E.pi_eq, pure_bind, E.two_eq, pure_bind, E.tau_eq, pure_bind]
    exact hy.bind hr
  · have := Prog.pure_inj hrc
    by_contra hc; rw [not_lt, ← E.le_iff] at hc; simp [hc] at this

/-- Numbers in `[-a, a)` that differ by a multiple of `2a` are equal. -/
theorem eq_of_range_of_turns {a x y : ℝ} (k : ℤ) (ha : 0 < a) (hx : -a ≤ x) (hx' : x < a) (hy : -a ≤ y) (hy' : y < a)
    (h : x = y + k * (2 * a)) : x = y := by
  have h1 : (k:ℝ) < 1 := by
    have : (k:ℝ) * (2 * a) < 1 * (2 * a) := by linarith
    exact lt_of_mul_lt_mul_right this (by linarith)
  have h2 : (-1:ℝ) < k := by
    have : (-1:ℝ) * (2 * a) < k * (2 * a) := by linarith
    exact lt_of_mul_lt_mul_right this (by linarith)
  have h3 : k < 1 := by exact_mod_cast h1
  have h4 : -1 < k := by exact_mod_cast h2
  have : k = 0 := by omega
  subst this; simpa using h

/-- The wrapped value is the only one in range and on the same angle. -/
theorem WrapExact.unique (E : WrapExact α) {x r : α} (hr : Returns (wrapPhase x) r) {y : α} (k : ℤ)
    (h1 : -E.v E.p ≤ E.v y) (h2 : E.v y < E.v E.p) (h3 : E.v y = E.v x + k * (2 * E.v E.p)) : r = y := by
  obtain ⟨r', hr', a, b, k', c⟩ := E.spec x
  obtain rfl := hr.unique hr'
  apply E.inj
  refine eq_of_range_of_turns (k' - k) E.pos a b h1 h2 ?_
  rw [c, h3]; push_cast; ring

/-- Two angles a whole number of turns apart wrap to the same value. -/
theorem WrapExact.congr (E : WrapExact α) {x y : α} (k : ℤ) (h : E.v y = E.v x + k * (2 * E.v E.p)) :
    ∃ r, Returns (wrapPhase x) r ∧ Returns (wrapPhase y) r ∧ -E.v E.p ≤ E.v r ∧ E.v r < E.v E.p ∧
      ∃ k : ℤ, E.v r = E.v x + k * (2 * E.v E.p) := by
  obtain ⟨r, hr, a, b, k', c⟩ := E.spec x
  obtain ⟨r', hr', _⟩ := E.spec y
  refine ⟨r, hr, ?_, a, b, k', c⟩
  have : r' = r := E.unique hr' (k' - k) a b (by rw [c, h]; push_cast; ring)
  rwa [← this]

end MixedNum
