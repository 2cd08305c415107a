import Verif.Lemmas.FloatNear
import Verif.Spec.FloatSame
import Verif.Lemmas.Float
import Mathlib.Tactic.Linarith
import Mathlib.Tactic.Ring
/-! Rounding is symmetric: the float operations commute with sign changes, up to the sign of zero. -/

namespace MixedNum
namespace Flt
variable {f : Format}

/-- `y` is `x`, with the sign changed if `σ`; signs of zeros are ignored. -/
def Sgn (σ : Bool) : Flt f → Flt f → Prop
  | .nan, .nan => True
  | .inf s, .inf t => t = xor s σ
  | .fin s m, .fin t n => n = m ∧ (m = 0 ∨ t = xor s σ)
  | _, _ => False

theorem Sgn.same {x y : Flt f} (h : Sgn false x y) : Same y x := by
  cases x <;> cases y <;> simp only [Sgn, Bool.xor_false] at h
  · exact .inl rfl
  · subst h; exact .inl rfl
  · obtain ⟨rfl, rfl | rfl⟩ := h
    · exact .inr ⟨_, _, rfl, rfl⟩
    · exact .inl rfl

theorem Sgn.opp {x y : Flt f} (h : Sgn true x y) : Same y x.neg := by
  cases x <;> cases y <;> simp only [Sgn, Bool.xor_true] at h
  · exact .inl rfl
  · subst h; exact .inl rfl
  · obtain ⟨rfl, rfl | rfl⟩ := h
    · exact .inr ⟨_, _, rfl, rfl⟩
    · exact .inl rfl

theorem Sgn.refl (x : Flt f) : Sgn false x x := by cases x <;> simp [Sgn]
theorem sgn_neg (x : Flt f) : Sgn true x x.neg := by cases x <;> simp [Sgn, neg]

theorem Sgn.symm {σ : Bool} {x y : Flt f} (h : Sgn σ x y) : Sgn σ y x := by
  cases x <;> cases y <;> simp only [Sgn] at h ⊢
  · subst h; simp
  · obtain ⟨rfl, rfl | rfl⟩ := h <;> simp

theorem Sgn.trans {σ τ : Bool} {x y z : Flt f} (h : Sgn σ x y) (h' : Sgn τ y z) : Sgn (xor σ τ) x z := by
  cases x <;> cases y <;> simp only [Sgn] at h <;> cases z <;> simp only [Sgn] at h' ⊢
  · subst h h'; simp
  · obtain ⟨rfl, h⟩ := h; obtain ⟨rfl, h'⟩ := h'
    rcases h with rfl | rfl
    · simp
    · rcases h' with rfl | rfl <;> simp

theorem Sgn.neg_right {σ : Bool} {x y : Flt f} (h : Sgn σ x y) : Sgn (!σ) x y.neg := by
  have := h.trans (sgn_neg y); simpa using this

theorem Sgn.neg {σ : Bool} {x y : Flt f} (h : Sgn σ x y) : Sgn σ x.neg y.neg := by
  have := ((sgn_neg x).symm.trans h).trans (sgn_neg y)
  cases σ <;> simpa using this

theorem same_of_sgn {x y z : Flt f} (h : Sgn true x y) (h' : Sgn true x z) : Same y z := by
  have := h'.symm.trans h
  exact Sgn.same (by simpa using this)

/-- The signed rational: `q` or `-q`. -/
def sg (σ : Bool) (q : ℚ) : ℚ := if σ then -q else q

theorem Sgn.val {σ : Bool} {s t : Bool} {m n : ℚ} (h : Sgn σ (.fin s m : Flt f) (.fin t n)) :
    Flt.val (.fin t n : Flt f) = sg σ (Flt.val (.fin s m : Flt f)) := by
  obtain ⟨rfl, rfl | rfl⟩ := h
  · cases s <;> cases t <;> cases σ <;> simp [Flt.val, sg]
  · cases s <;> cases σ <;> simp [Flt.val, sg]

theorem sgn_ofExact (σ z w : Bool) {q r : ℚ} (h : r = sg σ q) : Sgn σ (ofExact z q : Flt f) (ofExact w r) := by
  subst h
  by_cases hq : q = 0
  · subst hq; cases σ <;> simp [ofExact, sg, Sgn]
  · cases σ
    · simp only [sg, Bool.false_eq_true, if_false, ofExact, if_neg hq]
      exact Sgn.refl _
    · have hq' : -q ≠ 0 := neg_ne_zero.mpr hq
      simp only [sg, if_true, ofExact, if_neg hq, if_neg hq', abs_neg]
      have hd : decide (-q < 0) = !decide (q < 0) := by
        rcases lt_or_gt_of_ne hq with h | h
        · rw [decide_eq_false (by linarith), decide_eq_true h]; rfl
        · rw [decide_eq_true (by linarith), decide_eq_false (by linarith)]; rfl
      split
      · exact ⟨rfl, .inr (by rw [hd]; simp)⟩
      · show _ = _; rw [hd]; simp

theorem Sgn.add {σ : Bool} {x y x' y' : Flt f} (hx : Sgn σ x x') (hy : Sgn σ y y') : Sgn σ (x.add y) (x'.add y') := by
  cases x <;> cases x' <;> try exact hx.elim
  · cases y <;> cases y' <;> first | exact hy.elim | trivial
  · simp only [Sgn] at hx; subst hx
    cases y <;> cases y' <;> try exact hy.elim
    · trivial
    · simp only [Sgn] at hy; subst hy
      rename_i s t
      cases s <;> cases t <;> cases σ <;> simp [Flt.add, Sgn]
    · simp [Flt.add, Sgn]
  · cases y <;> cases y' <;> try exact hy.elim
    · trivial
    · simp only [Sgn] at hy; subst hy; simp [Flt.add, Sgn]
    · exact sgn_ofExact _ _ _ (by rw [hx.val, hy.val]; cases σ <;> simp only [sg, if_true, Bool.false_eq_true, if_false]; ring)

theorem Sgn.sub {σ : Bool} {x y x' y' : Flt f} (hx : Sgn σ x x') (hy : Sgn σ y y') : Sgn σ (x.sub y) (x'.sub y') :=
  hx.add hy.neg

theorem Sgn.mag_zero {σ s t : Bool} {m n : ℚ} (h : Sgn σ (.fin s m : Flt f) (.fin t n)) : n = m := h.1

theorem Sgn.mul {σ τ : Bool} {x y x' y' : Flt f} (hx : Sgn σ x x') (hy : Sgn τ y y') : Sgn (xor σ τ) (x.mul y) (x'.mul y') := by
  cases x <;> cases x' <;> try exact hx.elim
  · cases y <;> cases y' <;> first | exact hy.elim | trivial
  · simp only [Sgn] at hx; subst hx
    cases y <;> cases y' <;> try exact hy.elim
    · trivial
    · simp only [Sgn] at hy; subst hy
      rename_i s t
      cases s <;> cases t <;> cases σ <;> cases τ <;> simp [Flt.mul, Sgn]
    · obtain ⟨rfl, h⟩ := hy
      rename_i s t t' n
      by_cases h0 : n = 0
      · simp [Flt.mul, Sgn, h0]
      · obtain rfl := h.resolve_left h0
        simp only [Flt.mul, if_neg h0, Sgn]
        cases s <;> cases t <;> cases σ <;> cases τ <;> rfl
  · cases y <;> cases y' <;> try exact hy.elim
    · trivial
    · simp only [Sgn] at hy; subst hy
      obtain ⟨rfl, h⟩ := hx
      rename_i s t m u
      by_cases h0 : m = 0
      · simp [Flt.mul, Sgn, h0]
      · obtain rfl := h.resolve_left h0
        simp only [Flt.mul, if_neg h0, Sgn]
        cases s <;> cases u <;> cases σ <;> cases τ <;> rfl
    · exact sgn_ofExact _ _ _ (by rw [hx.val, hy.val]; cases σ <;> cases τ <;> simp [sg])

/-- Division, when the divisor is not a zero. -/
theorem Sgn.div {σ τ : Bool} {x y x' y' : Flt f} (hx : Sgn σ x x') (hy : Sgn τ y y') (h0 : ∀ s, y ≠ .fin s 0) :
    Sgn (xor σ τ) (x.div y) (x'.div y') := by
  cases x <;> cases x' <;> try exact hx.elim
  · cases y <;> cases y' <;> first | exact hy.elim | trivial
  · simp only [Sgn] at hx; subst hx
    cases y <;> cases y' <;> try exact hy.elim
    · trivial
    · trivial
    · obtain ⟨rfl, h⟩ := hy
      rename_i s t t' n
      obtain rfl := h.resolve_left (fun e => h0 t (by rw [e]))
      simp only [Flt.div, Sgn]
      cases s <;> cases t <;> cases σ <;> cases τ <;> rfl
  · cases y <;> cases y' <;> try exact hy.elim
    · trivial
    · simp [Flt.div, Sgn]
    · have hn := hy.1
      subst hn
      rename_i s m s' m' t t' n
      have h1 : n ≠ 0 := fun e => h0 t (by rw [e])
      simp only [Flt.div, if_neg h1]
      exact sgn_ofExact (xor σ τ) _ _ (by rw [hx.val, hy.val]; cases σ <;> cases τ <;> simp [sg, neg_div, div_neg])

theorem Sgn.lt {x y x' y' : Flt f} (hx : Sgn true x x') (hy : Sgn true y y') : x'.lt y' = y.lt x := by
  cases x <;> cases x' <;> try exact hx.elim
  · cases y <;> cases y' <;> first | exact hy.elim | rfl
  · simp only [Sgn] at hx; subst hx
    cases y <;> cases y' <;> try exact hy.elim
    · rfl
    · simp only [Sgn] at hy; subst hy
      rename_i s t
      cases s <;> cases t <;> rfl
    · rename_i s _ _ _ _; cases s <;> rfl
  · cases y <;> cases y' <;> try exact hy.elim
    · rfl
    · simp only [Sgn] at hy; subst hy; rename_i s; cases s <;> rfl
    · show decide _ = decide _
      rw [hx.val, hy.val]; simp [sg]

theorem Sgn.abs {σ : Bool} {x x' : Flt f} (hx : Sgn σ x x') : x'.abs = x.abs := by
  cases x <;> cases x' <;> try exact hx.elim
  · rfl
  · rfl
  · obtain ⟨rfl, -⟩ := hx; rfl

/-- Squaring loop on two inputs that agree up to sign. -/
theorem Sgn.powStrip : ∀ (k : ℕ) {σ : Bool} {x y : Flt f} (e : ℕ), Sgn σ x y →
    (powStrip k x e).2 = (powStrip k y e).2 ∧
    ∃ τ, Sgn τ (powStrip k x e).1 (powStrip k y e).1 ∧ (e % 2 = 1 → τ = σ) ∧ (τ = σ ∨ τ = false) ∧
      (k ≠ 0 → e % 2 = 0 → τ = false)
  | 0, σ, x, y, e, h => ⟨rfl, σ, h, fun _ => rfl, .inl rfl, fun h => absurd rfl h⟩
  | k + 1, σ, x, y, e, h => by
    unfold Flt.powStrip
    by_cases he : e % 2 = 0
    · rw [if_pos he, if_pos he]
      have h2 : Sgn false (x.mul x) (y.mul y) := by have := h.mul h; simpa using this
      obtain ⟨h3, τ, h4, -, h6, -⟩ := Sgn.powStrip k (e / 2) h2
      have : τ = false := by rcases h6 with h | h <;> exact h
      exact ⟨h3, τ, h4, by omega, .inr this, fun _ _ => this⟩
    · rw [if_neg he, if_neg he]
      exact ⟨rfl, σ, h, fun _ => rfl, .inl rfl, fun _ h => absurd h he⟩

theorem Sgn.powAcc : ∀ (k : ℕ) {σ τ : Bool} {acc acc' x y : Flt f} (e : ℕ), Sgn σ acc acc' → Sgn τ x y →
    Sgn σ (powAcc k acc x e) (powAcc k acc' y e)
  | 0, _, _, _, _, _, _, _, h, _ => h
  | k + 1, σ, τ, acc, acc', x, y, e, h, h' => by
    unfold Flt.powAcc
    by_cases he : 1 < e
    · rw [if_pos he, if_pos he]
      have h2 : Sgn false (x.mul x) (y.mul y) := by have := h'.mul h'; simpa using this
      apply Sgn.powAcc k _ _ h2
      by_cases ho : e / 2 % 2 = 1
      · rw [if_pos ho, if_pos ho]; have := h.mul h2; simpa using this
      · rw [if_neg ho, if_neg ho]; exact h
    · rw [if_neg he, if_neg he]; exact h

/-- Powers: the sign survives exactly for odd exponents. -/
theorem Sgn.pow {σ : Bool} {x y : Flt f} (h : Sgn σ x y) (e : ℕ) : Sgn (σ && decide (e % 2 = 1)) (pow x e) (pow y e) := by
  unfold Flt.pow
  by_cases he : e = 0
  · subst he; simp only [if_true]; simpa using Sgn.refl _
  · rw [if_neg he, if_neg he]
    obtain ⟨h1, τ, h2, h3, -, h5⟩ := Sgn.powStrip 64 e h
    show Sgn _ (Flt.powAcc 64 (Flt.powStrip 64 x e).1 (Flt.powStrip 64 x e).1 (Flt.powStrip 64 x e).2)
      (Flt.powAcc 64 (Flt.powStrip 64 y e).1 (Flt.powStrip 64 y e).1 (Flt.powStrip 64 y e).2)
    rw [← h1]
    have : (σ && decide (e % 2 = 1)) = τ := by
      rcases Nat.mod_two_eq_zero_or_one e with h | h
      · rw [h5 (by norm_num) h]; simp [h]
      · rw [h3 h]; simp [h]
    rw [this]
    exact Sgn.powAcc 64 _ h2 h2

theorem Sgn.div_right {σ : Bool} {x x' : Flt f} (h : Sgn σ x x') (y : Flt f) : Sgn σ (x.div y) (x'.div y) := by
  cases y with
  | nan => cases x <;> cases x' <;> first | exact h.elim | trivial
  | inf t =>
    cases x <;> cases x' <;> try exact h.elim
    · trivial
    · trivial
    · simp only [Flt.div, Sgn]; simp only [Sgn] at h; obtain ⟨rfl, h⟩ := h; simp
  | fin t n =>
    by_cases hn : n = 0
    · cases x <;> cases x' <;> try exact h.elim
      · trivial
      · simp only [Flt.div, Sgn] at h ⊢; subst h; cases σ <;> cases t <;> simp
      · simp only [Flt.div, if_pos hn]
        simp only [Sgn] at h
        obtain ⟨rfl, h⟩ := h
        split_ifs with h0
        · trivial
        · rcases h with h | rfl
          · exact (h0 h).elim
          · cases σ <;> cases t <;> simp [Sgn]
    · have := h.div (Sgn.refl (.fin t n : Flt f)) (fun s e => by simp at e; exact hn e.2)
      simpa using this

theorem neg_mul_neg_flt (y : Flt f) : y.neg.mul y.neg = y.mul y := by
  cases y <;> simp [Flt.mul, Flt.neg, Flt.val]
  split_ifs <;> simp_all

theorem one_fin (hf : f.Wide) : (ofExact false 1 : Flt f) = .fin false 1 := by
  obtain ⟨s, m, e, -, hv, -⟩ := lit_int (f := f) hf (n := 1) (by norm_num)
  rw [show (((1:ℤ):ℚ)) = (1:ℚ) by norm_num] at e hv
  have hs : s = false := by
    unfold ofExact at e
    simp only [one_ne_zero, if_false] at e
    split at e
    · simp at e; exact e.1.symm
    · cases e
  subst hs
  rw [e] at hv ⊢
  simp [Flt.val] at hv
  rw [hv]

end Flt
end MixedNum
