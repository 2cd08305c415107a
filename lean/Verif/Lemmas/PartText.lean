import Verif.Spec.PartText
import Verif.Model.Fmt
/-! # The layout of a complex number determines the signed texts of its parts -/

namespace MixedNum

/-- The text of a part with its sign. -/
def signed (neg : Bool) (t : List Char) : List Char := if neg then '-' :: t else t

/-- What the layout is given for a part: a plain text, or (for minus zero) a minus and a plain text, not taken for negative. -/
def OkPart (neg : Bool) (t : List Char) : Prop := PlainText t ∨ (neg = false ∧ ∃ u, t = '-' :: u ∧ PlainText u)

/-- Signs only after the first character or an exponent mark, which is not last. -/
structure SignsOk (t : List Char) : Prop where
  ne : t ≠ []
  signs : ∀ l a c r, t = l ++ a :: c :: r → c = '+' ∨ c = '-' → a = 'e' ∨ a = 'E'
  last : ∀ l, t ≠ l ++ ['e'] ∧ t ≠ l ++ ['E']

theorem PlainText.ok {t : List Char} (h : PlainText t) : SignsOk t :=
  ⟨by obtain ⟨c, r, rfl, -⟩ := h.head; simp, h.signs, h.last⟩

theorem PlainText.minus {t : List Char} (h : PlainText t) : SignsOk ('-' :: t) := by
  obtain ⟨c, r, rfl, h1, h2, h3⟩ := h.head
  refine ⟨by simp, ?_, ?_⟩
  · intro l a d u e hd
    cases l with
    | nil =>
      simp only [List.nil_append, List.cons.injEq] at e
      obtain ⟨-, rfl, -⟩ := e
      rcases hd with rfl | rfl
      · exact absurd rfl h1
      · exact absurd rfl h2
    | cons b l =>
      simp only [List.cons_append, List.cons.injEq] at e
      exact h.signs l a d u (by rw [← e.2]) hd
  · intro l
    cases l with
    | nil => simp
    | cons b l =>
      constructor
      · intro e; simp only [List.cons_append, List.cons.injEq] at e; exact (h.last l).1 e.2
      · intro e; simp only [List.cons_append, List.cons.injEq] at e; exact (h.last l).2 e.2

theorem OkPart.signed {n : Bool} {t : List Char} (h : OkPart n t) :
    SignsOk (signed n t) ∧ ∃ c r, signed n t = c :: r ∧ c ≠ '+' ∧ c ≠ ' ' := by
  rcases h with h | ⟨rfl, u, rfl, h⟩
  · cases n
    · obtain ⟨c, r, e, h1, -, h3⟩ := h.head
      exact ⟨h.ok, c, r, e, h1, h3⟩
    · exact ⟨h.minus, '-', t, rfl, by decide, by decide⟩
  · exact ⟨h.minus, '-', u, rfl, by decide, by decide⟩

theorem sep_aux {a k i i' : List Char} {s s' : Char} (ha : SignsOk a) (hs : s = '+' ∨ s = '-') (hk : SignsOk (a ++ k))
    (h : s :: i = k ++ s' :: i') : k = [] := by
  cases k with
  | nil => rfl
  | cons c k =>
    exfalso
    simp only [List.cons_append, List.cons.injEq] at h
    obtain ⟨rfl, -⟩ := h
    obtain ⟨l, b, rfl⟩ : ∃ l b, a = l ++ [b] := ⟨_, _, (List.dropLast_append_getLast ha.ne).symm⟩
    rcases hk.signs l b s k (by simp) hs with rfl | rfl
    · exact (ha.last l).1 rfl
    · exact (ha.last l).2 rfl

/-- Where the sign between the parts is can be told from the text. -/
theorem sep {a a' i i' : List Char} {s s' : Char} (ha : SignsOk a) (ha' : SignsOk a') (hs : s = '+' ∨ s = '-')
    (hs' : s' = '+' ∨ s' = '-') (h : a ++ s :: i = a' ++ s' :: i') : a = a' ∧ s = s' ∧ i = i' := by
  rcases List.append_eq_append_iff.mp h with ⟨k, rfl, e⟩ | ⟨k, rfl, e⟩
  · obtain rfl := sep_aux ha hs ha' e
    simp only [List.nil_append, List.cons.injEq] at e
    exact ⟨by simp, e⟩
  · obtain rfl := sep_aux ha' hs' ha e
    simp only [List.nil_append, List.cons.injEq] at e
    exact ⟨by simp, e.1.symm, e.2.symm⟩

/-- The layout without prefix, sorted by sign. -/
theorem fmtReIm_eq (f : FmtSpec) (n n' : Bool) (a b : List Char) :
    fmtReIm f [] n n' a b = (if f.signPlus && !n then ['+'] else []) ++ (signed n a ++ (if n' then '-' else '+') :: (b ++ ['i'])) := by
  unfold fmtReIm signed
  cases n <;> cases n' <;> cases f.signPlus <;> simp

theorem head_ne_space (f : FmtSpec) {n : Bool} {a : List Char} (h : OkPart n a) (t : List Char) :
    ∀ c ∈ ((if f.signPlus && !n then ['+'] else []) ++ (signed n a ++ t)).head?, c ≠ ' ' := by
  obtain ⟨-, c, r, e, -, h2⟩ := h.signed
  rw [e]
  split_ifs <;> simp [h2]

theorem dropWhile_pad (k : ℕ) {t : List Char} (h : ∀ c ∈ t.head?, c ≠ ' ') :
    (List.replicate k ' ' ++ t).dropWhile (· == ' ') = t := by
  induction k with
  | zero =>
    cases t with
    | nil => rfl
    | cons c r => simp at h; simp [h]
  | succ k ih => simpa [List.replicate_succ] using ih

theorem fmtComplex_pad (std : Bool) (f : FmtSpec) (t : List Char) : ∃ k, fmtComplex std f t = List.replicate k ' ' ++ t := by
  unfold fmtComplex
  cases std
  · exact ⟨0, by simp⟩
  · cases f.width with
    | none => exact ⟨0, by simp⟩
    | some w => exact ⟨_, rfl⟩

theorem layout_inj (std : Bool) (f : FmtSpec) {n n' k k' : Bool} {a b c d : List Char} (ha : OkPart n a) (hc : OkPart k c)
    (h : fmtComplex std f (fmtReIm f [] n n' a b) = fmtComplex std f (fmtReIm f [] k k' c d)) :
    signed n a = signed k c ∧ signed n' b = signed k' d := by
  rw [fmtReIm_eq, fmtReIm_eq] at h
  obtain ⟨p, e⟩ := fmtComplex_pad std f
    ((if f.signPlus && !n then ['+'] else []) ++ (signed n a ++ (if n' then '-' else '+') :: (b ++ ['i'])))
  obtain ⟨q, e'⟩ := fmtComplex_pad std f
    ((if f.signPlus && !k then ['+'] else []) ++ (signed k c ++ (if k' then '-' else '+') :: (d ++ ['i'])))
  rw [e, e'] at h
  have h := congrArg (List.dropWhile (· == ' ')) h
  rw [dropWhile_pad _ (head_ne_space f ha _), dropWhile_pad _ (head_ne_space f hc _)] at h
  obtain ⟨o, x, r, ex, hx, -⟩ := ha.signed
  obtain ⟨o', y, u, ey, hy, -⟩ := hc.signed
  have h2 : signed n a ++ (if n' then '-' else '+') :: (b ++ ['i']) = signed k c ++ (if k' then '-' else '+') :: (d ++ ['i']) := by
    revert h
    generalize (if n' then '-' else '+') :: (b ++ ['i']) = U
    generalize (if k' then '-' else '+') :: (d ++ ['i']) = V
    rw [ex, ey]
    generalize (f.signPlus && !n) = g
    generalize (f.signPlus && !k) = g'
    intro h
    cases g <;> cases g'
    · exact h
    · simp [hx] at h
    · exact absurd (List.cons.inj (h : '+' :: (x :: r ++ U) = y :: (u ++ V))).1.symm hy
    · simpa using h
  have sg : ∀ z : Bool, (if z then '-' else '+' : Char) = '+' ∨ (if z then '-' else '+' : Char) = '-' := by intro z; cases z <;> simp
  obtain ⟨h3, h4, h5⟩ := sep o o' (sg _) (sg _) h2
  refine ⟨h3, ?_⟩
  have h6 : b = d := by simpa using h5
  have h7 : n' = k' := by
    revert h4; cases n' <;> cases k' <;> simp
  rw [h6, h7]

end MixedNum
