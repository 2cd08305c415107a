import Verif.Lemmas.SimGen
import Verif.Lemmas.Prog
import Verif.Spec.Modes
/-! The debug and the release instances of integers, fixed point and floats are related. -/

namespace MixedNum
variable {α β : Type} {s s' : Bool} {W W' F : ℕ} {f : Format}

/-- The relation given by a function. -/
def To (f : α → β) (a : α) (b : β) : Prop := b = f a

namespace Sim

theorem agrees {g : α → β} {p : Prog α} {q : Prog β} (h : Sim (To g) p q) : Agrees g p q := by
  rcases h.outcome with h | h | ⟨a, b, h1, h2, rfl⟩
  · exact .inl h
  · exact .inr (.inl h)
  · exact .inr (.inr ⟨a, h1, h2⟩)

/-- A program that is related to another one and comes to an end with some budget returns, and so does the other. -/
theorem returns_of_run {g : α → β} {p : Prog α} {q : Prog β} (h : Sim (To g) p q) {n : ℕ} {a : α} (hp : p n = .ok a) :
    Returns p a ∧ Returns q (g a) := by
  have h1 : Returns p a := ⟨n, fun m hm => ((h n m hm).left (by rw [hp]; exact fun c => nomatch c)).trans hp⟩
  refine ⟨h1, ?_⟩
  rcases h.agrees with ⟨e, N, h2⟩ | ⟨h2, -⟩ | ⟨b, h2, h3⟩
  · obtain ⟨M, h1⟩ := h1
    have := h1 (max M N) (le_max_left _ _)
    rw [h2 _ (le_max_right _ _)] at this; cases this
  · have := h2 n; rw [hp] at this; cases this
  · rwa [Returns.unique h1 h2]

theorem of_alike {g : α → β} {p : Prog α} {q : Prog β} (h : EndsAlike g p q) : Sim (To g) p q := by
  rcases h with ⟨e, rfl⟩ | ⟨a, rfl, rfl⟩
  · exact fail e _
  · exact pure rfl

theorem mono {R S : α → β → Prop} {p : Prog α} {q : Prog β} (h : Sim R p q) (hRS : ∀ a b, R a b → S a b) : Sim S p q :=
  fun n m hnm => ⟨(h n m hnm).same.imp_right (Or.imp_right fun ⟨a, b, h1, h2, h3⟩ => ⟨a, b, h1, h2, hRS a b h3⟩), (h n m hnm).left,
    (h n m hnm).right⟩

theorem agrees_cart {g : α → β} {p : Prog (Cartesian α)} {q : Prog (Cartesian β)} (h : Sim (Cart (To g)) p q) :
    Agrees (Cartesian.releaseBy g) p q :=
  (h.mono (S := To (Cartesian.releaseBy g)) fun ⟨_, _⟩ ⟨_, _⟩ ⟨h1, h2⟩ => by cases h1; cases h2; rfl).agrees

theorem agrees_pol {g : α → β} {p : Prog (Polar α)} {q : Prog (Polar β)} (h : Sim (Pol (To g)) p q) :
    Agrees (Polar.releaseBy g) p q :=
  (h.mono (S := To (Polar.releaseBy g)) fun ⟨_, _⟩ ⟨_, _⟩ ⟨h1, h2⟩ => by cases h1; cases h2; rfl).agrees

theorem word_fit (n : ℤ) : Sim Eq (Word.fit .checked n : Prog (Word s W)) (Word.fit .wrapping n) := by
  unfold Word.fit
  by_cases h : Fits s W n
  · rw [dif_pos h, dif_pos h]; exact pure rfl
  · rw [dif_neg h]; exact fail _ _

theorem counter (n : ℤ) : Sim Eq (Counter.fit (.i32 .checked) n) (Counter.fit (.i32 .wrapping) n) := by
  unfold Counter.fit
  dsimp only
  by_cases h : Fits true 32 n
  · rw [if_pos h]
    refine pure ?_
    unfold wrapInt
    rw [Int.emod_eq_of_lt (by have := h.1; omega) (by have := h.2; omega)]; omega
  · rw [if_neg h]; exact fail _ _

theorem counter_refl (c : Counter) (n : ℤ) : Sim Eq (c.fit n) (c.fit n) := by
  unfold Counter.fit
  split
  · exact pure rfl
  · exact ite_prop Iff.rfl (pure rfl) (fail _ _)
  · exact pure rfl

/-! ### Integers -/

theorem int_fit {n m : ℤ} (h : n = m) : Sim (To PInt.release) (PInt.fit n : Prog (PInt .checked s W)) (PInt.fit m) := by
  subst h
  exact bind (word_fit n) fun _ _ h => by subst h; exact pure rfl

instance : Cmp (To (PInt.release (s := s) (W := W))) where
  lt := by rintro _ _ _ _ rfl rfl; rfl
  le := by rintro _ _ _ _ rfl rfl; rfl
  beq := by rintro _ _ _ _ rfl rfl; rfl

instance : Num (To (PInt.release (s := s) (W := W))) where
  add := by rintro _ _ _ _ rfl rfl; exact int_fit rfl
  sub := by rintro _ _ _ _ rfl rfl; exact int_fit rfl
  mul := by rintro _ _ _ _ rfl rfl; exact int_fit rfl
  div := by
    rintro a _ b _ rfl rfl
    show Sim _ (if b.val = 0 then _ else _) (if b.val = 0 then _ else _)
    refine ite_prop Iff.rfl (fail _ _) ?_
    by_cases h : Fits s W (a.val.tdiv b.val)
    · rw [dif_pos h, dif_pos (show Fits s W (a.release.val.tdiv b.release.val) from h)]; exact pure rfl
    · rw [dif_neg h]; exact fail _ _

instance : Lits (To (PInt.release (s := s) (W := W))) where
  ofI32 _ := pure rfl
  ofF64 _ := pure rfl

instance : Zero (To (PInt.release (s := s) (W := W))) where
  zero := rfl

instance : One (To (PInt.release (s := s) (W := W))) where
  one := pure rfl

instance : Neg (To (PInt.release (s := true) (W := W))) where
  neg := by rintro _ _ rfl; exact int_fit rfl

instance : Real (To (PInt.release (s := s) (W := W))) where
  maxValue := pure rfl
  minValue := pure rfl
  isPositive := by rintro _ _ rfl; rfl
  isNegative := by rintro _ _ rfl; rfl

instance : Abs (To (PInt.release (s := s) (W := W))) where
  abs := by
    rintro a _ rfl
    cases s
    · exact pure rfl
    · exact ite_prop (c := 0 ≤ a.val) (c' := 0 ≤ a.val) Iff.rfl (pure rfl) (int_fit rfl)

instance : Powi (To (PInt.release (s := s) (W := W))) where
  powi e h := mixedPowiVia e h

instance : Convs (To (PInt.release (s := s') (W := W'))) (To (PInt.release (s := s) (W := W))) where
  fromNum := by rintro _ _ rfl; exact pure rfl
  toNum := by rintro _ _ rfl; exact pure rfl

/-! ### Fixed point -/

theorem fixed_fit {n m : ℤ} (h : n = m) : Sim (To Fixed.release) (Fixed.fit n : Prog (Fixed .checked s W F)) (Fixed.fit m) := by
  subst h
  exact bind (word_fit n) fun _ _ h => by subst h; exact pure rfl

instance : Cmp (To (Fixed.release (s := s) (W := W) (F := F))) where
  lt := by rintro _ _ _ _ rfl rfl; rfl
  le := by rintro _ _ _ _ rfl rfl; rfl
  beq := by rintro _ _ _ _ rfl rfl; rfl

instance : Num (To (Fixed.release (s := s) (W := W) (F := F))) where
  add := by rintro _ _ _ _ rfl rfl; exact fixed_fit rfl
  sub := by rintro _ _ _ _ rfl rfl; exact fixed_fit rfl
  mul := by rintro _ _ _ _ rfl rfl; exact fixed_fit rfl
  div := by
    rintro a _ b _ rfl rfl
    show Sim _ (if b.val = 0 then _ else _) (if b.val = 0 then _ else _)
    exact ite_prop Iff.rfl (fail _ _) (fixed_fit rfl)

instance : Lits (To (Fixed.release (s := s) (W := W) (F := F))) where
  ofI32 _ := fixed_fit rfl
  ofF64 _ := fixed_fit rfl

instance : Usize (To (Fixed.release (s := s) (W := W) (F := F))) where
  ofUsize _ := fixed_fit rfl

instance : Zero (To (Fixed.release (s := s) (W := W) (F := F))) where
  zero := rfl

instance : One (To (Fixed.release (s := s) (W := W) (F := F))) where
  one := fixed_fit rfl

instance : Pi (To (Fixed.release (s := s) (W := W) (F := F))) where
  pi := Lits.ofF64 _
  tau := Lits.ofF64 _

instance : Neg (To (Fixed.release (s := true) (W := W) (F := F))) where
  neg := by rintro _ _ rfl; exact fixed_fit rfl

instance : Real (To (Fixed.release (s := s) (W := W) (F := F))) where
  maxValue := pure rfl
  minValue := pure rfl
  isPositive := by rintro _ _ rfl; rfl
  isNegative := by rintro _ _ rfl; rfl

instance : Abs (To (Fixed.release (s := s) (W := W) (F := F))) where
  abs := by
    rintro a _ rfl
    cases s
    · exact pure rfl
    · exact fixed_fit rfl

instance : Powi (To (Fixed.release (s := s) (W := W) (F := F))) where
  powi e h := mixedPowiVia e h

instance : Sqrt (To (Fixed.release (s := s) (W := W) (F := F))) where
  sqrt h := niirf counter 2 h

instance : Convs (To (PInt.release (s := s') (W := W'))) (To (Fixed.release (s := s) (W := W) (F := F))) where
  fromNum := by rintro _ _ rfl; exact fixed_fit rfl
  toNum := by rintro _ _ rfl; exact int_fit rfl

instance : Convs (To (id : Flt f → Flt f)) (To (Fixed.release (s := s) (W := W) (F := F))) where
  fromNum := by
    rintro a b (rfl : b = a)
    cases b with
    | nan => exact fail _ _
    | inf _ => exact fail _ _
    | fin t q => exact fixed_fit rfl
  toNum := by rintro _ _ rfl; exact pure rfl

instance : Convs (To (id : Flt f → Flt f)) (To (PInt.release (s := s) (W := W))) where
  fromNum := by rintro _ _ rfl; exact pure rfl
  toNum := by rintro _ _ rfl; exact pure rfl

section Cordic
variable [Cordic .checked W F] [Cordic .wrapping W F] [CordicAlike W F]

instance : SinCos (To (Fixed.release (s := true) (W := W) (F := F))) where
  sincos := by
    rintro a _ rfl
    refine (of_alike (CordicAlike.sinCos a)).mono ?_
    rintro _ _ rfl; exact ⟨rfl, rfl⟩

instance : Atan (To (Fixed.release (s := true) (W := W) (F := F))) where
  atan2 := by rintro _ _ _ _ rfl rfl; exact of_alike (CordicAlike.atan2 _ _)

instance : Exp (To (Fixed.release (s := true) (W := W) (F := F))) where
  exp := by rintro _ _ rfl; exact of_alike (CordicAlike.exp _)

end Cordic

/-! ### Floats: only the counter of `niirf` knows about the build -/

instance : Cmp (To (id : Flt f → Flt f)) where
  lt := by rintro _ _ _ _ rfl rfl; rfl
  le := by rintro _ _ _ _ rfl rfl; rfl
  beq := by rintro _ _ _ _ rfl rfl; rfl

instance : Num (To (id : Flt f → Flt f)) where
  add := by rintro _ _ _ _ rfl rfl; exact pure rfl
  sub := by rintro _ _ _ _ rfl rfl; exact pure rfl
  mul := by rintro _ _ _ _ rfl rfl; exact pure rfl
  div := by rintro _ _ _ _ rfl rfl; exact pure rfl

instance : Lits (To (id : Flt f → Flt f)) where
  ofI32 _ := pure rfl
  ofF64 _ := pure rfl

instance : Zero (To (id : Flt f → Flt f)) where
  zero := rfl

instance : Abs (To (id : Flt f → Flt f)) where
  abs := by rintro _ _ rfl; exact pure rfl

instance : One (To (id : Flt f → Flt f)) where
  one := pure rfl

instance : Pi (To (id : Flt f → Flt f)) where
  pi := pure rfl
  tau := pure rfl

instance : Neg (To (id : Flt f → Flt f)) where
  neg := by rintro _ _ rfl; exact pure rfl

instance : Real (To (id : Flt f → Flt f)) where
  maxValue := pure rfl
  minValue := pure rfl
  isPositive := by rintro _ _ rfl; rfl
  isNegative := by rintro _ _ rfl; rfl

instance : Powi (To (id : Flt f → Flt f)) where
  powi e h := by cases h; exact pure rfl

end Sim

/-- An operation of the crate has the property asked of crate `cordic`. -/
theorem endsAlike_fit {s : Bool} {W F : ℕ} (n : ℤ) :
    EndsAlike Fixed.release (Fixed.fit n : Prog (Fixed .checked s W F)) (Fixed.fit n) := by
  unfold Fixed.fit Word.fit
  by_cases h : Fits s W n
  · rw [dif_pos h, dif_pos h]; exact .inr ⟨_, rfl, rfl⟩
  · rw [dif_neg h]; exact .inl ⟨_, rfl⟩

end MixedNum
