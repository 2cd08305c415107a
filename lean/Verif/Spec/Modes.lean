import Verif.Model.Delegate
/-!
# The same call in a debug build and in a release build

Specification only. `debug` is the program with overflow checks, `release` the one without.
-/

namespace MixedNum

/-- The same integer in a release build. -/
def PInt.release {s : Bool} {W : ℕ} (a : PInt .checked s W) : PInt .wrapping s W := ⟨a.toWord⟩

/-- The same fixed-point number in a release build. -/
def Fixed.release {s : Bool} {W F : ℕ} (a : Fixed .checked s W F) : Fixed .wrapping s W F := ⟨a.toWord⟩

/-- The same complex number in a release build. -/
def Cartesian.releaseBy {α β : Type} (f : α → β) (z : Cartesian α) : Cartesian β := ⟨f z.re, f z.im⟩

/-- The same number of crate `num` in a release build. -/
def NumComplex.releaseBy {α β : Type} (f : α → β) (z : NumComplex α) : NumComplex β := ⟨f z.re, f z.im⟩

/-- The same polar number in a release build. -/
def Polar.releaseBy {α β : Type} (f : α → β) (z : Polar α) : Polar β := ⟨f z.mag, f z.ang⟩

/-- The release build does what the debug build does, unless the debug build panics: the debug build panics, or both run on, or both
return the same value. -/
def Agrees {α β : Type} (f : α → β) (debug : Prog α) (release : Prog β) : Prop :=
  (∃ e, Panics debug e) ∨ (Diverges debug ∧ Diverges release) ∨ ∃ a, Returns debug a ∧ Returns release (f a)

/-- The same of an external function, which always comes to an end: it panics in the debug build, or returns the same value in both. -/
def EndsAlike {α β : Type} (f : α → β) (debug : Prog α) (release : Prog β) : Prop :=
  (∃ e, debug = Prog.fail e) ∨ ∃ a, debug = pure a ∧ release = pure (f a)

/-- Crate `cordic` was compiled in the same two ways: each of its functions has that property. -/
class CordicAlike (W F : ℕ) [Cordic .checked W F] [Cordic .wrapping W F] : Prop where
  sin : ∀ x : Fixed .checked true W F, EndsAlike Fixed.release (Cordic.sin x) (Cordic.sin x.release)
  cos : ∀ x : Fixed .checked true W F, EndsAlike Fixed.release (Cordic.cos x) (Cordic.cos x.release)
  sinCos : ∀ x : Fixed .checked true W F, EndsAlike (fun p => (p.1.release, p.2.release)) (Cordic.sinCos x) (Cordic.sinCos x.release)
  asin : ∀ x : Fixed .checked true W F, EndsAlike Fixed.release (Cordic.asin x) (Cordic.asin x.release)
  acos : ∀ x : Fixed .checked true W F, EndsAlike Fixed.release (Cordic.acos x) (Cordic.acos x.release)
  atan : ∀ x : Fixed .checked true W F, EndsAlike Fixed.release (Cordic.atan x) (Cordic.atan x.release)
  atan2 : ∀ y x : Fixed .checked true W F, EndsAlike Fixed.release (Cordic.atan2 y x) (Cordic.atan2 y.release x.release)
  exp : ∀ x : Fixed .checked true W F, EndsAlike Fixed.release (Cordic.exp x) (Cordic.exp x.release)

end MixedNum
