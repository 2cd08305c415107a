import Verif.Lemmas.Only
import Verif.Model.Float
/-! For which reasons the operations of integers, fixed point and floats can panic. -/

namespace MixedNum
namespace Only
variable {E : Panic → Prop} {s s' : Bool} {W W' F : ℕ} {f g : Format} {m : Mode}

/-- `E` contains a reason. -/
class Has (E : Panic → Prop) (e : Panic) : Prop where
  mem : E e

instance : Has ByZero .divByZero := ⟨rfl⟩
instance : Has Arithmetic .divByZero := ⟨.inl rfl⟩
instance : Has Arithmetic .overflow := ⟨.inr rfl⟩
instance : Has OutOfRange .overflow := ⟨rfl⟩

theorem word_wrapping (n : ℤ) : Only E (Word.fit .wrapping n : Prog (Word s W)) := by
  unfold Word.fit; split <;> exact pure _

theorem word_fit [Has E .overflow] (n : ℤ) : Only E (Word.fit m n : Prog (Word s W)) := by
  cases m
  · unfold Word.fit; split
    · exact pure _
    · exact fail Has.mem
  · exact word_wrapping n

theorem pint_wrapping (n : ℤ) : Only E (PInt.fit n : Prog (PInt .wrapping s W)) := bind (word_wrapping n) fun _ => pure _
theorem pint_fit [Has E .overflow] (n : ℤ) : Only E (PInt.fit n : Prog (PInt m s W)) := bind (word_fit n) fun _ => pure _
theorem fixed_wrapping (n : ℤ) : Only E (Fixed.fit n : Prog (Fixed .wrapping s W F)) := bind (word_wrapping n) fun _ => pure _
theorem fixed_fit [Has E .overflow] (n : ℤ) : Only E (Fixed.fit n : Prog (Fixed m s W F)) := bind (word_fit n) fun _ => pure _

theorem counter_wrapping (n : ℤ) : Only E (Counter.fit (.i32 .wrapping) n) := pure _

theorem counter_fit [Has E .overflow] (n : ℤ) : Only E (Counter.fit (.i32 m) n) := by
  cases m
  · unfold Counter.fit; dsimp only
    exact ite (pure _) (fail Has.mem)
  · exact pure _

/-! Integers -/

instance : Ring E (PInt .wrapping s W) := ⟨fun _ _ => pint_wrapping _, fun _ _ => pint_wrapping _, fun _ _ => pint_wrapping _⟩
instance [Has E .overflow] : Ring E (PInt m s W) := ⟨fun _ _ => pint_fit _, fun _ _ => pint_fit _, fun _ _ => pint_fit _⟩
instance [Has E .overflow] [Has E .divByZero] : Div E (PInt m s W) := ⟨fun _ _ => by
  refine ite (fail Has.mem) ?_
  split
  · exact pure _
  · exact fail Has.mem⟩
instance : Lits E (PInt m s W) := ⟨fun _ => pure _, fun _ => pure _⟩
instance : One E (PInt m s W) := ⟨pure _⟩
instance : Reals E (PInt m s W) := ⟨pure _, pure _⟩
instance : Neg E (PInt .wrapping true W) := ⟨fun _ => pint_wrapping _⟩
instance [Has E .overflow] : Neg E (PInt m true W) := ⟨fun _ => pint_fit _⟩
instance : Abs E (PInt .wrapping s W) := ⟨fun _ => ite (ite (pure _) (pint_wrapping _)) (pure _)⟩
instance [Has E .overflow] : Abs E (PInt m s W) := ⟨fun _ => ite (ite (pure _) (pint_fit _)) (pure _)⟩
instance : Powi E (PInt .wrapping s W) := ⟨fun a e => mixedPowiVia a e⟩
instance [Has E .overflow] : Powi E (PInt m s W) := ⟨fun a e => mixedPowiVia a e⟩
instance : Convs E (PInt m s W) (PInt m s' W') := ⟨fun _ => pure _, fun _ => pure _⟩

/-! Fixed point -/

instance : Ring E (Fixed .wrapping s W F) := ⟨fun _ _ => fixed_wrapping _, fun _ _ => fixed_wrapping _, fun _ _ => fixed_wrapping _⟩
instance [Has E .overflow] : Ring E (Fixed m s W F) := ⟨fun _ _ => fixed_fit _, fun _ _ => fixed_fit _, fun _ _ => fixed_fit _⟩
instance [Has E .divByZero] : Div E (Fixed .wrapping s W F) := ⟨fun _ _ => ite (fail Has.mem) (fixed_wrapping _)⟩
instance [Has E .overflow] [Has E .divByZero] : Div E (Fixed m s W F) := ⟨fun _ _ => ite (fail Has.mem) (fixed_fit _)⟩
instance : Lits E (Fixed .wrapping s W F) := ⟨fun _ => fixed_wrapping _, fun _ => fixed_wrapping _⟩
instance [Has E .overflow] : Lits E (Fixed m s W F) := ⟨fun _ => fixed_fit _, fun _ => fixed_fit _⟩
instance : One E (Fixed .wrapping s W F) := ⟨fixed_wrapping _⟩
instance [Has E .overflow] : One E (Fixed m s W F) := ⟨fixed_fit _⟩
instance : Pi E (Fixed .wrapping s W F) := ⟨fixed_wrapping _, fixed_wrapping _⟩
instance [Has E .overflow] : Pi E (Fixed m s W F) := ⟨fixed_fit _, fixed_fit _⟩
instance : Reals E (Fixed m s W F) := ⟨pure _, pure _⟩
instance : Neg E (Fixed .wrapping true W F) := ⟨fun _ => fixed_wrapping _⟩
instance [Has E .overflow] : Neg E (Fixed m true W F) := ⟨fun _ => fixed_fit _⟩
instance : Abs E (Fixed .wrapping s W F) := ⟨fun _ => ite (fixed_wrapping _) (pure _)⟩
instance [Has E .overflow] : Abs E (Fixed m s W F) := ⟨fun _ => ite (fixed_fit _) (pure _)⟩
instance : Powi E (Fixed .wrapping s W F) := ⟨fun a e => mixedPowiVia a e⟩
instance [Has E .overflow] : Powi E (Fixed m s W F) := ⟨fun a e => mixedPowiVia a e⟩
instance : Usize E (Fixed .wrapping s W F) := ⟨fun _ => fixed_wrapping _⟩
instance [Has E .overflow] : Usize E (Fixed m s W F) := ⟨fun _ => fixed_fit _⟩
instance [Has E .divByZero] : Sqrt E (Fixed .wrapping s W F) := ⟨fun a => niirf counter_wrapping a 2⟩
instance [Has E .overflow] [Has E .divByZero] : Sqrt E (Fixed m s W F) := ⟨fun a => niirf counter_fit a 2⟩
instance : Convs E (PInt .wrapping s W) (Fixed .wrapping s' W' F) := ⟨fun _ => fixed_wrapping _, fun _ => pint_wrapping _⟩
instance [Has E .overflow] : Convs E (PInt m s W) (Fixed m s' W' F) := ⟨fun _ => fixed_fit _, fun _ => pint_fit _⟩

/-! Floats -/

instance : Ring E (Flt f) := ⟨fun _ _ => pure _, fun _ _ => pure _, fun _ _ => pure _⟩
instance : Div E (Flt f) := ⟨fun _ _ => pure _⟩
instance : Lits E (Flt f) := ⟨fun _ => pure _, fun _ => pure _⟩
instance : One E (Flt f) := ⟨pure _⟩
instance : Pi E (Flt f) := ⟨pure _, pure _⟩
instance : Reals E (Flt f) := ⟨pure _, pure _⟩
instance : Neg E (Flt f) := ⟨fun _ => pure _⟩
instance : Abs E (Flt f) := ⟨fun _ => pure _⟩
instance : Powi E (Flt f) := ⟨fun _ _ => pure _⟩
instance : Convs E (PInt m s W) (Flt f) := ⟨fun _ => pure _, fun _ => pure _⟩
instance : Convs E (Flt f) (PInt m s W) := ⟨fun _ => pure _, fun _ => pure _⟩
instance : Convs E (Flt g) (Flt f) := ⟨fun _ => pure _, fun _ => pure _⟩
instance [Libm f] : Sqrt E (Flt f) := ⟨fun _ => pure _⟩
instance [Libm f] : SinCos E (Flt f) := ⟨fun _ => pure _⟩
instance [Libm f] : Atan E (Flt f) := ⟨fun _ _ => pure _⟩
instance [Libm f] : Exp E (Flt f) := ⟨fun _ => pure _⟩
instance [Libm f] : Exp10 E (Flt f) := ⟨fun _ => pure _⟩
instance [Libm f] : Log10 E (Flt f) := ⟨fun _ => pure _⟩

end Only
end MixedNum
