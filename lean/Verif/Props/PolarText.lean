import Verif.Lemmas.Text
import Verif.Props.AddSub
import Verif.Lemmas.Run
/-! # C66: the text of a polar number -/

namespace MixedNum
variable {m : Mode} {s : Bool} {W : ℕ}

/-- C66, integers: the text is `<mag>∠<ang>` and reads back as the number, the smallest value included. -/
theorem C66_reads (p : Polar (PInt m s W)) : readPolar (polarDisplay (decimal none) p) = some (p.mag.val, p.ang.val) := by
  have h1 : ∀ r, ∀ c, ('∠' :: r : List Char).head? = some c → c.isDigit = false := by rintro r c h; cases h; rfl
  have h2 : ∀ c, ([] : List Char).head? = some c → c.isDigit = false := by rintro c h; cases h
  have e2 := readInt_decimalInt p.ang.val h2
  rw [List.append_nil] at e2
  unfold readPolar polarDisplay decimal
  rw [List.append_assoc, List.singleton_append, readInt_decimalInt _ (h1 _)]
  simp [e2]

/-- C66, integers: different numbers never print alike. -/
theorem C66_injective (p q : Polar (PInt m s W)) (h : polarDisplay (decimal none) p = polarDisplay (decimal none) q) :
    p = q := by
  have e := (C66_reads p).symm.trans ((congrArg readPolar h).trans (C66_reads q))
  simp only [Option.some.injEq, Prod.mk.injEq] at e
  rcases p with ⟨a, b⟩; rcases q with ⟨c, d⟩
  exact congrArg₂ Polar.mk (PInt.ext e.1) (PInt.ext e.2)

example := C66_injective (⟨i .checked true 8 3, i .checked true 8 (-4)⟩ : Polar (PInt .checked true 8)) ⟨i .checked true 8 3, i .checked true 8 (-4)⟩ rfl

/-- C66, any component type: if component texts are distinct and contain no `∠`, so are the texts of polar numbers. -/
theorem C66_generic {α : Type} (render : α → List Char) (hinj : Function.Injective render)
    (hr : ∀ x, '∠' ∉ render x) : Function.Injective (polarDisplay render) := by
  have key : ∀ a b c d : List Char, '∠' ∉ a → '∠' ∉ c → a ++ '∠' :: b = c ++ '∠' :: d → a = c ∧ b = d := by
    intro a
    induction a with
    | nil =>
      intro b c d _ hc h
      cases c with
      | nil => simpa using h
      | cons x c => simp only [List.nil_append, List.cons_append, List.cons.injEq] at h; simp [← h.1] at hc
    | cons y a ih =>
      intro b c d ha hc h
      cases c with
      | nil => simp only [List.nil_append, List.cons_append, List.cons.injEq] at h; simp [h.1] at ha
      | cons x c =>
        simp only [List.cons_append, List.cons.injEq] at h
        obtain ⟨e1, e2⟩ := ih b c d (fun h => ha (List.mem_cons_of_mem _ h)) (fun h => hc (List.mem_cons_of_mem _ h)) h.2
        exact ⟨by rw [h.1, e1], e2⟩
  rintro ⟨a, b⟩ ⟨c, d⟩ h
  unfold polarDisplay at h
  rw [List.append_assoc, List.append_assoc, List.singleton_append, List.singleton_append] at h
  obtain ⟨e1, e2⟩ := key _ _ _ _ (hr a) (hr c) h
  exact congrArg₂ Polar.mk (hinj e1) (hinj e2)

example : polarDisplay (decimal none) ⟨i .checked true 8 (-12), i .checked true 8 105⟩ = "-12∠105".toList := by rfl

end MixedNum
