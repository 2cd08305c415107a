import Verif.Props.PolarOps
import Verif.Props.ExactFloat
import Verif.Spec.Complex
/-! Properties C57 and C109 for the polar constants on exact reals and on floats. `mixed_one` denotes the complex number 1 and
`mixed_zero` the complex number 0; both act on polar numbers as they should. -/

namespace MixedNum
open Flt

/-- C57, polar numbers on exact reals: the constants denote 1 and 0, `mixed_one` leaves every polar number with non-zero magnitude
unchanged, and products with either constant denote what they should. -/
theorem C57_polar_real (p : Polar ℝ) :
    ∃ o z : Polar ℝ, Returns MixedOne.one o ∧ z = MixedZero.zero ∧ o.toC = 1 ∧ z.toC = 0 ∧
      o.mag = 1 ∧ o.ang = 0 ∧ z.mag = 0 ∧ z.ang = 0 ∧
      (p.mag ≠ 0 → Returns (p.mul o) p ∧ Returns (o.mul p) p) ∧
      (∃ q, Returns (p.mul o) q ∧ q.toC = p.toC) ∧ Returns (p.mul z) z ∧ Returns (z.mul p) z := by
  refine ⟨⟨1, 0⟩, ⟨0, 0⟩, .of_eq (by rfl), rfl, by simp [Polar.toC], by simp [Polar.toC], rfl, rfl, rfl, rfl, fun h => ?_, ?_, ?_, ?_⟩
  · exact ⟨.of_eq (by simp [Polar.mul, ops.mulPolar, h]), .of_eq (by simp [Polar.mul, ops.mulPolar, h])⟩
  · by_cases h : p.mag = 0
    · exact ⟨⟨0, 0⟩, .of_eq (by simp [Polar.mul, ops.mulPolar, h]), by simp [Polar.toC, h]⟩
    · exact ⟨p, .of_eq (by simp [Polar.mul, ops.mulPolar, h]), rfl⟩
  · exact .of_eq (by simp [Polar.mul, ops.mulPolar])
  · exact .of_eq (by simp [Polar.mul, ops.mulPolar])

/-- The polar number 2∠3 meets the hypothesis. -/
example : Returns (Polar.mul (⟨2, 3⟩ : Polar ℝ) ⟨1, 0⟩) ⟨2, 3⟩ := .of_eq (by simp [Polar.mul, ops.mulPolar])

variable {f : Format}

/-- C109, floats: the constants are 1∠0 and 0∠0. `mixed_one` leaves every polar number whose magnitude is not zero as it is (NaN and
infinities included; a zero angle may change sign), and `mixed_zero` absorbs, even a NaN or an infinity. -/
theorem C109_constants_float (hf : f.Wide) (p : Polar (Flt f)) (hm : p.mag.Valid) (ha : p.ang.Valid) :
    ∃ o z : Polar (Flt f), Returns MixedOne.one o ∧ z = MixedZero.zero ∧
      o.mag = .fin false 1 ∧ o.ang = .fin false 0 ∧ z.mag = .fin false 0 ∧ z.ang = .fin false 0 ∧
      ((∀ s, p.mag ≠ .fin s 0) → ∃ q, Returns (p.mul o) q ∧ Returns (o.mul p) q ∧ q.mag.Same p.mag ∧ q.ang.Same p.ang) ∧
      Returns (p.mul z) z ∧ Returns (z.mul p) z := by
  have hz : (Lit.ofI32 0 : Prog (Flt f)) = pure (.fin false 0) := by
    show (pure (ofExact false ((0:ℤ):ℚ)) : Prog (Flt f)) = _
    simp [ofExact]
  have h0 : ∀ x : Flt f, MixedCmp.beq x (.fin false 0) = true ↔ ∃ s, x = .fin s 0 := by
    intro x
    show x.beq _ = true ↔ _
    cases x with
    | nan => simp [Flt.beq]
    | inf t => simp [Flt.beq]
    | fin t m => cases t <;> simp [Flt.beq, Flt.val]
  refine ⟨⟨.fin false 1, .fin false 0⟩, ⟨.fin false 0, .fin false 0⟩, .of_eq ?_, rfl, rfl, rfl, rfl, rfl, fun hp => ?_, ?_, ?_⟩
  · show (pure ⟨ofExact false 1, .fin false 0⟩ : Prog (Polar (Flt f))) = _; rw [one_fin hf]
  · have h1 : MixedCmp.beq p.mag (.fin false 0) = false := by
      rw [← Bool.not_eq_true, h0]; rintro ⟨s, h⟩; exact hp s h
    have h2 : MixedCmp.beq (.fin false 1 : Flt f) (.fin false 0) = false := by
      rw [← Bool.not_eq_true, h0]; rintro ⟨s, h⟩; simp at h
    have e : p.mul ⟨.fin false 1, .fin false 0⟩ = pure ⟨p.mag.mul (.fin false 1), p.ang.add (.fin false 0)⟩ := by
      show ops.mulPolar _ _ = _
      unfold ops.mulPolar
      rw [hz, pure_bind, if_neg (by simp [h1, h2])]; rfl
    refine ⟨_, .of_eq e, .of_eq ?_, ?_, (add_zero_same hf false ha).1⟩
    · rw [C109_comm_generic (fun a b => (C94_comm a b ⟨a, a⟩ ⟨a, a⟩).2.1) (fun a b => (C94_comm a b ⟨a, a⟩ ⟨a, a⟩).1), e]
    · show (p.mag.mul _).Same _
      rw [mul_comm_flt]; simpa using mul_one_same hf false hm
  · exact C21_generic _ hz _ _ (.inr ((h0 _).2 ⟨false, rfl⟩))
  · exact C21_generic _ hz _ _ (.inl ((h0 _).2 ⟨false, rfl⟩))

/-- 3∠2 on `f32` meets the hypotheses. -/
example : Returns (Polar.mul (⟨.fin false 3, .fin false 2⟩ : Polar (Flt F32)) ⟨.fin false 1, .fin false 0⟩)
    ⟨.fin false 3, .fin false 2⟩ := .of_eq (by
  show (pure (⟨(Flt.fin false 3 : Flt F32).mul (.fin false 1), (Flt.fin false 2 : Flt F32).add (.fin false 0)⟩ : Polar (Flt F32)) : Prog _) = _
  congr 2 <;> decide +kernel)

end MixedNum
