import Verif.Lemmas.Assign
import Verif.Props.DivAssignZero
/-! # C126: what an assigning operator that panics leaves behind -/

namespace MixedNum
variable {m : Mode} {s s' : Bool} {W W' F : ℕ} {α β : Type}
open Cartesian

/-- Whenever the method panics, `self` is as before. -/
def KeepsOnPanic {σ : Type} (M : Mut σ Unit) : Prop := ∀ z n e w, M z n = (.panic e, w) → w = z

/-- C126: the store-by-store operators leave, when they return, the values of which C05, C06, C08, C12 and C20 speak, and panic and
loop exactly when those do. -/
theorem C126_value [NumOps α] [MixedPowi α] (z w : Cartesian α) (u : NumComplex α) :
    (addAssignM w.re w.im).run z = z.addAssign w ∧ (addAssignM u.re u.im).run z = z.addAssignNC u ∧
    (subAssignM w.re w.im).run z = z.subAssign w ∧ (subAssignM u.re u.im).run z = z.subAssignNC u ∧
    (divAssignM w.re).run z = z.divAssign w ∧ (divAssignM u.re).run z = z.divAssignNC u := by
  refine ⟨twoStores_run (addAssignM_eq _ _ z), twoStores_run (addAssignM_eq _ _ z), twoStores_run (subAssignM_eq _ _ z),
    twoStores_run (subAssignM_eq _ _ z), ?_, ?_⟩
  · rw [twoStores_run (divAssignM_eq _ z)]
    simp only [divRe, divIm, Cartesian.divAssign, bind_assoc]
  · rw [twoStores_run (divAssignM_eq _ z)]
    simp only [divRe, divIm, Cartesian.divAssignNC, bind_assoc]

/-- C126: the same for scalars. -/
theorem C126_value_scalar [MixedCmp α] [MixedZero α] [NumOps β] [MixedReal β] [Conv α β] (z : Cartesian β) (r : α) :
    (addAssignScalarM r).run z = z.addAssignScalar r ∧ (subAssignScalarM r).run z = z.subAssignScalar r ∧
    (divAssignScalarM r).run z = z.divAssignScalar r := by
  refine ⟨?_, ?_, ?_⟩
  · simp only [addAssignScalarM, storeRe, Mut.run_read, Mut.run_eval, Mut.run_store_last, addAssignScalar, bind_assoc]
  · simp only [subAssignScalarM, storeRe, Mut.run_read, Mut.run_eval, Mut.run_store_last, subAssignScalar, bind_assoc]
  · unfold divAssignScalarM divAssignScalar
    cases MixedCmp.beq r MixedZero.zero <;>
      simp only [storeRe, storeIm, Mut.run_read, Mut.run_eval, Mut.run_store, Mut.run_store_last, bind_assoc, pure_bind,
        Bool.false_eq_true, if_true, if_false]

/-- C126: the same for a polar factor. -/
theorem C126_value_polar [MixedCmp α] [NumOps α] [Lit α] [MixedPi α] [MixedNumSigned α] [MixedSinCos α]
    (z : Cartesian α) (w : Polar α) : (mulAssignPolarM w).run z = z.mulAssignPolar w := by
  simp only [mulAssignPolarM, storeRe, storeIm, Mut.run_read, Mut.run_eval, Mut.run_store, Mut.run_store_last, mulAssignPolar,
    bind_assoc]
  exact congrArg _ (funext fun x => bind_pure (z.mul x))

/-- C126, the part that holds: `+=` and `-=` with a scalar and `*=` with a polar number compute everything before they store, so a
panic leaves `self` as it was, for every component type. What is missing: `+=`, `-=`, `/=` with a complex number and `/=` with a
scalar, for which it is false (`C126_counterexample`). -/
theorem C126_partial [MixedCmp β] [NumOps β] [Lit β] [MixedPi β] [MixedNumSigned β] [MixedSinCos β] [Conv α β] (r : α)
    (w : Polar β) : KeepsOnPanic (addAssignScalarM r : Mut (Cartesian β) Unit) ∧
    KeepsOnPanic (subAssignScalarM r : Mut (Cartesian β) Unit) ∧ KeepsOnPanic (mulAssignPolarM w) := by
  refine ⟨?_, ?_, ?_⟩ <;> intro z n e v h
  · exact Mut.eval_panic (fun a _ e w h => by simp [storeRe, Mut.store] at h) h
  · exact Mut.eval_panic (fun a _ e w h => by simp [storeRe, Mut.store] at h) h
  · exact Mut.eval_panic (p := do Cartesian.mul z (← ops.toCartesian w)) (k := fun t => storeRe t.re >>= fun _ => storeIm t.im)
      (fun a _ e w h => by cases (h : (Out.ok (), _) = _)) h

/-- C126, the others: what is left is the old number, or the old imaginary part with the new real part. -/
theorem C126_left [NumOps α] [MixedPowi α] (z w v : Cartesian α) (n : ℕ) (e : Panic) :
    (addAssignM w.re w.im z n = (.panic e, v) → v = z ∨ (v.im = z.im ∧ NumOps.add z.re w.re n = .ok v.re)) ∧
    (subAssignM w.re w.im z n = (.panic e, v) → v = z ∨ (v.im = z.im ∧ NumOps.sub z.re w.re n = .ok v.re)) ∧
    (divAssignM w.re z n = (.panic e, v) → v = z ∨ (v.im = z.im ∧
      (do NumOps.div (← NumOps.add (← NumOps.mul z.re w.re) (← NumOps.mul z.im w.re))
            (← NumOps.add (← MixedPowi.powi w.re 2) (← MixedPowi.powi w.re 2)) : Prog α) n = .ok v.re)) := by
  refine ⟨fun h => ?_, fun h => ?_, fun h => ?_⟩
  · rcases twoStores_panic (addAssignM_eq _ _ z) h with h | ⟨h1, h2, -⟩
    · exact .inl h
    · exact .inr ⟨h1, h2⟩
  · rcases twoStores_panic (subAssignM_eq _ _ z) h with h | ⟨h1, h2, -⟩
    · exact .inl h
    · exact .inr ⟨h1, h2⟩
  · rcases twoStores_panic (divAssignM_eq _ z) h with h | ⟨h1, h2, -⟩
    · exact .inl h
    · exact .inr ⟨h1, h2⟩

/-- C126, `/=` by a scalar other than zero: the same. -/
theorem C126_left_scalar [MixedCmp α] [MixedZero α] [NumOps β] [MixedReal β] [Conv α β] (r : α)
    (h : MixedCmp.beq r MixedZero.zero = false) (z v : Cartesian β) (n : ℕ) (e : Panic)
    (hp : divAssignScalarM r z n = (.panic e, v)) :
    v = z ∨ (v.im = z.im ∧ (do NumOps.div z.re (← Conv.fromNum r) : Prog β) n = .ok v.re) := by
  rcases twoStores_panic (divAssignScalarM_eq r z h) hp with h | ⟨h1, h2, -⟩
  · exact .inl h
  · exact .inr ⟨h1, h2⟩

/-- The second case occurs: the least `i8` in the imaginary part overflows when divided by -1, after the real part has been stored. -/
example : divAssignScalarM (i .checked true 8 (-1)) (⟨i .checked true 8 5, i .checked true 8 (-128)⟩ : Cartesian (PInt .checked true 8)) 3 =
    (.panic .overflow, ⟨i .checked true 8 (-5), i .checked true 8 (-128)⟩) := by rfl

/-- C126, `/=` by a scalar on integers, exactly: `MIN / -1` is the only overflow. If the real part is the least number, nothing is
stored; if only the imaginary part is, the real part has been negated. -/
theorem C126_div_int (z : Cartesian (PInt m true W)) (r : PInt m true W') (hr : r.val = -1) :
    (z.re.val = -2 ^ (W - 1) → PanicsLeaving (divAssignScalarM r) z .overflow z) ∧
    (z.re.val ≠ -2 ^ (W - 1) → z.im.val = -2 ^ (W - 1) →
      ∃ v, PanicsLeaving (divAssignScalarM r) z .overflow v ∧ v.re.val = -z.re.val ∧ v.im = z.im) ∧
    (z.re.val ≠ -2 ^ (W - 1) → z.im.val ≠ -2 ^ (W - 1) →
      ∃ v, ReturnsLeaving (divAssignScalarM r) z v ∧ v.re.val = -z.re.val ∧ v.im.val = -z.im.val) := by
  have hb : MixedCmp.beq r MixedZero.zero = false := by
    show decide (r.val = 0) = false
    rw [hr]; rfl
  have f1 : Fits true W (-1) := by
    have : (1:ℤ) ≤ 2 ^ (W - 1) := one_le_pow₀ (by norm_num)
    simp only [Fits, wlo, whi, if_true]; omega
  have ff : ∀ x : PInt m true W, Fits true W (-x.val) ↔ x.val ≠ -2 ^ (W - 1) := fun x => by
    have h1 := x.lo_le; have h2 := x.lt_hi
    simp only [Fits, wlo, whi, if_true] at h1 h2 ⊢; omega
  have e : (Word.wrap r.val : Word true W).val = -1 := by rw [hr]; exact wrapInt_of_fits f1
  have run : ∀ x : PInt m true W, (do NumOps.div x (← (Conv.fromNum r : Prog (PInt m true W))) : Prog (PInt m true W)) =
      if h : Fits true W (x.val.tdiv (Word.wrap r.val : Word true W).val) then pure ⟨⟨_, h.1, h.2⟩⟩ else Prog.fail .overflow := fun x => by
    show (if (Word.wrap r.val : Word true W).val = 0 then _ else _) = _
    rw [if_neg (by rw [e]; norm_num)]
  have t : ∀ x : PInt m true W, x.val.tdiv (Word.wrap r.val : Word true W).val = -x.val := fun x => by rw [e]; simp
  have good : ∀ x : PInt m true W, x.val ≠ -2 ^ (W - 1) →
      ∃ v : PInt m true W, Returns (do NumOps.div x (← (Conv.fromNum r : Prog (PInt m true W)))) v ∧ v.val = -x.val := fun x h =>
    ⟨_, .of_eq ((run x).trans (dif_pos (by rw [t]; exact (ff x).mpr h))), t x⟩
  have bad : ∀ x : PInt m true W, x.val = -2 ^ (W - 1) →
      Panics (do NumOps.div x (← (Conv.fromNum r : Prog (PInt m true W)))) .overflow := fun x h =>
    .of_eq ((run x).trans (dif_neg (by rw [t, ff]; simpa using h)))
  have hM := divAssignScalarM_eq r z hb
  refine ⟨fun h => twoStores_first hM (bad _ h), fun h h' => ?_, fun h h' => ?_⟩
  · obtain ⟨v, h1, h2⟩ := good _ h
    exact ⟨_, twoStores_second hM h1 (bad _ h'), h2, rfl⟩
  · obtain ⟨v, h1, h2⟩ := good _ h
    obtain ⟨w, h3, h4⟩ := good _ h'
    exact ⟨_, twoStores_returns hM h1 h3, h2, h4⟩

example := (C126_div_int ⟨i .checked true 8 5, i .checked true 8 (-128)⟩ (i .checked true 16 (-1)) rfl).2.1 (by decide) rfl

/-- C126, integers with overflow checks, `+=` exactly: nothing is stored if the new real part overflows; if only the new imaginary
part does, the new real part stays. -/
theorem C126_add_int (z w : Cartesian (PInt .checked s W)) :
    let a := z.re.val + w.re.val
    (¬InRange s W a → PanicsLeaving (addAssignM w.re w.im) z .overflow z) ∧
    (InRange s W a → ¬InRange s W (a + w.im.val) →
      ∃ v, PanicsLeaving (addAssignM w.re w.im) z .overflow v ∧ v.re.val = a ∧ v.im = z.im) ∧
    (InRange s W a → InRange s W (a + w.im.val) →
      ∃ v, ReturnsLeaving (addAssignM w.re w.im) z v ∧ v.re.val = a ∧ v.im.val = a + w.im.val) := by
  intro a
  simp only [inRange_iff]
  refine ⟨fun h => ?_, fun h h' => ?_, fun h h' => ?_⟩
  · exact twoStores_first (addAssignM_eq _ _ z) (.of_eq (PInt.fit_checked h))
  · exact ⟨_, twoStores_second (addAssignM_eq _ _ z) (.of_eq (PInt.fit_of_fits h)) (.of_eq (PInt.fit_checked h')), rfl, rfl⟩
  · exact ⟨_, twoStores_returns (addAssignM_eq _ _ z) (.of_eq (PInt.fit_of_fits h)) (.of_eq (PInt.fit_of_fits h')), rfl, rfl⟩

/-- C126, `-=` on integers. -/
theorem C126_sub_int (z w : Cartesian (PInt .checked s W)) :
    let a := z.re.val - w.re.val
    (¬InRange s W a → PanicsLeaving (subAssignM w.re w.im) z .overflow z) ∧
    (InRange s W a → ¬InRange s W (a - w.im.val) →
      ∃ v, PanicsLeaving (subAssignM w.re w.im) z .overflow v ∧ v.re.val = a ∧ v.im = z.im) ∧
    (InRange s W a → InRange s W (a - w.im.val) →
      ∃ v, ReturnsLeaving (subAssignM w.re w.im) z v ∧ v.re.val = a ∧ v.im.val = a - w.im.val) := by
  intro a
  simp only [inRange_iff]
  refine ⟨fun h => ?_, fun h h' => ?_, fun h h' => ?_⟩
  · exact twoStores_first (subAssignM_eq _ _ z) (.of_eq (PInt.fit_checked h))
  · exact ⟨_, twoStores_second (subAssignM_eq _ _ z) (.of_eq (PInt.fit_of_fits h)) (.of_eq (PInt.fit_checked h')), rfl, rfl⟩
  · exact ⟨_, twoStores_returns (subAssignM_eq _ _ z) (.of_eq (PInt.fit_of_fits h)) (.of_eq (PInt.fit_of_fits h')), rfl, rfl⟩

/-- C126, `+=` on fixed point. -/
theorem C126_add_fixed (z w : Cartesian (Fixed .checked s W F)) :
    let a := z.re.val + w.re.val
    (¬InRange s W a → PanicsLeaving (addAssignM w.re w.im) z .overflow z) ∧
    (InRange s W a → ¬InRange s W (a + w.im.val) →
      ∃ v, PanicsLeaving (addAssignM w.re w.im) z .overflow v ∧ v.re.val = a ∧ v.im = z.im) ∧
    (InRange s W a → InRange s W (a + w.im.val) →
      ∃ v, ReturnsLeaving (addAssignM w.re w.im) z v ∧ v.re.val = a ∧ v.im.val = a + w.im.val) := by
  intro a
  simp only [inRange_iff]
  refine ⟨fun h => ?_, fun h h' => ?_, fun h h' => ?_⟩
  · exact twoStores_first (addAssignM_eq _ _ z) (.of_eq (Fixed.fit_checked h))
  · exact ⟨_, twoStores_second (addAssignM_eq _ _ z) (.of_eq (Fixed.fit_of_fits h)) (.of_eq (Fixed.fit_checked h')), rfl, rfl⟩
  · exact ⟨_, twoStores_returns (addAssignM_eq _ _ z) (.of_eq (Fixed.fit_of_fits h)) (.of_eq (Fixed.fit_of_fits h')), rfl, rfl⟩

/-- C126, `-=` on fixed point. -/
theorem C126_sub_fixed (z w : Cartesian (Fixed .checked s W F)) :
    let a := z.re.val - w.re.val
    (¬InRange s W a → PanicsLeaving (subAssignM w.re w.im) z .overflow z) ∧
    (InRange s W a → ¬InRange s W (a - w.im.val) →
      ∃ v, PanicsLeaving (subAssignM w.re w.im) z .overflow v ∧ v.re.val = a ∧ v.im = z.im) ∧
    (InRange s W a → InRange s W (a - w.im.val) →
      ∃ v, ReturnsLeaving (subAssignM w.re w.im) z v ∧ v.re.val = a ∧ v.im.val = a - w.im.val) := by
  intro a
  simp only [inRange_iff]
  refine ⟨fun h => ?_, fun h h' => ?_, fun h h' => ?_⟩
  · exact twoStores_first (subAssignM_eq _ _ z) (.of_eq (Fixed.fit_checked h))
  · exact ⟨_, twoStores_second (subAssignM_eq _ _ z) (.of_eq (Fixed.fit_of_fits h)) (.of_eq (Fixed.fit_checked h')), rfl, rfl⟩
  · exact ⟨_, twoStores_returns (subAssignM_eq _ _ z) (.of_eq (Fixed.fit_of_fits h)) (.of_eq (Fixed.fit_of_fits h')), rfl, rfl⟩

/-- C126 is false of the code: on `i8`, `100+0i += 20+20i` panics and leaves `120+0i`; `-100+0i -= 20+20i` leaves `-120+0i`; on `i16`,
`(-300+300i) /= 100` (complex) panics and leaves `0+300i`. -/
theorem C126_counterexample :
    PanicsLeaving (addAssignM (i .checked true 8 20) (i .checked true 8 20)) ⟨i _ _ _ 100, i _ _ _ 0⟩ .overflow
      ⟨i _ _ _ 120, i _ _ _ 0⟩ ∧
    PanicsLeaving (subAssignM (i .checked true 8 20) (i .checked true 8 20)) ⟨i _ _ _ (-100), i _ _ _ 0⟩ .overflow
      ⟨i _ _ _ (-120), i _ _ _ 0⟩ ∧
    PanicsLeaving (divAssignM (i .checked true 16 100)) ⟨i _ _ _ (-300), i _ _ _ 300⟩ .overflow
      ⟨i _ _ _ 0, i _ _ _ 300⟩ :=
  ⟨⟨0, fun _ _ => rfl⟩, ⟨0, fun _ _ => rfl⟩, ⟨0, fun _ _ => rfl⟩⟩

/-- C126: `/=` by an integer zero panics on integers and fixed point, in both modes, and leaves the largest value in both parts,
whatever was there. -/
theorem C126_div_zero (z : Cartesian (Fixed m s W F)) (y : Cartesian (PInt m s W)) (r : PInt m s' W') (h : r.val = 0) :
    (∃ v, PanicsLeaving (divAssignScalarM r) z .divByZero v ∧ v.re.val = (if s then 2 ^ (W - 1) - 1 else 2 ^ W - 1) ∧ v.im = v.re) ∧
    (∃ v, PanicsLeaving (divAssignScalarM r) y .divByZero v ∧ v.re.val = (if s then 2 ^ (W - 1) - 1 else 2 ^ W - 1) ∧ v.im = v.re) := by
  have h0 : Fits s W 0 := fits_zero s W
  have hb : MixedCmp.beq r MixedZero.zero = true := by simp [h]
  constructor
  · have c1 : (Conv.fromNum r : Prog (Fixed m s W F)) = pure (Fixed.mkv 0 h0) := by
      show Fixed.fit (r.val * 2 ^ F) = _
      rw [h, zero_mul]; exact Fixed.fit_of_fits h0
    obtain ⟨x, hx, hv⟩ : ∃ x : Fixed m s W F, (MixedReal.maxValue : Prog (Fixed m s W F)) = pure x ∧ x.val = whi s W - 1 := ⟨_, rfl, rfl⟩
    refine ⟨⟨x, x⟩, ⟨0, fun n _ => divAssignScalarM_zero hb (congrFun hx n) ?_⟩, ?_, rfl⟩
    · rw [c1, pure_bind, Fixed.div_def, if_pos (Fixed.mkv_val _ h0)]; rfl
    · rw [hv]; cases s <;> rfl
  · have c1 : (Conv.fromNum r : Prog (PInt m s W)) = pure (PInt.mkv 0 h0) := by
      show pure (⟨Word.wrap r.val⟩ : PInt m s W) = _
      have hw : (⟨Word.wrap r.val⟩ : PInt m s W).val = 0 := by
        rw [h]; exact wrapInt_of_fits h0
      exact congrArg pure (PInt.ext hw)
    obtain ⟨x, hx, hv⟩ : ∃ x : PInt m s W, (MixedReal.maxValue : Prog (PInt m s W)) = pure x ∧ x.val = whi s W - 1 := ⟨_, rfl, rfl⟩
    refine ⟨⟨x, x⟩, ⟨0, fun n _ => divAssignScalarM_zero hb (congrFun hx n) ?_⟩, ?_, rfl⟩
    · rw [c1, pure_bind, PInt.div_def, if_pos (PInt.mkv_val _ h0)]; rfl
    · rw [hv]; cases s <;> rfl

example := C126_div_zero ⟨fx .checked true 32 16 5, fx .checked true 32 16 (-7)⟩ ⟨i .checked true 32 5, i .checked true 32 (-7)⟩
  (i .checked true 8 0) (by decide)

end MixedNum
