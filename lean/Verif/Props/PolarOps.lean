import Verif.Props.Polar
import Verif.Props.Mul
import Verif.Props.Conv
import Verif.Lemmas.Outcome
import Verif.Props.AddSub
import Verif.Lemmas.Run
/-! Property C109: arithmetic of polar numbers on integers and fixed point. The product has the (rounded) product of the magnitudes
and the sum of the angles, and overflows exactly if one of them does. Multiplication commutes for every component type, `mixed_one`
is its identity and `mixed_zero` absorbs. -/

namespace MixedNum
variable {m : Mode} {s : Bool} {W F : ℕ}

/-- The two fields of a polar result as a pair. -/
def Polar.pair {α : Type} (p : Prog (Polar α)) : Prog (Cartesian α) := do let c ← p; pure ⟨c.mag, c.ang⟩

theorem PInt.lit_zero : ∃ z : PInt m s W, (Lit.ofI32 0 : Prog (PInt m s W)) = pure z ∧ z.val = 0 :=
  ⟨_, PInt.ofI32_def 0, wrapInt_of_fits (fits_zero s W)⟩

theorem Fixed.lit_zero : ∃ z : Fixed m s W F, (Lit.ofI32 0 : Prog (Fixed m s W F)) = pure z ∧ z.val = 0 :=
  ⟨Fixed.mkv 0 (fits_zero s W), by rw [Fixed.ofI32_def]; simp only [zero_mul]; exact Fixed.fit_of_fits _, rfl⟩

/-- C109, integers: the product of polar numbers with non-zero magnitudes. -/
theorem C109_mul_int (hW : 0 < W) (p q : Polar (PInt m s W)) (hp : p.mag.val ≠ 0) (hq : q.mag.val ≠ 0) :
    PairOutcome (fun a : PInt m s W => a.val) m s W (p.mag.val * q.mag.val) (p.ang.val + q.ang.val) (Polar.pair (p.mul q)) := by
  obtain ⟨z, hz, z0⟩ := PInt.lit_zero (m := m) (s := s) (W := W)
  have e : Polar.pair (p.mul q) = (do
      let re ← PInt.fit (p.mag.val * q.mag.val); let im ← PInt.fit (p.ang.val + q.ang.val)
      pure (⟨re, im⟩ : Cartesian (PInt m s W))) := by
    simp [Polar.pair, Polar.mul, ops.mulPolar, hz, z0, hp, hq]
  rw [e]; exact PInt.pairOutcome hW _ _

example := C109_mul_int (by norm_num) ⟨i .checked true 8 3, i .checked true 8 100⟩ ⟨i .checked true 8 (-5), i .checked true 8 20⟩ (by decide) (by decide)

/-- C109, fixed point: the product of polar numbers with non-zero magnitudes; the magnitude is rounded down. -/
theorem C109_mul_fixed (hW : 0 < W) (p q : Polar (Fixed m s W F)) (hp : p.mag.val ≠ 0) (hq : q.mag.val ≠ 0) :
    PairOutcome (fun a : Fixed m s W F => a.val) m s W (p.mag.val * q.mag.val / 2 ^ F) (p.ang.val + q.ang.val)
      (Polar.pair (p.mul q)) := by
  obtain ⟨z, hz, z0⟩ := Fixed.lit_zero (m := m) (s := s) (W := W) (F := F)
  have e : Polar.pair (p.mul q) = (do
      let re ← Fixed.fit (p.mag.val * q.mag.val / 2 ^ F); let im ← Fixed.fit (p.ang.val + q.ang.val)
      pure (⟨re, im⟩ : Cartesian (Fixed m s W F))) := by
    simp [Polar.pair, Polar.mul, ops.mulPolar, hz, z0, hp, hq]
  rw [e]; exact Fixed.pairOutcome hW _ _

example := C109_mul_fixed (by decide) ⟨fx .checked true 16 4 30, fx .checked true 16 4 50⟩ ⟨fx .checked true 16 4 20, fx .checked true 16 4 (-30)⟩
  (by decide) (by decide)

/-- C109, integers: scaling multiplies the magnitude and keeps the angle. -/
theorem C109_scale_int (hW : 0 < W) (p : Polar (PInt m s W)) (t : PInt m s W) :
    Outcome (fun a : PInt m s W => a.val) m s W (p.mag.val * t.val) (do let c ← p.mulScalar t; pure c.mag) ∧
    ∀ c, Returns (p.mulScalar t) c → c.ang = p.ang := by
  have e : p.mulScalar t = (do pure ⟨← PInt.fit (p.mag.val * t.val), p.ang⟩) := by simp [Polar.mulScalar]
  rw [e]
  constructor
  · simpa using PInt.outcome hW _
  · intro c hc
    obtain ⟨n, hn⟩ := hc
    obtain ⟨a, -, hb⟩ := Prog.bind_ok_inv (hn n le_rfl)
    cases hb; rfl

/-- C109, fixed point: scaling multiplies the magnitude, rounding down, and keeps the angle. -/
theorem C109_scale_fixed (hW : 0 < W) (p : Polar (Fixed m s W F)) (t : Fixed m s W F) :
    Outcome (fun a : Fixed m s W F => a.val) m s W (p.mag.val * t.val / 2 ^ F) (do let c ← p.mulScalar t; pure c.mag) ∧
    ∀ c, Returns (p.mulScalar t) c → c.ang = p.ang := by
  have e : p.mulScalar t = (do pure ⟨← Fixed.fit (p.mag.val * t.val / 2 ^ F), p.ang⟩) := by simp [Polar.mulScalar]
  rw [e]
  constructor
  · simpa using Fixed.outcome hW _
  · intro c hc
    obtain ⟨n, hn⟩ := hc
    obtain ⟨a, -, hb⟩ := Prog.bind_ok_inv (hn n le_rfl)
    cases hb; rfl

/-- C109: multiplication of polar numbers commutes if that of the components does. -/
theorem C109_comm_generic {α : Type} [MixedCmp α] [NumOps α] [Lit α]
    (hmul : ∀ a b : α, NumOps.mul a b = NumOps.mul b a) (hadd : ∀ a b : α, NumOps.add a b = NumOps.add b a)
    (p q : Polar α) : p.mul q = q.mul p := by
  unfold Polar.mul ops.mulPolar
  congr 1; funext z
  rw [Bool.or_comm, hmul, hadd]

example (p q : Polar ℝ) := C109_comm_generic (fun a b : ℝ => congrArg pure (_root_.mul_comm a b)) (fun a b : ℝ => congrArg pure (_root_.add_comm a b)) p q

/-- C109: hence for integers, fixed point, floats and exact reals, outcome included. -/
theorem C109_comm {f : Format} (p q : Polar (PInt m s W)) (p' q' : Polar (Fixed m s W F)) (p'' q'' : Polar (Flt f))
    (p''' q''' : Polar ℝ) : p.mul q = q.mul p ∧ p'.mul q' = q'.mul p' ∧ p''.mul q'' = q''.mul p'' ∧ p'''.mul q''' = q'''.mul p''' := by
  refine ⟨C109_comm_generic ?_ ?_ _ _, C109_comm_generic ?_ ?_ _ _, C109_comm_generic ?_ ?_ _ _, C109_comm_generic ?_ ?_ _ _⟩ <;> intro a b
  · simp [mul_comm]
  · simp [add_comm]
  · simp [mul_comm]
  · simp [add_comm]
  · simp [Flt.mul_comm a b]
  · simp [Flt.add_comm a b]
  · simp [mul_comm]
  · simp [add_comm]

/-- C109, integers: `mixed_one` is the identity on numbers with non-zero magnitude, `mixed_zero` absorbs. -/
theorem C109_constants_int (hW : 2 ≤ W) (p : Polar (PInt m s W)) :
    (∃ o : Polar (PInt m s W), Returns MixedOne.one o ∧ o.mag.val = 1 ∧ o.ang.val = 0 ∧
      (p.mag.val ≠ 0 → Returns (p.mul o) p ∧ Returns (o.mul p) p)) ∧
    ∃ z : Polar (PInt m s W), z = MixedZero.zero ∧ z.mag.val = 0 ∧ z.ang.val = 0 ∧ Returns (p.mul z) z ∧ Returns (z.mul p) z := by
  obtain ⟨z, hz, z0⟩ := PInt.lit_zero (m := m) (s := s) (W := W)
  have zz : z = MixedZero.zero := PInt.ext (by rw [z0]; simp)
  constructor
  · refine ⟨⟨PInt.mkv 1 (fits_one hW), MixedZero.zero⟩, .of_eq ?_, rfl, by simp, fun hp => ?_⟩
    · show (do pure ⟨← MixedOne.one, MixedZero.zero⟩ : Prog (Polar (PInt m s W))) = _
      rw [PInt.one_def hW, pure_bind]
    · have e : p.mul ⟨PInt.mkv 1 (fits_one hW), MixedZero.zero⟩ = pure p := by
        simp [Polar.mul, ops.mulPolar, hz, z0, hp, PInt.fit_self]
      exact ⟨.of_eq e, .of_eq (by rw [C109_comm_generic (fun a b => by simp [mul_comm]) (fun a b => by simp [add_comm]), e])⟩
  · have h0 : MixedCmp.beq (MixedZero.zero : Polar (PInt m s W)).mag z = true := by
      show MixedCmp.beq (MixedZero.zero : PInt m s W) z = true; simp [z0]
    refine ⟨MixedZero.zero, rfl, PInt.zero_val, PInt.zero_val, ?_, ?_⟩
    · have := C21_generic z hz p MixedZero.zero (.inr h0); rw [zz] at this; exact this
    · have := C21_generic z hz MixedZero.zero p (.inl h0); rw [zz] at this; exact this

/-- C109, fixed point with two bits above the fraction: the same. -/
theorem C109_constants_fixed (h : F + 2 ≤ W) (p : Polar (Fixed m s W F)) :
    (∃ o : Polar (Fixed m s W F), Returns MixedOne.one o ∧ o.mag.val = 2 ^ F ∧ o.ang.val = 0 ∧
      (p.mag.val ≠ 0 → Returns (p.mul o) p ∧ Returns (o.mul p) p)) ∧
    ∃ z : Polar (Fixed m s W F), z = MixedZero.zero ∧ z.mag.val = 0 ∧ z.ang.val = 0 ∧ Returns (p.mul z) z ∧ Returns (z.mul p) z := by
  obtain ⟨z, hz, z0⟩ := Fixed.lit_zero (m := m) (s := s) (W := W) (F := F)
  have zz : z = MixedZero.zero := Fixed.ext (by rw [z0]; simp)
  have hp2 : (2:ℤ) ^ F ≠ 0 := by positivity
  have e1 : p.mag.val * 2 ^ F / 2 ^ F = p.mag.val := Int.mul_ediv_cancel _ hp2
  constructor
  · refine ⟨⟨Fixed.mkv _ (fits_scale h), MixedZero.zero⟩, .of_eq ?_, one_mul _, by simp, fun hp => ?_⟩
    · show (do pure ⟨← MixedOne.one, MixedZero.zero⟩ : Prog (Polar (Fixed m s W F))) = _
      rw [Fixed.one_def h, pure_bind]
    · have e : p.mul ⟨Fixed.mkv _ (fits_scale h), MixedZero.zero⟩ = pure p := by
        simp only [Polar.mul, ops.mulPolar, hz, z0, hp, hp2, pure_bind, Fixed.beq_def, Fixed.mkv_val, Fixed.mul_def, e1, Fixed.add_def,
          Fixed.zero_val, add_zero, Fixed.fit_self, one_mul, decide_false, Bool.or_false, Bool.false_eq_true, if_false]
      exact ⟨.of_eq e, .of_eq (by rw [C109_comm_generic (fun a b => by simp [mul_comm]) (fun a b => by simp [add_comm]), e])⟩
  · have h0 : MixedCmp.beq (MixedZero.zero : Polar (Fixed m s W F)).mag z = true := by
      show MixedCmp.beq (MixedZero.zero : Fixed m s W F) z = true; simp [z0]
    refine ⟨MixedZero.zero, rfl, Fixed.zero_val, Fixed.zero_val, ?_, ?_⟩
    · have := C21_generic z hz p MixedZero.zero (.inr h0); rw [zz] at this; exact this
    · have := C21_generic z hz MixedZero.zero p (.inl h0); rw [zz] at this; exact this

/-- The product (6, 40)·(7, -50) on `i8`, and one whose angle overflows. -/
example : Returns (Polar.mul ⟨i .checked true 8 6, i .checked true 8 40⟩ ⟨i .checked true 8 7, i .checked true 8 (-50)⟩)
    ⟨i .checked true 8 42, i .checked true 8 (-10)⟩ := .of_eq rfl
example : Panics (Polar.mul ⟨i .checked true 8 6, i .checked true 8 100⟩ ⟨i .checked true 8 7, i .checked true 8 50⟩) .overflow :=
  .of_eq rfl

/-- 1.25 · (-0.75) on Q4.4 is exactly -15/16. -/
example : Returns (Polar.mulScalar ⟨fx .checked true 8 4 20, fx .checked true 8 4 3⟩ (fx .checked true 8 4 (-12)))
    ⟨fx .checked true 8 4 (-15), fx .checked true 8 4 3⟩ := .of_eq rfl

/-- On a type without integer bits `mixed_one` itself overflows. -/
example : Panics (MixedOne.one : Prog (Polar (Fixed .checked true 8 8))) .overflow := .of_eq rfl

end MixedNum
