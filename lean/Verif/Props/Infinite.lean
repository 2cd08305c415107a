import Verif.Spec.Infinite
import Verif.Props.ComplexFloat
/-! # C178: infinite operands of the complex operators on floats -/

namespace MixedNum
variable {f g : Format}
open Flt

theorem pos_cases {x : Flt f} (hx : x.Valid) (h : MixedCmp.lt MixedZero.zero x = true) :
    x = .inf false ∨ ∃ m, 0 < m ∧ x = .fin false m := by
  cases x with
  | nan => cases h
  | inf s => cases s
             · exact .inl rfl
             · cases h
  | fin s m =>
    obtain ⟨_, _, e, h0, -⟩ := is_of_valid hx
    cases e
    have h : (0:ℚ) < (Flt.fin s m : Flt f).val := by simpa [MixedCmp.lt, MixedZero.zero, Flt.lt, Flt.val] using h
    cases s
    · exact .inr ⟨m, h, rfl⟩
    · have : (0:ℚ) < -m := h
      linarith

theorem neg_cases {x : Flt f} (hx : x.Valid) (h : MixedCmp.lt x MixedZero.zero = true) :
    x = .inf true ∨ ∃ m, 0 < m ∧ x = .fin true m := by
  cases x with
  | nan => cases h
  | inf s => cases s
             · cases h
             · exact .inl rfl
  | fin s m =>
    obtain ⟨_, _, e, h0, -⟩ := is_of_valid hx
    cases e
    have h : (Flt.fin s m : Flt f).val < 0 := by simpa [MixedCmp.lt, MixedZero.zero, Flt.lt, Flt.val] using h
    cases s
    · have : m < (0:ℚ) := h
      linarith
    · have : -m < (0:ℚ) := h
      exact .inr ⟨m, by linarith, rfl⟩

theorem zero_cases {x : Flt f} (h : MixedCmp.beq x MixedZero.zero = true) : ∃ s, x = .fin s 0 := by
  cases x with
  | nan => cases h
  | inf s => cases h
  | fin s m =>
    have h : (Flt.fin s m : Flt f).val = 0 := by simpa [MixedCmp.beq, MixedZero.zero, Flt.beq, Flt.val] using h
    refine ⟨s, ?_⟩
    cases s
    · rw [show m = 0 from h]
    · rw [show m = 0 from neg_eq_zero.mp h]

theorem mul_timesInf {x : Flt f} (hx : x.Valid) (t : Bool) : TimesInf x t (x.mul (.inf t)) := by
  refine ⟨fun h => ?_, fun h => ?_, fun h => ?_⟩
  · rcases pos_cases hx h with rfl | ⟨m, hm, rfl⟩
    · simp [Flt.mul]
    · simp [Flt.mul, hm.ne']
  · rcases neg_cases hx h with rfl | ⟨m, hm, rfl⟩
    · simp [Flt.mul]
    · simp [Flt.mul, hm.ne']
  · rcases h with h | rfl
    · obtain ⟨s, rfl⟩ := zero_cases h; simp [Flt.mul]
    · rfl

theorem div_overInf (x : Flt f) (t : Bool) : OverInf x t (x.div (.inf t)) := by
  cases x with
  | nan => exact ⟨(by rintro ⟨_, _, h⟩; cases h), fun _ => rfl⟩
  | inf s => exact ⟨(by rintro ⟨_, _, h⟩; cases h), fun _ => rfl⟩
  | fin s m =>
    refine ⟨fun _ => ⟨⟨_, _, rfl⟩, ?_, ?_⟩, fun h => absurd ⟨_, _, rfl⟩ h⟩
    · simp [Flt.div, Flt.val]
    · show xor s t = true ↔ s ≠ t
      cases s <;> cases t <;> decide

theorem infTimes_mul {r : Flt f} (hr : r.Valid) (s : Bool) : InfTimes s r ((Flt.inf s).mul r) := by
  refine ⟨fun h => ?_, fun h => ?_⟩
  · rcases pos_cases hr h with rfl | ⟨m, hm, rfl⟩
    · simp [Flt.mul]
    · simp [Flt.mul, hm.ne']
  · rcases neg_cases hr h with rfl | ⟨m, hm, rfl⟩
    · simp [Flt.mul]
    · simp [Flt.mul, hm.ne']

theorem infTimes_div {r : Flt f} (hr : r.Valid) (hf : r.IsFinite) (s : Bool) : InfTimes s r ((Flt.inf s).div r) := by
  obtain ⟨b, q, rfl⟩ := hf
  refine ⟨fun h => ?_, fun h => ?_⟩
  · rcases pos_cases hr h with h | ⟨m, hm, h⟩ <;> cases h; simp [Flt.div]
  · rcases neg_cases hr h with h | ⟨m, hm, h⟩ <;> cases h; simp [Flt.div]

/-- C178: multiplying by an infinite scalar of either float type makes every non-zero part infinite, with the sign of the product, and
zero parts NaN. -/
theorem C178_times_infinity (z : Cartesian (Flt f)) (h1 : z.re.Valid) (h2 : z.im.Valid) (t : Bool) :
    ∃ c, Returns (z.mulScalar (.inf t : Flt g)) c ∧ TimesInf z.re t c.re ∧ TimesInf z.im t c.im :=
  ⟨_, .of_eq rfl, mul_timesInf h1 t, mul_timesInf h2 t⟩

example : ∃ c, Returns ((⟨.fin true 3, .fin false 0⟩ : Cartesian (Flt F32)).mulScalar (.inf true : Flt F64)) c ∧
    c.re = .inf false ∧ c.im = .nan := by
  obtain ⟨c, h, h1, h2⟩ := C178_times_infinity (g := F64) ⟨.fin true 3, .fin false 0⟩ (f := F32) (by is_float 3 0) (by is_float 0 0) true
  exact ⟨c, h, h1.2.1 (by decide +kernel), h2.2.2 (.inl (by decide +kernel))⟩

/-- C178: dividing by an infinite scalar makes every finite part a zero with the sign of the quotient, and the others NaN. -/
theorem C178_over_infinity (z : Cartesian (Flt f)) (t : Bool) :
    ∃ c, Returns (z.divScalar (.inf t : Flt g)) c ∧ OverInf z.re t c.re ∧ OverInf z.im t c.im :=
  ⟨_, .of_eq rfl, div_overInf _ t, div_overInf _ t⟩

example : ∃ c, Returns ((⟨.fin true 3, .inf false⟩ : Cartesian (Flt F32)).divScalar (.inf false : Flt F64)) c ∧
    c.re.val = 0 ∧ MixedReal.isNegative c.re = true ∧ c.im = .nan := by
  obtain ⟨c, h, h1, h2⟩ := C178_over_infinity (f := F32) (g := F64) ⟨.fin true 3, .inf false⟩ false
  obtain ⟨-, k1, k2⟩ := h1.1 ⟨_, _, rfl⟩
  exact ⟨c, h, k1, k2.mpr (by decide), h2.2 (by rintro ⟨_, _, h⟩; cases h)⟩

/-- C178: an infinite part times or divided by a scalar that converts to the finite non-zero `r` is infinite with the sign of the
product. -/
theorem C178_infinite_part (z : Cartesian (Flt f)) (s : Bool) (x : Flt g) (r : Flt f) (hr : r.Valid) (hf : r.IsFinite)
    (hx : Returns (Conv.fromNum x) r) :
    (∃ c, Returns (z.mulScalar x) c ∧ (z.re = .inf s → InfTimes s r c.re) ∧ (z.im = .inf s → InfTimes s r c.im)) ∧
    ((MixedCmp.beq x MixedZero.zero) = false →
      ∃ c, Returns (z.divScalar x) c ∧ (z.re = .inf s → InfTimes s r c.re) ∧ (z.im = .inf s → InfTimes s r c.im)) := by
  obtain rfl : x.cast = r := (Returns.of_eq rfl : Returns (Conv.fromNum x : Prog (Flt f)) x.cast).unique hx
  refine ⟨⟨⟨z.re.mul x.cast, z.im.mul x.cast⟩, .of_eq rfl, fun h => ?_, fun h => ?_⟩,
    fun hb => ⟨⟨z.re.div x.cast, z.im.div x.cast⟩, .of_eq ?_, fun h => ?_, fun h => ?_⟩⟩
  · simp only [h]; exact infTimes_mul hr s
  · simp only [h]; exact infTimes_mul hr s
  · unfold Cartesian.divScalar; rw [hb]; rfl
  · simp only [h]; exact infTimes_div hr hf s
  · simp only [h]; exact infTimes_div hr hf s

example : ∃ c, Returns ((⟨.inf false, .fin false 1⟩ : Cartesian (Flt F32)).divScalar (.fin true (1 / 2) : Flt F64)) c ∧ c.re = .inf true := by
  obtain ⟨c, h, h1, -⟩ := (C178_infinite_part (f := F32) (g := F64) ⟨.inf false, .fin false 1⟩ false (.fin true (1 / 2))
    (.fin true (1 / 2)) (by is_float 1 (-1)) ⟨_, _, rfl⟩ (.of_eq (by kernel_rfl))).2 (by decide +kernel)
  exact ⟨c, h, (h1 rfl).2 (by decide +kernel)⟩

/-- C178: adding to or subtracting from an infinite part leaves it, unless the other operand is infinite against it or NaN. -/
theorem C178_add_sub (z w : Cartesian (Flt f)) (s : Bool) :
    (∃ c, Returns (z.add w) c ∧ (z.re = .inf s → InfPlus s w.re c.re) ∧ (z.im = .inf s → InfPlus s w.im c.im)) ∧
    (∃ c, Returns (z.sub w) c ∧ (w.re = .inf s → InfPlus (!s) z.re c.re) ∧ (w.im = .inf s → InfPlus (!s) z.im c.im)) := by
  have ha : ∀ r : Flt f, InfPlus s r ((Flt.inf s).add r) := by
    intro r
    refine ⟨?_, ?_⟩
    · rintro (⟨b, q, rfl⟩ | rfl)
      · rfl
      · simp [Flt.add]
    · rintro (rfl | rfl)
      · simp [Flt.add]
      · rfl
  have hs : ∀ r : Flt f, InfPlus (!s) r (r.sub (.inf s)) := by
    intro r
    refine ⟨?_, ?_⟩
    · rintro (⟨b, q, rfl⟩ | rfl)
      · rfl
      · simp [Flt.sub, Flt.neg, Flt.add]
    · rintro (rfl | rfl)
      · simp [Flt.sub, Flt.neg, Flt.add]
      · rfl
  refine ⟨⟨⟨z.re.add w.re, z.im.add w.im⟩, .of_eq rfl, fun h => ?_, fun h => ?_⟩,
    ⟨⟨z.re.sub w.re, z.im.sub w.im⟩, .of_eq rfl, fun h => ?_, fun h => ?_⟩⟩
  · simp only [h]; exact ha _
  · simp only [h]; exact ha _
  · simp only [h]; exact hs _
  · simp only [h]; exact hs _

example : ∃ c, Returns ((⟨.fin false 1, .inf true⟩ : Cartesian (Flt F32)).sub ⟨.inf false, .inf true⟩) c ∧ c.re = .inf true ∧ c.im = .nan := by
  obtain ⟨c, h, h1, -⟩ := (C178_add_sub (⟨.fin false 1, .inf true⟩ : Cartesian (Flt F32)) ⟨.inf false, .inf true⟩ false).2
  obtain ⟨c', h', -, h2⟩ := (C178_add_sub (⟨.fin false 1, .inf true⟩ : Cartesian (Flt F32)) ⟨.inf false, .inf true⟩ true).2
  obtain rfl := h.unique h'
  exact ⟨c, h, (h1 rfl).1 (.inl ⟨_, _, rfl⟩), (h2 rfl).2 (.inl rfl)⟩

/-- C178: the conjugate of a number with an infinite imaginary part has the opposite infinity there. -/
theorem C178_conj (x : Flt f) (s : Bool) : Returns (Cartesian.conj ⟨x, .inf s⟩) ⟨x, .inf (!s)⟩ := .of_eq rfl

example : Returns (Cartesian.conj (⟨.nan, .inf true⟩ : Cartesian (Flt F32))) ⟨.nan, .inf false⟩ := C178_conj _ true

/-- C178: the same of the magnitude of a polar number times or divided by an infinite scalar; the angle stays. -/
theorem C178_polar (p : Polar (Flt f)) (h : p.mag.Valid) (t : Bool) :
    (∃ c, Returns (p.mulScalar (.inf t)) c ∧ TimesInf p.mag t c.mag ∧ c.ang = p.ang) ∧
    (∃ c, Returns (p.divScalar (.inf t)) c ∧ OverInf p.mag t c.mag ∧ c.ang = p.ang) :=
  ⟨⟨_, .of_eq rfl, mul_timesInf h t, rfl⟩, ⟨⟨p.mag.div (.inf t), p.ang⟩, .of_eq (by
    unfold Polar.divScalar; rfl), div_overInf _ t, rfl⟩⟩

example : ∃ c, Returns (Polar.mulScalar (⟨.fin false 2, .fin false 1⟩ : Polar (Flt F32)) (.inf true)) c ∧ c.mag = .inf true := by
  obtain ⟨c, h, h1, -⟩ := (C178_polar (f := F32) ⟨.fin false 2, .fin false 1⟩ (by is_float 1 1) true).1
  exact ⟨c, h, h1.1 (by decide +kernel)⟩

/-- C178: an infinite real number times a complex number with non-zero parts has both parts infinite, with the signs of the products,
in either order. -/
theorem C178_real_infinity (s b : Bool) (w : Cartesian (Flt f)) (h1 : w.re.Valid) (h2 : w.im.Valid) (f1 : w.re.IsFinite)
    (f2 : w.im.IsFinite) (n1 : w.re.val ≠ 0) (n2 : w.im.val ≠ 0) :
    ∃ c, Returns (Cartesian.mul ⟨.inf s, .fin b 0⟩ w) c ∧ InfTimes s w.re c.re ∧ InfTimes s w.im c.im ∧
      ∃ c', Returns (Cartesian.mul w ⟨.inf s, .fin b 0⟩) c' ∧ InfTimes s w.re c'.re ∧ InfTimes s w.im c'.im := by
  obtain ⟨x, y⟩ := w
  obtain ⟨s1, m1, rfl⟩ := f1
  obtain ⟨s2, m2, rfl⟩ := f2
  have k1 : m1 ≠ 0 := by rintro rfl; exact n1 (by cases s1 <;> simp [Flt.val])
  have k2 : m2 ≠ 0 := by rintro rfl; exact n2 (by cases s2 <;> simp [Flt.val])
  have fin0 : ∀ (c a b : Bool) (m : ℚ), ∃ c' q, (ofExact c ((Flt.fin a 0 : Flt f).val * (Flt.fin b m : Flt f).val) : Flt f) = .fin c' q := by
    intro c a b m
    have e : (Flt.fin a 0 : Flt f).val * (Flt.fin b m : Flt f).val = 0 := by cases a <;> simp [Flt.val]
    rw [e]; exact ⟨c, 0, by simp [ofExact]⟩
  have fin1 : ∀ (c a b : Bool) (m : ℚ), ∃ c' q, (ofExact c ((Flt.fin b m : Flt f).val * (Flt.fin a 0 : Flt f).val) : Flt f) = .fin c' q := by
    intro c a b m; rw [mul_comm]; exact fin0 c a b m
  have im1 := infTimes_mul h1 s
  have im2 := infTimes_mul h2 s
  simp only [Flt.mul, k1, k2, if_false] at im1 im2
  refine ⟨_, .of_eq rfl, ?_, ?_, _, .of_eq rfl, ?_, ?_⟩
  · show InfTimes s _ (((Flt.inf s).mul (.fin s1 m1)).sub ((Flt.fin b 0).mul (.fin s2 m2)))
    obtain ⟨c', q, e⟩ := fin0 (xor b s2) b s2 m2
    simp only [Flt.mul, k1, if_false, e, Flt.sub, Flt.neg, Flt.add]; exact im1
  · show InfTimes s _ (((Flt.inf s).mul (.fin s2 m2)).add ((Flt.fin b 0).mul (.fin s1 m1)))
    obtain ⟨c', q, e⟩ := fin0 (xor b s1) b s1 m1
    simp only [Flt.mul, k2, if_false, e, Flt.add]; exact im2
  · show InfTimes s _ (((Flt.fin s1 m1).mul (.inf s)).sub ((Flt.fin s2 m2).mul (.fin b 0)))
    obtain ⟨c', q, e⟩ := fin1 (xor s2 b) b s2 m2
    simp only [Flt.mul, k1, if_false, e, Flt.sub, Flt.neg, Flt.add, Bool.xor_comm s1]; exact im1
  · show InfTimes s _ (((Flt.fin s1 m1).mul (.fin b 0)).add ((Flt.fin s2 m2).mul (.inf s)))
    obtain ⟨c', q, e⟩ := fin1 (xor s1 b) b s1 m1
    simp only [Flt.mul, k2, if_false, e, Flt.add, Bool.xor_comm s2]; exact im2

example : ∃ c, Returns (Cartesian.mul ⟨.inf true, .fin false 0⟩ (⟨.fin false 2, .fin true 3⟩ : Cartesian (Flt F64))) c ∧ c.re = .inf true ∧
    c.im = .inf false := by
  obtain ⟨c, h, h1, h2, -⟩ := C178_real_infinity (f := F64) true false ⟨.fin false 2, .fin true 3⟩ (by is_float 1 1) (by is_float 3 0) ⟨_, _, rfl⟩
    ⟨_, _, rfl⟩ (by decide +kernel) (by decide +kernel)
  exact ⟨c, h, h1.1 (by decide +kernel), h2.2 (by decide +kernel)⟩

end MixedNum
