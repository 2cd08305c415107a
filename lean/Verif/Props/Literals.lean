import Verif.Lemmas.Rounds
import Verif.Props.FloatConv
import Verif.Props.AddSub
/-! # C179: the constants written in the code are what `mixed_from_num` makes of them

The model converts a constant such as `T::mixed_from_num(4)` or `T::mixed_from_num(0.961914)` with `Lit.ofI32` and `Lit.ofF64`, which take
the exact value. The conversions a caller can make are the instances of `Conv`. -/

namespace MixedNum
variable {m : Mode} {s : Bool} {W F : ℕ} {f : Format}
open Flt

/-- An `i32` constant, on fixed point. -/
theorem C179_i32_fixed (n : PInt m true 32) : (Lit.ofI32 n.val : Prog (Fixed m s W F)) = Conv.fromNum n := rfl

/-- On I4F4 the constant 6 is 96/16, and 120 overflows. -/
example : Returns (Lit.ofI32 (i .checked true 32 6).val) (fx .checked true 8 4 96) ∧
    Panics (Lit.ofI32 (i .checked true 32 120).val : Prog (Fixed .checked true 8 4)) .overflow := ⟨.of_eq (by rfl), .of_eq (by rfl)⟩

/-- An `i32` constant, on integers. -/
theorem C179_i32_int (n : PInt m true 32) : (Lit.ofI32 n.val : Prog (PInt m s W)) = Conv.fromNum n := rfl

/-- An `i32` constant, on floats. -/
theorem C179_i32_float (n : PInt m true 32) : (Lit.ofI32 n.val : Prog (Flt f)) = Conv.fromNum n := rfl

/-- An `f64` constant, on fixed point. -/
theorem C179_f64_fixed (x : Flt F64) (hx : x.IsFinite) : (Lit.ofF64 x.val : Prog (Fixed m s W F)) = Conv.fromNum x := by
  obtain ⟨_, _, rfl⟩ := hx; rfl

/-- An `f64` constant, on integers. -/
theorem C179_f64_int (x : Flt F64) (hx : x.IsFinite) : (Lit.ofF64 x.val : Prog (PInt m s W)) = Conv.fromNum x := by
  obtain ⟨_, _, rfl⟩ := hx; rfl

/-- An `f64` constant that is not `-0`, on floats. -/
theorem C179_f64_float (x : Flt F64) (hx : x.IsFinite) (h0 : x ≠ .fin true 0) :
    (Lit.ofF64 x.val : Prog (Flt f)) = Conv.fromNum x := by
  obtain ⟨t, q, rfl⟩ := hx
  show (pure (ofExact false _) : Prog (Flt f)) = pure (ofExact t _)
  by_cases hq : q = 0
  · subst hq
    cases t
    · rfl
    · exact absurd rfl h0
  · have hv : (Flt.fin t q : Flt F64).val ≠ 0 := by cases t <;> simp [Flt.val, hq]
    simp [ofExact, hv]

/-- A decimal constant between 0 and 1 is read as the `f64` nearest to it, and the model uses the value of that `f64`. -/
theorem C179_decimal (q : ℚ) (h0 : 0 < q) (h1 : q < 1) : RoundsTo (.fin false (f64Round q) : Flt F64) q := by
  have hle : roundTo 53 (-1074) q ≤ 1 :=
    roundTo_le_rep (by norm_num) h0.le h1.le ⟨1, 0, by norm_num, by norm_num, by norm_num⟩
  have e : (ofExact false q : Flt F64) = .fin false (f64Round q) := by
    have hlt : roundTo 53 (-1074) q < 2 ^ 1024 := lt_of_le_of_lt hle (one_lt_pow₀ (by norm_num) (by norm_num))
    simp only [ofExact, F64, h0.ne', abs_of_pos h0, hlt, not_lt.2 h0.le, if_true, if_false, decide_false, f64Round]
  exact e ▸ ofExact_rounds wide_F64 false q

example : RoundsTo (.fin false (f64Round 0.961914) : Flt F64) 0.961914 := C179_decimal _ (by norm_num) (by norm_num)

/-- What the square root on fixed point uses for a decimal constant is `mixed_from_num` of the nearest `f64`. -/
theorem C179_decimal_fixed (q : ℚ) (h0 : 0 < q) (h1 : q < 1) : ∃ x : Flt F64, RoundsTo x q ∧
    (Lit.ofF64 (f64Round q) : Prog (Fixed m s W F)) = Conv.fromNum x :=
  ⟨_, C179_decimal q h0 h1, rfl⟩

/-- On I16F16, 0.961914 is 63040/65536. -/
example : Returns (Lit.ofF64 (f64Round 0.961914)) (fx .checked true 32 16 63040) := .of_eq (by kernel_rfl)

/-- The same on floats. -/
theorem C179_decimal_float (q : ℚ) (h0 : 0 < q) (h1 : q < 1) : ∃ x : Flt F64, RoundsTo x q ∧
    (Lit.ofF64 (f64Round q) : Prog (Flt f)) = Conv.fromNum x :=
  ⟨_, C179_decimal q h0 h1, rfl⟩

/-- On f32, 0.354167 is 11883873 * 2^-25, which is not the `f64` nearest to it. -/
example : Returns (Lit.ofF64 (f64Round 0.354167)) (.fin false (11883873 / 2 ^ 25) : Flt F32) := .of_eq (by kernel_rfl)

end MixedNum
