import Verif.Model.Delegate
import Verif.Props.SqrtFixed
import Verif.Props.SqrtFloat
import Verif.Props.AtanFixed
import Verif.Props.AtanFloat
import Verif.Props.TrigFloat
import Verif.Props.Wrap
import Verif.Props.AddSub
import Verif.Lemmas.Run
import Verif.Lemmas.Case
/-! # C111: the methods `mixed_niirf`, `mixed_atan2_poly` and `mixed_wrap_phase`

Each calls the crate's own routine; the claims fix the receiver and the order of the arguments. -/

namespace MixedNum
variable {m : Mode} {W F : ℕ} {f : Format}

/-- C111: `x.mixed_niirf()` on signed fixed point is the square root of `|x|`. -/
theorem C111_niirf_fixed (hF : 2 ≤ F) (hW : 8 ≤ W) (hW' : W ≤ 128) (hK : F + 4 ≤ W) (x : Fixed m true W F)
    (hx : x.val ≠ -(2 ^ (W - 1))) :
    ∃ z, Returns x.mixedNiirf z ∧ |(z.val : ℝ) / 2 ^ F - √(|(x.val : ℝ) / 2 ^ F|)| ≤
      (1 / 1000 + 12 / 2 ^ F) * √(|(x.val : ℝ) / 2 ^ F|) + 4 / 2 ^ F := by
  have hp : (0:ℝ) < 2 ^ F := by positivity
  rcases lt_trichotomy x.val 0 with h | h | h
  · obtain ⟨z, hz, e⟩ := C49_negative hF hW hW' hK x h (by have := x.fits; rw [Fixed.fits_signed] at this; omega)
    have hx : (x.val : ℝ) < 0 := by exact_mod_cast h
    rw [show |(x.val : ℝ) / 2 ^ F| = -x.val / 2 ^ F by rw [abs_div, abs_of_neg hx, abs_of_pos hp]]
    exact ⟨z, hz, e⟩
  · obtain ⟨z, hz, e⟩ := C49_zero x h
    refine ⟨z, hz, ?_⟩
    rw [e, h]; simp; positivity
  · obtain ⟨z, hz, e⟩ := C49_accuracy hF hW hW' hK x h
    have hx : (0:ℝ) < x.val := by exact_mod_cast h
    rw [show |(x.val : ℝ) / 2 ^ F| = x.val / 2 ^ F by rw [abs_div, abs_of_pos hx, abs_of_pos hp]]
    exact ⟨z, hz, e⟩

/-- C111: `x.mixed_niirf()` on every finite float, single and double precision. -/
theorem C111_niirf_float (md : Mode) (x : Flt F32) (hx : x.Valid) (x' : Flt F64) (hx' : x'.Valid) (h : ∃ b q, x = .fin b q)
    (h' : ∃ b q, x' = .fin b q) :
    (∃ z : Flt F32, Returns (x.mixedNiirf md) z ∧ z.Valid ∧
      |(z.val : ℝ) - Real.sqrt (|(x.val : ℝ)|)| ≤ 996 / 1000000 * Real.sqrt (|(x.val : ℝ)|)) ∧
    ∃ z : Flt F64, Returns (x'.mixedNiirf md) z ∧ z.Valid ∧
      |(z.val : ℝ) - Real.sqrt (|(x'.val : ℝ)|)| ≤ 996 / 1000000 * Real.sqrt (|(x'.val : ℝ)|) := by
  have zero : ∀ {f : Format} (b : Bool) (q : ℚ) (h : (Flt.fin b q : Flt f).val = 0), q = 0 := by
    intro f b q h; cases b <;> simpa [Flt.val] using h
  obtain ⟨b, q, rfl⟩ := h
  obtain ⟨b', q', rfl⟩ := h'
  constructor
  · by_cases e : (Flt.fin b q : Flt F32).val = 0
    · obtain rfl := zero b q e
      refine ⟨_, C70_zero md b 2, hx, ?_⟩
      rw [e]; simp [Flt.val]
    · exact C70_f32 md _ hx b q rfl e
  · by_cases e : (Flt.fin b' q' : Flt F64).val = 0
    · obtain rfl := zero b' q' e
      refine ⟨_, C70_zero md b' 2, hx', ?_⟩
      rw [e]; simp [Flt.val]
    · exact C70_f64 md _ hx' b' q' rfl e

example := C111_niirf_float .checked (.fin true 3) (by is_float 3 0) (.fin false (1 / 2)) (by is_float 1 (-1)) ⟨_, _, rfl⟩ ⟨_, _, rfl⟩

/-- C111: `y.mixed_atan2_poly(x)` on signed fixed point is the angle of `x + iy`. -/
theorem C111_atan2_fixed {K : ℕ} (hK : F + K + 1 ≤ W) (hK2 : 2 ≤ K) (y x : Fixed m true W F)
    (hRy : 2 * (y.val * y.val) ≤ 2 ^ K * 2 ^ F * 2 ^ F) (hRx : 2 * (x.val * x.val) ≤ 2 ^ K * 2 ^ F * 2 ^ F)
    (hD : 2 ^ F ≤ x.val * x.val ∨ 2 ^ F ≤ y.val * y.val) :
    ∃ v : Fixed m true W F, Returns (y.mixedAtan2Poly x) v ∧
      |(v.val : ℝ) / 2 ^ F - Complex.arg ⟨x.val / 2 ^ F, y.val / 2 ^ F⟩| ≤
        0.00492 + (3 + 7 / (max |(x.val : ℝ) / 2 ^ F| |(y.val : ℝ) / 2 ^ F|) ^ 2) / 2 ^ F :=
  C65_accuracy hK hK2 y x hRy hRx hD

/-- C111: `y.mixed_atan2_poly(x)` on floats is the angle of `x + iy`. -/
theorem C111_atan2_float (hf : f.Wide) (h60 : f.p ≤ 60) (y x : Flt f) (hy : y.Valid) (hx : x.Valid) (s t : Bool) (m n : ℚ)
    (ey : y = .fin s m) (ex : x = .fin t n)
    (hlo : (2:ℝ) ^ (f.emin + f.p) ≤ max (|(x.val : ℝ)|) (|(y.val : ℝ)|) ^ 2)
    (hhi : 4 * max (|(x.val : ℝ)|) (|(y.val : ℝ)|) ^ 2 ≤ 2 ^ f.emax) :
    ∃ z : Flt f, Returns (y.mixedAtan2Poly x) z ∧ z.Valid ∧
      |(z.val : ℝ) - Complex.arg ⟨x.val, y.val⟩| ≤ (Real.pi / 4 - 32 / 41) + 12 / 2 ^ f.p := by
  obtain ⟨z, h1, h2, -, h3⟩ := C79_accuracy hf h60 y x hy hx s t m n ey ex hlo hhi
  exact ⟨z, h1, h2, h3⟩

example := C111_atan2_float Flt.wide_F32 (by decide) (.fin true 3) (.fin false (1 / 2)) (by is_float 3 0) (by is_float 1 (-1)) _ _ _ _ rfl rfl
  (by norm_num [Flt.val, F32]) (by norm_num [Flt.val, F32])

/-- C111: `x.mixed_wrap_phase()` on signed fixed point lies in [-π, π) and differs from `x` by whole turns, with the type's π. -/
theorem C111_wrap_fixed (h : F + 4 ≤ W) (x : Fixed m true W F) :
    ∃ p r : Fixed m true W F, Returns MixedPi.pi p ∧ 0 < p.val ∧ Returns x.mixedWrapPhase r ∧
      -p.val ≤ r.val ∧ r.val < p.val ∧ ∃ k : ℤ, r.val = x.val + k * (2 * p.val) :=
  C30_wrap_fixed h x

/-- C111: `x.mixed_wrap_phase()` on floats differs from `x` by whole turns up to the accumulated rounding. -/
theorem C111_wrap_float (hf : f.Wide) (h60 : f.p ≤ 60) (x : Flt f) (hx : x.Valid) (s : Bool) (m : ℚ) (e : x = .fin s m)
    (hm : |(x.val : ℝ)| ≤ 2 ^ f.p / 10) :
    ∃ r : Flt f, ∃ k : ℤ, Returns x.mixedWrapPhase r ∧ r.Valid ∧
      |(r.val : ℝ) - (x.val - 2 * Real.pi * k)| ≤ (|(x.val : ℝ)| + 4) ^ 2 / 6 / 2 ^ f.p ∧ |(r.val : ℝ)| ≤ Real.pi + 21 / 10 / 2 ^ f.p := by
  obtain ⟨r, k, h1, h2, -, h3⟩ := C75_accuracy hf h60 x hx s m e hm
  exact ⟨r, k, h1, h2, h3⟩

/-- Cases: the root of -2 (that is, of 2) and the angle of 1 + 2i on 32-bit numbers with 16 fraction bits. -/
example : ∃ z, Returns (fx .checked true 32 16 (-(2 ^ 17))).mixedNiirf z ∧ |(z.val : ℝ) / 2 ^ 16 - √2| ≤ 0.003 := by
  obtain ⟨z, h1, h2⟩ := C111_niirf_fixed (by norm_num) (by norm_num) (by norm_num) (by norm_num) (fx .checked true 32 16 (-(2 ^ 17))) (by decide)
  refine ⟨z, h1, ?_⟩
  have e : |((fx .checked true 32 16 (-(2 ^ 17))).val : ℝ) / 2 ^ 16| = 2 := by
    rw [show (fx .checked true 32 16 (-(2 ^ 17))).val = -(2 ^ 17) by decide]; norm_num
  rw [e] at h2
  have : √(2:ℝ) ≤ 1.42 := by rw [Real.sqrt_le_left (by norm_num)]; norm_num
  refine h2.trans ?_
  norm_num at this ⊢; linarith
example : ∃ v, Returns ((fx .checked true 32 16 (2 ^ 17)).mixedAtan2Poly (fx .checked true 32 16 (2 ^ 16))) v ∧
    |(v.val : ℝ) / 2 ^ 16 - Real.arctan 2| ≤ 0.005 := by
  obtain ⟨v, h1, h2⟩ := C111_atan2_fixed (K := 15) (by norm_num) (by norm_num) (fx .checked true 32 16 (2 ^ 17))
    (fx .checked true 32 16 (2 ^ 16)) (by decide) (by decide) (by decide)
  refine ⟨v, h1, ?_⟩
  rw [show (fx .checked true 32 16 (2 ^ 17)).val = 2 ^ 17 by decide, show (fx .checked true 32 16 (2 ^ 16)).val = 2 ^ 16 by decide] at h2
  have e : Complex.arg ⟨((2 ^ 16 : ℤ) : ℝ) / 2 ^ 16, ((2 ^ 17 : ℤ) : ℝ) / 2 ^ 16⟩ = Real.arctan 2 := by
    rw [← arg_one_right]; norm_num
  rw [e] at h2
  refine h2.trans ?_
  have : max |((2 ^ 16 : ℤ) : ℝ) / 2 ^ 16| |((2 ^ 17 : ℤ) : ℝ) / 2 ^ 16| = 2 := by norm_num
  rw [this]; norm_num

end MixedNum
