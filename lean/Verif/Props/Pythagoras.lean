import Verif.Props.Trig
import Verif.Props.SinFixed
import Verif.Props.CosFixed
import Verif.Props.TrigFloat
/-! # C122: the computed sine and cosine of an angle lie on the unit circle -/

namespace MixedNum

/-- Two numbers within `e` of sine and cosine of an angle have squares adding up to one within `2.83 e + 2 e²`. -/
theorem circle {s c x e : ℝ} (hs : |s - Real.sin x| ≤ e) (hc : |c - Real.cos x| ≤ e) :
    |s ^ 2 + c ^ 2 - 1| ≤ 2.83 * e + 2 * e ^ 2 := by
  have he : 0 ≤ e := (abs_nonneg _).trans hs
  obtain ⟨d, hd⟩ : ∃ d, d = s - Real.sin x := ⟨_, rfl⟩
  obtain ⟨g, hg⟩ : ∃ g, g = c - Real.cos x := ⟨_, rfl⟩
  rw [← hd] at hs; rw [← hg] at hc
  have q := Real.sin_sq_add_cos_sq x
  generalize Real.sin x = a at *
  generalize Real.cos x = b at *
  have e1 : s ^ 2 + c ^ 2 - 1 = 2 * (a * d + b * g) + (d ^ 2 + g ^ 2) := by
    rw [show s = a + d by linarith, show c = b + g by linarith, ← q]; ring
  have d2 : d ^ 2 ≤ e ^ 2 := by rw [← sq_abs]; exact pow_le_pow_left₀ (abs_nonneg _) hs 2
  have g2 : g ^ 2 ≤ e ^ 2 := by rw [← sq_abs]; exact pow_le_pow_left₀ (abs_nonneg _) hc 2
  have cs : (a * d + b * g) ^ 2 ≤ (1.415 * e) ^ 2 := by
    have : (a * d + b * g) ^ 2 + (a * g - b * d) ^ 2 = d ^ 2 + g ^ 2 := by
      have : (a * d + b * g) ^ 2 + (a * g - b * d) ^ 2 = (a ^ 2 + b ^ 2) * (d ^ 2 + g ^ 2) := by ring
      rw [this, q, one_mul]
    have := sq_nonneg (a * g - b * d)
    have := sq_nonneg e
    rw [mul_pow]; norm_num; linarith
  have cs := abs_le_of_sq_le_sq cs (by positivity)
  rw [e1]
  refine (abs_add_le _ _).trans ?_
  rw [abs_mul, abs_of_nonneg (by positivity : 0 ≤ d ^ 2 + g ^ 2), abs_two]
  norm_num at cs ⊢
  linarith

/-- C122, exact reals: on a whole turn the squares of the polynomial sine and cosine add up to one within 1.14e-5. -/
theorem C122_real (x : ℝ) (h1 : -Real.pi ≤ x) (h2 : x ≤ Real.pi) :
    ∃ s c, Returns (sin x) s ∧ Returns (cos x) c ∧ |s ^ 2 + c ^ 2 - 1| < 1.14e-5 := by
  obtain ⟨s, hs, es⟩ := C35_sin x h1 h2
  obtain ⟨c, hc, ec⟩ := C36_cos x
  refine ⟨s, c, hs, hc, (circle es.le ec.le).trans_lt ?_⟩
  norm_num

/-- C122, signed fixed point with at least 20 integer bits: on a whole turn, within 1.14e-5 and 26 units in the last place. -/
theorem C122_fixed {m : Mode} {W F : ℕ} (h : F + 20 ≤ W) (hF : 5 ≤ F) (x p : Fixed m true W F)
    (hp : (MixedPi.pi : Prog (Fixed m true W F)) = pure p) (hx : |x.val| ≤ p.val) :
    ∃ s c : Fixed m true W F, Returns (sin x) s ∧ Returns (cos x) c ∧
      |((s.val : ℝ) / 2 ^ F) ^ 2 + ((c.val : ℝ) / 2 ^ F) ^ 2 - 1| ≤ 1.14e-5 + 26 / 2 ^ F + 163 / (2 ^ F) ^ 2 := by
  obtain ⟨s, hs, es⟩ := C39_sin h x p hp (by omega)
  obtain ⟨c, hc, ec⟩ := C39_cos h x p hp hx
  refine ⟨s, c, hs, hc, ?_⟩
  have h2 : (0:ℝ) < 2 ^ F := by positivity
  have es : |(s.val : ℝ) / 2 ^ F - Real.sin (x.val / 2 ^ F)| ≤ 4 / 1000000 + 9 / 2 ^ F :=
    es.trans (by have : (7:ℝ) / 2 ^ F ≤ 9 / 2 ^ F := by gcongr; norm_num
                 linarith)
  refine (circle es ec).trans ?_
  have hu : (1:ℝ) / 2 ^ F ≤ 1 / 2 ^ 5 := by
    apply one_div_le_one_div_of_le (by positivity)
    exact pow_le_pow_right₀ (by norm_num) hF
  have hp : (0:ℝ) < 1 / 2 ^ F := by positivity
  rw [show (9:ℝ) / 2 ^ F = 9 * (1 / 2 ^ F) by ring, show (26:ℝ) / 2 ^ F = 26 * (1 / 2 ^ F) by ring,
    show (163:ℝ) / (2 ^ F) ^ 2 = 163 * (1 / 2 ^ F) ^ 2 by ring]
  generalize (1:ℝ) / 2 ^ F = u at *
  have : 0 ≤ u ^ 2 := by positivity
  norm_num at hu ⊢
  nlinarith

/-- C122, single precision. -/
theorem C122_f32 (x : Flt F32) (hx : x.Valid) (b : Bool) (m : ℚ) (e : x = .fin b m) (hm : |(x.val : ℝ)| ≤ 3.15) :
    ∃ s c : Flt F32, Returns (sin x) s ∧ Returns (cos x) c ∧ |(s.val : ℝ) ^ 2 + (c.val : ℝ) ^ 2 - 1| ≤ 1.68e-5 := by
  obtain ⟨s, hs, -, es⟩ := C76_f32 x hx b m e (by norm_num at hm ⊢; linarith)
  obtain ⟨c, hc, -, ec⟩ := C77_f32 x hx b m e hm
  refine ⟨s, c, hs, hc, (circle (es.trans ?_) ec).trans ?_⟩ <;> norm_num

/-- C122, double precision. -/
theorem C122_f64 (x : Flt F64) (hx : x.Valid) (b : Bool) (m : ℚ) (e : x = .fin b m) (hm : |(x.val : ℝ)| ≤ 4.712) :
    ∃ s c : Flt F64, Returns (sin x) s ∧ Returns (cos x) c ∧ |(s.val : ℝ) ^ 2 + (c.val : ℝ) ^ 2 - 1| ≤ 1.03e-5 := by
  obtain ⟨s, hs, -, es⟩ := C76_f64 x hx b m e hm
  obtain ⟨c, hc, -, ec⟩ := C77_f64 x hx b m e (by norm_num at hm ⊢; linarith)
  refine ⟨s, c, hs, hc, (circle (es.trans ?_) ec).trans ?_⟩ <;> norm_num

example : ∃ s c, Returns (sin (1:ℝ)) s ∧ Returns (cos (1:ℝ)) c ∧ |s ^ 2 + c ^ 2 - 1| < 1.14e-5 :=
  C122_real 1 (by have := Real.pi_gt_three; linarith) (by have := Real.pi_gt_three; linarith)
example : ∃ s c, Returns (sin (fx .checked true 64 32 (2 ^ 33))) s ∧ Returns (cos (fx .checked true 64 32 (2 ^ 33))) c ∧
    |((s.val : ℝ) / 2 ^ 32) ^ 2 + ((c.val : ℝ) / 2 ^ 32) ^ 2 - 1| ≤ 1.14e-5 + 26 / 2 ^ 32 + 163 / (2 ^ 32) ^ 2 :=
  C122_fixed (by norm_num) (by norm_num) _ _ (Fixed.pi_def (by norm_num)) (by decide +kernel)
example : ∃ s c : Flt F32, Returns (sin (.fin true (5/2) : Flt F32)) s ∧ Returns (cos (.fin true (5/2) : Flt F32)) c ∧
    |(s.val : ℝ) ^ 2 + (c.val : ℝ) ^ 2 - 1| ≤ 1.68e-5 :=
  C122_f32 _ ⟨5, -1, by decide, by decide, by norm_num [pow2_eq], by norm_num⟩ _ _ rfl (by norm_num [Flt.val])

end MixedNum
