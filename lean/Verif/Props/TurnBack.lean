import Verif.Lemmas.ArgNear
import Verif.Props.Trig
import Verif.Props.Atan
import Verif.Props.SinFixed
import Verif.Props.AtanFixed
import Verif.Props.TrigFloat
import Verif.Props.AtanFloat
import Verif.Props.AddSub
import Verif.Lemmas.Run
import Verif.Lemmas.Case
/-! # C136: the arctangent undoes sine and cosine, and sine and cosine undo the arctangent -/

namespace MixedNum

/-- C136, exact reals: on a whole turn the four-quadrant arctangent of the computed sine and cosine of an angle is the
angle, up to a whole turn at the ends. -/
theorem C136_real (x : ℝ) (h1 : -Real.pi ≤ x) (h2 : x ≤ Real.pi) :
    ∃ s c v, Returns (sin x) s ∧ Returns (cos x) c ∧ Returns (atan2Poly s c) v ∧
      ∃ k : ℤ, |v - x - 2 * Real.pi * k| < 0.00494 ∧ |k| ≤ 1 ∧ (|x| ≤ 3.14 → k = 0) := by
  obtain ⟨s, hs, es⟩ := C35_sin x h1 h2
  obtain ⟨c, hc, ec⟩ := C36_cos x
  obtain ⟨v, hv, ev⟩ := C40_decimal s c
  obtain ⟨k, hk, -, hk1, hk0⟩ := arg_near (by norm_num) es.le ec.le
  refine ⟨s, c, v, hs, hc, hv, k, ?_, hk1 (abs_le.mpr ⟨h1, h2⟩), fun h => hk0 h (by norm_num)⟩
  rw [show v - x - 2 * Real.pi * k = (v - Complex.arg ⟨c, s⟩) + (Complex.arg ⟨c, s⟩ - x - 2 * Real.pi * k) by ring]
  refine (abs_add_le _ _).trans_lt ?_
  norm_num at ev hk ⊢; linarith

/-- C136, exact reals, the other way round: sine and cosine of the arctangent of a point are the coordinates of the point
divided by its distance from the origin. -/
theorem C136_real_polar (y x : ℝ) (h : x ≠ 0 ∨ y ≠ 0) :
    ∃ v s c, Returns (atan2Poly y x) v ∧ Returns (sin v) s ∧ Returns (cos v) c ∧
      |s - y / Real.sqrt (x ^ 2 + y ^ 2)| < 0.00493 ∧ |c - x / Real.sqrt (x ^ 2 + y ^ 2)| < 0.00493 := by
  obtain ⟨v, hv, ev⟩ := C40_decimal y x
  obtain ⟨v', hv', hl, hu, -⟩ := C42_quadrant y x
  obtain rfl := hv.unique hv'
  obtain ⟨s, hs, es⟩ := C35_sin v hl.le hu
  obtain ⟨c, hc, ec⟩ := C36_cos v
  refine ⟨v, s, c, hv, hs, hc, ?_, ?_⟩
  · rw [← sin_arg_mk]
    have := Real.abs_sin_sub_sin_le v (Complex.arg ⟨x, y⟩)
    refine (abs_sub_le _ (Real.sin v) _).trans_lt ?_
    norm_num at ev es ⊢; linarith
  · rw [← cos_arg_mk h]
    have := Real.abs_cos_sub_cos_le v (Complex.arg ⟨x, y⟩)
    refine (abs_sub_le _ (Real.cos v) _).trans_lt ?_
    norm_num at ev ec ⊢; linarith

/-- C136, signed fixed point with at least 8 fractional and 20 integer bits: from -π to π of the type, within 0.00494 and
46 units in the last place. -/
theorem C136_fixed {m : Mode} {W F : ℕ} (h : F + 20 ≤ W) (hF : 8 ≤ F) (x p : Fixed m true W F)
    (hp : (MixedPi.pi : Prog (Fixed m true W F)) = pure p) (hx : |x.val| ≤ p.val) :
    ∃ s c v : Fixed m true W F, Returns (sin x) s ∧ Returns (cos x) c ∧ Returns (atan2Poly s c) v ∧
      ∃ k : ℤ, |(v.val : ℝ) / 2 ^ F - x.val / 2 ^ F - 2 * Real.pi * k| ≤ 0.00494 + 46 / 2 ^ F ∧
        (|(x.val : ℝ) / 2 ^ F| ≤ 2.84 → k = 0) := by
  obtain ⟨s, hs, es⟩ := C39_sin h x p hp (by omega)
  obtain ⟨c, hc, ec⟩ := C39_cos h x p hp hx
  have h2 : (0:ℝ) < 2 ^ F := by positivity
  have hu : (1:ℝ) / 2 ^ F ≤ 1 / 2 ^ 8 :=
    one_div_le_one_div_of_le (by positivity) (pow_le_pow_right₀ (by norm_num) hF)
  have hu0 : (0:ℝ) < 1 / 2 ^ F := by positivity
  have es : |(s.val : ℝ) / 2 ^ F - Real.sin (x.val / 2 ^ F)| ≤ 4 / 1000000 + 9 * (1 / 2 ^ F) :=
    es.trans (by rw [show (7:ℝ) / 2 ^ F = 7 * (1 / 2 ^ F) by ring]; linarith)
  rw [show (9:ℝ) / 2 ^ F = 9 * (1 / 2 ^ F) by ring] at ec
  obtain ⟨δ, hδ⟩ : ∃ δ : ℝ, δ = 4 / 1000000 + 9 * (1 / 2 ^ F) := ⟨_, rfl⟩
  have hδ1 : δ ≤ 0.0352 := by rw [hδ]; norm_num at hu ⊢; linarith
  rw [← hδ] at es ec
  obtain ⟨k, hk, hk0, -⟩ := arg_near (by norm_num at hδ1 ⊢; linarith) es ec
  -- the point is near the circle
  have q := Real.sin_sq_add_cos_sq ((x.val : ℝ) / 2 ^ F)
  have ls : |(s.val : ℝ) / 2 ^ F| ≤ 1.04 := by
    have := abs_sub_abs_le_abs_sub ((s.val : ℝ) / 2 ^ F) (Real.sin (x.val / 2 ^ F))
    have := Real.abs_sin_le_one ((x.val : ℝ) / 2 ^ F)
    norm_num at hδ1 ⊢; linarith
  have lc : |(c.val : ℝ) / 2 ^ F| ≤ 1.04 := by
    have := abs_sub_abs_le_abs_sub ((c.val : ℝ) / 2 ^ F) (Real.cos (x.val / 2 ^ F))
    have := Real.abs_cos_le_one ((x.val : ℝ) / 2 ^ F)
    norm_num at hδ1 ⊢; linarith
  have big : 0.67 ≤ |(c.val : ℝ) / 2 ^ F| ∨ 0.67 ≤ |(s.val : ℝ) / 2 ^ F| := by
    by_contra hn
    push Not at hn
    have a1 := abs_sub_abs_le_abs_sub (Real.cos (x.val / 2 ^ F)) ((c.val : ℝ) / 2 ^ F)
    have a2 := abs_sub_abs_le_abs_sub (Real.sin (x.val / 2 ^ F)) ((s.val : ℝ) / 2 ^ F)
    rw [abs_sub_comm] at a1 a2
    have b1 : |Real.cos ((x.val : ℝ) / 2 ^ F)| ≤ 0.7053 := by
      have := hn.1; norm_num at hδ1 this ⊢; linarith
    have b2 : |Real.sin ((x.val : ℝ) / 2 ^ F)| ≤ 0.7053 := by
      have := hn.2; norm_num at hδ1 this ⊢; linarith
    have c1 := pow_le_pow_left₀ (abs_nonneg _) b1 2
    have c2 := pow_le_pow_left₀ (abs_nonneg _) b2 2
    rw [sq_abs] at c1 c2
    norm_num at c1 c2; linarith
  have toInt : ∀ t : ℤ, |(t : ℝ) / 2 ^ F| ≤ 1.04 → 2 * (t * t) ≤ 2 ^ 19 * 2 ^ F * 2 ^ F := by
    intro t ht
    have : ((t : ℝ) / 2 ^ F) ^ 2 ≤ 1.04 ^ 2 := by rw [← sq_abs]; exact pow_le_pow_left₀ (abs_nonneg _) ht 2
    rw [div_pow, div_le_iff₀ (by positivity)] at this
    have g : (2 * (t * t) : ℝ) ≤ 2 ^ 19 * 2 ^ F * 2 ^ F := by
      have e : (0:ℝ) ≤ (2 ^ F) ^ 2 := by positivity
      rw [show (2:ℝ) ^ 19 * 2 ^ F * 2 ^ F = 2 ^ 19 * (2 ^ F) ^ 2 by ring]
      norm_num at this ⊢; nlinarith
    exact_mod_cast g
  have toInt2 : ∀ t : ℤ, 0.67 ≤ |(t : ℝ) / 2 ^ F| → 2 ^ F ≤ t * t := by
    intro t ht
    have : 0.67 ^ 2 ≤ ((t : ℝ) / 2 ^ F) ^ 2 := by rw [← sq_abs ((t : ℝ) / 2 ^ F)]; exact pow_le_pow_left₀ (by norm_num) ht 2
    rw [div_pow, le_div_iff₀ (by positivity)] at this
    have h8 : (2:ℝ) ^ 8 ≤ 2 ^ F := pow_le_pow_right₀ (by norm_num) hF
    have g : (2:ℝ) ^ F ≤ t * t := by norm_num at this h8 ⊢; nlinarith
    exact_mod_cast g
  obtain ⟨v, hv, ev⟩ := C65_accuracy (K := 19) (by omega) (by norm_num) s c (toInt _ ls) (toInt _ lc)
    (big.imp (toInt2 _) (toInt2 _))
  refine ⟨s, c, v, hs, hc, hv, k, ?_, hk0⟩
  have hM : 0.67 ≤ max |(c.val : ℝ) / 2 ^ F| |(s.val : ℝ) / 2 ^ F| := le_max_iff.mpr big
  have hM2 : 7 / (max |(c.val : ℝ) / 2 ^ F| |(s.val : ℝ) / 2 ^ F|) ^ 2 ≤ 16 := by
    rw [div_le_iff₀ (by positivity)]
    have := pow_le_pow_left₀ (by norm_num) hM 2
    norm_num at this ⊢; linarith
  have ev : |(v.val : ℝ) / 2 ^ F - Complex.arg ⟨c.val / 2 ^ F, s.val / 2 ^ F⟩| ≤ 0.00492 + 19 * (1 / 2 ^ F) := by
    refine ev.trans ?_
    rw [show (19:ℝ) * (1 / 2 ^ F) = (3 + 16) / 2 ^ F by ring]
    gcongr
  rw [show (v.val : ℝ) / 2 ^ F - x.val / 2 ^ F - 2 * Real.pi * k = (v.val / 2 ^ F - Complex.arg ⟨c.val / 2 ^ F, s.val / 2 ^ F⟩)
    + (Complex.arg ⟨c.val / 2 ^ F, s.val / 2 ^ F⟩ - x.val / 2 ^ F - 2 * Real.pi * k) by ring]
  refine (abs_add_le _ _).trans ?_
  rw [show (46:ℝ) / 2 ^ F = 46 * (1 / 2 ^ F) by ring]
  rw [hδ] at hk
  norm_num at ev hk ⊢; linarith

/-- Coordinates near the unit circle are not small and not large. -/
theorem near_circle {s c x δ : ℝ} (hδ : δ ≤ 1 / 100) (hs : |s - Real.sin x| ≤ δ) (hc : |c - Real.cos x| ≤ δ) :
    |s| ≤ 2 ∧ |c| ≤ 2 ∧ (1 / 2 ≤ |c| ∨ 1 / 2 ≤ |s|) := by
  have q := Real.sin_sq_add_cos_sq x
  have s1 := Real.abs_sin_le_one x
  have c1 := Real.abs_cos_le_one x
  have a1 := abs_sub_abs_le_abs_sub s (Real.sin x)
  have a2 := abs_sub_abs_le_abs_sub c (Real.cos x)
  refine ⟨by linarith, by linarith, ?_⟩
  by_contra hn
  push Not at hn
  have a1 := abs_sub_abs_le_abs_sub (Real.cos x) c
  have a2 := abs_sub_abs_le_abs_sub (Real.sin x) s
  rw [abs_sub_comm] at a1 a2
  have b1 := pow_le_pow_left₀ (abs_nonneg _) (show |Real.cos x| ≤ 51 / 100 by linarith) 2
  have b2 := pow_le_pow_left₀ (abs_nonneg _) (show |Real.sin x| ≤ 51 / 100 by linarith) 2
  rw [sq_abs] at b1 b2
  norm_num at b1 b2; linarith

theorem rat_abs_le {q r : ℚ} (h : |(q : ℝ)| ≤ (r : ℝ)) : |q| ≤ r := by
  rw [← Rat.cast_le (K := ℝ), Rat.cast_abs]; exact h

theorem le_rat_abs {q r : ℚ} (h : (r : ℝ) ≤ |(q : ℝ)|) : r ≤ |q| := by
  rw [← Rat.cast_le (K := ℝ), Rat.cast_abs]; exact h

/-- C136, single precision: up to 3.15. -/
theorem C136_f32 (x : Flt F32) (hx : x.Valid) (b : Bool) (m : ℚ) (e : x = .fin b m) (hm : |(x.val : ℝ)| ≤ 3.15) :
    ∃ s c v : Flt F32, Returns (sin x) s ∧ Returns (cos x) c ∧ Returns (atan2Poly s c) v ∧
      ∃ k : ℤ, |(v.val : ℝ) - x.val - 2 * Real.pi * k| ≤ 0.00494 ∧ (|(x.val : ℝ)| ≤ 3.14 → k = 0) := by
  obtain ⟨s, hs, vs, ⟨b1, m1, e1⟩, es⟩ := C76_accuracy Flt.wide_F32 (by decide) x hx b m e (by norm_num at hm ⊢; linarith)
  obtain ⟨c, hc, vc, ⟨b2, m2, e2⟩, ec⟩ := C77_accuracy Flt.wide_F32 (by decide) x hx b m e (by norm_num at hm ⊢; linarith)
  obtain ⟨s', hs', -, es⟩ := C76_f32 x hx b m e (by norm_num at hm ⊢; linarith)
  obtain ⟨c', hc', -, ec⟩ := C77_f32 x hx b m e hm
  obtain rfl := hs.unique hs'
  obtain rfl := hc.unique hc'
  have es : |(s.val : ℝ) - Real.sin x.val| ≤ 5.9 / 10 ^ 6 := es.trans (by norm_num)
  obtain ⟨l1, l2, l3⟩ := near_circle (by norm_num) es ec
  obtain ⟨v, hv, -, -, ev⟩ := C79_f32 s c vs vc b1 b2 m1 m2 e1 e2
    (l3.imp (fun h => le_trans (by norm_num) (le_rat_abs (r := 1 / 2) (by push_cast; exact h)))
      (fun h => le_trans (by norm_num) (le_rat_abs (r := 1 / 2) (by push_cast; exact h))))
    ((rat_abs_le (r := 2) (by push_cast; exact l2)).trans (by norm_num))
    ((rat_abs_le (r := 2) (by push_cast; exact l1)).trans (by norm_num))
  obtain ⟨k, hk, -, -, hk0⟩ := arg_near (by norm_num) es ec
  refine ⟨s, c, v, hs, hc, hv, k, ?_, fun h => hk0 h (by norm_num)⟩
  rw [show (v.val : ℝ) - x.val - 2 * Real.pi * k =
    (v.val - Complex.arg ⟨c.val, s.val⟩) + (Complex.arg ⟨c.val, s.val⟩ - x.val - 2 * Real.pi * k) by ring]
  refine (abs_add_le _ _).trans ?_
  norm_num at ev hk ⊢; linarith

/-- C136, double precision: up to 4.712. -/
theorem C136_f64 (x : Flt F64) (hx : x.Valid) (b : Bool) (m : ℚ) (e : x = .fin b m) (hm : |(x.val : ℝ)| ≤ 4.712) :
    ∃ s c v : Flt F64, Returns (sin x) s ∧ Returns (cos x) c ∧ Returns (atan2Poly s c) v ∧
      ∃ k : ℤ, |(v.val : ℝ) - x.val - 2 * Real.pi * k| ≤ 0.00494 ∧ (|(x.val : ℝ)| ≤ 3.14 → k = 0) := by
  obtain ⟨s, hs, vs, ⟨b1, m1, e1⟩, es⟩ := C76_accuracy Flt.wide_F64 (by decide) x hx b m e hm
  obtain ⟨c, hc, vc, ⟨b2, m2, e2⟩, ec⟩ := C77_accuracy Flt.wide_F64 (by decide) x hx b m e (by norm_num at hm ⊢; linarith)
  obtain ⟨s', hs', -, es⟩ := C76_f64 x hx b m e hm
  obtain ⟨c', hc', -, ec⟩ := C77_f64 x hx b m e (by norm_num at hm ⊢; linarith)
  obtain rfl := hs.unique hs'
  obtain rfl := hc.unique hc'
  have ec : |(c.val : ℝ) - Real.cos x.val| ≤ 5.9 / 10 ^ 6 := ec.trans (by norm_num)
  have es : |(s.val : ℝ) - Real.sin x.val| ≤ 5.9 / 10 ^ 6 := es.trans (by norm_num)
  obtain ⟨l1, l2, l3⟩ := near_circle (by norm_num) es ec
  have t1 : (1:ℚ) / 10 ^ 153 ≤ 1 / 2 :=
    one_div_le_one_div_of_le (by norm_num) (le_trans (by norm_num) (pow_le_pow_right₀ (by norm_num) (by norm_num : 1 ≤ 153)))
  have t2 : (2:ℚ) ≤ 10 ^ 153 := le_trans (by norm_num) (pow_le_pow_right₀ (by norm_num) (by norm_num : 1 ≤ 153))
  obtain ⟨v, hv, -, -, ev⟩ := C79_f64 s c vs vc b1 b2 m1 m2 e1 e2
    (l3.imp (fun h => t1.trans (le_rat_abs (r := 1 / 2) (by push_cast; exact h)))
      (fun h => t1.trans (le_rat_abs (r := 1 / 2) (by push_cast; exact h))))
    ((rat_abs_le (r := 2) (by push_cast; exact l2)).trans t2)
    ((rat_abs_le (r := 2) (by push_cast; exact l1)).trans t2)
  obtain ⟨k, hk, -, -, hk0⟩ := arg_near (by norm_num) es ec
  refine ⟨s, c, v, hs, hc, hv, k, ?_, fun h => hk0 h (by norm_num)⟩
  rw [show (v.val : ℝ) - x.val - 2 * Real.pi * k =
    (v.val - Complex.arg ⟨c.val, s.val⟩) + (Complex.arg ⟨c.val, s.val⟩ - x.val - 2 * Real.pi * k) by ring]
  refine (abs_add_le _ _).trans ?_
  norm_num at ev hk ⊢; linarith

example := C136_f64 (.fin true 4) (by is_float 4 0) _ _ rfl (by norm_num [Flt.val])

/-- C136, single precision, the other way round. -/
theorem C136_f32_polar (y x : Flt F32) (hy : y.Valid) (hx : x.Valid) (b t : Bool) (m n : ℚ) (ey : y = .fin b m)
    (ex : x = .fin t n) (hlo : 1 / 10 ^ 18 ≤ |x.val| ∨ 1 / 10 ^ 18 ≤ |y.val|) (h1 : |x.val| ≤ 9 * 10 ^ 18)
    (h2 : |y.val| ≤ 9 * 10 ^ 18) :
    ∃ v s c : Flt F32, Returns (atan2Poly y x) v ∧ Returns (sin v) s ∧ Returns (cos v) c ∧
      |(s.val : ℝ) - y.val / Real.sqrt ((x.val : ℝ) ^ 2 + (y.val : ℝ) ^ 2)| ≤ 0.00493 ∧
      |(c.val : ℝ) - x.val / Real.sqrt ((x.val : ℝ) ^ 2 + (y.val : ℝ) ^ 2)| ≤ 0.00493 := by
  obtain ⟨v, hv, vv, ⟨bv, qv, fv⟩, ev⟩ := C79_f32 y x hy hx b t m n ey ex hlo h1 h2
  have hb : |(v.val : ℝ)| ≤ 3.15 := by
    have := Complex.abs_arg_le_pi ⟨x.val, y.val⟩
    have := abs_sub_abs_le_abs_sub (v.val : ℝ) (Complex.arg ⟨x.val, y.val⟩)
    have hp := Real.pi_lt_d4
    norm_num at ev hp ⊢; linarith
  obtain ⟨s, hs, -, es⟩ := C76_f32 v vv bv qv fv (by norm_num at hb ⊢; linarith)
  obtain ⟨c, hc, -, ec⟩ := C77_f32 v vv bv qv fv hb
  have h : (x.val : ℝ) ≠ 0 ∨ (y.val : ℝ) ≠ 0 := by
    refine hlo.imp (fun h e => ?_) (fun h e => ?_) <;>
    · rw [Rat.cast_eq_zero] at e; rw [e] at h; norm_num at h
  refine ⟨v, s, c, hv, hs, hc, ?_, ?_⟩
  · rw [← sin_arg_mk]
    have := Real.abs_sin_sub_sin_le v.val (Complex.arg ⟨x.val, y.val⟩)
    refine (abs_sub_le _ (Real.sin v.val) _).trans ?_
    norm_num at ev es ⊢; linarith
  · rw [← cos_arg_mk h]
    have := Real.abs_cos_sub_cos_le v.val (Complex.arg ⟨x.val, y.val⟩)
    refine (abs_sub_le _ (Real.cos v.val) _).trans ?_
    norm_num at ev ec ⊢; linarith

example := C136_f32_polar (.fin true 4) (.fin false 0) (by is_float 4 0) (by is_float 0 0) _ _ _ _ rfl rfl (.inr (by norm_num [Flt.val])) (by norm_num [Flt.val])
  (by norm_num [Flt.val])

/-- C136, double precision, the other way round. -/
theorem C136_f64_polar (y x : Flt F64) (hy : y.Valid) (hx : x.Valid) (b t : Bool) (m n : ℚ) (ey : y = .fin b m)
    (ex : x = .fin t n) (hlo : 1 / 10 ^ 153 ≤ |x.val| ∨ 1 / 10 ^ 153 ≤ |y.val|) (h1 : |x.val| ≤ 10 ^ 153)
    (h2 : |y.val| ≤ 10 ^ 153) :
    ∃ v s c : Flt F64, Returns (atan2Poly y x) v ∧ Returns (sin v) s ∧ Returns (cos v) c ∧
      |(s.val : ℝ) - y.val / Real.sqrt ((x.val : ℝ) ^ 2 + (y.val : ℝ) ^ 2)| ≤ 0.00493 ∧
      |(c.val : ℝ) - x.val / Real.sqrt ((x.val : ℝ) ^ 2 + (y.val : ℝ) ^ 2)| ≤ 0.00493 := by
  obtain ⟨v, hv, vv, ⟨bv, qv, fv⟩, ev⟩ := C79_f64 y x hy hx b t m n ey ex hlo h1 h2
  have hb : |(v.val : ℝ)| ≤ 3.15 := by
    have := Complex.abs_arg_le_pi ⟨x.val, y.val⟩
    have := abs_sub_abs_le_abs_sub (v.val : ℝ) (Complex.arg ⟨x.val, y.val⟩)
    have hp := Real.pi_lt_d4
    norm_num at ev hp ⊢; linarith
  obtain ⟨s, hs, -, es⟩ := C76_f64 v vv bv qv fv (by norm_num at hb ⊢; linarith)
  obtain ⟨c, hc, -, ec⟩ := C77_f64 v vv bv qv fv (by norm_num at hb ⊢; linarith)
  have hpos : (0:ℚ) < 1 / 10 ^ 153 := by positivity
  have h : (x.val : ℝ) ≠ 0 ∨ (y.val : ℝ) ≠ 0 := by
    refine hlo.imp (fun h e => ?_) (fun h e => ?_) <;>
    · rw [Rat.cast_eq_zero] at e; rw [e, abs_zero] at h; exact absurd h (not_le.mpr hpos)
  refine ⟨v, s, c, hv, hs, hc, ?_, ?_⟩
  · rw [← sin_arg_mk]
    have := Real.abs_sin_sub_sin_le v.val (Complex.arg ⟨x.val, y.val⟩)
    refine (abs_sub_le _ (Real.sin v.val) _).trans ?_
    norm_num at ev es ⊢; linarith
  · rw [← cos_arg_mk h]
    have := Real.abs_cos_sub_cos_le v.val (Complex.arg ⟨x.val, y.val⟩)
    refine (abs_sub_le _ (Real.cos v.val) _).trans ?_
    norm_num at ev ec ⊢; linarith

example := C136_f64_polar (.fin true 4) (.fin false 0) (by is_float 4 0) (by is_float 0 0) _ _ _ _ rfl rfl (.inr (by norm_num [Flt.val])) (by norm_num [Flt.val])
  (by norm_num [Flt.val])

theorem Fixed.quo_le {F : ℕ} {b s : ℤ} (hs : |s| ≤ |b|) (hb : 4 * 2 ^ F ≤ b * b) : 4 * |Fixed.quoRaw F b s| ≤ 5 * 2 ^ F := by
  have hP : (0:ℤ) < 2 ^ F := by positivity
  have hD : 4 ≤ b * b / 2 ^ F := by rw [Int.le_ediv_iff_mul_le hP]; exact hb
  obtain ⟨n1, n2⟩ := Fixed.num_bounds F hs
  obtain ⟨d1, -⟩ := Fixed.den_bounds F hs
  unfold Fixed.quoRaw
  set N := Fixed.numRaw F b s
  set d := Fixed.denRaw F b s
  have hN : 4 * |N| ≤ 5 * d := by
    rcases abs_cases N with ⟨e, -⟩ | ⟨e, -⟩ <;> rw [e] <;> omega
  have e : |(N * 2 ^ F).tdiv d| = |N| * 2 ^ F / d := by
    have hd : 0 < d := by omega
    rcases abs_cases N with ⟨e, h0⟩ | ⟨e, h0⟩
    · rw [e, Int.tdiv_eq_ediv_of_nonneg (by positivity), abs_of_nonneg (Int.ediv_nonneg (by positivity) hd.le)]
    · have h1 : 0 ≤ -N * 2 ^ F := mul_nonneg (by omega) hP.le
      rw [e, ← abs_neg, ← Int.neg_tdiv, ← neg_mul, Int.tdiv_eq_ediv_of_nonneg h1,
        abs_of_nonneg (Int.ediv_nonneg h1 hd.le)]
  rw [e]
  have := Int.ediv_mul_le (|N| * 2 ^ F) (show d ≠ 0 by omega)
  nlinarith

/-- Away from the origin the stored angle is at most the type's pi. -/
theorem Fixed.Angle.le_pi {F : ℕ} (hF : 1 ≤ F) {y x v : ℤ} (h : Fixed.Angle F y x v)
    (hD : 4 * 2 ^ F ≤ x * x ∨ 4 * 2 ^ F ≤ y * y) : |v| ≤ Fixed.piRaw F := by
  have hP : (2:ℤ) ≤ 2 ^ F := by
    calc (2:ℤ) = 2 ^ 1 := by norm_num
      _ ≤ _ := pow_le_pow_right₀ (by norm_num) hF
  obtain ⟨p1, p2⟩ := Fixed.piRaw_bounds F
  obtain ⟨h1, -, h3, h4⟩ := Fixed.halfRaw_bounds F
  have big : ∀ {a b : ℤ}, |a| ≤ |b| → (4 * 2 ^ F ≤ a * a ∨ 4 * 2 ^ F ≤ b * b) → 4 * 2 ^ F ≤ b * b := fun h =>
    Or.rec (fun h' => h'.trans (Fixed.sq_le_of_abs h)) id
  cases h with
  | axisPos => rw [abs_zero]; omega
  | axisNeg => rw [abs_of_pos (by omega)]
  | up => rw [abs_of_pos (by omega)]; omega
  | down => rw [abs_neg, abs_of_pos (by omega)]; omega
  | right _ _ hc =>
    have := Fixed.quo_le hc.le (big hc.le hD.symm)
    omega
  | upper _ _ hc =>
    have := Fixed.quo_le hc (big hc hD)
    rw [abs_le]; have := abs_le.mp (show |Fixed.quoRaw F y x| ≤ 5 * 2 ^ F / 4 by omega); omega
  | lower _ _ hc =>
    have := Fixed.quo_le hc (big hc hD)
    rw [abs_le]; have := abs_le.mp (show |Fixed.quoRaw F y x| ≤ 5 * 2 ^ F / 4 by omega); omega
  | left hy hx hc =>
    have hb := big hc.le hD.symm
    have := Fixed.quo_le hc.le hb
    have q := (Fixed.quo_bounds (F := F) hc.le (by omega)).2.2 (mul_nonpos_of_nonpos_of_nonneg hx.le hy.le)
    rw [abs_le]; have := abs_le.mp (show |Fixed.quoRaw F x y| ≤ 5 * 2 ^ F / 4 by omega); omega
  | left' hy hx hc =>
    have hb := big hc.le hD.symm
    have := Fixed.quo_le hc.le hb
    have q := (Fixed.quo_bounds (F := F) hc.le (by omega)).2.1 (mul_nonneg_of_nonpos_of_nonpos hx.le hy.le)
    rw [abs_le]; have := abs_le.mp (show |Fixed.quoRaw F x y| ≤ 5 * 2 ^ F / 4 by omega); omega

/-- C136, fixed point, the other way round: every point whose larger coordinate has a square of at least four units in
the last place. -/
theorem C136_fixed_polar {m : Mode} {W F : ℕ} (h : F + 20 ≤ W) (hF : 1 ≤ F) (y x : Fixed m true W F)
    (hRy : 2 * (y.val * y.val) ≤ 2 ^ (W - F - 1) * 2 ^ F * 2 ^ F) (hRx : 2 * (x.val * x.val) ≤ 2 ^ (W - F - 1) * 2 ^ F * 2 ^ F)
    (hD : 4 * 2 ^ F ≤ x.val * x.val ∨ 4 * 2 ^ F ≤ y.val * y.val) (M : ℝ)
    (hM : M = max |(x.val : ℝ) / 2 ^ F| |(y.val : ℝ) / 2 ^ F|) :
    ∃ v s c : Fixed m true W F, Returns (atan2Poly y x) v ∧ Returns (sin v) s ∧ Returns (cos v) c ∧
      |(s.val : ℝ) / 2 ^ F - y.val / Real.sqrt ((x.val : ℝ) ^ 2 + (y.val : ℝ) ^ 2)| ≤ 0.00493 + (10 + 7 / M ^ 2) / 2 ^ F ∧
      |(c.val : ℝ) / 2 ^ F - x.val / Real.sqrt ((x.val : ℝ) ^ 2 + (y.val : ℝ) ^ 2)| ≤ 0.00493 + (12 + 7 / M ^ 2) / 2 ^ F := by
  have hP : (0:ℝ) < 2 ^ F := by positivity
  have hPi : (0:ℤ) < 2 ^ F := by positivity
  have hD1 : 2 ^ F ≤ x.val * x.val ∨ 2 ^ F ≤ y.val * y.val := hD.imp (by omega) (by omega)
  obtain ⟨v, hv, hA⟩ := Fixed.atan2_fixed (K := W - F - 1) (by omega) (by omega) y x hRy hRx (by tauto)
  have hle := hA.le_pi hF hD
  have ev := hA.accuracy hD1
  rw [← hM] at ev
  have hp := Fixed.pi_def (m := m) (F := F) (W := W) (by omega)
  obtain ⟨s, hs, es⟩ := C39_sin h v _ hp (by exact hle.trans (by simp))
  obtain ⟨c, hc, ec⟩ := C39_cos h v _ hp hle
  have h0 : (x.val : ℝ) ≠ 0 ∨ (y.val : ℝ) ≠ 0 := by
    refine hD.imp (fun h e => ?_) (fun h e => ?_) <;>
    · rw [Int.cast_eq_zero] at e; rw [e] at h; omega
  have hn : Complex.arg ⟨(x.val : ℝ) / 2 ^ F, (y.val : ℝ) / 2 ^ F⟩ = Complex.arg ⟨x.val, y.val⟩ := by
    rw [show (⟨(x.val : ℝ) / 2 ^ F, (y.val : ℝ) / 2 ^ F⟩ : ℂ) = ((1 / 2 ^ F : ℝ) : ℂ) * ⟨x.val, y.val⟩ by
      apply Complex.ext <;> simp only [Complex.re_ofReal_mul, Complex.im_ofReal_mul] <;> ring]
    exact Complex.arg_real_mul _ (by positivity)
  rw [hn] at ev
  refine ⟨v, s, c, .of_eq hv, hs, hc, ?_, ?_⟩
  · rw [← sin_arg_mk]
    have := Real.abs_sin_sub_sin_le (v.val / 2 ^ F) (Complex.arg ⟨x.val, y.val⟩)
    refine (abs_sub_le _ (Real.sin (v.val / 2 ^ F)) _).trans ?_
    rw [show (10 + 7 / M ^ 2) / 2 ^ F = (3 + 7 / M ^ 2) / 2 ^ F + 7 / 2 ^ F by ring]
    norm_num at ev es ⊢; linarith
  · rw [← cos_arg_mk h0]
    have := Real.abs_cos_sub_cos_le (v.val / 2 ^ F) (Complex.arg ⟨x.val, y.val⟩)
    refine (abs_sub_le _ (Real.cos (v.val / 2 ^ F)) _).trans ?_
    rw [show (12 + 7 / M ^ 2) / 2 ^ F = (3 + 7 / M ^ 2) / 2 ^ F + 9 / 2 ^ F by ring]
    norm_num at ev ec ⊢; linarith

example : ∃ s c v, Returns (sin (3:ℝ)) s ∧ Returns (cos (3:ℝ)) c ∧ Returns (atan2Poly s c) v ∧
    ∃ k : ℤ, |v - 3 - 2 * Real.pi * k| < 0.00494 ∧ |k| ≤ 1 ∧ (|(3:ℝ)| ≤ 3.14 → k = 0) :=
  C136_real 3 (by have := Real.pi_gt_three; linarith) (by have := Real.pi_gt_three; linarith)
example : ∃ v s c, Returns (atan2Poly (-3 : ℝ) 4) v ∧ Returns (sin v) s ∧ Returns (cos v) c ∧
    |s - -3 / Real.sqrt (4 ^ 2 + (-3) ^ 2)| < 0.00493 ∧ |c - 4 / Real.sqrt (4 ^ 2 + (-3) ^ 2)| < 0.00493 :=
  C136_real_polar (-3) 4 (Or.inl (by norm_num))
example : ∃ s c v : Fixed .checked true 64 32, Returns (sin (fx .checked true 64 32 (2 ^ 33))) s ∧
    Returns (cos (fx .checked true 64 32 (2 ^ 33))) c ∧ Returns (atan2Poly s c) v ∧
    ∃ k : ℤ, |(v.val : ℝ) / 2 ^ 32 - (fx .checked true 64 32 (2 ^ 33)).val / 2 ^ 32 - 2 * Real.pi * k| ≤ 0.00494 + 46 / 2 ^ 32 ∧
      (|((fx .checked true 64 32 (2 ^ 33)).val : ℝ) / 2 ^ 32| ≤ 2.84 → k = 0) :=
  C136_fixed (by norm_num) (by norm_num) _ _ (Fixed.pi_def (by norm_num)) (by decide +kernel)
example : ∃ s c v : Flt F32, Returns (sin (.fin true (5/2) : Flt F32)) s ∧ Returns (cos (.fin true (5/2) : Flt F32)) c ∧
    Returns (atan2Poly s c) v ∧ ∃ k : ℤ, |(v.val : ℝ) - (.fin true (5/2) : Flt F32).val - 2 * Real.pi * k| ≤ 0.00494 ∧
      (|((.fin true (5/2) : Flt F32).val : ℝ)| ≤ 3.14 → k = 0) :=
  C136_f32 _ ⟨5, -1, by decide, by decide, by norm_num [pow2_eq], by norm_num⟩ _ _ rfl (by norm_num [Flt.val])

example : ∃ v s c : Fixed .checked true 64 32, Returns (atan2Poly (fx .checked true 64 32 (-3 * 2 ^ 32)) (fx .checked true 64 32 (2 ^ 34))) v ∧
    Returns (sin v) s ∧ Returns (cos v) c :=
  let ⟨v, s, c, a, b, d, _⟩ := C136_fixed_polar (by norm_num) (by norm_num) _ _ (by decide +kernel) (by decide +kernel)
    (Or.inl (by decide +kernel)) _ rfl
  ⟨v, s, c, a, b, d⟩

end MixedNum
