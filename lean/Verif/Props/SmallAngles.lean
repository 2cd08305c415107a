import Verif.Lemmas.SinRel
import Verif.Lemmas.AtanRel
import Verif.Props.SymFixed
import Verif.Props.Undo
import Verif.Props.AddSub
import Verif.Lemmas.Run
import Verif.Lemmas.Case
/-! # C145: small angles keep relative accuracy -/

namespace MixedNum
variable {f : Format} {m : Mode} {W F : ℕ}

/-! ## The sine -/

theorem abs_le_sin {x : ℝ} (h : |x| ≤ Real.pi / 2) : |x| ≤ Real.pi / 2 * |Real.sin x| := by
  have key : ∀ x : ℝ, 0 ≤ x → x ≤ Real.pi / 2 → x ≤ Real.pi / 2 * |Real.sin x| := by
    intro x h0 h1
    have h2 := Real.mul_le_sin h0 h1
    have h3 := Real.pi_pos
    have h4 := mul_le_mul_of_nonneg_left (h2.trans (le_abs_self _)) (by positivity : 0 ≤ Real.pi / 2)
    have e : Real.pi / 2 * (2 / Real.pi * x) = x := by field_simp
    linarith
  rcases le_total 0 x with h0 | h0
  · rw [abs_of_nonneg h0] at h ⊢; exact key x h0 h
  · have := key (-x) (by linarith) ((neg_le_abs x).trans h)
    rwa [Real.sin_neg, abs_neg, ← abs_of_nonpos h0] at this

theorem taylor_rel {x : ℝ} (h : |x| ≤ Real.pi / 2) : |x| ^ 11 / 39916800 ≤ 4 / 1000000 * |Real.sin x| := by
  have h1 := abs_le_sin h
  have h0 := abs_nonneg x
  have hp := Real.pi_pos
  have h2 : |x| ^ 10 ≤ (Real.pi / 2) ^ 10 := pow_le_pow_left₀ h0 h 10
  have h3 : |x| ^ 11 ≤ (Real.pi / 2) ^ 10 * (Real.pi / 2 * |Real.sin x|) := by
    rw [show |x| ^ 11 = |x| ^ 10 * |x| by ring]; exact mul_le_mul h2 h1 h0 (by positivity)
  have h4 := mul_le_mul_of_nonneg_right half_pi_pow.le (abs_nonneg (Real.sin x))
  have e : (Real.pi / 2) ^ 10 * (Real.pi / 2 * |Real.sin x|) = (Real.pi / 2) ^ 11 / 39916800 * |Real.sin x| * 39916800 := by
    ring
  rw [div_le_iff₀ (by norm_num)]
  linarith

/-- C145: the polynomial sine on the reals, up to a quarter turn: a relative error of at most 4/10⁶. -/
theorem C145_sin_real (x : ℝ) (h : |x| ≤ Real.pi / 2) :
    ∃ y, Returns (sin x) y ∧ |y - Real.sin x| ≤ 4 / 1000000 * |Real.sin x| := by
  refine ⟨_, .of_eq (sin_real x), ?_⟩
  have e : fold x = x := by
    have := abs_le.mp h
    unfold fold; rw [if_neg (by linarith), if_neg (by linarith)]
  rw [e]
  exact (abs_sinT_five_sub x).trans (taylor_rel h)

example := C145_sin_real 1 (by rw [abs_one]; linarith [Real.pi_gt_three])

open Flt

/-- C145: the sine of a float of magnitude at most 1.57, subnormal numbers included. -/
theorem C145_sin_float (hf : f.Wide) (h60 : f.p ≤ 60) (x : Flt f) (hx : x.Valid) (hfin : x.IsFinite)
    (h : |(x.val : ℝ)| ≤ 1.57) :
    ∃ z : Flt f, Returns (sin x) z ∧ z.Valid ∧ z.IsFinite ∧
      |(z.val : ℝ) - Real.sin x.val| ≤ |(x.val : ℝ)| ^ 11 / 39916800 + 66 / 10 / 2 ^ f.p * |(x.val : ℝ)| ∧
      |(z.val : ℝ) - Real.sin x.val| ≤ (4 / 1000000 + 104 / 10 / 2 ^ f.p) * |Real.sin x.val| := by
  obtain ⟨z, q, hz, hi, hb⟩ := sin_rel hf h60 (Flt.is_of_finite hfin hx) h
  have e1 : 66 / 10 * eta f = 66 / 10 / 2 ^ f.p := by unfold eta; rw [zpow_neg, zpow_natCast]; rfl
  rw [e1] at hb
  obtain ⟨b, r, e⟩ := hi.fin
  refine ⟨z, .of_eq hz, hi.valid, ⟨_, _, e⟩, by rw [hi.val]; exact hb, ?_⟩
  rw [hi.val]
  have hpi := Real.pi_gt_d2
  have h' : |(x.val : ℝ)| ≤ Real.pi / 2 := by norm_num at h; linarith
  have h1 := taylor_rel h'
  have h2 := abs_le_sin h'
  have h3 := Real.pi_lt_d4
  have h4 : Real.pi / 2 * |Real.sin x.val| ≤ 15708 / 10000 * |Real.sin x.val| :=
    mul_le_mul_of_nonneg_right (by norm_num at h3; linarith) (abs_nonneg _)
  have h5 : 66 / 10 / 2 ^ f.p * |(x.val : ℝ)| ≤ 66 / 10 / 2 ^ f.p * (15708 / 10000 * |Real.sin x.val|) :=
    mul_le_mul_of_nonneg_left (h2.trans h4) (by positivity)
  have h6 : 66 / 10 / 2 ^ f.p * (15708 / 10000 * |Real.sin x.val|) ≤ 104 / 10 / 2 ^ f.p * |Real.sin x.val| := by
    have h0 : 0 ≤ 1 / 2 ^ f.p * |Real.sin x.val| := by positivity
    have ea : 66 / 10 / 2 ^ f.p * (15708 / 10000 * |Real.sin x.val|) =
      66 / 10 * (15708 / 10000) * (1 / 2 ^ f.p * |Real.sin x.val|) := by ring
    have eb : 104 / 10 / 2 ^ f.p * |Real.sin x.val| = 104 / 10 * (1 / 2 ^ f.p * |Real.sin x.val|) := by ring
    rw [ea, eb]; exact mul_le_mul_of_nonneg_right (by norm_num) h0
  rw [add_mul]
  linarith

example := C145_sin_float wide_F32 (by decide) (.fin true (3 / 2)) (by is_float 3 (-1)) ⟨_, _, rfl⟩ (by norm_num [Flt.val])

/-- C145: the sine of a fixed-point number whose square is below one unit of the last place is the number itself. -/
theorem C145_sin_fixed (h : F + 20 ≤ W) (x : Fixed m true W F) (hx : x.val * x.val < 2 ^ F) : Returns (sin x) x := by
  have hp : (0:ℤ) < 2 ^ F := by positivity
  have hle : |x.val| ≤ Fixed.halfRaw F := by
    have hb := Fixed.halfRaw_bounds F; have hb' := Fixed.piRaw_bounds F
    by_contra hc
    push Not at hc
    have h1 : 2 ^ F ≤ |x.val| := by omega
    have h2 : |x.val| * |x.val| = x.val * x.val := abs_mul_abs_self _
    have h3 : (1:ℤ) ≤ 2 ^ F := by omega
    nlinarith
  have hb := Fixed.halfRaw_bounds F
  have hb' := Fixed.piRaw_bounds F
  obtain ⟨y, hy, hc⟩ := Fixed.sinFold_eq (by omega) x (by omega)
  have hle' := abs_le.mp hle
  have hyx : y.val = x.val := by
    rcases hc with hc | hc | hc
    · exact hc.1
    · omega
    · omega
  obtain ⟨z, hz, hv⟩ := Fixed.sin_exact h x y hy (by rw [hyx]; omega)
  have zero : ∀ j, roundedPow F x.val (j + 1) = 0 := by
    intro j
    induction j with
    | zero =>
      rw [roundedPow_succ]
      exact Int.ediv_eq_zero_of_lt (mul_self_nonneg _) hx
    | succ j ih => rw [roundedPow_succ, ih, zero_mul, Int.zero_ediv]
  have e : z = x := by
    apply Fixed.ext
    rw [hv, hyx, Fixed.sinRaw, zero 1, zero 3, zero 5, zero 7]; simp
  rw [← e]; exact .of_eq (e ▸ hz)

example : Returns (sin (fx .checked true 32 12 (-60))) (fx .checked true 32 12 (-60)) :=
  C145_sin_fixed (by norm_num) _ (by decide)

/-- Without the condition on the square the sine differs from its argument. -/
example : Returns (sin (fx .checked true 32 4 16)) (fx .checked true 32 4 14) := by run 0

example : (Flt.fin true (1 / 2 ^ 149) : Flt F32).Valid ∧ |((Flt.fin true (1 / 2 ^ 149) : Flt F32).val : ℝ)| ≤ 1.57 :=
  ⟨⟨1, -149, by decide, by decide, by norm_num [pow2_eq], by norm_num⟩, by norm_num [Flt.val]⟩

/-! ## The arctangent -/

theorem arg_right {x y : ℝ} (hx : 0 < x) : Complex.arg ⟨x, y⟩ = Real.arctan (y / x) := by
  have h := Complex.tan_arg ⟨x, y⟩
  have h1 : |Complex.arg ⟨x, y⟩| < Real.pi / 2 := Complex.abs_arg_lt_pi_div_two_iff.mpr (.inl hx)
  have h2 := abs_lt.mp h1
  rw [← Real.arctan_tan h2.1 h2.2, h]

/-- C145: the polynomial arctangent on the reals, in the sector of 45° about the positive axis. -/
theorem C145_atan_real (y x : ℝ) (hx : 0 < x) (h : |y| < x) :
    ∃ z, Returns (atan2Poly y x) z ∧ |z - Complex.arg ⟨x, y⟩| ≤ 82 / 10000 * |Complex.arg ⟨x, y⟩| := by
  rw [arg_right hx]
  have ht : |y / x| ≤ 1 := by rw [abs_div, abs_of_pos hx, div_le_one hx]; exact h.le
  obtain ⟨v, hv, ha⟩ := atan2_real y x
  refine ⟨v, .of_eq hv, ?_⟩
  have e : v = ratan (y / x) := by
    have hx' := abs_of_pos hx
    cases ha with
    | axisPos h1 h2 => rw [h1]; simp [ratan]
    | right => rfl
    | _ => exfalso; linarith
  rw [e]; exact abs_ratanErr_rel ht

example := C145_atan_real (-2) 3 (by norm_num) (by norm_num)

/-- C145: 0.82 % is close to the best possible: on the line y = 3/5 x the arctangent is off by more than 0.81 %. -/
theorem C145_atan_sharp (x : ℝ) (hx : 0 < x) :
    ∃ z, Returns (atan2Poly (3 / 5 * x) x) z ∧ 81 / 10000 * |Complex.arg ⟨x, 3 / 5 * x⟩| < |z - Complex.arg ⟨x, 3 / 5 * x⟩| := by
  have hy : (0:ℝ) < 3 / 5 * x := by positivity
  rw [arg_right hx]
  obtain ⟨v, hv, ha⟩ := atan2_real (3 / 5 * x) x
  refine ⟨v, .of_eq hv, ?_⟩
  have ey : |3 / 5 * x| = 3 / 5 * x := abs_of_pos hy
  have ex : |x| = x := abs_of_pos hx
  have e : v = ratan (3 / 5 * x / x) := by
    cases ha with
    | axisPos h1 h2 => linarith
    | right => rfl
    | _ => exfalso; linarith
  rw [e, mul_div_assoc, div_self hx.ne', mul_one]
  have h := ratanErr_rel_sharp
  have h0 : 0 < Real.arctan (3 / 5) := Real.arctan_pos.mpr (by norm_num)
  rw [abs_of_pos h0, abs_of_pos (by linarith)]
  exact h

example := C145_atan_sharp 5 (by norm_num)

/-- C145: the polynomial arctangent on floats in the same sector, when the product of the coordinates does not underflow. -/
theorem C145_atan_float (hf : f.Wide) (y x : Flt f) (vy : y.Valid) (vx : x.Valid) (fy : y.IsFinite) (fx : x.IsFinite)
    (h : |y.val| < x.val) (hlo : (2:ℚ) ^ (f.emin + f.p) ≤ x.val ^ 2) (hhi : 4 * x.val ^ 2 ≤ 2 ^ f.emax)
    (hprod : (2:ℚ) ^ (f.emin + f.p - 1) ≤ |x.val * y.val|) :
    ∃ z : Flt f, Returns (atan2Poly y x) z ∧ z.Valid ∧ z.IsFinite ∧
      |(z.val : ℝ) - Complex.arg ⟨x.val, y.val⟩| ≤
        (82 / 10000 + 8 / 2 ^ f.p) * |Complex.arg ⟨x.val, y.val⟩| + 2 ^ f.emin / 2 := by
  have hx := Flt.is_of_finite fx vx
  have hy := Flt.is_of_finite fy vy
  set a := x.val; set b := y.val
  have ha : 0 < a := (abs_nonneg b).trans_lt h
  have har : (0:ℝ) < a := by exact_mod_cast ha
  have hab : |(b:ℝ)| < a := by exact_mod_cast h
  have hb : b ≠ 0 := by
    rintro hb; rw [hb, mul_zero, abs_zero] at hprod
    exact absurd hprod (not_le.mpr (two_zpow_pos _))
  have e1 : eta f = 1 / 2 ^ f.p := by unfold eta; rw [zpow_neg, zpow_natCast, one_div]
  have hlo' := (Rat.cast_le (K := ℝ)).mpr hlo
  have hhi' := (Rat.cast_le (K := ℝ)).mpr hhi
  push_cast at hlo' hhi'
  have hT : Scale f ((a:ℝ) * a) := ⟨by
    rw [e1, one_div, inv_mul_eq_div, le_div_iff₀ (by positivity), ← zpow_natCast (2:ℝ) f.p, ← zpow_add₀ (by norm_num), ← pow_two]
    exact hlo', by rw [← pow_two]; exact hhi'⟩
  obtain ⟨q, hq, hbd⟩ := quot_rel hf hT hx hy (by rw [abs_of_pos har]; exact hab.le) hprod
  have run : atan2Poly y x = atanPoly1 y x := by
    have hz0 : Is (ofExact false 0 : Flt f) 0 := by
      have : (ofExact false 0 : Flt f) = .fin false 0 := by unfold ofExact; rw [if_pos rfl]
      rw [this]; exact is_zero
    have hlt : |b| < |a| := by rw [abs_of_pos ha]; exact h
    have hsub : Is (y.abs.sub x.abs) (rnd f.p f.emin (|b| - |a|)) := by
      refine hy.abs.sub hf.one_le hx.abs ?_
      rw [abs_rnd, abs_of_nonpos (by linarith), neg_sub]
      refine lt_of_le_of_lt (roundTo_le_rep hf.one_le (by linarith) (by have := abs_nonneg b; linarith) hx.rep.abs) hx.lt_max
    have l1 : (y.abs.sub x.abs).lt (ofExact false 0) = true := by
      rw [hsub.lt hz0]; exact decide_eq_true ((rnd_neg_iff hf.one_le hy.rep.abs hx.rep.abs).mpr hlt)
    have l2 : (y.abs.sub x.abs).lt (.fin false 0) = true := by
      rw [hsub.lt is_zero]; exact decide_eq_true ((rnd_neg_iff hf.one_le hy.rep.abs hx.rep.abs).mpr hlt)
    rw [atan2_unfold]
    simp only []
    rw [hy.beq is_zero, hx.beq is_zero, l1, l2, hx.isPositive ha.ne', decide_eq_true ha, decide_eq_false hb,
      decide_eq_false ha.ne']
    simp
  have ht : |(b:ℝ) / a| ≤ 1 := by rw [abs_div, abs_of_pos har, div_le_one har]; exact hab.le
  have hrel := abs_ratanErr_rel ht
  obtain ⟨s, r, e⟩ := hq.fin
  set z := (x.mul y).div ((x.mul x).add ((ofExact false (9 / 32 : ℚ)).mul (y.mul y))) with hz
  have hr : atan2Poly y x = pure z := run.trans rfl
  refine ⟨z, .of_eq hr, hq.valid, ⟨_, _, e⟩, ?_⟩
  rw [hq.val, arg_right har]
  set A := Real.arctan ((b:ℝ) / a)
  set R := ratan ((b:ℝ) / a)
  have h1 : |R| ≤ 10082 / 10000 * |A| := by
    have := abs_sub_abs_le_abs_sub R A; linarith
  have h2 := abs_sub_le (q:ℝ) R A
  have h3 := mul_le_mul_of_nonneg_left h1 (eta_pos (f := f)).le
  have h4 : 0 ≤ eta f * |A| := mul_nonneg (eta_pos (f := f)).le (abs_nonneg _)
  rw [show (8:ℝ) / 2 ^ f.p = 8 * eta f by rw [e1]; ring]
  nlinarith

example : let x : Flt F32 := .fin false 4; let y : Flt F32 := .fin true (1 / 2 ^ 40)
    y.Valid ∧ x.Valid ∧ |y.val| < x.val ∧ (2:ℚ) ^ (F32.emin + F32.p) ≤ x.val ^ 2 ∧ (2:ℚ) ^ (F32.emin + F32.p - 1) ≤ |x.val * y.val| :=
  ⟨⟨1, -40, by decide, by decide, by norm_num [pow2_eq], by norm_num⟩, ⟨4, 0, by decide, by decide, by norm_num [pow2_eq], by norm_num⟩,
    by norm_num [Flt.val], by norm_num [Flt.val, F32], by norm_num [Flt.val, F32, zpow_neg]⟩

end MixedNum
