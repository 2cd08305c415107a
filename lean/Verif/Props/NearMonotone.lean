import Verif.Lemmas.Run
import Verif.Props.Monotone
import Verif.Props.SinFixed
import Verif.Props.SmallAngles
import Verif.Props.AtanFloat
import Verif.Props.Period
import Verif.Props.AddSub
import Verif.Lemmas.Case
/-! # C151: sine and arctangent on machine numbers keep the order up to a few units in the last place -/

namespace MixedNum

theorem cosT_five (x : ℝ) : cosT 5 x = 1 - x ^ 2 / 2 + x ^ 4 / 24 - x ^ 6 / 720 + x ^ 8 / 40320 := by
  simp [cosT, Finset.sum_range_succ, Nat.factorial]; ring

/-- The derivative of the polynomial, compared with its value at a larger argument. -/
theorem cosT_five_ge {x c : ℝ} (hx : |x| ≤ c) (hc : c ≤ 2) : cosT 5 c ≤ cosT 5 x := by
  have hc0 : 0 ≤ c := (abs_nonneg x).trans hx
  have hw : x ^ 2 ≤ c ^ 2 := by rw [← sq_abs x]; exact pow_le_pow_left₀ (abs_nonneg _) hx 2
  have h4 : c ^ 2 ≤ 4 := by nlinarith
  have w0 := sq_nonneg x
  rw [cosT_five, cosT_five]
  rw [show x ^ 4 = (x ^ 2) ^ 2 by ring, show x ^ 6 = (x ^ 2) ^ 3 by ring, show x ^ 8 = (x ^ 2) ^ 4 by ring,
    show c ^ 4 = (c ^ 2) ^ 2 by ring, show c ^ 6 = (c ^ 2) ^ 3 by ring, show c ^ 8 = (c ^ 2) ^ 4 by ring]
  generalize x ^ 2 = w at *
  generalize c ^ 2 = v at *
  have v0 : 0 ≤ v := w0.trans hw
  have k1 : w ^ 3 ≤ 64 := (pow_le_pow_left₀ w0 (hw.trans h4) 3).trans (by norm_num)
  have k2 : v ^ 3 ≤ 64 := (pow_le_pow_left₀ v0 h4 3).trans (by norm_num)
  have k3 : w ^ 2 * v ≤ 64 := by
    calc w ^ 2 * v ≤ v ^ 2 * v := mul_le_mul_of_nonneg_right (pow_le_pow_left₀ w0 hw 2) v0
      _ = v ^ 3 := by ring
      _ ≤ 64 := k2
  have k4 : w * v ^ 2 ≤ 64 := by
    calc w * v ^ 2 ≤ v * v ^ 2 := mul_le_mul_of_nonneg_right hw (by positivity)
      _ = v ^ 3 := by ring
      _ ≤ 64 := k2
  have q : 0 ≤ 1 / 2 - (w + v) / 24 + (w ^ 2 + w * v + v ^ 2) / 720 - (w ^ 3 + w ^ 2 * v + w * v ^ 2 + v ^ 3) / 40320 := by
    have : 0 ≤ w ^ 2 + w * v + v ^ 2 := by positivity
    linarith
  have := mul_nonneg (sub_nonneg.mpr hw) q
  nlinarith

/-- The polynomial rises at least at the rate of its derivative at the ends of a symmetric interval. -/
theorem sinT_rate {x y c : ℝ} (hx : |x| ≤ c) (hy : |y| ≤ c) (hc : c ≤ 2) (h : x ≤ y) : cosT 5 c * (y - x) ≤ sinT 5 y - sinT 5 x := by
  refine (convex_Icc (-c) c).mul_sub_le_image_sub_of_le_deriv
    (fun z _ => (hasDerivAt_sinT 5 z).continuousAt.continuousWithinAt)
    (fun z _ => (hasDerivAt_sinT 5 z).differentiableAt.differentiableWithinAt) ?_ x (abs_le.mp hx) y (abs_le.mp hy) h
  intro z hz
  rw [interior_Icc, Set.mem_Ioo] at hz
  rw [(hasDerivAt_sinT 5 z).deriv]
  exact cosT_five_ge (abs_le.mpr ⟨hz.1.le, hz.2.le⟩) hc

/-- It rises a little beyond π/2. -/
theorem sinT_mono_wide {x y : ℝ} (hx : |x| ≤ 1.5708) (hy : |y| ≤ 1.5708) (h : x ≤ y) : sinT 5 x ≤ sinT 5 y := by
  have h1 := sinT_rate hx hy (by norm_num) h
  have h2 : 0 ≤ cosT 5 1.5708 := by rw [cosT_five]; norm_num
  have := mul_nonneg h2 (sub_nonneg.mpr h)
  linarith

theorem cosT_one : 54 / 100 ≤ cosT 5 1 := by rw [cosT_five]; norm_num

/-- It never falls faster than at the rate one. -/
theorem sinT_fall {x y : ℝ} (hx : |x| ≤ 2) (hy : |y| ≤ 2) (h : x ≤ y) : sinT 5 x ≤ sinT 5 y + (y - x) := by
  have h1 := sinT_rate hx hy le_rfl h
  have h2 : -1 ≤ cosT 5 2 := by rw [cosT_five]; norm_num
  have := mul_le_mul_of_nonneg_right h2 (sub_nonneg.mpr h)
  linarith

/-- Up to a distance d beyond 1.5708 the polynomial falls by at most 2 d. -/
theorem sinT_almost {x y d : ℝ} (hd : 0 ≤ d) (hd' : d ≤ 1 / 4) (hx : |x| ≤ 1.5708 + d) (hy : |y| ≤ 1.5708 + d) (h : x ≤ y) :
    sinT 5 x ≤ sinT 5 y + 2 * d := by
  have hx' := abs_le.mp hx; have hy' := abs_le.mp hy
  -- the nearest points of the smaller interval
  set a := max (-1.5708) (min x 1.5708) with ha
  set b := max (-1.5708) (min y 1.5708) with hb
  have bd : ∀ z : ℝ, |max (-1.5708) (min z 1.5708)| ≤ 1.5708 := fun z => by
    rw [abs_le]; refine ⟨le_max_left _ _, max_le (by norm_num) (min_le_right _ _)⟩
  have hab : a ≤ b := max_le_max le_rfl (min_le_min h le_rfl)
  have hm := sinT_mono_wide (bd x) (bd y) hab
  have two : ∀ z : ℝ, |z| ≤ 1.5708 → |z| ≤ 2 := fun z hz => hz.trans (by norm_num)
  have two' : ∀ z : ℝ, |z| ≤ 1.5708 + d → |z| ≤ 2 := fun z hz => by norm_num at hz ⊢; linarith
  have near : ∀ z : ℝ, |z| ≤ 1.5708 + d → sinT 5 z ≤ sinT 5 (max (-1.5708) (min z 1.5708)) + d ∧
      sinT 5 (max (-1.5708) (min z 1.5708)) ≤ sinT 5 z + d := by
    intro z hz
    have hz' := abs_le.mp hz
    have rise : ∀ p q : ℝ, |p| ≤ 2 → |q| ≤ 2 → p ≤ q → sinT 5 q ≤ sinT 5 p + (q - p) := by
      intro p q hp hq hpq
      refine le_of_sub_nonneg ?_
      have h1 := (convex_Icc (-2:ℝ) 2).image_sub_le_mul_sub_of_deriv_le
        (fun z _ => (hasDerivAt_sinT 5 z).continuousAt.continuousWithinAt)
        (fun z _ => (hasDerivAt_sinT 5 z).differentiableAt.differentiableWithinAt) (C := 1) (fun w hw => by
          rw [interior_Icc, Set.mem_Ioo] at hw
          rw [(hasDerivAt_sinT 5 w).deriv]
          have := cosT_five_ge (x := 0) (c := |w|) (by simp) (abs_le.mpr ⟨hw.1.le, hw.2.le⟩)
          have e : cosT 5 |w| = cosT 5 w := by
            rw [cosT_five, cosT_five]
            rw [Even.pow_abs (by decide), Even.pow_abs (by decide), Even.pow_abs (by decide), Even.pow_abs (by decide)]
          rw [e] at this
          have e0 : cosT 5 0 = 1 := by rw [cosT_five]; norm_num
          linarith) p (abs_le.mp hp) q (abs_le.mp hq) hpq
      linarith
    have z2 := two' z hz
    rcases le_total z 1.5708 with h1 | h1
    · rw [min_eq_left h1]
      rcases le_total (-1.5708) z with h2 | h2
      · rw [max_eq_right h2]; constructor <;> linarith
      · rw [max_eq_left h2]
        have f1 := sinT_fall z2 (by norm_num : |(-1.5708:ℝ)| ≤ 2) h2
        have f2 := rise z (-1.5708) z2 (by norm_num) h2
        constructor <;> linarith
    · rw [min_eq_right h1, max_eq_right (by norm_num)]
      have f1 := sinT_fall (by norm_num : |(1.5708:ℝ)| ≤ 2) z2 h1
      have f2 := rise 1.5708 z (by norm_num) z2 h1
      constructor <;> linarith
  have n1 := near x hx; have n2 := near y hy
  rw [← ha, ← hb] at hm; rw [← ha] at n1; rw [← hb] at n2
  linarith [n1.1, n2.2]

/-! ## Fixed point -/

section Fixed
variable {m : Mode} {W F : ℕ}

namespace Fixed

theorem half_le (F : ℕ) : (halfRaw F : ℝ) * u F ≤ 1.5708 + u F / 4 := by
  have h := (abs_le.mp (pi_close F)).2
  have h1 : 2 * (halfRaw F : ℝ) ≤ piRaw F := by exact_mod_cast (halfRaw_bounds F).2.2.1
  have h2 := mul_le_mul_of_nonneg_right h1 (u_pos F).le
  have g := Real.pi_lt_d6
  norm_num at *; linarith

/-- The order of two folded arguments is the order of their sines up to nine units. -/
theorem sin_order (h : F + 20 ≤ W) {x y a b : Fixed m true W F} (hx : sinFold x = pure a) (hy : sinFold y = pure b)
    (ha : |a.val| ≤ halfRaw F) (hb : |b.val| ≤ halfRaw F) (hab : a.val ≤ b.val) :
    ∃ v w, sin x = pure v ∧ sin y = pure w ∧ v.val ≤ w.val + 9 ∧
      (|a.val| ≤ 2 ^ F → |b.val| ≤ 2 ^ F → a.val + 18 ≤ b.val → v.val < w.val) := by
  have hu := u_pos F; have hu1 := u_le_one F
  have bd : ∀ c : Fixed m true W F, |c.val| ≤ halfRaw F → |c.r| ≤ 1.5708 + u F / 4 := fun c hc => by
    rw [r_eq, abs_mul, abs_of_pos hu]
    have : |(c.val : ℝ)| ≤ halfRaw F := by exact_mod_cast hc
    exact (mul_le_mul_of_nonneg_right this hu.le).trans (half_le F)
  have two : ∀ c : Fixed m true W F, |c.val| ≤ halfRaw F → |c.r| ≤ 2 := fun c hc => (bd c hc).trans (by norm_num; linarith)
  have hr : a.r ≤ b.r := by
    rw [r_eq, r_eq]; exact mul_le_mul_of_nonneg_right (by exact_mod_cast hab) hu.le
  obtain ⟨v, hv, ev⟩ := poly_near h (two a ha) x hx
  obtain ⟨w, hw, ew⟩ := poly_near h (two b hb) y hy
  have ev' := abs_le.mp ev; have ew' := abs_le.mp ew
  refine ⟨v, w, hv, hw, ?_, fun a1 b1 h18 => ?_⟩
  · have hm := sinT_almost (d := u F / 4) (by linarith) (by linarith) (bd a ha) (bd b hb) hr
    have h1 : v.r ≤ w.r + 9.9 * u F := by norm_num at *; linarith
    rw [r_eq, r_eq, ← add_mul] at h1
    have h2 := le_of_mul_le_mul_right h1 hu
    have h3 : (v.val : ℝ) < (w.val : ℝ) + 10 := by norm_num at *; linarith
    have h4 : v.val < w.val + 10 := by exact_mod_cast h3
    omega
  · have one : ∀ c : Fixed m true W F, |c.val| ≤ 2 ^ F → |c.r| ≤ 1 := fun c hc => by
      rw [r_eq, abs_mul, abs_of_pos hu, ← pow_mul_u F]
      exact mul_le_mul_of_nonneg_right (by exact_mod_cast hc) hu.le
    have hm := sinT_rate (one a a1) (one b b1) (by norm_num) hr
    have hd : 18 * u F ≤ b.r - a.r := by
      rw [r_eq, r_eq, ← sub_mul]
      have : (a.val : ℝ) + 18 ≤ b.val := by exact_mod_cast h18
      exact mul_le_mul_of_nonneg_right (by linarith) hu.le
    have h1 := mul_le_mul cosT_one hd (by positivity) (by linarith [cosT_one])
    have h2 : v.r < w.r := by norm_num at *; linarith
    rw [r_eq, r_eq] at h2
    have := lt_of_mul_lt_mul_right h2 hu.le
    exact_mod_cast this

end Fixed

/-- C151 (false as stated): the sine of fixed-point numbers can fall where the sine rises: -6432/4096 < -6425/4096, and the sine of the
second is two units lower. -/
theorem C151_counterexample_fixed :
    Returns (MixedPi.pi : Prog (Fixed .checked true 32 12)) (fx .checked true 32 12 12868) ∧
    Returns (sin (fx .checked true 32 12 (-6432))) (fx .checked true 32 12 (-4095)) ∧
    Returns (sin (fx .checked true 32 12 (-6425))) (fx .checked true 32 12 (-4097)) := by
  refine ⟨?_, ?_, ?_⟩ <;> run 0

/-- C151, rising part: between -p/2 and p/2 of the type, the sine of the larger number is at most nine units lower. -/
theorem C151_rising_fixed_partial (h : F + 20 ≤ W) (x y p : Fixed m true W F) (hp : Returns MixedPi.pi p)
    (h1 : -(p.val / 2) ≤ x.val) (hxy : x.val ≤ y.val) (h2 : y.val ≤ p.val / 2) :
    ∃ u v, Returns (sin x) u ∧ Returns (sin y) v ∧ u.val ≤ v.val + 9 := by
  have hv := Fixed.pi_val (by omega) hp
  have eh : Fixed.halfRaw F = p.val / 2 := by rw [hv]; rfl
  have hb := Fixed.halfRaw_bounds F
  have bx : |x.val| ≤ Fixed.halfRaw F := abs_le.mpr (by omega)
  have bY : |y.val| ≤ Fixed.halfRaw F := abs_le.mpr (by omega)
  obtain ⟨a, ha, ca⟩ := Fixed.sinFold_eq (by omega) x (by omega)
  obtain ⟨b, hb', cb⟩ := Fixed.sinFold_eq (by omega) y (by omega)
  have ea : a.val = x.val := by have := abs_le.mp bx; omega
  have eb : b.val = y.val := by have := abs_le.mp bY; omega
  obtain ⟨u, v, hu, hv, k, -⟩ := Fixed.sin_order h ha hb' (by rwa [ea]) (by rwa [eb]) (by rwa [ea, eb])
  exact ⟨u, v, .of_eq hu, .of_eq hv, k⟩

example := C151_rising_fixed_partial (by norm_num) (fx .checked true 32 10 (-1000)) (fx .checked true 32 10 1500) (fx .checked true 32 10 3217)
  (by run 10) (by decide) (by decide) (by decide)

/-- C151, falling part: from p/2 to p, and from -p to -p/2, the sine of the larger number is at most nine units higher. -/
theorem C151_falling_fixed_partial (h : F + 20 ≤ W) (x y p : Fixed m true W F) (hp : Returns MixedPi.pi p) (hxy : x.val ≤ y.val)
    (hr : (p.val / 2 ≤ x.val ∧ y.val ≤ p.val) ∨ (-p.val ≤ x.val ∧ y.val ≤ -(p.val / 2))) :
    ∃ u v, Returns (sin x) u ∧ Returns (sin y) v ∧ v.val ≤ u.val + 9 := by
  have hv := Fixed.pi_val (by omega) hp
  have eh : Fixed.halfRaw F = p.val / 2 := by rw [hv]; rfl
  have hb := Fixed.halfRaw_bounds F
  have hP : (1:ℤ) ≤ 2 ^ F := one_le_pow₀ (by norm_num)
  have hpb := Fixed.piRaw_bounds F
  have bx : |x.val| ≤ Fixed.piRaw F := abs_le.mpr (by omega)
  have bY : |y.val| ≤ Fixed.piRaw F := abs_le.mpr (by omega)
  obtain ⟨a, ha, ca⟩ := Fixed.sinFold_eq (by omega) x (by omega)
  obtain ⟨b, hb', cb⟩ := Fixed.sinFold_eq (by omega) y (by omega)
  have rx := abs_le.mp bx; have ry := abs_le.mp bY
  have key : |a.val| ≤ Fixed.halfRaw F ∧ |b.val| ≤ Fixed.halfRaw F ∧ b.val ≤ a.val := by
    rw [abs_le, abs_le]
    rw [abs_le] at ca cb
    omega
  obtain ⟨u, v, hu, hv, k, -⟩ := Fixed.sin_order h hb' ha key.2.1 key.1 key.2.2
  exact ⟨v, u, .of_eq hv, .of_eq hu, k⟩

example := C151_falling_fixed_partial (by norm_num) (fx .checked true 32 10 1700) (fx .checked true 32 10 3000) (fx .checked true 32 10 3217)
  (by run 10) (by decide) (by decide)

/-- C151, strict order: between -1 and 1 the sine of a number larger by 18 units is larger. -/
theorem C151_strict_fixed_partial (h : F + 20 ≤ W) (x y : Fixed m true W F) (hx : |x.val| ≤ 2 ^ F) (hy : |y.val| ≤ 2 ^ F)
    (hxy : x.val + 18 ≤ y.val) : ∃ u v, Returns (sin x) u ∧ Returns (sin y) v ∧ u.val < v.val := by
  have hb := Fixed.halfRaw_bounds F
  have hpb := Fixed.piRaw_bounds F
  have hP : (1:ℤ) ≤ 2 ^ F := one_le_pow₀ (by norm_num)
  have bx : |x.val| ≤ Fixed.halfRaw F := by omega
  have bY : |y.val| ≤ Fixed.halfRaw F := by omega
  obtain ⟨a, ha, ca⟩ := Fixed.sinFold_eq (by omega) x (by omega)
  obtain ⟨b, hb', cb⟩ := Fixed.sinFold_eq (by omega) y (by omega)
  have ea : a.val = x.val := by have := abs_le.mp bx; omega
  have eb : b.val = y.val := by have := abs_le.mp bY; omega
  obtain ⟨u, v, hu, hv, -, k⟩ := Fixed.sin_order h ha hb' (by rwa [ea]) (by rwa [eb]) (by omega)
  exact ⟨u, v, .of_eq hu, .of_eq hv, k (by rwa [ea]) (by rwa [eb]) (by rwa [ea, eb])⟩

example := C151_strict_fixed_partial (by norm_num) (fx .checked true 32 10 (-1000)) (fx .checked true 32 10 (-982)) (by decide) (by decide) (by decide)

end Fixed

/-! ## Floats -/

section Float
variable {f : Format}
open Flt

theorem fold_none (hf : f.Wide) (h60 : f.p ≤ 60) {x : Flt f} {v : ℚ} (hx : Is x v) (hv : |(v:ℝ)| ≤ 1.57) : sinFold x = pure x := by
  have his := half_is hf
  have hpi := abs_le.mp (pi_near hf h60)
  have hel := eta_le hf
  have p1 := Real.pi_gt_d6
  have hv' := abs_le.mp hv
  set h := (piF f).div (ofExact false ((2:ℤ):ℚ))
  have unf : sinFold x = (if x.lt h.neg then pure (h.neg.sub (x.add h)) else
      if h.lt x then pure (h.sub (x.sub h)) else pure x) := rfl
  have key : ∀ {a b : ℚ}, a < b ↔ (a:ℝ) < b := fun {a b} => Rat.cast_lt.symm
  have c1 : ¬ v < -(piV f / 2) := by rw [key]; push_cast; norm_num at *; linarith
  have c2 : ¬ piV f / 2 < v := by rw [key]; push_cast; norm_num at *; linarith
  rw [unf, hx.lt his.neg, his.lt hx, decide_eq_false c1, decide_eq_false c2]; rfl

theorem eta_eq (c : ℝ) : c * eta f = c / 2 ^ f.p := by unfold eta; rw [zpow_neg, zpow_natCast]; rfl

/-- The polynomial sine on floats, against the polynomial. -/
theorem sin_near_poly (hf : f.Wide) (h60 : f.p ≤ 60) {x : Flt f} (vx : x.Valid) (fx : x.IsFinite) (hx : |(x.val:ℝ)| ≤ 1.57) :
    ∃ z : Flt f, sin x = pure z ∧ |(z.val:ℝ) - sinT 5 x.val| ≤ 65 / 10 / 2 ^ f.p := by
  have hi := Flt.is_of_finite fx vx
  obtain ⟨z, hz, q, hq, e⟩ := poly_flt hf hi (hx.trans (by norm_num))
  refine ⟨z, by unfold sin; rw [fold_none hf h60 hi hx, pure_bind]; exact hz, ?_⟩
  rw [hq.val, ← eta_eq]; exact e

/-- C151 (false as stated): two neighbouring floats near 1.009, the sine of the larger is lower by one unit. -/
theorem C151_counterexample_float :
    Returns (sin (Flt.fin false (8463840 / 8388608) : Flt F32)) (.fin false (14198269 / 16777216)) ∧
    Returns (sin (Flt.fin false (8463841 / 8388608) : Flt F32)) (.fin false (14198268 / 16777216)) :=
  ⟨.of_eq (by kernel_rfl), .of_eq (by kernel_rfl)⟩

/-- C151: from -1.57 to 1.57 the sine of the larger float is lower by at most 13 2^-p. -/
theorem C151_rising_float_partial (hf : f.Wide) (h60 : f.p ≤ 60) (x y : Flt f) (vx : x.Valid) (vy : y.Valid) (fx : x.IsFinite)
    (fy : y.IsFinite) (hx : |(x.val:ℝ)| ≤ 1.57) (hy : |(y.val:ℝ)| ≤ 1.57) (hxy : x.val ≤ y.val) :
    ∃ u v : Flt f, Returns (sin x) u ∧ Returns (sin y) v ∧ (u.val:ℝ) ≤ v.val + 13 / 2 ^ f.p := by
  obtain ⟨u, hu, eu⟩ := sin_near_poly hf h60 vx fx hx
  obtain ⟨v, hv, ev⟩ := sin_near_poly hf h60 vy fy hy
  have h1 := sinT_mono_wide (hx.trans (by norm_num)) (hy.trans (by norm_num)) (by exact_mod_cast hxy)
  have := (abs_le.mp eu).2; have := (abs_le.mp ev).1
  refine ⟨u, v, .of_eq hu, .of_eq hv, ?_⟩
  linarith [show (13:ℝ) / 2 ^ f.p = 65 / 10 / 2 ^ f.p + 65 / 10 / 2 ^ f.p by ring]

example := C151_rising_float_partial wide_F32 (by decide) (.fin true 1) (.fin false (1 / 2)) (by is_float 1 0) (by is_float 1 (-1)) ⟨_, _, rfl⟩ ⟨_, _, rfl⟩
  (by norm_num [Flt.val]) (by norm_num [Flt.val]) (by norm_num [Flt.val])

/-- C151: between -1 and 1 the sine of a float larger by 25 2^-p is larger. -/
theorem C151_strict_float_partial (hf : f.Wide) (h60 : f.p ≤ 60) (x y : Flt f) (vx : x.Valid) (vy : y.Valid) (fx : x.IsFinite)
    (fy : y.IsFinite) (hx : |x.val| ≤ 1) (hy : |y.val| ≤ 1) (hxy : x.val + 25 / 2 ^ f.p ≤ y.val) :
    ∃ u v : Flt f, Returns (sin x) u ∧ Returns (sin y) v ∧ u.val < v.val := by
  have hx' : |(x.val:ℝ)| ≤ 1 := by exact_mod_cast hx
  have hy' : |(y.val:ℝ)| ≤ 1 := by exact_mod_cast hy
  have hxy' : (x.val:ℝ) + 25 / 2 ^ f.p ≤ y.val := by
    have := (Rat.cast_le (K := ℝ)).mpr hxy; push_cast at this; exact this
  obtain ⟨u, hu, eu⟩ := sin_near_poly hf h60 vx fx (hx'.trans (by norm_num))
  obtain ⟨v, hv, ev⟩ := sin_near_poly hf h60 vy fy (hy'.trans (by norm_num))
  have he : (0:ℝ) < 1 / 2 ^ f.p := by positivity
  have e25 : (25:ℝ) / 2 ^ f.p = 25 * (1 / 2 ^ f.p) := by ring
  have e65 : (65:ℝ) / 10 / 2 ^ f.p = 65 / 10 * (1 / 2 ^ f.p) := by ring
  rw [e25] at hxy'; rw [e65] at eu ev
  have h1 := sinT_rate hx' hy' (by norm_num) (by linarith)
  have h2 := mul_le_mul cosT_one (show 25 * (1 / 2 ^ f.p) ≤ (y.val:ℝ) - x.val by linarith) (by positivity) (by linarith [cosT_one])
  have := (abs_le.mp eu).2; have := (abs_le.mp ev).1
  refine ⟨u, v, .of_eq hu, .of_eq hv, ?_⟩
  have h3 : (u.val:ℝ) < v.val := by linarith
  exact_mod_cast h3

example := C151_strict_float_partial wide_F32 (by decide) (.fin true 1) (.fin false (1 / 2)) (by is_float 1 0) (by is_float 1 (-1)) ⟨_, _, rfl⟩ ⟨_, _, rfl⟩
  (by norm_num [Flt.val]) (by norm_num [Flt.val]) (by norm_num [Flt.val, F32])

/-- The polynomial arctangent of a real number. -/
noncomputable def atanR (x : ℝ) : ℝ := if |x| < 1 then ratan x else
  if 0 < x then Real.pi / 2 - ratan (1 / x) else -(Real.pi / 2) - ratan (1 / x)

theorem PolyAngle.atanR {x v : ℝ} (hA : PolyAngle x 1 v) : v = atanR x := by
  unfold MixedNum.atanR
  cases hA with
  | axisPos hy _ => simp [hy, ratan]
  | axisNeg _ h => exact absurd h (by norm_num)
  | up _ h => exact absurd h (by norm_num)
  | down _ h => exact absurd h (by norm_num)
  | right _ _ hc => rw [abs_one] at hc; rw [if_pos hc, div_one]
  | upper hy _ hc => rw [abs_one] at hc; rw [if_neg (not_lt.mpr hc), if_pos hy]
  | lower hy _ hc => rw [abs_one] at hc; rw [if_neg (not_lt.mpr hc), if_neg (not_lt.mpr hy.le)]
  | left _ h => exact absurd h (by norm_num)
  | left' _ h => exact absurd h (by norm_num)

theorem atanR_mono {a b : ℝ} (h : a ≤ b) : atanR a ≤ atanR b := by
  rcases eq_or_lt_of_le h with rfl | h
  · exact le_rfl
  · obtain ⟨u, v, hu, hv, huv, -⟩ := C121_increasing a b h
    rw [hu.unique (.of_eq (atan_real a)), hv.unique (.of_eq (atan_real b))] at huv
    exact huv.le

theorem atan_near_poly (hf : f.Wide) (h60 : f.p ≤ 60) {x : Flt f} (vx : x.Valid) (fx : x.IsFinite)
    (hhi : 4 * (x.val : ℝ) ^ 2 ≤ 2 ^ f.emax) :
    ∃ z : Flt f, Returns (atanPoly x) z ∧ |(z.val:ℝ) - atanR x.val| ≤ 12 / 2 ^ f.p := by
  have hone : Is (ofExact false 1 : Flt f) 1 := by
    have := lit_int (f := f) hf (n := 1) (by norm_num); simpa using this
  have hp := hf.p; have hmin := hf.emin; have hmax := hf.emax
  have hm1 : (1:ℝ) ≤ max (|((1:ℚ):ℝ)|) (|(x.val : ℝ)|) := by simp
  have e1 : eta f = 1 / 2 ^ f.p := by unfold eta; rw [zpow_neg, zpow_natCast, one_div]
  obtain ⟨z, v, h1, ⟨q, h2, h3⟩, h4⟩ := atan2_flt hf h60 hone (Flt.is_of_finite fx vx) ⟨by
      rw [e1, one_div, inv_mul_eq_div, le_div_iff₀ (by positivity), ← zpow_natCast (2:ℝ) f.p, ← zpow_add₀ (by norm_num)]
      refine le_trans ?_ (one_le_pow₀ hm1)
      exact zpow_le_one_of_nonpos₀ (by norm_num) (by omega), by
      rcases le_total (|((1:ℚ):ℝ)|) (|(x.val : ℝ)|) with h | h
      · rw [max_eq_right h, sq_abs]; exact hhi
      · rw [max_eq_left h]
        have : (2:ℝ) ^ 2 ≤ 2 ^ f.emax := pow_le_pow_right₀ (by norm_num) (by omega)
        norm_num at this ⊢; exact this⟩
  rw [Rat.cast_one] at h4
  refine ⟨z, .of_eq h1, ?_⟩
  rw [h2.val, ← eta_eq, ← h4.atanR]; exact h3

/-- C151 (false as stated): two neighbouring floats near 0.9, the arctangent of the larger is lower by one unit. -/
theorem C151_counterexample_atan :
    Returns (atanPoly (Flt.fin false (15099497 / 16777216) : Flt F32)) (.fin false (12297885 / 16777216)) ∧
    Returns (atanPoly (Flt.fin false (15099498 / 16777216) : Flt F32)) (.fin false (12297884 / 16777216)) :=
  ⟨.of_eq (by kernel_rfl), .of_eq (by kernel_rfl)⟩

/-- C151: the arctangent of the larger float is lower by at most 24 2^-p. -/
theorem C151_atan_float_partial (hf : f.Wide) (h60 : f.p ≤ 60) (x y : Flt f) (vx : x.Valid) (vy : y.Valid) (fx : x.IsFinite)
    (fy : y.IsFinite) (hx : 4 * (x.val : ℝ) ^ 2 ≤ 2 ^ f.emax) (hy : 4 * (y.val : ℝ) ^ 2 ≤ 2 ^ f.emax) (hxy : x.val ≤ y.val) :
    ∃ u v : Flt f, Returns (atanPoly x) u ∧ Returns (atanPoly y) v ∧ (u.val:ℝ) ≤ v.val + 24 / 2 ^ f.p := by
  obtain ⟨u, hu, eu⟩ := atan_near_poly hf h60 vx fx hx
  obtain ⟨v, hv, ev⟩ := atan_near_poly hf h60 vy fy hy
  have h1 := atanR_mono (show (x.val:ℝ) ≤ y.val by exact_mod_cast hxy)
  have := (abs_le.mp eu).2; have := (abs_le.mp ev).1
  refine ⟨u, v, hu, hv, ?_⟩
  linarith [show (24:ℝ) / 2 ^ f.p = 12 / 2 ^ f.p + 12 / 2 ^ f.p by ring]

example : (Flt.fin false (3/4) : Flt F32).Valid ∧ (Flt.fin true 1 : Flt F32).Valid ∧
    (Flt.fin true 1 : Flt F32).val + 25 / 2 ^ F32.p ≤ (Flt.fin false (3/4) : Flt F32).val :=
  ⟨⟨3, -2, by decide, by decide, by norm_num [pow2_eq], by norm_num⟩,
    ⟨1, 0, by decide, by decide, by norm_num [pow2_eq], by norm_num⟩, by norm_num [Flt.val, F32]⟩

end Float

end MixedNum
