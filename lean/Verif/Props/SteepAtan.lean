import Verif.Props.Steepness
import Verif.Props.AtanExact
import Verif.Props.AddSub
import Verif.Lemmas.Run
/-! # C161: the polynomial arctangent changes no faster than its argument, but for a step at one -/

namespace MixedNum
variable {f : Format} {m : Mode} {W F : ℕ}

/-! ## Exact reals -/

theorem ratan_lip (a b : ℝ) : |ratan a - ratan b| ≤ |a - b| := by
  have ha := ratan_den_pos a; have hb := ratan_den_pos b
  have e : ratan a - ratan b = (a - b) * ((1 - 9 / 32 * (a * b)) / ((1 + 9 / 32 * a ^ 2) * (1 + 9 / 32 * b ^ 2))) := by
    unfold ratan; field_simp; ring
  rw [e, abs_mul]
  refine mul_le_of_le_one_right (abs_nonneg _) ?_
  rw [abs_div, abs_of_pos (mul_pos ha hb), div_le_one (mul_pos ha hb), abs_le]
  constructor <;> nlinarith [sq_nonneg (a - b), sq_nonneg (a + b), sq_nonneg (a * b)]

theorem ratan_inv {x : ℝ} (hx : x ≠ 0) : ratan (1 / x) = x / (x ^ 2 + 9 / 32) := by
  have : x ^ 2 + 9 / 32 ≠ 0 := by positivity
  unfold ratan; field_simp

theorem ratan_inv_lip {a b : ℝ} (ha : 1 ≤ a) (hb : 1 ≤ b) : |ratan (1 / a) - ratan (1 / b)| ≤ |a - b| := by
  have pa : 0 < a ^ 2 + 9 / 32 := by positivity
  have pb : 0 < b ^ 2 + 9 / 32 := by positivity
  have e : ratan (1 / a) - ratan (1 / b) = (a - b) * (-(a * b - 9 / 32) / ((a ^ 2 + 9 / 32) * (b ^ 2 + 9 / 32))) := by
    rw [ratan_inv (by linarith), ratan_inv (by linarith)]; field_simp; ring
  rw [e, abs_mul]
  refine mul_le_of_le_one_right (abs_nonneg _) ?_
  have hab : 1 ≤ a * b := one_le_mul_of_one_le_of_one_le ha hb
  rw [abs_div, abs_of_pos (mul_pos pa pb), div_le_one (mul_pos pa pb), abs_neg, abs_of_pos (by linarith)]
  nlinarith [sq_nonneg a, sq_nonneg b]

/-- The arctangent without its steps. -/
noncomputable def smooth (x : ℝ) : ℝ := if x ≤ -1 then -(64 / 41) - ratan (1 / x) else if x < 1 then ratan x else 64 / 41 - ratan (1 / x)

theorem smooth_one : smooth 1 = 32 / 41 := by
  unfold smooth; rw [if_neg (by norm_num), if_neg (by norm_num), div_one, ratan_one]; norm_num

theorem smooth_neg_one : smooth (-1) = -(32 / 41) := by
  unfold smooth; rw [if_pos (by norm_num), show (1:ℝ) / -1 = -1 by norm_num, ratan_neg, ratan_one]; norm_num

theorem smooth_inner {x : ℝ} (h : |x| ≤ 1) : smooth x = ratan x := by
  have h' := abs_le.mp h
  rcases eq_or_lt_of_le h'.1 with e | h1
  · rw [← e, smooth_neg_one, ratan_neg, ratan_one]
  rcases eq_or_lt_of_le h'.2 with e | h2
  · rw [e, smooth_one, ratan_one]
  unfold smooth; rw [if_neg (by linarith), if_pos h2]

theorem smooth_lip {x y : ℝ} (h : x ≤ y) : |smooth x - smooth y| ≤ y - x := by
  have inner : ∀ {a b : ℝ}, |a| ≤ 1 → |b| ≤ 1 → a ≤ b → |smooth a - smooth b| ≤ b - a := fun {a b} ha hb h => by
    rw [smooth_inner ha, smooth_inner hb]
    have := ratan_lip a b
    rwa [abs_sub_comm a, abs_of_nonneg (sub_nonneg.mpr h)] at this
  have right : ∀ {a b : ℝ}, 1 ≤ a → a ≤ b → |smooth a - smooth b| ≤ b - a := fun {a b} ha h => by
    have := ratan_inv_lip ha (ha.trans h)
    rw [abs_sub_comm a, abs_of_nonneg (sub_nonneg.mpr h)] at this
    unfold smooth
    rw [if_neg (by linarith), if_neg (by linarith), if_neg (by linarith), if_neg (by linarith)]
    rwa [sub_sub_sub_cancel_left, abs_sub_comm]
  have left : ∀ {a b : ℝ}, b ≤ -1 → a ≤ b → |smooth a - smooth b| ≤ b - a := fun {a b} hb h => by
    have := ratan_inv_lip (a := -b) (b := -a) (by linarith) (by linarith)
    rw [one_div_neg_eq_neg_one_div, one_div_neg_eq_neg_one_div, ratan_neg, ratan_neg, abs_of_nonpos (a := -b - -a) (by linarith)] at this
    unfold smooth
    rw [if_pos (by linarith), if_pos hb, sub_sub_sub_cancel_left]
    rw [show ratan (1 / b) - ratan (1 / a) = -(-ratan (1 / b) - -ratan (1 / a)) by ring, abs_neg]
    linarith
  have n1 : |(-1:ℝ)| ≤ 1 := by norm_num
  have p1 : |(1:ℝ)| ≤ 1 := by norm_num
  -- up to one
  have upto : ∀ {a b : ℝ}, a ≤ b → b ≤ 1 → |smooth a - smooth b| ≤ b - a := fun {a b} h hb => by
    rcases le_total b (-1) with c | c
    · exact left c h
    rcases le_total a (-1) with d | d
    · have h1 := left le_rfl d
      have h2 := inner n1 (abs_le.mpr ⟨c, hb⟩) c
      have := abs_sub_le (smooth a) (smooth (-1)) (smooth b)
      linarith
    · exact inner (abs_le.mpr ⟨d, h.trans hb⟩) (abs_le.mpr ⟨c, hb⟩) h
  rcases le_total y 1 with c | c
  · exact upto h c
  rcases le_total x 1 with d | d
  · have h1 := upto d le_rfl
    have h2 := right le_rfl c
    have := abs_sub_le (smooth x) (smooth 1) (smooth y)
    linarith
  · exact right d h

/-- How many of the points -1 and 1 are passed on the way from `x` up to `y`. -/
noncomputable def steps (x y : ℝ) : ℝ := (if x < 1 ∧ 1 ≤ y then 1 else 0) + (if x ≤ -1 ∧ -1 < y then 1 else 0)

theorem atanR_smooth (x : ℝ) : atanR x = smooth x + (Real.pi / 2 - 64 / 41) * (if 1 ≤ x then 1 else if x ≤ -1 then -1 else 0) := by
  unfold atanR smooth
  by_cases h1 : |x| < 1
  · have := abs_lt.mp h1
    rw [if_pos h1, if_neg (by linarith), if_pos this.2, if_neg (by linarith), if_neg (by linarith)]; ring
  · rw [if_neg h1]
    by_cases h2 : 0 < x
    · have h3 : 1 ≤ x := by rw [abs_of_pos h2] at h1; linarith
      rw [if_pos h2, if_neg (by linarith), if_neg (by linarith), if_pos h3]; ring
    · have h3 : x ≤ -1 := by rw [abs_of_nonpos (not_lt.mp h2)] at h1; linarith
      rw [if_neg h2, if_pos h3, if_neg (by linarith), if_pos h3]; ring

theorem atanR_steps {x y : ℝ} (h : x ≤ y) : atanR y - atanR x ≤ y - x + (Real.pi / 2 - 64 / 41) * steps x y := by
  have l := (abs_le.mp (smooth_lip h)).1
  rw [atanR_smooth x, atanR_smooth y]
  have e : ((if 1 ≤ y then 1 else if y ≤ -1 then -1 else 0) - (if 1 ≤ x then 1 else if x ≤ -1 then -1 else 0) : ℝ) = steps x y := by
    unfold steps
    rcases lt_or_ge y 1 with y1 | y1 <;> rcases lt_or_ge x 1 with x1 | x1 <;>
      rcases lt_or_ge (-1) y with y2 | y2 <;> rcases lt_or_ge (-1) x with x2 | x2 <;>
      first
        | (exfalso; linarith)
        | simp [y1, x1, y2, x2, not_le.mpr, not_lt.mpr]
  rw [← e]
  linarith

/-- C161 is false of the polynomial arctangent: as close to one as you like there is an argument whose result differs
from the result at one by more than 0.0098. -/
theorem C161_counterexample_real (e : ℝ) (he : 0 < e) : ∃ x u v : ℝ, |x - 1| < e ∧ Returns (atanPoly x) u ∧
    Returns (atanPoly (1:ℝ)) v ∧ |v - u| > 0.0098 := by
  have hp := Real.pi_gt_d6
  set d := min (e / 2) (1 / 2) with hd
  have d0 : 0 < d := by positivity
  have d1 : d ≤ e / 2 := min_le_left _ _
  have d2 : d ≤ 1 / 2 := min_le_right _ _
  refine ⟨1 - d, _, _, by rw [sub_sub_cancel_left, abs_neg, abs_of_pos d0]; linarith, .of_eq (atan_real _), .of_eq (atan_real _), ?_⟩
  have e1 : |1 - d| < 1 := by rw [abs_of_pos (by linarith)]; linarith
  rw [if_pos e1, if_neg (show ¬ |(1:ℝ)| < 1 by norm_num), if_pos one_pos, div_one, ratan_one]
  have : ratan (1 - d) ≤ 32 / 41 := by
    rw [← ratan_one]
    unfold ratan
    rw [div_le_div_iff₀ (by positivity) (by norm_num)]
    nlinarith
  refine lt_of_lt_of_le ?_ (le_abs_self _)
  linarith

/-- C161 is false on `f32`: of two neighbouring numbers, 2⁻²⁴ apart, the results differ by more than 0.0098. -/
theorem C161_counterexample_float : ∃ u v : Flt F32,
    Returns (atanPoly (Flt.fin false (16777215 / 16777216) : Flt F32)) u ∧ Returns (atanPoly (Flt.fin false 1 : Flt F32)) v ∧
    v.val - u.val > 0.0098 :=
  ⟨.fin false (3273603 / 4194304), .fin false (6629589 / 8388608), .of_eq (by kernel_rfl), .of_eq (by kernel_rfl), by
    norm_num [Flt.val]⟩

/-- C161 is false of fixed point: on I16F16, of two neighbouring numbers the results differ by 644 units. -/
theorem C161_counterexample_fixed : ∃ u v : Fixed .checked true 32 16,
    Returns (atanPoly (fx .checked true 32 16 65535)) u ∧ Returns (atanPoly (fx .checked true 32 16 65536)) v ∧
    v.val - u.val = 644 :=
  ⟨fx .checked true 32 16 51149, fx .checked true 32 16 51793, by run 100, by run 100, rfl⟩

/-- C161 on exact reals: for x ≤ y the polynomial arctangent does not decrease and rises by at most y - x, plus
π/2 - 64/41 (less than 0.00983) for each of the points -1 and 1 that is passed. -/
theorem C161_real_partial (x y : ℝ) (h : x ≤ y) : ∃ u v : ℝ, Returns (atanPoly x) u ∧ Returns (atanPoly y) v ∧
    u ≤ v ∧ v - u ≤ y - x + (Real.pi / 2 - 64 / 41) * steps x y :=
  ⟨atanR x, atanR y, .of_eq (atan_real x), .of_eq (atan_real y), atanR_mono h, atanR_steps h⟩

example := C161_real_partial (-2) 3 (by norm_num)

/-- C161 on exact reals, away from the steps: two arguments on the same side of 1 and of -1. -/
theorem C161_smooth_partial (x y : ℝ) (h : (|x| < 1 ∧ |y| < 1) ∨ (1 ≤ x ∧ 1 ≤ y) ∨ (x ≤ -1 ∧ y ≤ -1)) :
    ∃ u v : ℝ, Returns (atanPoly x) u ∧ Returns (atanPoly y) v ∧ |v - u| ≤ |y - x| := by
  have key : ∀ {x y : ℝ}, ((|x| < 1 ∧ |y| < 1) ∨ (1 ≤ x ∧ 1 ≤ y) ∨ (x ≤ -1 ∧ y ≤ -1)) → x ≤ y →
      |atanR y - atanR x| ≤ |y - x| := fun {x y} h hxy => by
    have e : steps x y = 0 := by
      unfold steps
      rw [if_neg, if_neg, add_zero]
      · rintro ⟨h1, h2⟩
        rcases h with ⟨h3, -⟩ | ⟨h3, -⟩ | ⟨-, h3⟩
        · have := (abs_lt.mp h3).1; linarith
        · linarith
        · linarith
      · rintro ⟨h1, h2⟩
        rcases h with ⟨-, h3⟩ | ⟨h3, -⟩ | ⟨-, h3⟩
        · have := (abs_lt.mp h3).2; linarith
        · linarith
        · linarith
    have := atanR_steps hxy
    rw [e, mul_zero, add_zero] at this
    rwa [abs_of_nonneg (sub_nonneg.mpr (atanR_mono hxy)), abs_of_nonneg (sub_nonneg.mpr hxy)]
  refine ⟨_, _, .of_eq (atan_real x), .of_eq (atan_real y), ?_⟩
  show |atanR y - atanR x| ≤ _
  rcases le_total x y with hxy | hxy
  · exact key h hxy
  · rw [abs_sub_comm, abs_sub_comm y]
    exact key (by tauto) hxy

example : ((|(0.25:ℝ)| < 1 ∧ |(-0.5:ℝ)| < 1) ∨ (1 ≤ (0.25:ℝ) ∧ 1 ≤ (-0.5:ℝ)) ∨ ((0.25:ℝ) ≤ -1 ∧ (-0.5:ℝ) ≤ -1)) := by
  left; norm_num [abs_of_pos, abs_of_neg]

theorem steps_le (x y : ℝ) : 0 ≤ steps x y ∧ steps x y ≤ 2 := by
  unfold steps; split_ifs <;> norm_num

/-! ## Floats -/

/-- C161 on floats: as on reals, up to 24/2^p. -/
theorem C161_float_partial (hf : f.Wide) (h60 : f.p ≤ 60) (x y : Flt f) (vx : x.Valid) (vy : y.Valid) (fx : x.IsFinite)
    (fy : y.IsFinite) (hx : 4 * (x.val : ℝ) ^ 2 ≤ 2 ^ f.emax) (hy : 4 * (y.val : ℝ) ^ 2 ≤ 2 ^ f.emax) (hxy : x.val ≤ y.val) :
    ∃ u v : Flt f, Returns (atanPoly x) u ∧ Returns (atanPoly y) v ∧
      (v.val:ℝ) - u.val ≤ y.val - x.val + (Real.pi / 2 - 64 / 41) * steps x.val y.val + 24 / 2 ^ f.p := by
  obtain ⟨u, hu, eu⟩ := atan_near_poly hf h60 vx fx hx
  obtain ⟨v, hv, ev⟩ := atan_near_poly hf h60 vy fy hy
  have h1 := atanR_steps (show (x.val:ℝ) ≤ y.val by exact_mod_cast hxy)
  refine ⟨u, v, hu, hv, ?_⟩
  have := (abs_le.mp eu).1; have := (abs_le.mp ev).2
  have e : (24:ℝ) / 2 ^ f.p = 12 / 2 ^ f.p + 12 / 2 ^ f.p := by ring
  rw [e]; linarith

example : (Flt.fin false (3/4) : Flt F32).Valid ∧ (Flt.fin true 1 : Flt F32).Valid ∧
    (Flt.fin true 1 : Flt F32).val ≤ (Flt.fin false (3/4) : Flt F32).val :=
  ⟨⟨3, -2, by decide, by decide, by norm_num [pow2_eq], by norm_num⟩,
    ⟨1, 0, by decide, by decide, by norm_num [pow2_eq], by norm_num⟩, by norm_num [Flt.val]⟩

/-! ## Fixed point -/

theorem Fixed.atan_near_poly (h : F + 3 ≤ W) (x : Fixed m true W F) (hx : |x.val| < 2 ^ (W - 1))
    (hR : |x.val| < 2 ^ F ∨ x.val * x.val / 2 ^ F + aRaw F < 2 ^ (W - 1)) :
    ∃ v : Fixed m true W F, Returns (atanPoly x) v ∧ |(v.val : ℝ) / 2 ^ F - atanR (x.val / 2 ^ F)| ≤ 10 / 2 ^ F + 1 / 2 ^ 52 := by
  obtain ⟨o, ho, vo⟩ := Fixed.one_eq (m := m) h
  obtain ⟨c1, c2, c3⟩ := Fixed.one_condition h x.val
  rw [← c3] at hR
  have c2' : 2 ^ F ≤ max |o.val| |x.val| * max |o.val| |x.val| := by rw [vo]; exact c2
  rw [← vo] at c1 hR
  rw [C44_def x o ho]
  obtain ⟨v, hv, hA⟩ := Fixed.atan2_value h x o ((Fixed.fits_iff_lt (abs_nonneg _)).mpr hx)
    ((Fixed.fits_iff_lt (abs_nonneg _)).mpr c1)
    (fun _ _ hc => (Fixed.fits_iff_lt (Fixed.den_nonneg hc.le)).mpr (by rwa [← Fixed.denBig_left hc.le]))
    (fun _ _ hc => (Fixed.fits_iff_lt (Fixed.den_nonneg hc)).mpr (by rwa [← Fixed.denBig_right hc]))
    (.inr (.inr ((Fixed.max_sq _ _ _).mp c2')))
  obtain ⟨w, hw, e⟩ := hA.close ((Fixed.max_sq _ _ _).mp c2')
  refine ⟨v, .of_eq hv, ?_⟩
  have eo : (o.val:ℝ) / 2 ^ F = 1 := by rw [vo]; push_cast; exact div_self (by positivity)
  have eu : ∀ n : ℝ, n * u F = n / 2 ^ F := fun n => by unfold u; ring
  rw [eo] at hw
  rw [hw.atanR, eu v.val, eu o.val, eu x.val, eo] at e
  refine e.trans ?_
  have hu := u_pos F
  have h1 : 7 * u F / (max |(1:ℝ)| |(x.val:ℝ) / 2 ^ F|) ^ 2 ≤ 7 * u F :=
    div_le_self (by positivity) (one_le_pow₀ (by rw [abs_one]; exact le_max_left _ _))
  have h2 : 10 / 2 ^ F = 10 * u F := (eu 10).symm
  rw [h2]; linarith

theorem Fixed.atan_step {x y u v : Fixed m true W F} (hxy : x.val ≤ y.val)
    (eu : |(u.val : ℝ) / 2 ^ F - atanR (x.val / 2 ^ F)| ≤ 10 / 2 ^ F + 1 / 2 ^ 52)
    (ev : |(v.val : ℝ) / 2 ^ F - atanR (y.val / 2 ^ F)| ≤ 10 / 2 ^ F + 1 / 2 ^ 52) :
    (u.val:ℝ) / 2 ^ F ≤ v.val / 2 ^ F + 20 / 2 ^ F + 1 / 2 ^ 51 ∧
    (v.val:ℝ) / 2 ^ F - u.val / 2 ^ F ≤ y.val / 2 ^ F - x.val / 2 ^ F +
      (Real.pi / 2 - 64 / 41) * steps (x.val / 2 ^ F) (y.val / 2 ^ F) + 20 / 2 ^ F + 1 / 2 ^ 51 := by
  have hP : (0:ℝ) < 2 ^ F := by positivity
  have hle : (x.val:ℝ) / 2 ^ F ≤ y.val / 2 ^ F := by
    have : (x.val:ℝ) ≤ y.val := by exact_mod_cast hxy
    gcongr
  have h1 := atanR_steps hle
  have h2 := atanR_mono hle
  have e : (20:ℝ) / 2 ^ F = 10 / 2 ^ F + 10 / 2 ^ F := by ring
  have e' : (1:ℝ) / 2 ^ 51 = 1 / 2 ^ 52 + 1 / 2 ^ 52 := by norm_num
  obtain ⟨a1, a2⟩ := abs_le.mp eu
  obtain ⟨b1, b2⟩ := abs_le.mp ev
  rw [e, e']
  constructor <;> linarith

/-- C161 on fixed point with overflow checks: whenever both calls return, as on reals up to 20 units. -/
theorem C161_fixed_partial (h : F + 3 ≤ W) (x y u v : Fixed .checked true W F) (hxy : x.val ≤ y.val)
    (hu : Returns (atanPoly x) u) (hv : Returns (atanPoly y) v) :
    (u.val:ℝ) / 2 ^ F ≤ v.val / 2 ^ F + 20 / 2 ^ F + 1 / 2 ^ 51 ∧
    (v.val:ℝ) / 2 ^ F - u.val / 2 ^ F ≤ y.val / 2 ^ F - x.val / 2 ^ F +
      (Real.pi / 2 - 64 / 41) * steps (x.val / 2 ^ F) (y.val / 2 ^ F) + 20 / 2 ^ F + 1 / 2 ^ 51 := by
  have ha : (Lit.ofF64 (9 / 32) : Prog (Fixed .checked true W F)) = pure (Fixed.mkv _ (Fixed.fits_aRaw h)) :=
    Fixed.fit_of_fits _
  have near : ∀ {x u : Fixed .checked true W F}, Returns (atanPoly x) u →
      |(u.val : ℝ) / 2 ^ F - atanR (x.val / 2 ^ F)| ≤ 10 / 2 ^ F + 1 / 2 ^ 52 := fun {x u} hu => by
    obtain ⟨c1, c2⟩ := (C105_returns h x _ ha).mp ⟨u, hu⟩
    obtain ⟨v, hv, e⟩ := Fixed.atan_near_poly h x c1 c2
    rwa [hu.unique hv]
  exact Fixed.atan_step hxy (near hu) (near hv)

example := C161_fixed_partial (by decide) (fx .checked true 16 8 100) (fx .checked true 16 8 400) (fx .checked true 16 8 96) (fx .checked true 16 8 256)
  (by decide) (.of_eq (by kernel_rfl)) (.of_eq (by kernel_rfl))

/-- C161 on fixed point in every build, for arguments with 2x² representable. -/
theorem C161_any_build_partial (h : F + 3 ≤ W) (x y : Fixed m true W F) (hxy : x.val ≤ y.val)
    (hx : 2 * (x.val * x.val) ≤ 2 ^ (W - 1) * 2 ^ F) (hy : 2 * (y.val * y.val) ≤ 2 ^ (W - 1) * 2 ^ F) :
    ∃ u v : Fixed m true W F, Returns (atanPoly x) u ∧ Returns (atanPoly y) v ∧
      (u.val:ℝ) / 2 ^ F ≤ v.val / 2 ^ F + 20 / 2 ^ F + 1 / 2 ^ 51 ∧
      (v.val:ℝ) / 2 ^ F - u.val / 2 ^ F ≤ y.val / 2 ^ F - x.val / 2 ^ F +
        (Real.pi / 2 - 64 / 41) * steps (x.val / 2 ^ F) (y.val / 2 ^ F) + 20 / 2 ^ F + 1 / 2 ^ 51 := by
  have near : ∀ x : Fixed m true W F, 2 * (x.val * x.val) ≤ 2 ^ (W - 1) * 2 ^ F → ∃ u, Returns (atanPoly x) u ∧
      |(u.val : ℝ) / 2 ^ F - atanR (x.val / 2 ^ F)| ≤ 10 / 2 ^ F + 1 / 2 ^ 52 := fun x hx => by
    have hP : (1:ℤ) ≤ 2 ^ F := one_le_pow₀ (by norm_num)
    have hW := Fixed.pow_le_of_bits (F := F) (k := 2) (W := W) (by omega)
    obtain ⟨a0, a1⟩ := Fixed.aRaw_bounds F
    refine Fixed.atan_near_poly h x ?_ (.inr ?_)
    · by_contra hc
      have hc := not_lt.mp hc
      have h2 : (2:ℤ) ^ (W - 1) * 2 ^ (W - 1) ≤ |x.val| * |x.val| := mul_self_le_mul_self (by positivity) hc
      rw [abs_mul_abs_self] at h2
      nlinarith
    · have h1 : x.val * x.val / 2 ^ F * 2 ^ F ≤ x.val * x.val := Int.ediv_mul_le _ (by positivity)
      have h2 : 2 * (x.val * x.val / 2 ^ F) ≤ 2 ^ (W - 1) := by
        refine le_of_mul_le_mul_right (a := 2 ^ F) ?_ (by positivity)
        linarith
      linarith
  obtain ⟨u, hu, eu⟩ := near x hx
  obtain ⟨v, hv, ev⟩ := near y hy
  exact ⟨u, v, hu, hv, Fixed.atan_step hxy eu ev⟩

example : (16 + 3 ≤ 32) ∧ (fx .checked true 32 16 (-65537)).val ≤ (fx .checked true 32 16 70000).val ∧
    2 * ((fx .checked true 32 16 70000).val * (fx .checked true 32 16 70000).val) ≤ 2 ^ (32 - 1) * 2 ^ 16 := by decide

end MixedNum
