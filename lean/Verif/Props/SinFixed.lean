import Mathlib.Analysis.SpecialFunctions.Trigonometric.Bounds
import Verif.Lemmas.HalfPi
import Verif.Props.Trig
import Verif.Props.TrigFixed
import Verif.Props.AddSub
import Verif.Lemmas.Run
/-! # C38, C39: polynomial sine and cosine on fixed point with enough integer bits -/

namespace MixedNum
namespace Fixed
variable {m : Mode} {W F : ℕ}

theorem fits_small (h : F + 6 ≤ W) {n : ℤ} (h1 : -(16 * 2 ^ F) ≤ n) (h2 : n ≤ 16 * 2 ^ F) : Fits true W n := by
  have h3 := pow_le_of_bits (k := 5) (show F + 5 + 1 ≤ W by omega)
  have : (0:ℤ) < 2 ^ F := by positivity
  rw [fits_signed]; constructor <;> norm_num at h3 <;> linarith

/-- Folding on fixed point, for arguments up to one unit beyond ±π. -/
theorem sinFold_eq (h : F + 6 ≤ W) (x : Fixed m true W F) (hx : |x.val| ≤ piRaw F + 1) :
    ∃ y : Fixed m true W F, sinFold x = pure y ∧
      ((y.val = x.val ∧ |x.val| ≤ halfRaw F) ∨ (y.val = 2 * halfRaw F - x.val ∧ halfRaw F < x.val) ∨
       (y.val = -(2 * halfRaw F) - x.val ∧ x.val < -halfRaw F)) := by
  have hh := half_eq (m := m) (F := F) (W := W) (by omega)
  have hb := halfRaw_bounds F
  have hb' := piRaw_bounds F
  have hp : (0:ℤ) < 2 ^ F := by positivity
  have hx' := abs_le.mp hx
  unfold sinFold
  have assoc : ∀ (g : Fixed m true W F → Prog (Fixed m true W F)),
      (do let p ← MixedPi.pi; let two ← Lit.ofI32 2; let ph ← NumOps.div p two; g ph) =
      (do let ph ← (do let p ← MixedPi.pi; let two ← Lit.ofI32 2; NumOps.div p two); g ph) := by
    intro g; simp only [bind_assoc]
  obtain ⟨ph, hph, hv⟩ : ∃ ph : Fixed m true W F,
      (do let p ← MixedPi.pi; let two ← Lit.ofI32 2; NumOps.div p two) = pure ph ∧ ph.val = halfRaw F := ⟨_, hh, rfl⟩
  obtain ⟨nh, hn, hnv⟩ : ∃ nh : Fixed m true W F, MixedNumSigned.neg ph = pure nh ∧ nh.val = -halfRaw F := by
    rw [neg_def, hv]; exact ⟨_, fit_of_fits (fits_small h (by omega) (by omega)), rfl⟩
  simp only [assoc, hph, pure_bind, hn, lt_def, add_def, sub_def]
  by_cases h1 : x.val < nh.val
  · rw [if_pos (decide_eq_true h1), fit_of_fits (fits_small h (n := x.val + ph.val) (by omega) (by omega)), pure_bind]
    exact ⟨_, fit_of_fits (fits_small h (n := nh.val - (x.val + ph.val)) (by omega) (by omega)),
      .inr (.inr ⟨by rw [mkv_val, hnv, hv]; ring, by omega⟩)⟩
  · rw [if_neg (by simpa using h1)]
    by_cases h2 : ph.val < x.val
    · rw [if_pos (decide_eq_true h2), fit_of_fits (fits_small h (n := x.val - ph.val) (by omega) (by omega)), pure_bind]
      exact ⟨_, fit_of_fits (fits_small h (n := ph.val - (x.val - ph.val)) (by omega) (by omega)),
        .inr (.inl ⟨by rw [mkv_val, hv]; ring, by omega⟩)⟩
    · rw [if_neg (by simpa using h2)]
      exact ⟨x, rfl, .inl ⟨rfl, abs_le.mpr ⟨by omega, by omega⟩⟩⟩

/-- The folded argument is below 2, and (off the coarsest types) close to π/2 or below. -/
theorem fold_small {x y : Fixed m true W F} (hx : |x.val| ≤ piRaw F + 1)
    (hy : (y.val = x.val ∧ |x.val| ≤ halfRaw F) ∨ (y.val = 2 * halfRaw F - x.val ∧ halfRaw F < x.val) ∨
       (y.val = -(2 * halfRaw F) - x.val ∧ x.val < -halfRaw F)) :
    |y.r| ≤ 2 ∧ (5 ≤ F → |y.r| ≤ 1.579) := by
  have hb := halfRaw_bounds F
  have hb' := piRaw_bounds F
  have hp : (1:ℤ) ≤ 2 ^ F := one_le_pow₀ (by norm_num)
  have hu := u_pos F; have hpu := pow_mul_u F
  have hx' := abs_le.mp hx
  have key : |y.val| ≤ max (halfRaw F) 2 := by
    rcases hy with ⟨e, h⟩ | ⟨e, h⟩ | ⟨e, h⟩
    · rw [e]; exact h.trans (le_max_left _ _)
    · rw [e, abs_le]; omega
    · rw [e, abs_le]; omega
  have hr : |y.r| = |(y.val : ℝ)| * u F := by rw [r_eq, abs_mul, abs_of_pos hu]
  constructor
  · have : |y.val| ≤ 2 * 2 ^ F := key.trans (by omega)
    have : |(y.val : ℝ)| ≤ 2 * 2 ^ F := by exact_mod_cast this
    rw [hr]; nlinarith
  · intro hF
    have h32 : (32:ℤ) ≤ 2 ^ F := by
      calc (32:ℤ) = 2 ^ 5 := by norm_num
        _ ≤ 2 ^ F := pow_le_pow_right₀ (by norm_num) hF
    have : |y.val| ≤ halfRaw F := key.trans (by omega)
    have : 2 * |y.val| ≤ piRaw F := by omega
    have h1 : 2 * |(y.val : ℝ)| ≤ piRaw F := by exact_mod_cast this
    have h2 := (abs_le.mp (pi_close F)).2
    have hu32 : u F ≤ 1 / 32 := by
      have : (32:ℝ) ≤ 2 ^ F := by exact_mod_cast h32
      nlinarith
    have h3 := Real.pi_lt_d4
    rw [hr]
    have := mul_le_mul_of_nonneg_right h1 hu.le
    norm_num at h2 h3 ⊢; linarith

/-- The Taylor error at the folded argument. -/
theorem taylor_small {t : ℝ} (h1 : |t| ≤ 2) (h2 : 5 ≤ F → |t| ≤ 1.579) :
    |sinT 5 t - Real.sin t| ≤ 3.9 / 1000000 + u F / 100 := by
  refine (abs_sinT_five_sub t).trans ?_
  have hu := u_pos F
  by_cases hF : 5 ≤ F
  · have := pow_le_pow_left₀ (abs_nonneg t) (h2 hF) 11
    norm_num at this ⊢; linarith
  · have := pow_le_pow_left₀ (abs_nonneg t) h1 11
    have hu16 : 1 / 16 ≤ u F := by
      unfold u
      refine one_div_le_one_div_of_le (by positivity) ?_
      calc (2:ℝ) ^ F ≤ 2 ^ 4 := pow_le_pow_right₀ (by norm_num) (by omega)
        _ = 16 := by norm_num
    norm_num at this ⊢; linarith

/-- The sine of the folded argument. -/
theorem sin_fold_close {x y : Fixed m true W F}
    (hy : (y.val = x.val ∧ |x.val| ≤ halfRaw F) ∨ (y.val = 2 * halfRaw F - x.val ∧ halfRaw F < x.val) ∨
       (y.val = -(2 * halfRaw F) - x.val ∧ x.val < -halfRaw F)) :
    |Real.sin y.r - Real.sin x.r| ≤ 3 / 2 * u F + 1 / 2 ^ 52 := by
  have hc := half_close F
  have hu := u_pos F
  rcases hy with ⟨e, -⟩ | ⟨e, -⟩ | ⟨e, -⟩
  · have : y.r = x.r := by rw [r_eq, r_eq, e]
    rw [this, sub_self, abs_zero]; positivity
  · have hr : y.r = 2 * halfRaw F * u F - x.r := by rw [r_eq, r_eq, e]; push_cast; ring
    rw [← Real.sin_pi_sub x.r]
    refine (Real.abs_sin_sub_sin_le _ _).trans ?_
    rw [hr, show 2 * (halfRaw F : ℝ) * u F - x.r - (Real.pi - x.r) = 2 * halfRaw F * u F - Real.pi by ring]; exact hc
  · have hr : y.r = -(2 * halfRaw F * u F) - x.r := by rw [r_eq, r_eq, e]; push_cast; ring
    have : Real.sin x.r = Real.sin (-Real.pi - x.r) := by
      rw [show -Real.pi - x.r = -(x.r + Real.pi) by ring, Real.sin_neg, Real.sin_add_pi, neg_neg]
    rw [this]
    refine (Real.abs_sin_sub_sin_le _ _).trans ?_
    rw [hr, show -(2 * (halfRaw F : ℝ) * u F) - x.r - (-Real.pi - x.r) = -(2 * halfRaw F * u F - Real.pi) by ring,
      abs_neg]; exact hc

/-- The polynomial. -/
theorem poly_near (h : F + 20 ≤ W) {y : Fixed m true W F} (hy : |y.r| ≤ 2) (x : Fixed m true W F)
    (hfold : sinFold x = pure y) : ∃ z, sin x = pure z ∧ |z.r - sinT 5 y.r| ≤ 4.7 * u F := by
  have hK : F + 19 + 1 ≤ W := h
  have hu := u_pos F; have hu1 := u_le_one F
  set t := y.r with ht
  have pw : ∀ n : ℕ, |t ^ n| ≤ 2 ^ n := fun n => by rw [abs_pow]; exact pow_le_pow_left₀ (abs_nonneg _) hy n
  have b1 := pw 1; have b3 := pw 3; have b5 := pw 5; have b7 := pw 7; have b9 := pw 9
  rw [pow_one] at b1
  norm_num at b1 b3 b5 b7 b9
  obtain ⟨p3, hp3, e3⟩ := powi_near hK hy 3 (by norm_num) (by norm_num) (by norm_num)
  obtain ⟨p5, hp5, e5⟩ := powi_near hK hy 5 (by norm_num) (by norm_num) (by norm_num)
  obtain ⟨p7, hp7, e7⟩ := powi_near hK hy 7 (by norm_num) (by norm_num) (by norm_num)
  obtain ⟨p9, hp9, e9⟩ := powi_near hK hy 9 (by norm_num) (by norm_num) (by norm_num)
  rw [← ht] at e3 e5 e7 e9
  simp only [Nat.cast_ofNat] at hp3 hp5 hp7 hp9
  norm_num at e3 e5 e7 e9
  obtain ⟨l3, hl3, -, v3⟩ := ofI32_exact (m := m) hK 6 (by norm_num)
  obtain ⟨l5, hl5, -, v5⟩ := ofI32_exact (m := m) hK 120 (by norm_num)
  obtain ⟨l7, hl7, -, v7⟩ := ofI32_exact (m := m) hK 5040 (by norm_num)
  obtain ⟨l9, hl9, -, v9⟩ := ofI32_exact (m := m) hK 362880 (by norm_num)
  obtain ⟨d3, hd3, f3⟩ := div_lit_near hK (by norm_num) v3 e3 (by rw [abs_pow] at *; push_cast; norm_num; linarith)
  obtain ⟨d5, hd5, f5⟩ := div_lit_near hK (by norm_num) v5 e5 (by rw [abs_pow] at *; push_cast; norm_num; linarith)
  obtain ⟨d7, hd7, f7⟩ := div_lit_near hK (by norm_num) v7 e7 (by rw [abs_pow] at *; push_cast; norm_num; linarith)
  obtain ⟨d9, hd9, f9⟩ := div_lit_near hK (by norm_num) v9 e9 (by rw [abs_pow] at *; push_cast; norm_num; linarith)
  push_cast at f3 f5 f7 f9
  have g0 : |y.r - t| ≤ 0 := by simp [ht]
  have a3 : |t ^ 3 / 6| ≤ 2 := by rw [abs_div, abs_pow, abs_of_pos (show (0:ℝ) < 6 by norm_num)]; linarith
  have a5 : |t ^ 5 / 120| ≤ 2 := by rw [abs_div, abs_pow, abs_of_pos (show (0:ℝ) < 120 by norm_num)]; linarith
  have a7 : |t ^ 7 / 5040| ≤ 2 := by rw [abs_div, abs_pow, abs_of_pos (show (0:ℝ) < 5040 by norm_num)]; linarith
  have a9 : |t ^ 9 / 362880| ≤ 2 := by rw [abs_div, abs_pow, abs_of_pos (show (0:ℝ) < 362880 by norm_num)]; linarith
  have c1 : |t - t ^ 3 / 6| ≤ 4 := (abs_sub _ _).trans (by linarith)
  have c2 : |t - t ^ 3 / 6 + t ^ 5 / 120| ≤ 6 := (abs_add_le _ _).trans (by linarith)
  have c3 : |t - t ^ 3 / 6 + t ^ 5 / 120 - t ^ 7 / 5040| ≤ 8 := (abs_sub _ _).trans (by linarith)
  have c4 : |t - t ^ 3 / 6 + t ^ 5 / 120 - t ^ 7 / 5040 + t ^ 9 / 362880| ≤ 10 := (abs_add_le _ _).trans (by linarith)
  obtain ⟨s1, hs1, k1⟩ := sub_near hK g0 f3 (by norm_num; linarith)
  obtain ⟨s2, hs2, k2⟩ := add_near hK k1 f5 (by norm_num; linarith)
  obtain ⟨s3, hs3, k3⟩ := sub_near hK k2 f7 (by norm_num; linarith)
  obtain ⟨s4, hs4, k4⟩ := add_near hK k3 f9 (by norm_num; linarith)
  refine ⟨s4, ?_, ?_⟩
  · unfold sin
    simp only [hfold, pure_bind, hp3, hl3, hd3, hs1, hp5, hl5, hd5, hs2, hp7, hl7, hd7, hs3, hp9, hl9, hd9, hs4]
  · rw [sinT_five]; refine k4.trans ?_; linarith

/-- Accuracy of the sine with slack in the constant term. -/
theorem sin_accuracy (h : F + 20 ≤ W) (x : Fixed m true W F) (hx : |x.val| ≤ piRaw F + 1) :
    ∃ z, sin x = pure z ∧ |z.r - Real.sin x.r| ≤ 3.9 / 1000000 + 6.3 * u F + 1 / 2 ^ 52 := by
  obtain ⟨y, hy, hcase⟩ := sinFold_eq (by omega) x hx
  obtain ⟨b1, b2⟩ := fold_small hx hcase
  obtain ⟨z, hz, e1⟩ := poly_near h b1 x hy
  have e2 := taylor_small b1 b2
  have e3 := sin_fold_close hcase
  refine ⟨z, hz, ?_⟩
  have hu := u_pos F
  calc |z.r - Real.sin x.r|
      = |(z.r - sinT 5 y.r) + (sinT 5 y.r - Real.sin y.r) + (Real.sin y.r - Real.sin x.r)| := by congr 1; ring
    _ ≤ _ := (abs_add_le _ _).trans (add_le_add (abs_add_le _ _) le_rfl)
    _ ≤ _ := by linarith

end Fixed

variable {m : Mode} {W F : ℕ}

/-! ## C39 -/

/-- C39: on signed types with at least 20 integer bits (sign included), from -π to π of the type (and one unit beyond),
`sin` returns and is within 4e-6 plus 7 units in the last place of the sine. -/
theorem C39_sin (h : F + 20 ≤ W) (x p : Fixed m true W F) (hp : (MixedPi.pi : Prog (Fixed m true W F)) = pure p)
    (hx : |x.val| ≤ p.val + 1) :
    ∃ z : Fixed m true W F, Returns (sin x) z ∧
      |(z.val : ℝ) / 2 ^ F - Real.sin (x.val / 2 ^ F)| ≤ 4 / 1000000 + 7 / 2 ^ F := by
  have hpv : p.val = Fixed.piRaw F := by
    rw [Fixed.pi_def (by omega)] at hp; rw [← Prog.pure_inj hp]; rfl
  obtain ⟨z, hz, e⟩ := Fixed.sin_accuracy h x (by rw [← hpv]; exact hx)
  refine ⟨z, .of_eq hz, e.trans ?_⟩
  have hu := Fixed.u_pos F
  rw [show (7:ℝ) / 2 ^ F = 7 * Fixed.u F by unfold Fixed.u; ring]
  norm_num; linarith

example := C39_sin (by decide) (fx .checked true 32 8 300) (fx .checked true 32 8 804) (by kernel_rfl) (by decide)

theorem le_piRaw_of_le_pi (hF : F ≤ 51) {n : ℤ} (h : |(n:ℝ) / 2 ^ F| ≤ Real.pi) : |n| ≤ Fixed.piRaw F + 1 := by
  have hp : (0:ℝ) < 2 ^ F := by positivity
  have h1 := (abs_le.mp (Fixed.pi_close F)).1
  have hu := Fixed.u_pos F; have hpu := Fixed.pow_mul_u F
  have h2 : |(n:ℝ)| * Fixed.u F ≤ Real.pi := by
    rw [abs_div, abs_of_pos hp] at h; unfold Fixed.u; rw [mul_one_div]; exact h
  have h3 : 1 / 2 ^ 52 ≤ Fixed.u F / 2 := by
    unfold Fixed.u
    rw [div_div, ← pow_succ]
    exact one_div_le_one_div_of_le (by positivity) (pow_le_pow_right₀ (by norm_num) (by omega))
  have h4 : |(n:ℝ)| * Fixed.u F ≤ (Fixed.piRaw F + 1) * Fixed.u F := by linarith
  have h5 := le_of_mul_le_mul_right h4 hu
  exact_mod_cast h5

/-- C39, with the interval given by the real number π (types of at most 51 fraction bits). -/
theorem C39_sin_real (h : F + 20 ≤ W) (hF : F ≤ 51) (x : Fixed m true W F) (hx : |(x.val : ℝ) / 2 ^ F| ≤ Real.pi) :
    ∃ z : Fixed m true W F, Returns (sin x) z ∧
      |(z.val : ℝ) / 2 ^ F - Real.sin (x.val / 2 ^ F)| ≤ 4 / 1000000 + 7 / 2 ^ F :=
  C39_sin h x _ (Fixed.pi_def (by omega)) (le_piRaw_of_le_pi hF hx)

example := C39_sin_real (by decide) (by decide) (fx .checked true 32 8 700) (by
  show |((700 : ℤ) : ℝ) / 2 ^ 8| ≤ Real.pi; rw [abs_of_nonneg (by norm_num)]; push_cast; linarith [Real.pi_gt_three])

/-- C39, cosine: from -π to π of the type, within 4e-6 plus 9 units in the last place. -/
theorem C39_cos (h : F + 20 ≤ W) (x p : Fixed m true W F) (hp : (MixedPi.pi : Prog (Fixed m true W F)) = pure p)
    (hx : |x.val| ≤ p.val) :
    ∃ z : Fixed m true W F, Returns (cos x) z ∧
      |(z.val : ℝ) / 2 ^ F - Real.cos (x.val / 2 ^ F)| ≤ 4 / 1000000 + 9 / 2 ^ F := by
  have hpv : p.val = Fixed.piRaw F := by
    rw [Fixed.pi_def (by omega)] at hp; rw [← Prog.pure_inj hp]; rfl
  rw [hpv] at hx
  have hb := Fixed.halfRaw_bounds F; have hb' := Fixed.piRaw_bounds F
  have h2F : (0:ℤ) < 2 ^ F := by positivity
  have hx' := abs_le.mp hx
  have hu := Fixed.u_pos F; have hpu := Fixed.pow_mul_u F
  -- the shifted argument
  have hfit : Fits true W (x.val + Fixed.halfRaw F) := Fixed.fits_small (F := F) (by omega) (by omega) (by omega)
  set q : Fixed m true W F := Fixed.mkv (x.val + Fixed.halfRaw F) hfit with hq
  set E := Fixed.wrapExact (m := m) (F := F) (W := W) (by omega) (fun _ => by omega) with hE
  obtain ⟨w, hw, w1, w2, k, hk⟩ := E.spec q
  have hw1 : -((Fixed.piRaw F : ℤ) : ℝ) ≤ w.val := by simpa [hE, Fixed.wrapExact] using w1
  have hw2 : (w.val : ℝ) < (Fixed.piRaw F : ℤ) := by simpa [hE, Fixed.wrapExact] using w2
  have hk' : (w.val : ℝ) = ((x.val + Fixed.halfRaw F : ℤ) : ℝ) + k * (2 * (Fixed.piRaw F : ℤ)) := by
    simpa [hE, Fixed.wrapExact, hq] using hk
  have hw1' : -Fixed.piRaw F ≤ w.val := by exact_mod_cast hw1
  have hw2' : w.val < Fixed.piRaw F := by exact_mod_cast hw2
  have hkZ : w.val = x.val + Fixed.halfRaw F + k * (2 * Fixed.piRaw F) := by exact_mod_cast hk'
  have hk1 : k = 0 ∨ k = -1 := by
    have hpos : 0 < 2 * Fixed.piRaw F := by omega
    have a : k < 1 := by
      by_contra hc
      have : 1 * (2 * Fixed.piRaw F) ≤ k * (2 * Fixed.piRaw F) := mul_le_mul_of_nonneg_right (by omega) hpos.le
      omega
    have b : -2 < k := by
      by_contra hc
      have : k * (2 * Fixed.piRaw F) ≤ -2 * (2 * Fixed.piRaw F) := mul_le_mul_of_nonneg_right (by omega) hpos.le
      omega
    omega
  obtain ⟨z, hz, e⟩ := Fixed.sin_accuracy h w (abs_le.mpr ⟨by omega, by omega⟩)
  refine ⟨z, ?_, ?_⟩
  · unfold cos
    have assoc : ∀ (g : Fixed m true W F → Prog (Fixed m true W F)),
        (do let p ← MixedPi.pi; let two ← Lit.ofI32 2; let ph ← NumOps.div p two; g ph) =
        (do let ph ← (do let p ← MixedPi.pi; let two ← Lit.ofI32 2; NumOps.div p two); g ph) := by
      intro g; simp only [bind_assoc]
    rw [assoc, Fixed.half_eq (by omega), pure_bind, Fixed.add_def, Fixed.mkv_val, Fixed.fit_of_fits hfit, pure_bind]
    exact hw.bind (.of_eq hz)
  · have hpc := abs_le.mp (Fixed.pi_close F)
    have hhc := abs_le.mp (Fixed.half_close F)
    have hwr : w.r = x.r + Fixed.halfRaw F * Fixed.u F + k * (2 * Fixed.piRaw F) * Fixed.u F := by
      rw [Fixed.r_eq, Fixed.r_eq, hkZ]; push_cast; ring
    have hcos : Real.cos x.r = Real.sin (x.r + Real.pi / 2 + k * (2 * Real.pi)) := by
      rw [Real.sin_add_int_mul_two_pi, Real.sin_add_pi_div_two]
    have hsc : |Real.sin w.r - Real.cos x.r| ≤ 7 / 4 * Fixed.u F + 3 / 2 ^ 52 := by
      rw [hcos]
      refine (Real.abs_sin_sub_sin_le _ _).trans ?_
      rw [hwr, abs_le]
      rcases hk1 with rfl | rfl <;> push_cast <;> norm_num at hpc hhc ⊢ <;> constructor <;> linarith
    have hfin : |z.r - Real.cos x.r| ≤ 4 / 1000000 + 9 * Fixed.u F := by
      calc |z.r - Real.cos x.r| = |(z.r - Real.sin w.r) + (Real.sin w.r - Real.cos x.r)| := by congr 1; ring
        _ ≤ _ := abs_add_le _ _
        _ ≤ _ := by norm_num at e hsc ⊢; linarith
    rw [show (9:ℝ) / 2 ^ F = 9 * Fixed.u F by unfold Fixed.u; ring]
    exact hfin

example : (12 + 20 ≤ 32) ∧ |(fx .checked true 32 12 (-9000)).val| ≤ Fixed.piRaw 12 + 1 := by
  unfold Fixed.piRaw; rw [Fixed.piLit_eq]; decide +kernel

/-- C38, the part that holds: types with at least 20 integer bits. Missing for the full statement: types with fewer,
where it is false in checked builds. -/
theorem C38_sin_partial (h : F + 20 ≤ W) (x p : Fixed m true W F)
    (hp : (MixedPi.pi : Prog (Fixed m true W F)) = pure p) (hx : |x.val| ≤ p.val) :
    (∃ z : Fixed m true W F, Returns (sin x) z) ∧ ∃ z : Fixed m true W F, Returns (cos x) z := by
  obtain ⟨z, hz, _⟩ := C39_sin h x p hp (by omega)
  obtain ⟨w, hw, _⟩ := C39_cos h x p hp hx
  exact ⟨⟨z, hz⟩, ⟨w, hw⟩⟩

example := C38_sin_partial (by decide) (fx .checked true 32 8 300) (fx .checked true 32 8 804) (by kernel_rfl) (by decide)

end MixedNum
