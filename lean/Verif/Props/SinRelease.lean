import Verif.Props.SinFixed
import Verif.Props.Wrap
import Verif.Props.AddSub
import Verif.Lemmas.Run
/-! # C38 without overflow checks: polynomial sine on fixed point in release builds -/

namespace MixedNum
variable {W F : ℕ}

namespace Fixed

/-- A literal whose lowest set bit is among the integer bits does not wrap to zero. -/
theorem lit_wraps_ne_zero (h : F + 8 ≤ W) {n : ℤ} (hn : ¬ (2:ℤ) ^ 8 ∣ n) :
    ∃ l : Fixed .wrapping true W F, Lit.ofI32 n = pure l ∧ l.val ≠ 0 := by
  refine ⟨_, (ofI32_def _).trans (fit_wrapping _), fun h0 => hn ?_⟩
  rw [mkv_val] at h0
  have h1 := wrapInt_modEq (s := true) (W := W) (by omega) (n * 2 ^ F)
  rw [h0] at h1
  obtain ⟨c, hc⟩ := Int.modEq_zero_iff_dvd.mp h1.symm
  refine ⟨2 ^ (W - F - 8) * c, ?_⟩
  have hP : (2:ℤ) ^ F ≠ 0 := by positivity
  apply mul_right_cancel₀ hP
  rw [hc, show W = F + 8 + (W - F - 8) by omega, pow_add, pow_add, show F + 8 + (W - F - 8) - F - 8 = W - F - 8 by omega]
  ring

theorem div_wrapping_ne {a b : Fixed .wrapping true W F} (hb : b.val ≠ 0) : ∃ c, NumOps.div a b = pure c := by
  rw [div_def, if_neg hb]; exact ⟨_, fit_wrapping _⟩

theorem sinFold_wrapping (h : F + 3 ≤ W) (x : Fixed .wrapping true W F) : ∃ y, sinFold x = pure y := by
  have hh := half_eq (m := .wrapping) (F := F) (W := W) h
  have fw (n : ℤ) : ∃ d : Fixed .wrapping true W F, fit n = pure d := ⟨_, fit_wrapping n⟩
  unfold sinFold
  have assoc : ∀ (g : Fixed .wrapping true W F → Prog (Fixed .wrapping true W F)),
      (do let p ← MixedPi.pi; let two ← Lit.ofI32 2; let ph ← NumOps.div p two; g ph) =
      (do let ph ← (do let p ← MixedPi.pi; let two ← Lit.ofI32 2; NumOps.div p two); g ph) := by
    intro g; simp only [bind_assoc]
  rw [assoc, hh, pure_bind]
  simp only [neg_def, add_def, sub_def, fit_wrapping, pure_bind]
  split_ifs <;> exact ⟨_, rfl⟩

theorem powi_wrapping (x : Fixed .wrapping true W F) (e : ℤ) : ∃ y, MixedPowi.powi x e = pure y := by
  have loop (k : ℕ) : ∀ t : Fixed .wrapping true W F, ∃ y, powiLoop x k t = pure y := by
    induction k with
    | zero => exact fun t => ⟨t, rfl⟩
    | succ k ih =>
      intro t
      rw [powiLoop, mul_def, fit_wrapping, pure_bind]; exact ih _
  show ∃ y, powi x _ = pure y
  unfold powi; split
  · exact ⟨_, fit_wrapping _⟩
  · exact loop _ _

theorem sin_wrapping (h : F + 8 ≤ W) (x : Fixed .wrapping true W F) : ∃ z, sin x = pure z := by
  have fw (n : ℤ) : ∃ d : Fixed .wrapping true W F, fit n = pure d := ⟨_, fit_wrapping n⟩
  obtain ⟨y, hy⟩ := sinFold_wrapping (by omega) x
  obtain ⟨p3, hp3⟩ := powi_wrapping y 3
  obtain ⟨p5, hp5⟩ := powi_wrapping y 5
  obtain ⟨p7, hp7⟩ := powi_wrapping y 7
  obtain ⟨p9, hp9⟩ := powi_wrapping y 9
  obtain ⟨l3, hl3, v3⟩ := lit_wraps_ne_zero h (n := 6) (by norm_num)
  obtain ⟨l5, hl5, v5⟩ := lit_wraps_ne_zero h (n := 120) (by norm_num)
  obtain ⟨l7, hl7, v7⟩ := lit_wraps_ne_zero h (n := 5040) (by norm_num)
  obtain ⟨l9, hl9, v9⟩ := lit_wraps_ne_zero h (n := 362880) (by norm_num)
  obtain ⟨d3, hd3⟩ := div_wrapping_ne (a := p3) v3
  obtain ⟨d5, hd5⟩ := div_wrapping_ne (a := p5) v5
  obtain ⟨d7, hd7⟩ := div_wrapping_ne (a := p7) v7
  obtain ⟨d9, hd9⟩ := div_wrapping_ne (a := p9) v9
  unfold sin
  simp only [hy, pure_bind, hp3, hl3, hd3, hp5, hl5, hd5, hp7, hl7, hd7, hp9, hl9, hd9, add_def, sub_def, fit_wrapping]
  exact ⟨_, rfl⟩

end Fixed

/-- C38 without overflow checks: with at least 8 integer bits (sign included) `sin` and `cos` return on every input. With
fewer, `C38_wrapping_counterexample`: they divide by zero on every input. -/
theorem C38_release_returns (h : F + 8 ≤ W) (x : Fixed .wrapping true W F) :
    (∃ z, Returns (sin x) z) ∧ ∃ z, Returns (cos x) z := by
  constructor
  · obtain ⟨z, hz⟩ := Fixed.sin_wrapping h x
    exact ⟨z, .of_eq hz⟩
  · have assoc : cos x = (do
        let ph ← (do let p ← MixedPi.pi; let two ← Lit.ofI32 2; NumOps.div p two : Prog (Fixed .wrapping true W F))
        let s ← NumOps.add x ph
        let s ← wrapPhase s
        sin s) := by simp only [cos, bind_assoc]
    rw [assoc, Fixed.half_eq (by omega), pure_bind, Fixed.add_def, Fixed.fit_wrapping, pure_bind]
    obtain ⟨-, r, -, -, hr, -⟩ := C32_partial (by omega : F + 3 ≤ W) (Fixed.mkv _ (fits_wrapInt true W (x.val + Fixed.halfRaw F)))
    obtain ⟨z, hz⟩ := Fixed.sin_wrapping h r
    exact ⟨z, hr.bind (.of_eq hz)⟩

example : (∃ z, Returns (sin (fx .wrapping true 32 16 (-100000))) z) ∧ ∃ z, Returns (cos (fx .wrapping true 32 16 (-100000))) z :=
  C38_release_returns (by norm_num) _

namespace Fixed

/-- 9! without overflow checks, with 16 to 19 integer bits. -/
theorem nine_fact_wraps (h : F + 16 ≤ W) (h' : W ≤ F + 19) :
    ∃ (l : Fixed .wrapping true W F) (L : ℤ), Lit.ofI32 362880 = pure l ∧ l.val = L * 2 ^ F ∧ 30336 ≤ |L| := by
  have hW : 0 < W := by omega
  have key (L c : ℤ) (k : ℕ) (hk : W = F + (k + 1)) (e : 362880 - L = 2 ^ (k + 1) * c) (b1 : -(2 ^ k) ≤ L) (b2 : L < 2 ^ k) :
      wrapInt true W (362880 * 2 ^ F) = L * 2 ^ F := by
    have hP : (0:ℤ) < 2 ^ F := by positivity
    refine eq_of_modEq_of_fits hW (fits_wrapInt ..) ?_ ((wrapInt_modEq hW _).trans ?_)
    · rw [fits_signed, hk, show F + (k + 1) - 1 = k + F by omega, pow_add]
      constructor <;> nlinarith
    · refine (Int.modEq_iff_dvd.mpr ⟨c, ?_⟩).symm
      rw [hk, pow_add]
      linear_combination 2 ^ F * e
  have hl : (Lit.ofI32 362880 : Prog (Fixed .wrapping true W F)) = pure (mkv _ (fits_wrapInt true W (362880 * 2 ^ F))) :=
    (ofI32_def _).trans (fit_wrapping _)
  obtain h | h | h | h : W = F + (15 + 1) ∨ W = F + (16 + 1) ∨ W = F + (17 + 1) ∨ W = F + (18 + 1) := by omega
  · exact ⟨_, -30336, hl, key _ 6 15 h (by norm_num) (by norm_num) (by norm_num), by norm_num⟩
  · exact ⟨_, -30336, hl, key _ 3 16 h (by norm_num) (by norm_num) (by norm_num), by norm_num⟩
  · exact ⟨_, 100736, hl, key _ 1 17 h (by norm_num) (by norm_num) (by norm_num), by norm_num⟩
  · exact ⟨_, -161408, hl, key _ 1 18 h (by norm_num) (by norm_num) (by norm_num), by norm_num⟩

/-- The polynomial with the wrapped 9!. -/
theorem poly_near_release (h : F + 16 ≤ W) (h' : W ≤ F + 19) {y : Fixed .wrapping true W F} (hy2 : |y.r| ≤ 1.579)
    (x : Fixed .wrapping true W F) (hfold : sinFold x = pure y) :
    ∃ z, sin x = pure z ∧ |z.r - sinT 5 y.r| ≤ 219 / 100000 + 4.7 * u F := by
  have hK : F + 15 + 1 ≤ W := h
  have hu := u_pos F; have hu1 := u_le_one F
  set t := y.r with ht
  have hy : |t| ≤ 2 := hy2.trans (by norm_num)
  have pw : ∀ n : ℕ, |t ^ n| ≤ 2 ^ n := fun n => by rw [abs_pow]; exact pow_le_pow_left₀ (abs_nonneg _) hy n
  have b1 := pw 1; have b3 := pw 3; have b5 := pw 5; have b7 := pw 7
  have b9 : |t ^ 9| ≤ 61.1 := by
    rw [abs_pow]; exact (pow_le_pow_left₀ (abs_nonneg _) hy2 9).trans (by norm_num)
  rw [pow_one] at b1
  norm_num at b1 b3 b5 b7
  obtain ⟨p3, hp3, e3⟩ := powi_near hK hy 3 (by norm_num) (by norm_num) (by norm_num)
  obtain ⟨p5, hp5, e5⟩ := powi_near hK hy 5 (by norm_num) (by norm_num) (by norm_num)
  obtain ⟨p7, hp7, e7⟩ := powi_near hK hy 7 (by norm_num) (by norm_num) (by norm_num)
  obtain ⟨p9, hp9, e9⟩ := powi_near hK hy 9 (by norm_num) (by norm_num) (by norm_num)
  rw [← ht] at e3 e5 e7 e9
  simp only [Nat.cast_ofNat] at hp3 hp5 hp7 hp9
  norm_num at e3 e5 e7 e9
  obtain ⟨l3, hl3, -, v3⟩ := ofI32_exact (m := .wrapping) hK 6 (by norm_num)
  obtain ⟨l5, hl5, -, v5⟩ := ofI32_exact (m := .wrapping) hK 120 (by norm_num)
  obtain ⟨l7, hl7, -, v7⟩ := ofI32_exact (m := .wrapping) hK 5040 (by norm_num)
  obtain ⟨l9, L, hl9, v9, hL⟩ := nine_fact_wraps h h'
  obtain ⟨d3, hd3, f3⟩ := div_lit_near hK (by norm_num) v3 e3 (by rw [abs_pow] at *; push_cast; norm_num; linarith)
  obtain ⟨d5, hd5, f5⟩ := div_lit_near hK (by norm_num) v5 e5 (by rw [abs_pow] at *; push_cast; norm_num; linarith)
  obtain ⟨d7, hd7, f7⟩ := div_lit_near hK (by norm_num) v7 e7 (by rw [abs_pow] at *; push_cast; norm_num; linarith)
  push_cast at f3 f5 f7
  have hLr : (30336:ℝ) ≤ |(L:ℝ)| := by exact_mod_cast hL
  have lr : l9.r = L := by rw [r_eq, v9]; push_cast; rw [mul_assoc, pow_mul_u, mul_one]
  have q9 : |p9.r / l9.r| ≤ 61.1 / 30336 + 255 / 30336 * u F := by
    rw [lr, abs_div, div_le_iff₀ (by linarith)]
    have : |p9.r| ≤ 61.1 + 255 * u F := by
      calc |p9.r| = |t ^ 9 + (p9.r - t ^ 9)| := by congr 1; ring
        _ ≤ _ := (abs_add_le _ _).trans (add_le_add b9 e9)
    refine this.trans ?_
    calc 61.1 + 255 * u F = (61.1 / 30336 + 255 / 30336 * u F) * 30336 := by ring
      _ ≤ _ := mul_le_mul_of_nonneg_left hLr (by positivity)
  have hl0 : l9.val ≠ 0 := by
    rw [v9]; refine mul_ne_zero ?_ (by positivity)
    rintro rfl; norm_num at hL
  obtain ⟨d9, hd9, g9⟩ := div_exact hK (a := p9) (b := l9) hl0 (by norm_num at q9 ⊢; linarith)
  have a9 : |t ^ 9 / 362880| ≤ 61.1 / 362880 := by
    rw [abs_div, abs_of_pos (show (0:ℝ) < 362880 by norm_num)]; exact div_le_div_of_nonneg_right b9 (by norm_num)
  have f9 : |d9.r - t ^ 9 / 362880| ≤ 219 / 100000 + 1.01 * u F := by
    calc |d9.r - t ^ 9 / 362880| = |(d9.r - p9.r / l9.r) + p9.r / l9.r - t ^ 9 / 362880| := by congr 1; ring
      _ ≤ |d9.r - p9.r / l9.r| + |p9.r / l9.r| + |t ^ 9 / 362880| :=
        (abs_sub _ _).trans (add_le_add (abs_add_le _ _) le_rfl)
      _ ≤ _ := by norm_num at q9 a9 ⊢; linarith
  have g0 : |y.r - t| ≤ 0 := by simp [ht]
  have a3 : |t ^ 3 / 6| ≤ 2 := by rw [abs_div, abs_pow, abs_of_pos (show (0:ℝ) < 6 by norm_num)]; linarith
  have a5 : |t ^ 5 / 120| ≤ 2 := by rw [abs_div, abs_pow, abs_of_pos (show (0:ℝ) < 120 by norm_num)]; linarith
  have a7 : |t ^ 7 / 5040| ≤ 2 := by rw [abs_div, abs_pow, abs_of_pos (show (0:ℝ) < 5040 by norm_num)]; linarith
  have a9' : |t ^ 9 / 362880| ≤ 2 := a9.trans (by norm_num)
  have c1 : |t - t ^ 3 / 6| ≤ 4 := (abs_sub _ _).trans (by linarith)
  have c2 : |t - t ^ 3 / 6 + t ^ 5 / 120| ≤ 6 := (abs_add_le _ _).trans (by linarith)
  have c3 : |t - t ^ 3 / 6 + t ^ 5 / 120 - t ^ 7 / 5040| ≤ 8 := (abs_sub _ _).trans (by linarith)
  have c4 : |t - t ^ 3 / 6 + t ^ 5 / 120 - t ^ 7 / 5040 + t ^ 9 / 362880| ≤ 10 := (abs_add_le _ _).trans (by linarith)
  obtain ⟨s1, hs1, k1⟩ := sub_near hK g0 f3 (by norm_num; linarith)
  obtain ⟨s2, hs2, k2⟩ := add_near hK k1 f5 (by norm_num; linarith)
  obtain ⟨s3, hs3, k3⟩ := sub_near hK k2 f7 (by norm_num; linarith)
  obtain ⟨s4, hs4, k4⟩ := add_near hK k3 f9 (by norm_num; linarith)
  refine ⟨s4, ?_, ?_⟩
  · unfold sin
    simp only [hfold, pure_bind, hp3, hl3, hd3, hs1, hp5, hl5, hd5, hs2, hp7, hl7, hd7, hs3, hp9, hl9, hd9, hs4]
  · rw [sinT_five]; refine k4.trans ?_; linarith

end Fixed

/-- C38 without overflow checks, accuracy: with 16 to 19 integer bits 9! wraps to another number, which spoils the last term
of the polynomial. From -π to π of the type `sin` is within 0.0023 plus 7 units in the last place of the sine. -/
theorem C38_release_accuracy (h : F + 16 ≤ W) (h' : W ≤ F + 19) (hF : 5 ≤ F) (x p : Fixed .wrapping true W F)
    (hp : (MixedPi.pi : Prog (Fixed .wrapping true W F)) = pure p) (hx : |x.val| ≤ p.val + 1) :
    ∃ z : Fixed .wrapping true W F, Returns (sin x) z ∧
      |(z.val : ℝ) / 2 ^ F - Real.sin (x.val / 2 ^ F)| ≤ 23 / 10000 + 7 / 2 ^ F := by
  have hpv : p.val = Fixed.piRaw F := by
    rw [Fixed.pi_def (by omega)] at hp; rw [← Prog.pure_inj hp]; rfl
  rw [hpv] at hx
  obtain ⟨y, hy, hcase⟩ := Fixed.sinFold_eq (by omega) x hx
  obtain ⟨b1, b2⟩ := Fixed.fold_small hx hcase
  obtain ⟨z, hz, e1⟩ := Fixed.poly_near_release h h' (b2 hF) x hy
  have e2 := Fixed.taylor_small b1 b2
  have e3 := Fixed.sin_fold_close hcase
  refine ⟨z, .of_eq hz, ?_⟩
  have hu := Fixed.u_pos F
  have e : ∀ w : Fixed .wrapping true W F, (w.val : ℝ) / 2 ^ F = w.r := fun w => rfl
  rw [e, e, show (7:ℝ) / 2 ^ F = 7 * Fixed.u F by unfold Fixed.u; ring]
  calc |z.r - Real.sin x.r|
      = |(z.r - sinT 5 y.r) + (sinT 5 y.r - Real.sin y.r) + (Real.sin y.r - Real.sin x.r)| := by congr 1; ring
    _ ≤ _ := (abs_add_le _ _).trans (add_le_add (abs_add_le _ _) le_rfl)
    _ ≤ _ := by norm_num at e1 e2 e3 ⊢; linarith

example := C38_release_accuracy (by decide) (by decide) (by decide) (fx .wrapping true 32 16 300) (fx .wrapping true 32 16 205887) (by kernel_rfl) (by decide)

/-- Reading off a result that is known to be straight-line. -/
theorem Fixed.returns_of_run {p : Prog (Fixed .wrapping true W F)} {z : Fixed .wrapping true W F} (h : ∃ y, p = pure y)
    (hz : (match p 0 with | .ok y => decide (y = z) | _ => false) = true) : Returns p z := by
  obtain ⟨y, rfl⟩ := h
  have : y = z := of_decide_eq_true hz
  exact .of_eq (by rw [this])

/-- C38 without overflow checks: the sine of the number nearest to π/2 is 0.998 with 16 integer and 16 fraction bits, 1.024
with 14 and 18, and 0.848 with 8 and 8. -/
theorem C38_release_counterexample :
    Returns (sin (fx .wrapping true 32 16 102944)) (fx .wrapping true 32 16 65402) ∧
    Returns (sin (fx .wrapping true 32 18 411775)) (fx .wrapping true 32 18 268378) ∧
    Returns (sin (fx .wrapping true 16 8 402)) (fx .wrapping true 16 8 217) := by
  refine ⟨Fixed.returns_of_run (Fixed.sin_wrapping (by norm_num) _) ?_, Fixed.returns_of_run (Fixed.sin_wrapping (by norm_num) _) ?_,
    Fixed.returns_of_run (Fixed.sin_wrapping (by norm_num) _) ?_⟩ <;> decide +kernel

example : (fx .wrapping true 16 8 402).val = 402 ∧ (fx .wrapping true 16 8 217).val = 217 ∧
    (fx .wrapping true 32 18 268378).val = 268378 ∧ (2:ℤ) ^ 18 < 268378 := by decide +kernel

end MixedNum
