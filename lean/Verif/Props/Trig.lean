import Verif.Lemmas.Taylor
import Verif.Lemmas.WrapInst
import Verif.Lemmas.Real
import Mathlib.Analysis.Real.Pi.Bounds
import Verif.Props.AddSub
import Verif.Lemmas.Run
/-! # C35–C37: polynomial sine and cosine in exact arithmetic -/

namespace MixedNum

/-- The argument after folding, in exact arithmetic. -/
noncomputable def fold (x : ℝ) : ℝ :=
  if x < -(Real.pi / 2) then -Real.pi - x else if Real.pi / 2 < x then Real.pi - x else x

theorem sinFold_real (x : ℝ) : sinFold x = pure (fold x) := by
  unfold sinFold fold
  simp only [RealI.pi_def, pure_bind, RealI.ofI32_def]
  rw [RealI.div_ne _ (by norm_num)]
  simp only [pure_bind, RealI.neg_def, RealI.lt_def, decide_eq_true_eq, RealI.add_def, RealI.sub_def]
  push_cast
  split_ifs
  · congr 1; ring
  · congr 1; ring
  · rfl

theorem sin_real (x : ℝ) : sin x = pure (sinT 5 (fold x)) := by
  have p : ∀ (y : ℝ) (n : ℕ), (MixedPowi.powi y (n : ℤ) : Prog ℝ) = pure (y ^ n) := RealI.powi_nat
  have p3 := fun y => p y 3; have p5 := fun y => p y 5; have p7 := fun y => p y 7; have p9 := fun y => p y 9
  simp only [Nat.cast_ofNat] at p3 p5 p7 p9
  unfold sin
  simp only [sinFold_real, pure_bind, p3, p5, p7, p9, RealI.ofI32_def]
  rw [RealI.div_ne _ (by norm_num)]; simp only [pure_bind]
  rw [RealI.div_ne _ (by norm_num)]; simp only [pure_bind]
  rw [RealI.div_ne _ (by norm_num)]; simp only [pure_bind, RealI.sub_def]
  rw [RealI.div_ne _ (by norm_num)]; simp only [pure_bind, RealI.add_def]
  rw [sinT_five]; push_cast; rfl

theorem sin_fold (x : ℝ) : Real.sin (fold x) = Real.sin x := by
  unfold fold
  split_ifs
  · rw [show -Real.pi - x = -(x + Real.pi) by ring, Real.sin_neg, Real.sin_add_pi, neg_neg]
  · exact Real.sin_pi_sub x
  · rfl

theorem abs_fold_le {x : ℝ} (h1 : -Real.pi ≤ x) (h2 : x ≤ Real.pi) : |fold x| ≤ Real.pi / 2 := by
  unfold fold
  rw [abs_le]
  have := Real.pi_pos
  split_ifs with h3 h4 <;> constructor <;> linarith

theorem half_pi_pow : (Real.pi / 2) ^ 11 / 39916800 < 4 / 1000000 := by
  have h := Real.pi_lt_d4
  have h0 := Real.pi_pos
  have : (Real.pi / 2) ^ 11 ≤ 1.5708 ^ 11 := pow_le_pow_left₀ (by linarith) (by linarith) _
  rw [div_lt_iff₀ (by norm_num)]
  refine this.trans_lt ?_; norm_num

/-! ## C35 -/

/-- C35: the polynomial sine on [-π, π]. -/
theorem C35_sin (x : ℝ) (h1 : -Real.pi ≤ x) (h2 : x ≤ Real.pi) :
    ∃ y, Returns (sin x) y ∧ |y - Real.sin x| < 4 / 1000000 := by
  refine ⟨_, .of_eq (sin_real x), ?_⟩
  have h := abs_sinT_five_sub (fold x)
  rw [sin_fold] at h
  refine h.trans_lt (lt_of_le_of_lt ?_ half_pi_pow)
  have := pow_le_pow_left₀ (abs_nonneg _) (abs_fold_le h1 h2) 11
  linarith

example := C35_sin (-3) (by linarith [Real.pi_gt_three]) (by linarith [Real.pi_gt_three])

/-- C35: outside [-π, π] the function is not periodic; one turn beyond, the value is far from the sine. -/
theorem C35_outside : ∃ y, Returns (sin (3 * Real.pi)) y ∧ 1 < |y - Real.sin (3 * Real.pi)| := by
  have h1 := Real.pi_gt_d2; have h2 := Real.pi_lt_d2
  refine ⟨_, .of_eq (sin_real _), ?_⟩
  have hf : fold (3 * Real.pi) = -(2 * Real.pi) := by
    unfold fold; rw [if_neg (by linarith), if_pos (by linarith)]; ring
  have hs : Real.sin (3 * Real.pi) = 0 := by
    have := Real.sin_nat_mul_pi 3; push_cast at this; exact this
  rw [hf, hs, sub_zero, sinT_neg, abs_neg, sinT_five, lt_abs]
  left
  set t := 2 * Real.pi with ht
  have h3 : 6.28 < t := by linarith
  have h4 : t < 6.3 := by linarith
  have h5 : 0 < t ^ 3 := by positivity
  have e3 : t ^ 3 ≤ 6.3 ^ 3 := pow_le_pow_left₀ (by linarith) h4.le 3
  have e5 : (6.28:ℝ) ^ 5 ≤ t ^ 5 := pow_le_pow_left₀ (by norm_num) h3.le 5
  have e7 : t ^ 7 ≤ 6.3 ^ 7 := pow_le_pow_left₀ (by linarith) h4.le 7
  have e9 : (6.28:ℝ) ^ 9 ≤ t ^ 9 := pow_le_pow_left₀ (by norm_num) h3.le 9
  norm_num at e3 e5 e7 e9 h3
  linarith

example : -Real.pi ≤ (2:ℝ) ∧ (2:ℝ) ≤ Real.pi := by
  have := Real.pi_gt_d2; constructor <;> linarith

/-! ## C36 -/

/-- C36: the polynomial cosine on all reals. -/
theorem C36_cos (x : ℝ) : ∃ y, Returns (cos x) y ∧ |y - Real.cos x| < 4 / 1000000 := by
  obtain ⟨r, hr, h1, h2, k, hk⟩ := wrapReal.spec (x + Real.pi / 2)
  obtain ⟨y, hy, hb⟩ := C35_sin r h1 h2.le
  refine ⟨y, ?_, ?_⟩
  · unfold cos
    simp only [RealI.pi_def, pure_bind, RealI.ofI32_def]
    rw [RealI.div_ne _ (by norm_num)]
    simp only [pure_bind, RealI.add_def]
    push_cast
    exact hr.bind hy
  · have e : Real.sin r = Real.cos x := by
      have hk : r = (x + Real.pi / 2) + k * (2 * Real.pi) := hk
      rw [hk, Real.sin_add_int_mul_two_pi, Real.sin_add_pi_div_two]
    rwa [e] at hb

/-! ## C37 -/

theorem fold_neg (x : ℝ) : fold (-x) = -fold x := by
  have := Real.pi_pos
  unfold fold
  split_ifs <;> linarith

/-- C37: odd, for every real. -/
theorem C37_odd (x : ℝ) : ∃ y, Returns (sin x) y ∧ Returns (sin (-x)) (-y) :=
  ⟨_, .of_eq (sin_real x), .of_eq (by rw [sin_real, fold_neg, sinT_neg])⟩

/-- C37: symmetric about π/2 on [0, π]. -/
theorem C37_mirror (x : ℝ) (h1 : 0 ≤ x) (h2 : x ≤ Real.pi) :
    ∃ y, Returns (sin x) y ∧ Returns (sin (Real.pi - x)) y := by
  refine ⟨_, .of_eq (sin_real x), .of_eq ?_⟩
  rw [sin_real]; congr 2
  have := Real.pi_pos
  unfold fold
  split_ifs <;> linarith

example := C37_mirror 3 (by norm_num) (by linarith [Real.pi_gt_three])

/-- C37: bounded. -/
theorem C37_bounded (x : ℝ) (h1 : -Real.pi ≤ x) (h2 : x ≤ Real.pi) :
    ∃ y, Returns (sin x) y ∧ |y| ≤ 1 + 4 / 1000000 := by
  obtain ⟨y, hy, h⟩ := C35_sin x h1 h2
  refine ⟨y, hy, ?_⟩
  have := Real.abs_sin_le_one x
  calc |y| = |(y - Real.sin x) + Real.sin x| := by congr 1; ring
    _ ≤ |y - Real.sin x| + |Real.sin x| := abs_add_le _ _
    _ ≤ _ := by linarith

example := C37_bounded (-3) (by linarith [Real.pi_gt_three]) (by linarith [Real.pi_gt_three])

/-- C37: zero is mapped to zero. -/
theorem C37_zero : Returns (sin (0:ℝ)) 0 := by
  refine .of_eq ?_
  have := Real.pi_pos
  have hf : fold 0 = 0 := by unfold fold; split_ifs <;> first | rfl | (exfalso; linarith)
  rw [sin_real, hf, sinT_five]; norm_num

end MixedNum
