import Verif.Props.Monotone
/-! # C119: exactly where the polynomial sine and cosine stay within one -/

namespace MixedNum

theorem continuous_sinT (n : ℕ) : Continuous (sinT n) :=
  continuous_iff_continuousAt.mpr fun y => (hasDerivAt_sinT n y).continuousAt

theorem abs_sinT_le_iff {t c : ℝ} (ht : |t| ≤ Real.pi / 2) (h0 : 0 ≤ c) (hc : c ≤ Real.pi / 2) : |sinT 5 t| ≤ sinT 5 c ↔ |t| ≤ c := by
  have ht := abs_le.mp ht
  have m := sinT_strictMono
  rw [abs_le, abs_le, ← sinT_neg, m.le_iff_le ⟨by linarith, by linarith⟩ ⟨by linarith, by linarith⟩,
    m.le_iff_le ⟨by linarith, by linarith⟩ ⟨by linarith, by linarith⟩]

/-- C119, exactly where it holds: the polynomial sine is within one as long as the angle is at least `π/2 - c` away from `±π/2`,
and the polynomial cosine as long as the angle is that far away from every multiple of `π`; `c` is 1.568 to three places.
Missing compared to C119: the angles in between, where it is false. -/
theorem C119_exact_partial : ∃ c : ℝ, 1.568 < c ∧ c < 1.5682 ∧
    (∀ x : ℝ, -Real.pi ≤ x → x ≤ Real.pi → ∃ y, Returns (sin x) y ∧ (|y| ≤ 1 ↔ |x| ≤ c ∨ Real.pi - c ≤ |x|)) ∧
    ∀ x : ℝ, ∃ y, Returns (cos x) y ∧ (|y| ≤ 1 ↔ ∀ k : ℤ, Real.pi / 2 - c ≤ |x + k * Real.pi|) := by
  have g1 := Real.pi_gt_d4; have g2 := Real.pi_lt_d4
  norm_num at g1 g2
  have v1 : sinT 5 1.568 < 1 := by rw [sinT_five]; norm_num
  have v2 : 1 < sinT 5 1.5682 := by rw [sinT_five]; norm_num
  obtain ⟨c, ⟨c1, c2⟩, c3⟩ := intermediate_value_Icc (by norm_num : (1.568:ℝ) ≤ 1.5682) (continuous_sinT 5).continuousOn ⟨v1.le, v2.le⟩
  have c1' : 1.568 < c := lt_of_le_of_ne c1 (by rintro rfl; exact v1.ne c3)
  have c2' : c < 1.5682 := lt_of_le_of_ne c2 (by rintro rfl; exact v2.ne' c3)
  norm_num at c1 c2
  have hs : ∀ x : ℝ, -Real.pi ≤ x → x ≤ Real.pi → ∃ y, Returns (sin x) y ∧ (|y| ≤ 1 ↔ |x| ≤ c ∨ Real.pi - c ≤ |x|) := by
    intro x h1 h2
    refine ⟨_, .of_eq (sin_real x), ?_⟩
    nth_rw 1 [← c3]
    rw [abs_sinT_le_iff (abs_fold_le h1 h2) (by linarith) (by linarith)]
    rcases le_total |x| (Real.pi / 2) with h | h
    · have h' := abs_le.mp h
      rw [fold_mid h'.1 h'.2]
      exact ⟨.inl, fun h3 => h3.elim id fun h3 => by linarith⟩
    · have e : |fold x| = Real.pi - |x| := by
        rcases le_total 0 x with h0 | h0
        · rw [abs_of_nonneg h0] at h ⊢
          rw [fold_high h, abs_of_nonneg (by linarith)]
        · rw [abs_of_nonpos h0] at h ⊢
          rw [fold_low (by linarith), abs_of_nonpos (by linarith)]; ring
      rw [e]
      exact ⟨fun h3 => .inr (by linarith), fun h3 => h3.elim (fun h3 => by linarith) fun h3 => by linarith⟩
  refine ⟨c, c1', c2', hs, fun x => ?_⟩
  have e : cos x = wrapPhase (x + Real.pi / 2) >>= sin := by
    unfold cos
    simp only [RealI.pi_def, pure_bind, RealI.ofI32_def]
    rw [RealI.div_ne _ (by norm_num)]
    simp only [pure_bind, RealI.add_def]
    push_cast
    rfl
  obtain ⟨w, hw, w1, w2, k, hk⟩ := C33_wrap_real (x + Real.pi / 2)
  obtain ⟨y, hy, y2⟩ := hs w w1 w2.le
  refine ⟨y, e ▸ hw.bind hy, y2.trans ?_⟩
  constructor
  · intro h j
    have ej : x + j * Real.pi = (w - Real.pi / 2) + (j - 2 * k : ℤ) * Real.pi := by rw [hk]; push_cast; ring
    rw [ej]
    generalize j - 2 * k = l
    by_contra hlt
    push Not at hlt
    obtain ⟨m1, m2⟩ := abs_lt.mp hlt
    have l1 : l < 2 := by
      by_contra hc
      have : (2:ℝ) ≤ l := by exact_mod_cast not_lt.mp hc
      nlinarith [Real.pi_pos]
    have l2 : -1 < l := by
      by_contra hc
      have : (l:ℝ) ≤ -1 := by exact_mod_cast not_lt.mp hc
      nlinarith [Real.pi_pos]
    have : l = 0 ∨ l = 1 := by omega
    rcases this with rfl | rfl
    · simp only [Int.cast_zero, zero_mul, add_zero] at m1 m2
      rw [abs_of_nonneg (by linarith)] at h
      rcases h with h | h <;> linarith
    · simp only [Int.cast_one, one_mul] at m1 m2
      rw [abs_of_nonpos (by linarith)] at h
      rcases h with h | h <;> linarith
  · intro h
    by_contra hc
    push Not at hc
    obtain ⟨d1, d2⟩ := hc
    rcases le_or_gt 0 w with h0 | h0
    · rw [abs_of_nonneg h0] at d1 d2
      have := h (2 * k)
      rw [show x + ((2 * k : ℤ) : ℝ) * Real.pi = w - Real.pi / 2 by rw [hk]; push_cast; ring] at this
      have h1 : |w - Real.pi / 2| < Real.pi / 2 - c := abs_lt.mpr ⟨by linarith, by linarith⟩
      linarith
    · rw [abs_of_neg h0] at d1 d2
      have := h (2 * k + 1)
      rw [show x + ((2 * k + 1 : ℤ) : ℝ) * Real.pi = w + Real.pi / 2 by rw [hk]; push_cast; ring] at this
      have h1 : |w + Real.pi / 2| < Real.pi / 2 - c := abs_lt.mpr ⟨by linarith, by linarith⟩
      linarith

/-- Both cases occur: the sine of 1 is within one, that of 1.57 is not. -/
example : (∃ y, Returns (sin (1:ℝ)) y ∧ |y| ≤ 1) ∧ ∃ y, Returns (sin (1.57:ℝ)) y ∧ ¬ |y| ≤ 1 := by
  obtain ⟨c, h1, h2, h, -⟩ := C119_exact_partial
  have g1 := Real.pi_gt_d4
  norm_num at h1 h2 g1
  obtain ⟨y, hy, h3⟩ := h 1 (by linarith) (by linarith)
  obtain ⟨z, hz, h4⟩ := h 1.57 (by norm_num; linarith) (by norm_num; linarith)
  rw [abs_of_pos (by norm_num : (0:ℝ) < 1)] at h3
  rw [abs_of_pos (by norm_num : (0:ℝ) < 1.57)] at h4
  refine ⟨⟨y, hy, h3.mpr (.inl (by linarith))⟩, z, hz, fun g => ?_⟩
  rcases h4.mp g with k | k <;> norm_num at k <;> linarith

end MixedNum
