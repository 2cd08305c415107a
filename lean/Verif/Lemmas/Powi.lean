import Mathlib.Tactic.Positivity
import Verif.Lemmas.Word
/-! Repeated multiplication of machine integers. -/

namespace MixedNum
variable {m : Mode} {s : Bool} {W : ℕ}

/-- A representable power has representable smaller powers (from the first on). -/
theorem fits_pow_of_le {b : ℤ} {j n : ℕ} (hW : 2 ≤ W) (hb : Fits s W b) (hj : 1 ≤ j) (hjn : j ≤ n)
    (h : Fits s W (b ^ n)) : Fits s W (b ^ j) := by
  rcases le_or_gt 0 b with h0 | h0
  · rcases Nat.eq_zero_or_pos b.natAbs with hz | hz
    · have : b = 0 := by omega
      subst this; rw [zero_pow (by omega)]; exact fits_zero s W
    · have h1 : 1 ≤ b := by omega
      exact Fits.between (fits_zero s W) h (by positivity) (pow_le_pow_right₀ h1 hjn)
  · cases s with
    | false => have := hb.1; simp [wlo] at this; omega
    | true =>
      have hP : (1:ℤ) < 2 ^ (W - 1) := one_lt_pow₀ (by norm_num) (by omega)
      rcases eq_or_lt_of_le hjn with rfl | hlt
      · exact h
      have habs : |b ^ n| ≤ 2 ^ (W - 1) := by
        have := h.1; have := h.2; simp only [wlo, whi, if_true] at *; rw [abs_le]; omega
      have hstep : |b ^ j| < 2 ^ (W - 1) := by
        rcases eq_or_lt_of_le (show 1 ≤ |b| from Int.one_le_abs (by omega)) with h1 | h1
        · rw [abs_pow, ← h1, one_pow]; exact hP
        · have : |b ^ j| < |b ^ n| := by
            rw [abs_pow, abs_pow]; exact pow_lt_pow_right₀ h1 hlt
          omega
      rw [abs_lt] at hstep
      simp only [Fits, wlo, whi, if_true]; omega

theorem powiLoop_of_fits (hW : 2 ≤ W) (b : PInt m s W) (k : ℕ) : ∀ j t, 1 ≤ j → t.val = b.val ^ j →
    (h : Fits s W (b.val ^ (j + k))) → powiLoop b k t = pure (PInt.mkv (b.val ^ (j + k)) h) := by
  induction k with
  | zero => intro j t hj ht h; simp only [powiLoop]; congr 1; ext; simpa using ht
  | succ k ih =>
    intro j t hj ht h
    have h1 : Fits s W (t.val * b.val) := by
      rw [ht, ← pow_succ]; exact fits_pow_of_le hW b.fits (by omega) (by omega) h
    simp only [powiLoop, PInt.mul_def, PInt.fit_of_fits h1, pure_bind]
    have h' : Fits s W (b.val ^ (j + 1 + k)) := by rw [show j + 1 + k = j + (k + 1) by omega]; exact h
    rw [ih (j + 1) _ (by omega) (by rw [PInt.mkv_val, ht, pow_succ]) h']
    congr 1; ext; simp only [PInt.mkv_val]; congr 1; omega

theorem powiLoop_checked (b : PInt .checked s W) (k : ℕ) : ∀ j t, 1 ≤ j → t.val = b.val ^ j →
    ¬ Fits s W (b.val ^ (j + k)) → powiLoop b k t = Prog.fail .overflow := by
  induction k with
  | zero => intro j t hj ht h; exfalso; apply h; rw [add_zero, ← ht]; exact t.fits
  | succ k ih =>
    intro j t hj ht h
    by_cases h1 : Fits s W (t.val * b.val)
    · simp only [powiLoop, PInt.mul_def, PInt.fit_of_fits h1, pure_bind]
      refine ih (j + 1) _ (by omega) (by rw [PInt.mkv_val, ht, pow_succ]) ?_
      rw [show j + 1 + k = j + (k + 1) by omega]; exact h
    · simp only [powiLoop, PInt.mul_def, PInt.fit_checked h1, Prog.fail_bind]

theorem powiLoop_wrapping (hW : 0 < W) (b : PInt .wrapping s W) (k : ℕ) : ∀ t, ∃ r,
    powiLoop b k t = pure r ∧ r.val ≡ t.val * b.val ^ k [ZMOD 2 ^ W] := by
  induction k with
  | zero => intro t; exact ⟨t, rfl, by simp⟩
  | succ k ih =>
    intro t
    obtain ⟨r, hr, e⟩ := ih (PInt.mkv (wrapInt s W (t.val * b.val)) (fits_wrapInt _ _ _))
    refine ⟨r, ?_, e.trans ?_⟩
    · simp only [powiLoop, PInt.mul_def, PInt.fit_wrapping, pure_bind]; exact hr
    · rw [PInt.mkv_val, pow_succ', ← mul_assoc]
      exact (wrapInt_modEq hW _).mul_right _

theorem fits_one (hW : 2 ≤ W) : Fits s W 1 := by
  have h1 : (1:ℤ) < 2 ^ (W - 1) := one_lt_pow₀ (by norm_num) (by omega)
  have h2 : (1:ℤ) < 2 ^ W := one_lt_pow₀ (by norm_num) (by omega)
  cases s <;> simp only [Fits, wlo, whi, if_true, Bool.false_eq_true, if_false] <;> omega

theorem powi_pint_eq (hW : 2 ≤ W) (b : PInt m s W) (n : ℕ) :
    (∀ h : Fits s W (b.val ^ n), powi b n = pure (PInt.mkv (b.val ^ n) h)) ∧
    (¬ Fits s W (b.val ^ n) → m = .checked → powi b n = Prog.fail .overflow) ∧
    (m = .wrapping → ∃ r, powi b n = pure r ∧ r.val ≡ b.val ^ n [ZMOD 2 ^ W]) := by
  rcases Nat.eq_zero_or_pos n with rfl | hn
  · have e : powi b 0 = pure (PInt.mkv 1 (fits_one hW)) := by
      simp only [powi, if_true, PInt.ofI32_def]; congr 1; ext; exact wrapInt_of_fits (fits_one hW)
    refine ⟨fun h => ?_, fun h => ?_, fun _ => ⟨_, e, ?_⟩⟩
    · rw [e]; congr 1; ext; simp
    · exact absurd (by simpa using fits_one hW) h
    · simp
  · obtain ⟨k, rfl⟩ : ∃ k, n = 1 + k := ⟨n - 1, by omega⟩
    have e : powi b (1 + k) = powiLoop b k b := by
      simp only [powi]; rw [if_neg (by omega)]; congr 1; omega
    rw [e]
    refine ⟨fun h => powiLoop_of_fits hW b k 1 b le_rfl (by simp) h, fun h hm => ?_, fun hm => ?_⟩
    · subst hm; exact powiLoop_checked b k 1 b le_rfl (by simp) h
    · subst hm
      obtain ⟨r, hr, e⟩ := powiLoop_wrapping (by omega) b k b
      exact ⟨r, hr, by rw [pow_add, pow_one]; exact e⟩

end MixedNum
