import Verif.Lemmas.SqrtSmall
import Verif.Lemmas.SqrtInt
import Verif.Lemmas.Run
import Verif.Props.SqrtFixed
/-! # C50 (remaining types), C51, C52: the NIIRF square root on unsigned fixed point, with few fraction bits, on integers -/

namespace MixedNum
variable {m : Mode} {s : Bool} {W F : ℕ}
open Fixed

/-! ## C50, all other signed types -/

/-- C50 on all signed types of 8 to 128 bits with at least four integer bits: `mixed_sqrt` returns for every positive
number. Missing for the full statement: the types with F = W - 3, where it is false. -/
theorem C50_partial (hW : 8 ≤ W) (hW' : W ≤ 128) (hK : F + 4 ≤ W) (x : Fixed m true W F) (hx : 0 < x.val) :
    ∃ z, Returns (MixedSqrt.sqrt x) z := by
  rcases Nat.lt_or_ge F 2 with hF | hF
  · obtain ⟨x', ha, va⟩ := abs_signed (x := x) (by rw [abs_of_pos hx]; exact x.fits)
    rw [abs_of_pos hx] at va
    have h4 : Fits true W (4 * 2 ^ F) := fits_signed_of (K := 3) (by omega) (by norm_num) (by norm_num)
    obtain rfl | rfl : F = 0 ∨ F = 1 := by omega
    · obtain ⟨z, hz, -⟩ := niirf_no_bits (Counter.upto_width m hW') h4 hx.ne' ha (by omega) 2
      exact ⟨z, hz⟩
    · obtain ⟨z, -, hz, -⟩ := niirf_one_bit (Counter.upto_width m hW') h4 hx.ne' ha (by omega)
      exact ⟨z, hz⟩
  · obtain ⟨z, hz, -⟩ := C49_accuracy hF hW hW' hK x hx
    exact ⟨z, hz⟩

/-- C50 with one fraction bit, signed: the result is a power of two, at most the root and more than half of it. -/
theorem C50_one_bit_partial (hW : 5 ≤ W) (hW' : W ≤ 128) (x : Fixed m true W 1) (hx : 0 < x.val) :
    ∃ z, Returns (MixedSqrt.sqrt x) z ∧ (∃ k : ℕ, z.val = 2 ^ k) ∧
      Real.sqrt (x.val / 2) < 2 * (z.val / 2 : ℝ) ∧ (2 ≤ x.val → (z.val / 2 : ℝ) ≤ Real.sqrt (x.val / 2)) := by
  obtain ⟨x', ha, va⟩ := abs_signed (x := x) (by rw [abs_of_pos hx]; exact x.fits)
  rw [abs_of_pos hx] at va
  have h4 : Fits true W (4 * 2 ^ 1) := fits_signed_of (K := 3) (by omega) (by norm_num) (by norm_num)
  obtain ⟨z, k, hz, vz, g1, g2⟩ := niirf_one_bit (Counter.upto_width m hW') h4 hx.ne' ha (by omega)
  rw [va] at g1 g2
  have e4 : ∀ j : ℕ, ((2:ℝ) ^ j) ^ 2 = 4 ^ j := fun j => by rw [← pow_mul, mul_comm j 2, pow_mul]; norm_num
  refine ⟨z, hz, ⟨k, vz⟩, ?_, fun h2 => ?_⟩
  · rw [vz]; push_cast
    rw [Real.sqrt_lt' (by positivity), show 2 * ((2:ℝ) ^ k / 2) = 2 ^ k by ring, e4]
    have : (x.val : ℝ) < 2 * 4 ^ k := by exact_mod_cast g1
    linarith
  · have hk : k ≠ 0 := by rintro rfl; omega
    obtain ⟨j, rfl⟩ : ∃ j, k = j + 1 := ⟨k - 1, by omega⟩
    have g := g2 hk
    rw [Nat.add_sub_cancel] at g
    refine Real.le_sqrt_of_sq_le ?_
    rw [vz]; push_cast
    rw [show ((2:ℝ) ^ (j + 1) / 2) = 2 ^ j by ring, e4]
    have : (2:ℝ) * 4 ^ j ≤ x.val := by exact_mod_cast g
    linarith

example : ∃ z, Returns (MixedSqrt.sqrt (fx .wrapping true 8 1 100)) z := C50_partial (by norm_num) (by norm_num) (by norm_num) _ (by decide)

/-! ## C51 -/

namespace Fixed

theorem fits_unsigned {n : ℤ} : Fits false W n ↔ 0 ≤ n ∧ n < 2 ^ W := by simp [Fits, wlo, whi]

theorem fits_unsigned_of {K : ℕ} (hK : F + K ≤ W) {c : ℤ} (h0 : 0 ≤ c) (hc : c < 2 ^ K) : Fits false W (c * 2 ^ F) := by
  have hP : (0:ℤ) < 2 ^ F := by positivity
  have h : (2:ℤ) ^ K * 2 ^ F ≤ 2 ^ W := by
    rw [← pow_add]; exact pow_le_pow_right₀ (by norm_num) (by omega)
  rw [fits_unsigned]
  exact ⟨by positivity, by nlinarith⟩

/-- The exponent of the normalisation is that of the argument. -/
theorem normal_exp {n t k K : ℤ} (h : Normal n t k) (h1 : 2 ^ F ≤ 4 * t) (h2 : t < 2 ^ F) {τ : ℝ} (l : 1 / 4 ≤ τ) (g : τ < 1)
    (hn : (n:ℝ) * u F = τ * 4 ^ K) : t * u F ≤ τ ∧ τ < t * u F + u F := by
  have hu := u_pos F
  have hpu := pow_mul_u F
  have a1 : (2:ℝ) ^ F ≤ 4 * t := by exact_mod_cast h1
  have a2 : (t:ℝ) + 1 ≤ 2 ^ F := by exact_mod_cast h2
  have b1 := mul_le_mul_of_nonneg_right a1 hu.le
  have b2 := mul_le_mul_of_nonneg_right a2 hu.le
  rw [hpu] at b1 b2
  -- a real normal form
  obtain ⟨σ, e, s1, s2⟩ : ∃ σ : ℝ, (n:ℝ) * u F = σ * 4 ^ k ∧ t * u F ≤ σ ∧ σ < t * u F + u F := by
    rcases h with ⟨hk, h⟩ | ⟨hk, h⟩
    · refine ⟨t * u F, ?_, le_rfl, by linarith⟩
      obtain ⟨j, rfl⟩ : ∃ j : ℕ, k = -j := ⟨(-k).toNat, by omega⟩
      simp only [neg_neg, Int.toNat_natCast] at h
      rw [h, zpow_neg, zpow_natCast]; push_cast; field_simp
    · obtain ⟨j, rfl⟩ : ∃ j : ℕ, k = j := ⟨k.toNat, by omega⟩
      simp only [Int.toNat_natCast] at h
      have hP : (0:ℤ) < 4 ^ j := by positivity
      have c1 : t * 4 ^ j ≤ n := by rw [h]; exact Int.ediv_mul_le _ hP.ne'
      have c2 : n < (t + 1) * 4 ^ j := by rw [h]; exact Int.lt_ediv_add_one_mul_self _ hP
      have c1' : (t:ℝ) * 4 ^ j ≤ n := by exact_mod_cast c1
      have c2' : (n:ℝ) < (t + 1) * 4 ^ j := by exact_mod_cast c2
      have p4 : (0:ℝ) < 4 ^ j := by positivity
      refine ⟨n / 4 ^ j * u F, by rw [zpow_natCast]; field_simp, ?_, ?_⟩
      · exact mul_le_mul_of_nonneg_right ((le_div_iff₀ p4).mpr c1') hu.le
      · calc _ < ((t:ℝ) + 1) * u F := mul_lt_mul_of_pos_right ((div_lt_iff₀ p4).mpr c2') hu
          _ = _ := by ring
  obtain ⟨rfl, -⟩ := Niirf.normal_unique (t := σ) (t' := τ) (by linarith) (by linarith) l g (e.symm.trans hn)
  exact ⟨s1, s2⟩

theorem sq_le_mid (hF : 12 ≤ F) {t : ℤ} (h0 : 0 ≤ t) (h1 : t < 2 ^ F) (l : 0.332 ≤ (t:ℝ) * u F) (g : (t:ℝ) * u F ≤ 0.855) :
    sqRaw F t ≤ t := by
  have hu := u_pos F
  have huF : u F ≤ 1 / 4096 := (u_le hF).trans (by norm_num)
  set r := Real.sqrt (t * u F) with hrdef
  have hr0 : 0 ≤ r := Real.sqrt_nonneg _
  have hr : r ^ 2 = t * u F := Real.sq_sqrt (by linarith)
  rw [← hr] at l g
  have rl : 0.5761 ≤ r := by nlinarith
  have rg : r ≤ 0.9247 := by nlinarith
  have hy := (abs_le.mp (y_close F hr)).2
  have hY : (yRaw F t : ℝ) * u F ≤ r := by
    have hd : Niirf.y0 r ≤ r - 0.00048 := by
      unfold Niirf.y0
      nlinarith [mul_nonneg (show 0 ≤ r - 0.5761 by linarith) (show 0 ≤ 0.9247 - r by linarith)]
    norm_num at hy hd ⊢; linarith
  have hY0 : 0 ≤ (yRaw F t : ℝ) * u F := mul_nonneg (by exact_mod_cast (yRaw_bounds h0 h1).1) hu.le
  have hs := (ediv_pow_real F (yRaw F t) (yRaw F t)).1
  have : (sqRaw F t : ℝ) * u F ≤ t * u F := by
    rw [← hr]; refine le_trans hs ?_; nlinarith
  exact_mod_cast le_of_mul_le_mul_right this hu

theorem lt_sq_outer (hF : 12 ≤ F) {t : ℤ} (h1 : 1 / 4 ≤ (t:ℝ) * u F)
    (h : (t:ℝ) * u F ≤ 0.325 ∨ 0.8653 ≤ (t:ℝ) * u F) : t < sqRaw F t := by
  have hu := u_pos F
  have huF : u F ≤ 1 / 4096 := (u_le hF).trans (by norm_num)
  set r := Real.sqrt (t * u F) with hrdef
  have hr0 : 0 ≤ r := Real.sqrt_nonneg _
  have hr : r ^ 2 = t * u F := Real.sq_sqrt (by linarith)
  rw [← hr] at h h1
  have rl : 1 / 2 ≤ r := by nlinarith
  have hd : r + 0.0007 ≤ Niirf.y0 r := by
    unfold Niirf.y0
    rcases h with h | h
    · have : r ≤ 0.5701 := by nlinarith
      nlinarith
    · have : 0.9302 ≤ r := by nlinarith
      nlinarith
  have hy := (abs_le.mp (y_close F hr)).1
  have hY : r + u F ≤ (yRaw F t : ℝ) * u F := by norm_num at hy hd ⊢; linarith
  have hs := (ediv_pow_real F (yRaw F t) (yRaw F t)).2
  have : (t:ℝ) * u F < (sqRaw F t : ℝ) * u F := by
    rw [← hr]
    have e : ((yRaw F t * yRaw F t / 2 ^ F : ℤ) : ℝ) = (sqRaw F t : ℝ) := rfl
    rw [e] at hs
    nlinarith
  exact_mod_cast lt_of_mul_lt_mul_right this hu.le

theorem abs_unsigned (x : Fixed m false W F) : MixedAbs.abs x = pure x := rfl

end Fixed

/-- C51 is false in checked builds on every unsigned type with at least 12 fraction bits and three integer bits: whenever
the argument is 4^K times a number in [0.25, 0.325] or [0.866, 1), the difference `x - y²` underflows and panics. -/
theorem C51_counterexample (hF : 12 ≤ F) (hW : W ≤ 128) (hK : F + 3 ≤ W) (x : Fixed .checked false W F) {τ : ℝ} {K : ℤ}
    (hx : (x.val : ℝ) / 2 ^ F = τ * 4 ^ K) (h : 1 / 4 ≤ τ ∧ τ ≤ 0.325 ∨ 0.866 ≤ τ ∧ τ < 1) :
    Panics (MixedSqrt.sqrt x) .overflow := by
  have hu := u_pos F
  have huF : u F ≤ 1 / 4096 := (u_le hF).trans (by norm_num)
  have hl : 1 / 4 ≤ τ := by rcases h with h | h <;> norm_num at h ⊢ <;> linarith
  have hg : τ < 1 := by rcases h with h | h <;> norm_num at h ⊢ <;> linarith
  rw [div_pow_eq] at hx
  have hpos : 0 < x.val := by
    have : 0 < (x.val : ℝ) * u F := by rw [hx]; positivity
    have := pos_of_mul_pos_left this hu.le
    exact_mod_cast this
  have h4 : Fits false W (4 * 2 ^ F) := fits_unsigned_of (K := 3) (by omega) (by norm_num) (by norm_num)
  have h3 : Fits false W (3 * 2 ^ F) := fits_unsigned_of (K := 3) (by omega) (by norm_num) (by norm_num)
  have h2 : Fits false W (2 * 2 ^ F) := fits_unsigned_of (K := 3) (by omega) (by norm_num) (by norm_num)
  obtain ⟨t, k, hn, a1, a2, hN, hkW⟩ := normalize_fixed (Counter.upto_width .checked hW) (by omega) h4 hpos
  obtain ⟨n1, n2⟩ := normal_exp hN a1 a2 hl hg hx
  have hP : (0:ℤ) < 2 ^ F := by positivity
  have a0 : 0 ≤ t.val := by omega
  have q : 1 / 4 ≤ (t.val : ℝ) * u F := by
    have a1' : (2:ℝ) ^ F ≤ 4 * t.val := by exact_mod_cast a1
    have := mul_le_mul_of_nonneg_right a1' hu.le
    rw [pow_mul_u] at this; linarith
  have hlt : t.val < sqRaw F t.val := lt_sq_outer hF q (by
    rcases h with h | h
    · left; linarith [h.2]
    · right; have := h.1; norm_num at this ⊢; linarith)
  obtain ⟨p1, p2, p3, p4, -⟩ := pass_ranges (by omega) a0 a2
  refine (niirf_split hpos.ne' (abs_unsigned x) hn h3 a0 a2 (p := Prog.fail .overflow) fun y hy => ?_).2 _ (.of_eq rfl)
  rw [pass_fails h2 hy ((fits_zero _ _).between h2 p3 p4.le) (by rw [fits_unsigned]; omega), Prog.fail_bind]

example : Panics (MixedSqrt.sqrt (fx .checked false 32 16 (2 ^ 16))) .overflow :=
  C51_counterexample (τ := 1 / 4) (K := 1) (by norm_num) (by norm_num) (by norm_num) _ (by
    have : (fx .checked false 32 16 (2 ^ 16)).val = 2 ^ 16 := by decide
    rw [this]; norm_num) (.inl ⟨le_rfl, by norm_num⟩)

/-- C51, the part that holds on unsigned types with at least 12 fraction bits and three integer bits: when the argument is
4^K times a number in [0.333, 0.855], the root is returned, as accurate as on signed types (C49).
Missing for the full statement: the other arguments, for most of which it is false. -/
theorem C51_partial (hF : 12 ≤ F) (hW : W ≤ 128) (hK : F + 3 ≤ W) (x : Fixed m false W F) {τ : ℝ} {K : ℤ}
    (hx : (x.val : ℝ) / 2 ^ F = τ * 4 ^ K) (hl : 0.333 ≤ τ) (hg : τ ≤ 0.855) :
    ∃ z, Returns (MixedSqrt.sqrt x) z ∧ |(z.val : ℝ) / 2 ^ F - Real.sqrt (x.val / 2 ^ F)| ≤
      (1 / 1000 + 4.5 / 2 ^ F) * Real.sqrt (x.val / 2 ^ F) + 2 / 2 ^ F := by
  have hu := u_pos F
  have huF : u F ≤ 1 / 4096 := (u_le hF).trans (by norm_num)
  rw [div_pow_eq] at hx
  have hτ : 0 < τ := by norm_num at hl; linarith
  have hpos : 0 < x.val := by
    have : 0 < (x.val : ℝ) * u F := by rw [hx]; positivity
    have := pos_of_mul_pos_left this hu.le
    exact_mod_cast this
  have h4 : Fits false W (4 * 2 ^ F) := fits_unsigned_of (K := 3) (by omega) (by norm_num) (by norm_num)
  have h3 : Fits false W (3 * 2 ^ F) := fits_unsigned_of (K := 3) (by omega) (by norm_num) (by norm_num)
  obtain ⟨t, k, hn, a1, a2, hN, hkW⟩ := normalize_fixed (Counter.upto_width m hW) (by omega) h4 hpos
  obtain ⟨n1, n2⟩ := normal_exp hN a1 a2 (by norm_num at hl; linarith) (by norm_num at hg; linarith) hx
  have hP : (0:ℤ) < 2 ^ F := by positivity
  have hsq : sqRaw F t.val ≤ t.val := sq_le_mid hF (by omega) a2 (by norm_num at hl ⊢; linarith) (by linarith)
  have hM : (8:ℝ) ≤ 2 ^ (W - F) := by
    calc (8:ℝ) = 2 ^ 3 := by norm_num
      _ ≤ _ := pow_le_pow_right₀ (by norm_num) (by omega)
  have eM : (2:ℝ) ^ W * u F = 2 ^ (W - F) := by
    rw [show W = (W - F) + F by omega, pow_add, mul_assoc, pow_mul_u, mul_one, Nat.add_sub_cancel]
  obtain ⟨z, hz, hb⟩ := niirf_close (m := m) (s := false) (Counter.upto_width m hW) (by omega) hpos.ne' (abs_unsigned x) hn a1 a2 hN hkW h3 (M := 2 ^ (W - F))
    (fun n hn0 h => by
      rcases hn0 with hn0 | hn0
      · rw [fits_unsigned]
        refine ⟨hn0, ?_⟩
        rw [abs_of_nonneg (mul_nonneg (by exact_mod_cast hn0) hu.le), ← eM] at h
        exact_mod_cast lt_of_mul_lt_mul_right h hu.le
      · exact absurd hn0 (by decide))
    (by
      have := (fits_unsigned.mp x.fits).2
      have : (x.val : ℝ) < 2 ^ W := by exact_mod_cast this
      rw [← eM]; exact mul_lt_mul_of_pos_right this hu)
    (scale_bound (by omega) (by linarith) (by omega)) (.inl hsq)
  refine ⟨z, hz, ?_⟩
  simp only [div_pow_eq]
  have hC : ulps F = 5 / 4 := by unfold ulps; rw [if_neg (by omega), if_neg (by omega)]
  rw [hC] at hb
  have hX := Real.sqrt_nonneg (x.val * u F)
  refine hb.trans (add_le_add (mul_le_mul_of_nonneg_right ?_ hX) ?_) <;> norm_num <;> linarith

example : ∃ z, Returns (MixedSqrt.sqrt (fx .checked false 32 16 (2 ^ 17))) z := by
  obtain ⟨z, hz, -⟩ := C51_partial (τ := 1 / 2) (K := 1) (by norm_num) (by norm_num) (by norm_num) (fx .checked false 32 16 (2 ^ 17)) (by
    have : (fx .checked false 32 16 (2 ^ 17)).val = 2 ^ 17 := by decide
    rw [this]; norm_num) (by norm_num) (by norm_num)
  exact ⟨z, hz⟩

namespace Fixed

/-- The normal form of a number in the reals. -/
theorem normal_real {n t k : ℤ} (h : Normal n t k) :
    ∃ σ : ℝ, (n:ℝ) * u F = σ * 4 ^ k ∧ t * u F ≤ σ ∧ σ < t * u F + u F := by
  have hu := u_pos F
  rcases h with ⟨hk, h⟩ | ⟨hk, h⟩
  · refine ⟨t * u F, ?_, le_rfl, by linarith⟩
    obtain ⟨j, rfl⟩ : ∃ j : ℕ, k = -j := ⟨(-k).toNat, by omega⟩
    simp only [neg_neg, Int.toNat_natCast] at h
    rw [h, zpow_neg, zpow_natCast]; push_cast; field_simp
  · obtain ⟨j, rfl⟩ : ∃ j : ℕ, k = j := ⟨k.toNat, by omega⟩
    simp only [Int.toNat_natCast] at h
    have hP : (0:ℤ) < 4 ^ j := by positivity
    have c1 : t * 4 ^ j ≤ n := by rw [h]; exact Int.ediv_mul_le _ hP.ne'
    have c2 : n < (t + 1) * 4 ^ j := by rw [h]; exact Int.lt_ediv_add_one_mul_self _ hP
    have c1' : (t:ℝ) * 4 ^ j ≤ n := by exact_mod_cast c1
    have c2' : (n:ℝ) < (t + 1) * 4 ^ j := by exact_mod_cast c2
    have p4 : (0:ℝ) < 4 ^ j := by positivity
    refine ⟨n / 4 ^ j * u F, by rw [zpow_natCast]; field_simp, ?_, ?_⟩
    · exact mul_le_mul_of_nonneg_right ((le_div_iff₀ p4).mpr c1') hu.le
    · calc _ < ((t:ℝ) + 1) * u F := mul_lt_mul_of_pos_right ((div_lt_iff₀ p4).mpr c2') hu
        _ = _ := by ring

theorem normal_unique_int {n t t' k k' : ℤ} (h : Normal n t k) (h' : Normal n t' k') (h1 : 2 ^ F ≤ 4 * t) (h2 : t < 2 ^ F)
    (h1' : 2 ^ F ≤ 4 * t') (h2' : t' < 2 ^ F) : t = t' := by
  have hu := u_pos F
  have hpu := pow_mul_u F
  obtain ⟨σ, e, s1, s2⟩ := normal_real (F := F) h
  have a1 : (2:ℝ) ^ F ≤ 4 * t := by exact_mod_cast h1
  have a2 : (t:ℝ) + 1 ≤ 2 ^ F := by exact_mod_cast h2
  have b1 := mul_le_mul_of_nonneg_right a1 hu.le
  have b2 := mul_le_mul_of_nonneg_right a2 hu.le
  rw [hpu] at b1 b2
  obtain ⟨m1, m2⟩ := normal_exp h' h1' h2' (by linarith) (by linarith) e
  have l1 : (t:ℝ) * u F < (t' + 1) * u F := by linarith
  have l2 : (t':ℝ) * u F < (t + 1) * u F := by linarith
  have l1 : (t:ℝ) < t' + 1 := lt_of_mul_lt_mul_right l1 hu.le
  have l2 : (t':ℝ) < t + 1 := lt_of_mul_lt_mul_right l2 hu.le
  have l1 : t < t' + 1 := by exact_mod_cast l1
  have l2 : t' < t + 1 := by exact_mod_cast l2
  omega

end Fixed

/-- C51, exactly when: let `t` be the stored integer of the positive argument multiplied or (rounding down) divided by the
power of four that brings it between a quarter and one. The root is returned if the start value `y = 2t/3 + c` has a square
`y²`, rounded down, of at most `t`; otherwise the call panics for overflow. -/
theorem C51_exact_partial (hF : 2 ≤ F) (hW8 : 8 ≤ W) (hW : W ≤ 128) (hK : F + 3 ≤ W) (x c : Fixed .checked false W F)
    (hc : (Lit.ofF64 (f64Round 0.354167) : Prog (Fixed .checked false W F)) = pure c) (t : ℤ) (j : ℕ)
    (ht : t = x.val * 4 ^ j ∨ t = x.val / 4 ^ j) (h1 : 2 ^ F ≤ 4 * t) (h2 : t < 2 ^ F) :
    ((2 * t / 3 + c.val) ^ 2 / 2 ^ F ≤ t → ∃ z, Returns (MixedSqrt.sqrt x) z) ∧
    (t < (2 * t / 3 + c.val) ^ 2 / 2 ^ F → Panics (MixedSqrt.sqrt x) .overflow) := by
  have hu := u_pos F
  have hP : (0:ℤ) < 2 ^ F := by positivity
  have hx0 := (fits_unsigned.mp x.fits).1
  have hpos : 0 < x.val := by
    rcases hx0.lt_or_eq with h | h
    · exact h
    · rw [← h] at ht; simp at ht; omega
  have h4 : Fits false W (4 * 2 ^ F) := fits_unsigned_of (K := 3) (by omega) (by norm_num) (by norm_num)
  have h3 : Fits false W (3 * 2 ^ F) := fits_unsigned_of (K := 3) (by omega) (by norm_num) (by norm_num)
  have f2 : Fits false W (2 * 2 ^ F) := fits_unsigned_of (K := 3) (by omega) (by norm_num) (by norm_num)
  obtain ⟨t', k, hn, a1, a2, hN, hkW⟩ := normalize_fixed (Counter.upto_width .checked hW) hF h4 hpos
  obtain ⟨k', hN'⟩ : ∃ k', Normal x.val t k' := by
    rcases ht with h | h
    · exact ⟨-j, .inl ⟨by omega, by simpa using h⟩⟩
    · exact ⟨j, .inr ⟨by omega, by simpa using h⟩⟩
  obtain rfl := normal_unique_int hN' hN h1 h2 a1 a2
  obtain ⟨p1, p2, p3, p4, -⟩ := pass_ranges hF (by omega) h2
  have ec : c.val = lit F (f64Round 0.354167) := by
    have hb := lit_bounds F (f64_unit (Niirf.f64_close 0.354167 (by simp)) (by norm_num) (by norm_num)).1
      (f64_unit (Niirf.f64_close 0.354167 (by simp)) (by norm_num) (by norm_num)).2
    have hf : Fits false W (lit F (f64Round 0.354167)) := (fits_zero _ _).between f2 hb.1 (by linarith)
    rw [ofF64_def, show roundHalfEven (f64Round 0.354167 * 2 ^ F) = lit F (f64Round 0.354167) from rfl, fit_of_fits hf] at hc
    rw [← Prog.pure_inj hc]; rfl
  have es : (2 * t'.val / 3 + c.val) ^ 2 / 2 ^ F = sqRaw F t'.val := by rw [ec, sq]; rfl
  rw [es]
  refine ⟨fun hsq => ?_, fun hlt => ?_⟩
  · have hM : (8:ℝ) ≤ 2 ^ (W - F) := by
      calc (8:ℝ) = 2 ^ 3 := by norm_num
        _ ≤ _ := pow_le_pow_right₀ (by norm_num) (by omega)
    have eM : (2:ℝ) ^ W * u F = 2 ^ (W - F) := by
      rw [show W = (W - F) + F by omega, pow_add, mul_assoc, pow_mul_u, mul_one, Nat.add_sub_cancel]
    obtain ⟨z, hz, -⟩ := niirf_close (m := .checked) (s := false) (Counter.upto_width .checked hW) hF hpos.ne' (abs_unsigned x) hn a1 a2 hN hkW h3 (M := 2 ^ (W - F))
      (fun n hn0 h => by
        rcases hn0 with hn0 | hn0
        · rw [fits_unsigned]
          refine ⟨hn0, ?_⟩
          rw [abs_of_nonneg (mul_nonneg (by exact_mod_cast hn0) hu.le), ← eM] at h
          exact_mod_cast lt_of_mul_lt_mul_right h hu.le
        · exact absurd hn0 (by decide))
      (by
        have := (fits_unsigned.mp x.fits).2
        have : (x.val : ℝ) < 2 ^ W := by exact_mod_cast this
        rw [← eM]; exact mul_lt_mul_of_pos_right this hu)
      (scale_bound hF (by linarith) (fun h => by
        calc (16:ℝ) = 2 ^ 4 := by norm_num
          _ ≤ _ := pow_le_pow_right₀ (by norm_num) (by omega))) (.inl hsq)
    exact ⟨z, hz⟩
  · refine (niirf_split hpos.ne' (abs_unsigned x) hn h3 (by omega) a2 (p := Prog.fail .overflow) fun y hy => ?_).2 _ (.of_eq rfl)
    rw [pass_fails f2 hy ((fits_zero _ _).between f2 p3 p4.le) (by rw [fits_unsigned]; omega), Prog.fail_bind]

example : (2 ≤ 16 ∧ 8 ≤ 32 ∧ 32 ≤ 128 ∧ 16 + 3 ≤ 32) ∧
    (Lit.ofF64 (f64Round 0.354167) : Prog (Fixed .checked false 32 16)) = pure (fx .checked false 32 16 23211) ∧
    (21535:ℤ) = (fx .checked false 32 16 86140).val / 4 ^ 1 ∧ 2 ^ 16 ≤ 4 * (21535:ℤ) ∧ (21535:ℤ) < 2 ^ 16 ∧
    (2 * 21535 / 3 + (fx .checked false 32 16 23211).val) ^ 2 / 2 ^ 16 ≤ (21535:ℤ) := by
  refine ⟨by norm_num, by kernel_rfl, by decide, by norm_num, by norm_num, by decide⟩

/-! ## C52 -/

/-- C52 is false on signed fixed point without fraction bits: the result is 0 for every argument and iteration count. -/
theorem C52_counterexample_signed (hW : 4 ≤ W) (hW' : W ≤ 128) (x : Fixed m true W 0) (hx : x.val ≠ 0) (hm : -(2 ^ (W - 1)) < x.val) (n : ℕ) :
    ∃ z, Returns (niirf (.i32 m) x n) z ∧ z.val = 0 := by
  obtain ⟨x', ha, va⟩ := abs_signed (x := x) (by
    have := x.fits
    rw [fits_signed] at this ⊢
    have := abs_cases x.val
    constructor <;> omega)
  exact niirf_no_bits (Counter.upto_width m hW') (fits_signed_of (K := 3) (by omega) (by norm_num) (by norm_num)) hx ha (by rw [va]; exact abs_pos.mpr hx) n

/-- The hypotheses hold of 9 on 8 bits without fraction. -/
example := C52_counterexample_signed (m := .checked) (by decide) (by decide) (fx .checked true 8 0 9) (by decide) (by decide) 2

/-- C52 is false on unsigned fixed point without fraction bits: the result is 0. -/
theorem C52_counterexample_unsigned (hW : 3 ≤ W) (hW' : W ≤ 128) (x : Fixed m false W 0) (n : ℕ) :
    ∃ z, Returns (niirf (.i32 m) x n) z ∧ z.val = 0 := by
  have := (fits_unsigned.mp x.fits).1
  rcases this.lt_or_eq with h | h
  · exact niirf_no_bits (Counter.upto_width m hW') (fits_unsigned_of (K := 3) (by omega) (by norm_num) (by norm_num)) h.ne' (abs_unsigned x) h n
  · refine ⟨MixedZero.zero, .of_eq ?_, rfl⟩
    unfold niirf
    rw [if_pos (by rw [beq_def, zero_val, decide_eq_true h.symm])]

/-- C52 is false on integers: the result is 0 for every positive argument and iteration count. -/
theorem C52_counterexample_int (hW : 4 ≤ W) (hW' : W ≤ 128) (x : PInt m s W) (hx : 0 < x.val) (n : ℕ) :
    ∃ z, Returns (niirf (.i32 m) x n) z ∧ z.val = 0 := by
  have h8 : (2:ℤ) ^ 3 ≤ 2 ^ (W - 1) := pow_le_pow_right₀ (by norm_num) (by omega)
  have h16 : (2:ℤ) ^ 4 ≤ 2 ^ W := pow_le_pow_right₀ (by norm_num) (by omega)
  refine PInt.niirf_zero (Counter.upto_width m hW') (x' := x) ?_ hx.ne' ?_ hx n
  · cases s <;> simp [Fits, wlo, whi] <;> omega
  · show (if s then (if 0 ≤ x.val then pure x else PInt.fit (-x.val)) else pure x) = _
    rw [if_pos hx.le]; split <;> rfl

example : ∃ z, Returns (niirf (.i32 .checked) (PInt.mkv 100 (by decide) : PInt .checked true 32) 2) z ∧ z.val = 0 :=
  C52_counterexample_int (by norm_num) (by norm_num) _ (by decide) 2

/-- C52, what remains: the root of 0 is 0. -/
theorem C52_zero_partial (n : ℕ) : (∀ x : Fixed m s W F, x.val = 0 → ∃ z, Returns (niirf (.i32 m) x n) z ∧ z.val = 0) ∧
    ∀ x : PInt m s W, x.val = 0 → ∃ z, Returns (niirf (.i32 m) x n) z ∧ z.val = 0 := by
  refine ⟨fun x hx => ⟨MixedZero.zero, .of_eq ?_, rfl⟩, fun x hx => ⟨MixedZero.zero, .of_eq ?_, rfl⟩⟩
  · unfold niirf; rw [if_pos (by rw [beq_def, zero_val, decide_eq_true hx])]
  · unfold niirf; rw [if_pos (by rw [PInt.beq_def, PInt.zero_val, decide_eq_true hx])]

end MixedNum
