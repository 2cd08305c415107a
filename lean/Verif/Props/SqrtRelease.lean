import Verif.Props.SqrtUnsigned
/-! # C51 without overflow checks: the NIIRF square root on unsigned fixed point in release builds -/

namespace MixedNum
variable {s : Bool} {W F : ℕ}
open Fixed

namespace Fixed

theorem denormalize_wrapping {cn : Counter} {B : ℤ} (hcn : cn.Upto B) (f2 : Fits s W (2 * 2 ^ F)) (y : Fixed .wrapping s W F) {k : ℤ}
    (hkB : |k| ≤ B) : ∃ z, Returns (niirfDenormalize cn y k) z := by
  obtain ⟨two, e2, v2⟩ := int_lit (m := .wrapping) f2
  rw [denormalize_eq hcn y hkB]
  unfold denormalizeExact
  obtain ⟨a, ha, -, -⟩ := whileLoop_total (σ := Fixed .wrapping s W F × ℤ)
    (c := fun s => pure (s.2.natAbs != 0))
    (b := fun s => do
      if 0 < s.2 then pure (← NumOps.mul s.1 (← Lit.ofI32 2), s.2 - 1)
      else if s.2 < 0 then pure (← NumOps.div s.1 (← Lit.ofI32 2), s.2 + 1)
      else pure s)
    (fun _ => True) (fun s => s.2.natAbs) (by
      rintro ⟨a, j⟩ -
      simp only [e2, pure_bind]
      rcases lt_trichotomy j 0 with hj | rfl | hj
      · refine .inr ⟨by congr 1; simp; omega, (mkv _ (fits_wrapInt s W (a.val.tdiv 2)), j + 1), ?_, trivial, by simp only []; omega⟩
        rw [if_neg (by omega), if_pos hj, div_lit a two (by norm_num) v2, fit_wrapping, pure_bind]
      · exact .inl rfl
      · refine .inr ⟨by congr 1; simp; omega, (mkv _ (fits_wrapInt s W (2 * a.val)), j - 1), ?_, trivial, by simp only []; omega⟩
        rw [if_pos hj, mul_lit a two v2, fit_wrapping, pure_bind]) (y, k) trivial
  exact ⟨a.1, ha.bind (.of_eq rfl)⟩

/-- One pass without overflow checks. -/
theorem pass_wrapping (hF : 2 ≤ F) {t y : Fixed .wrapping false W F} (hW : F ≤ W) (f2 : Fits false W (2 * 2 ^ F)) (h0 : 0 ≤ t.val)
    (h1 : t.val < 2 ^ F) (hy : y.val = yRaw F t.val) :
    ∃ z, niirfIter t 1 y = pure z ∧
      (t.val < sqRaw F t.val → z.val ≡ y1Raw F t.val + bRaw F t.val * 2 ^ (W - F) [ZMOD 2 ^ W]) := by
  have hP : (0:ℤ) < 2 ^ F := by positivity
  have hW0 : 0 < W := by omega
  have f1 : Fits false W (2 ^ F) := (fits_zero false W).between f2 hP.le (by linarith)
  obtain ⟨p1, p2, p3, p4, -⟩ := pass_ranges hF h0 h1
  obtain ⟨b, eb, vb⟩ := beta_fixed f1 t
  obtain ⟨q, eq, vq⟩ := fit_val (m := .wrapping) (F := F) ((fits_zero false W).between f2 p3 p4.le)
  have q1 : MixedPowi.powi y 2 = pure q := by rw [sq_eq, hy]; exact eq
  have fw (n : ℤ) : ∃ d : Fixed .wrapping false W F, fit n = pure d ∧ d.val = wrapInt false W n := ⟨_, fit_wrapping n, rfl⟩
  obtain ⟨d, q2, vd⟩ := fw (t.val - q.val)
  obtain ⟨c, q3, vc⟩ := fw (b.val * d.val / 2 ^ F)
  obtain ⟨z, q4, vz⟩ := fw (c.val + y.val)
  refine ⟨z, ?_, fun hlt => ?_⟩
  · rw [niirfIter, eb, pure_bind, q1, pure_bind, sub_def, q2, pure_bind, mul_def, q3, pure_bind, add_def, q4, pure_bind]
    rfl
  · have ed : wrapInt false W (t.val - sqRaw F t.val) = t.val - sqRaw F t.val + 2 ^ W := by
      refine eq_of_modEq_of_fits (s := false) hW0 (fits_wrapInt ..) ?_ ((wrapInt_modEq hW0 _).trans ?_)
      · have := (fits_unsigned.mp f2).2
        rw [fits_unsigned]; constructor <;> omega
      · exact (Int.add_modEq_right).symm
    rw [vz]
    refine (wrapInt_modEq hW0 _).trans ?_
    rw [vc, vd, vq, ed, vb, hy]
    have ec : bRaw F t.val * (t.val - sqRaw F t.val + 2 ^ W) / 2 ^ F = corRaw F t.val + bRaw F t.val * 2 ^ (W - F) := by
      rw [mul_add, show (2:ℤ) ^ W = 2 ^ (W - F) * 2 ^ F by rw [← pow_add]; congr 1; omega, ← mul_assoc,
        Int.add_mul_ediv_right _ _ hP.ne']
      rfl
    rw [ec]
    refine ((wrapInt_modEq hW0 _).add_right _).trans ?_
    rw [y1Raw]
    exact (by ring : corRaw F t.val + bRaw F t.val * 2 ^ (W - F) + yRaw F t.val =
      corRaw F t.val + yRaw F t.val + bRaw F t.val * 2 ^ (W - F)) ▸ Int.ModEq.refl _

/-- A pass shifted by a fraction `B` of the whole range `M`, modulo that range, is far from the root. -/
theorem far_from_root {r κ z P Y U M B b : ℝ} {c : ℤ} (hU1 : U ≤ 1 / 4096) (hr1 : r < 1) (hκ : 0 < κ) (hUκ : U ≤ κ / 64)
    (hz : |z - P * κ| ≤ U) (hY : |Y - r| ≤ 996 / 1000000 * r + 5 / 4 * U) (hP : P - Y = (B + c) * M) (hM : 8 ≤ M)
    (hB : |B - b| ≤ U / 2 + 1 / 10 ^ 15) (b1 : 1 / 2 ≤ b) (b2 : b ≤ 97 / 100) : r * κ / 5 < |z - r * κ| := by
  have hb' := abs_le.mp hB
  have h15 : (1:ℝ) / 10 ^ 15 ≤ 1 / 10 ^ 5 := by norm_num
  have hBc : 29 / 1000 ≤ |B + c| := by
    rcases lt_or_ge (-1) c with hc0 | hc0
    · have : (0:ℝ) ≤ c := by exact_mod_cast (by omega : (0:ℤ) ≤ c)
      exact le_abs.mpr (.inl (by linarith [hb'.1]))
    · have : (c:ℝ) ≤ -1 := by exact_mod_cast hc0
      exact le_abs.mpr (.inr (by linarith [hb'.2]))
  have e2 : 29 / 1000 * 8 ≤ |P - Y| := by
    rw [hP, abs_mul, abs_of_pos (by linarith : 0 < M)]
    exact mul_le_mul hBc hM (by norm_num) (abs_nonneg _)
  have e3 : 230 / 1000 ≤ |P - r| := by
    have := abs_sub_abs_le_abs_sub (P - Y) (r - Y)
    rw [sub_sub_sub_cancel_right, abs_sub_comm r] at this
    linarith
  have e4 : 230 / 1000 * κ ≤ |P * κ - r * κ| := by
    rw [← sub_mul, abs_mul, abs_of_pos hκ]
    exact mul_le_mul_of_nonneg_right e3 hκ.le
  have := abs_sub_abs_le_abs_sub (P * κ - r * κ) (P * κ - z)
  rw [sub_sub_sub_cancel_left, abs_sub_comm _ z] at this
  have h5 : r * κ ≤ 1 * κ := mul_le_mul_of_nonneg_right hr1.le hκ.le
  linarith

/-- An ulp against a power of two above the root of an ulp. -/
theorem ulp_le_scale {U κ : ℝ} (hU : 0 < U) (hU1 : U ≤ 1 / 4096) (h : Real.sqrt U ≤ κ) : U ≤ κ / 64 := by
  have h2 : Real.sqrt U ≤ 1 / 64 := Real.sqrt_le_iff.mpr ⟨by norm_num, hU1.trans (by norm_num)⟩
  have h3 := Real.mul_self_sqrt hU.le
  have := mul_le_mul h h2 (Real.sqrt_nonneg _) ((Real.sqrt_nonneg _).trans h)
  linarith

end Fixed

/-- C51 without overflow checks: `mixed_sqrt` returns for every value of every supported unsigned type. -/
theorem C51_release_returns (hW : W ≤ 128) (hK : F + 3 ≤ W) (x : Fixed .wrapping false W F) : ∃ z, Returns (MixedSqrt.sqrt x) z := by
  have h0 := (fits_unsigned.mp x.fits).1
  have h4 : Fits false W (4 * 2 ^ F) := fits_unsigned_of (K := 3) (by omega) (by norm_num) (by norm_num)
  have h3 : Fits false W (3 * 2 ^ F) := fits_unsigned_of (K := 3) (by omega) (by norm_num) (by norm_num)
  have h2 : Fits false W (2 * 2 ^ F) := fits_unsigned_of (K := 3) (by omega) (by norm_num) (by norm_num)
  rcases h0.lt_or_eq with hx | hx
  swap
  · obtain ⟨z, hz, -⟩ := (C52_zero_partial (m := .wrapping) (s := false) (W := W) (F := F) 2).1 x hx.symm
    exact ⟨z, hz⟩
  rcases Nat.lt_or_ge F 2 with hF | hF
  · obtain rfl | rfl : F = 0 ∨ F = 1 := by omega
    · obtain ⟨z, hz, -⟩ := niirf_no_bits (Counter.upto_width .wrapping hW) h4 hx.ne' (abs_unsigned x) hx 2
      exact ⟨z, hz⟩
    · obtain ⟨z, -, hz, -⟩ := niirf_one_bit (Counter.upto_width .wrapping hW) h4 hx.ne' (abs_unsigned x) hx
      exact ⟨z, hz⟩
  obtain ⟨t, k, hn, a1, a2, hN, hkW⟩ := normalize_fixed (Counter.upto_width .wrapping hW) hF h4 hx
  have hP : (0:ℤ) < 2 ^ F := by positivity
  obtain ⟨p1, p2, -⟩ := pass_ranges hF (by omega) a2
  obtain ⟨p, ep, -⟩ := pass_wrapping hF (y := mkv _ ((fits_zero false W).between h2 p1 (by omega))) (by omega) h2 (by omega) a2 rfl
  obtain ⟨z, hz⟩ := denormalize_wrapping (Counter.upto_width .wrapping hW) h2 p hkW
  refine ⟨z, (niirf_split hx.ne' (abs_unsigned x) hn h3 (by omega) a2 (p := niirfDenormalize (.i32 .wrapping) p k) fun y hy => ?_).1 z hz⟩
  rw [show y = mkv _ ((fits_zero false W).between h2 p1 (by omega)) from Fixed.ext hy, ep, pure_bind]

example : ∃ z, Returns (MixedSqrt.sqrt (fx .wrapping false 16 8 65000)) z := C51_release_returns (by norm_num) (by norm_num) _

/-- C51 without overflow checks: where a checked build panics, the release build returns a number that is off by more than
a fifth of the root; for every number below 1. -/
theorem C51_release_wrong (hF : 12 ≤ F) (hW : W ≤ 128) (hK : F + 3 ≤ W) (x : Fixed .wrapping false W F) {τ : ℝ} {K : ℤ}
    (hx : (x.val : ℝ) / 2 ^ F = τ * 4 ^ K) (h : 1 / 4 ≤ τ ∧ τ ≤ 0.325 ∨ 0.866 ≤ τ ∧ τ < 1) (hx1 : x.val < 2 ^ F) :
    ∃ z, Returns (MixedSqrt.sqrt x) z ∧ Real.sqrt (x.val / 2 ^ F) / 5 < |(z.val : ℝ) / 2 ^ F - Real.sqrt (x.val / 2 ^ F)| := by
  have hu := u_pos F
  have huF : u F ≤ 1 / 4096 := (u_le hF).trans (by norm_num)
  have hl : 1 / 4 ≤ τ := by rcases h with h | h <;> norm_num at h ⊢ <;> linarith
  have hg : τ < 1 := by rcases h with h | h <;> norm_num at h ⊢ <;> linarith
  rw [div_pow_eq] at hx
  have hpos : 0 < x.val := by
    have : 0 < (x.val : ℝ) * u F := by rw [hx]; positivity
    have := pos_of_mul_pos_left this hu.le
    exact_mod_cast this
  have h4 : Fits false W (4 * 2 ^ F) := fits_unsigned_of (K := 3) (by omega) (by norm_num) (by norm_num)
  have h3 : Fits false W (3 * 2 ^ F) := fits_unsigned_of (K := 3) (by omega) (by norm_num) (by norm_num)
  have h2 : Fits false W (2 * 2 ^ F) := fits_unsigned_of (K := 3) (by omega) (by norm_num) (by norm_num)
  obtain ⟨t, k, hn, a1, a2, hN, hkW⟩ := normalize_fixed (Counter.upto_width .wrapping hW) (by omega) h4 hpos
  obtain ⟨n1, n2⟩ := normal_exp hN a1 a2 hl hg hx
  have hP : (0:ℤ) < 2 ^ F := by positivity
  have a0 : 0 ≤ t.val := by omega
  have q : 1 / 4 ≤ (t.val : ℝ) * u F := by
    have a1' : (2:ℝ) ^ F ≤ 4 * t.val := by exact_mod_cast a1
    have := mul_le_mul_of_nonneg_right a1' hu.le
    rw [pow_mul_u] at this; linarith
  have hlt : t.val < sqRaw F t.val := lt_sq_outer hF q (by
    rcases h with h | h
    · left; linarith [h.2]
    · right; have := h.1; norm_num at this ⊢; linarith)
  obtain ⟨p1, p2, -⟩ := pass_ranges (F := F) (by omega) a0 a2
  obtain ⟨p, ep, hp⟩ := pass_wrapping (by omega) (y := mkv _ ((fits_zero false W).between h2 p1 (by omega))) (by omega) h2 a0 a2 rfl
  have hp := hp hlt
  -- no scaling up
  have hk0 : k ≤ 0 := by
    rcases hN with ⟨hk, -⟩ | ⟨hk, ht⟩
    · exact hk
    · by_contra hc
      have h4k : (4:ℤ) ≤ 4 ^ k.toNat := by
        calc (4:ℤ) = 4 ^ 1 := by norm_num
          _ ≤ _ := pow_le_pow_right₀ (by norm_num) (by omega)
      have := Int.ediv_mul_le x.val (show (4:ℤ) ^ k.toNat ≠ 0 by positivity)
      rw [← ht] at this
      nlinarith
  obtain ⟨z, hz, hzb⟩ := denormalize_neg (Counter.upto_width .wrapping hW) h2 (y := p) hk0 hkW
  refine ⟨z, (niirf_split hpos.ne' (abs_unsigned x) hn h3 a0 a2 (p := niirfDenormalize (.i32 .wrapping) p k) fun y hy => ?_).1 z hz, ?_⟩
  · rw [show y = mkv _ ((fits_zero false W).between h2 p1 (by omega)) from Fixed.ext hy, ep, pure_bind]
  simp only [div_pow_eq]
  set r := Real.sqrt (t.val * u F) with hrdef
  have hr0 : 0 ≤ r := Real.sqrt_nonneg _
  have hr : r ^ 2 = t.val * u F := Real.sq_sqrt (by linarith)
  obtain ⟨rl, rg, hy1⟩ := y1_close (by omega) a1 a2 hr hr0
  obtain ⟨b, hreg, hb⟩ := bRaw_close (by omega) hr (by rw [hr]; exact q) (by
    rw [hr]
    have : (t.val : ℝ) < 2 ^ F := by exact_mod_cast a2
    have := mul_lt_mul_of_pos_right this hu
    rwa [pow_mul_u] at this)
  obtain ⟨-, b1, b2⟩ := Niirf.region_all (by linarith) hreg
  -- distance of the pass from the root
  have hW2 : (W - F) + F = W := by omega
  obtain ⟨c, hc⟩ := hp.symm.dvd
  have e1 : (p.val : ℝ) * u F - y1Raw F t.val * u F = (bRaw F t.val * u F + c) * 2 ^ (W - F) := by
    have hc' : (p.val : ℝ) - (y1Raw F t.val + bRaw F t.val * 2 ^ (W - F)) = 2 ^ W * c := by exact_mod_cast hc
    have hWu : (2:ℝ) ^ W * u F = 2 ^ (W - F) := by rw [← hW2, pow_add, mul_assoc, pow_mul_u, mul_one, hW2]
    linear_combination u F * hc' + c * hWu
  have hM : (8:ℝ) ≤ 2 ^ (W - F) := by
    calc (8:ℝ) = 2 ^ 3 := by norm_num
      _ ≤ _ := pow_le_pow_right₀ (by norm_num) (by omega)
  have hroot : Real.sqrt (x.val * u F) = r * 2 ^ k := by
    obtain ⟨-, hroot⟩ | ⟨hk, -, -⟩ := sqrt_of_normal hN hr rl
    · exact hroot
    · obtain rfl : k = 0 := by omega
      have : t.val = x.val := by rcases hN with ⟨-, h⟩ | ⟨-, h⟩ <;> simpa using h
      rw [hrdef, this]; simp
  have hk2 : (0:ℝ) < 2 ^ k := by positivity
  have hsu : u F ≤ 2 ^ k / 64 := by
    refine ulp_le_scale hu huF (le_trans (Real.sqrt_le_sqrt (y := x.val * u F) ?_) ?_)
    · have : (1:ℝ) ≤ x.val := by exact_mod_cast hpos
      exact le_mul_of_one_le_left hu.le this
    · rw [hroot]; exact mul_le_of_le_one_left hk2.le rg.le
  have hzu : |(z.val : ℝ) * u F - p.val * u F * 2 ^ k| ≤ u F := by
    rw [show (z.val : ℝ) * u F - p.val * u F * 2 ^ k = (z.val - p.val * 2 ^ k) * u F by ring, abs_mul, abs_of_pos hu]
    exact mul_le_of_le_one_left hu.le hzb
  rw [ulps, if_neg (by omega), if_neg (by omega)] at hy1
  rw [hroot]
  exact far_from_root huF rg hk2 hsu hzu hy1 e1 hM hb b1 b2

/-- The root of 1/4 in an unsigned 32-bit type with 16 fraction bits. -/
example : ∃ z, Returns (MixedSqrt.sqrt (fx .wrapping false 32 16 16384)) z ∧
    Real.sqrt (((fx .wrapping false 32 16 16384).val : ℝ) / 2 ^ 16) / 5 <
      |(z.val : ℝ) / 2 ^ 16 - Real.sqrt (((fx .wrapping false 32 16 16384).val : ℝ) / 2 ^ 16)| :=
  C51_release_wrong (τ := 1 / 4) (K := 0) (by norm_num) (by norm_num) (by norm_num) _
    (by rw [show (fx .wrapping false 32 16 16384).val = 16384 by decide]; norm_num) (.inl (by norm_num)) (by decide)

end MixedNum
