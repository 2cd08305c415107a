import Verif.Lemmas.SqrtError
/-! The NIIRF square root on fixed point: the whole routine. -/

namespace MixedNum
namespace Fixed
open Niirf
variable {m : Mode} {s : Bool} {W F : ℕ}

theorem ulps_pos (F : ℕ) : 0 < ulps F := by unfold ulps; split_ifs <;> norm_num

/-- The square root of the argument from the root of the normalised argument. -/
theorem sqrt_of_normal {n t k : ℤ} {r : ℝ} (h : Normal n t k) (hr : r ^ 2 = t * u F) (hl : 1 / 2 ≤ r) :
    (k ≤ 0 ∧ Real.sqrt (n * u F) = r * 2 ^ k) ∨
    (0 ≤ k ∧ r * 2 ^ k.toNat ≤ Real.sqrt (n * u F) ∧ Real.sqrt (n * u F) ≤ (r + u F) * 2 ^ k.toNat) := by
  have hu := u_pos F
  rcases h with ⟨hk, h⟩ | ⟨hk, h⟩
  · left; refine ⟨hk, ?_⟩
    obtain ⟨j, rfl⟩ : ∃ j : ℕ, k = -j := ⟨(-k).toNat, by omega⟩
    simp only [neg_neg, Int.toNat_natCast] at h
    rw [h] at hr; push_cast at hr
    have e : (n:ℝ) * u F = (r * 2 ^ (-(j:ℤ))) ^ 2 := by
      rw [mul_pow, hr, zpow_neg, zpow_natCast, inv_pow, ← pow_mul, mul_comm j 2, pow_mul]
      norm_num; field_simp
    rw [e, Real.sqrt_sq (by positivity)]
  · right; refine ⟨hk, ?_, ?_⟩
    all_goals
      set j := k.toNat
      have hP : (0:ℤ) < 4 ^ j := by positivity
      have h1 : t * 4 ^ j ≤ n := by rw [h]; exact Int.ediv_mul_le _ hP.ne'
      have h2 : n < (t + 1) * 4 ^ j := by rw [h]; exact Int.lt_ediv_add_one_mul_self _ hP
      have h1' : (t:ℝ) * 4 ^ j ≤ n := by exact_mod_cast h1
      have h2' : (n:ℝ) < (t + 1) * 4 ^ j := by exact_mod_cast h2
      have e4 : ((2:ℝ) ^ j) ^ 2 = 4 ^ j := by rw [← pow_mul, mul_comm j 2, pow_mul]; norm_num
    · refine Real.le_sqrt_of_sq_le ?_
      rw [mul_pow, hr, e4]
      calc _ = (t:ℝ) * 4 ^ j * u F := by ring
        _ ≤ _ := mul_le_mul_of_nonneg_right h1' hu.le
    · refine Real.sqrt_le_iff.mpr ⟨by positivity, ?_⟩
      rw [mul_pow, e4]
      calc (n:ℝ) * u F ≤ (t + 1) * 4 ^ j * u F := mul_le_mul_of_nonneg_right h2'.le hu.le
        _ = (r ^ 2 + u F) * 4 ^ j := by rw [hr]; ring
        _ ≤ (r + u F) ^ 2 * 4 ^ j := by
          refine mul_le_mul_of_nonneg_right ?_ (by positivity)
          nlinarith [mul_nonneg (show 0 ≤ r - 1 / 2 by linarith) hu.le, sq_nonneg (u F)]

theorem start_half (hF : 2 ≤ F) : 2 * lit F (f64Round 0.354167) ≤ 2 ^ F := by
  have h := abs_le.mp (lit_f64_close F (c := 354167 / 1000000) (f64_close 0.354167 (by simp)) (by norm_num))
  have hu := u_pos F
  have hu4 : u F ≤ 1 / 4 := (u_le hF).trans (by norm_num)
  have : (2 * lit F (f64Round 0.354167) : ℝ) * u F ≤ 2 ^ F * u F := by
    rw [pow_mul_u]; norm_num at h ⊢; linarith
  have := le_of_mul_le_mul_right this hu
  exact_mod_cast this

/-- Ranges of the intermediate stored integers. -/
theorem pass_ranges (hF : 2 ≤ F) {t : ℤ} (h0 : 0 ≤ t) (h1 : t < 2 ^ F) :
    0 ≤ yRaw F t ∧ 6 * yRaw F t ≤ 7 * 2 ^ F ∧ 0 ≤ sqRaw F t ∧ sqRaw F t < 2 * 2 ^ F ∧
    -(2 * 2 ^ F) ≤ corRaw F t ∧ corRaw F t ≤ 2 ^ F ∧ (sqRaw F t ≤ t → 0 ≤ corRaw F t) := by
  have hP : (0:ℤ) < 2 ^ F := by positivity
  obtain ⟨y0, -, q0, -⟩ := yRaw_bounds h0 h1
  obtain ⟨b0, b1⟩ := bRaw_bounds F t
  have hs := start_half hF
  have hy : 6 * yRaw F t ≤ 7 * 2 ^ F := by unfold yRaw; omega
  have hq : sqRaw F t < 2 * 2 ^ F := by
    unfold sqRaw
    refine Int.ediv_lt_of_lt_mul hP ?_
    nlinarith
  refine ⟨y0, hy, q0, hq, ?_, ?_, ?_⟩
  · unfold corRaw
    rw [Int.le_ediv_iff_mul_le hP]; nlinarith
  · unfold corRaw
    refine Int.ediv_le_of_le_mul hP ?_
    nlinarith
  · intro h
    exact Int.ediv_nonneg (mul_nonneg b0 (by omega)) hP.le

/-- The routine returns a value close to the root, if the intermediate results fit. -/
theorem niirf_close {cn : Counter} (hcn : cn.Upto W) (hF : 2 ≤ F) {x x' t : Fixed m s W F} {k : ℤ} (hx : x.val ≠ 0)
    (ha : MixedAbs.abs x = pure x') (hn : Returns (niirfNormalize cn x') (t, k))
    (h1 : 2 ^ F ≤ 4 * t.val) (h2 : t.val < 2 ^ F) (hN : Normal x'.val t.val k) (hkW : |k| ≤ W) (h3 : Fits s W (3 * 2 ^ F))
    {M : ℝ} (hM : ∀ n : ℤ, 0 ≤ n ∨ s = true → |(n:ℝ) * u F| < M → Fits s W n) (hxM : x'.val * u F < M)
    (hMC : (1001 / 1000 + 2 * (ulps F * u F)) ^ 2 ≤ M)
    (hd : sqRaw F t.val ≤ t.val ∨ (s = true ∧ F + 3 ≤ W)) :
    ∃ z, Returns (niirf cn x 2) z ∧ |(z.val : ℝ) * u F - Real.sqrt (x'.val * u F)| ≤
      (996 / 1000000 + 2 * ((ulps F + 1) * u F)) * Real.sqrt (x'.val * u F) + (ulps F / 2 + 1) * u F := by
  have hP : (0:ℤ) < 2 ^ F := by positivity
  have hu := u_pos F
  have hC := ulps_pos F
  have hCu : 0 < ulps F * u F := mul_pos hC hu
  have f2 : Fits s W (2 * 2 ^ F) := (fits_zero s W).between h3 (by positivity) (by linarith)
  have h0 : 0 ≤ t.val := by omega
  obtain ⟨p1, p2, p3, p4, p5, p6, p7⟩ := pass_ranges hF h0 h2
  have pass : ∀ y : Fixed m s W F, y.val = yRaw F t.val →
      ∃ z, niirfIter t 1 y = pure z ∧ z.val = y1Raw F t.val := by
    intro y hy
    have hsq := (fits_zero s W).between f2 p3 p4.le
    rcases hd with hd | ⟨rfl, hW⟩
    · refine pass_returns f2 h0 h2 hy hsq ((fits_zero s W).between f2 (by omega) (by omega))
        ((fits_zero s W).between f2 (p7 hd) (by omega)) ((fits_zero s W).between h3 ?_ ?_)
      · have := p7 hd; unfold y1Raw; omega
      · unfold y1Raw; omega
    · have hlo : Fits true W (-(3 * 2 ^ F)) := by
        rw [fits_signed] at h3 ⊢; constructor <;> linarith [h3.1, h3.2]
      exact pass_returns f2 h0 h2 hy hsq (hlo.between h3 (by omega) (by omega)) (hlo.between h3 (by omega) (by omega))
        (hlo.between h3 (by unfold y1Raw; omega) (by unfold y1Raw; omega))
  set r := Real.sqrt (t.val * u F) with hrdef
  have hr0 : 0 ≤ r := Real.sqrt_nonneg _
  have hr : r ^ 2 = t.val * u F := Real.sq_sqrt (mul_nonneg (by exact_mod_cast h0) hu.le)
  obtain ⟨hl, hg, hy1⟩ := y1_close hF h1 h2 hr hr0
  have hsign : 0 ≤ y1Raw F t.val ∨ s = true := by
    rcases hd with hd | ⟨h, -⟩
    · left; have := p7 hd; unfold y1Raw; omega
    · exact .inr h
  set X := Real.sqrt (x'.val * u F) with hX
  -- it suffices to denormalise
  suffices hden : ∀ y : Fixed m s W F, y.val = y1Raw F t.val → ∃ z, Returns (niirfDenormalize cn y k) z ∧
      |(z.val : ℝ) * u F - X| ≤ (996 / 1000000 + 2 * ((ulps F + 1) * u F)) * X + (ulps F / 2 + 1) * u F by
    obtain ⟨z, ez⟩ : ∃ z : ℤ, ∃ p : Fixed m s W F, p.val = y1Raw F t.val := by
      obtain ⟨y, hy⟩ : ∃ y : Fixed m s W F, y.val = yRaw F t.val :=
        ⟨mkv _ ((fits_zero s W).between f2 p1 (by omega)), rfl⟩
      obtain ⟨z, -, vz⟩ := pass y hy
      exact ⟨0, z, vz⟩
    obtain ⟨p, vp⟩ := ez
    obtain ⟨w, hw, hb⟩ := hden p vp
    refine ⟨w, (niirf_split hx ha hn h3 h0 h2 (p := niirfDenormalize cn p k) fun y hy => ?_).1 w hw, hb⟩
    obtain ⟨z', hz', vz'⟩ := pass y hy
    rw [hz', pure_bind, show z' = p from Fixed.ext (vz'.trans vp.symm)]
  intro y vy
  have hy1' := abs_le.mp hy1
  rcases sqrt_of_normal hN hr hl with ⟨hk, hs⟩ | ⟨hk, hs1, hs2⟩
  · obtain ⟨z, hz, hzb⟩ := denormalize_neg hcn f2 (y := y) hk hkW
    refine ⟨z, hz, ?_⟩
    have p2k : (0:ℝ) < 2 ^ k := by positivity
    have hzb : |(z.val:ℝ) * u F - y1Raw F t.val * u F * 2 ^ k| ≤ u F := by
      rw [vy] at hzb
      rw [show (z.val:ℝ) * u F - y1Raw F t.val * u F * 2 ^ k = (z.val - y1Raw F t.val * 2 ^ k) * u F by ring, abs_mul,
        abs_of_pos hu]
      exact mul_le_of_le_one_left hu.le hzb
    rw [← hX] at hs
    rcases hk.lt_or_eq with hk | rfl
    · have h2k : (2:ℝ) ^ k ≤ 1 / 2 := by
        calc (2:ℝ) ^ k ≤ 2 ^ (-1 : ℤ) := zpow_le_zpow_right₀ (by norm_num) (by omega)
          _ = 1 / 2 := by norm_num
      have hX0 : 0 ≤ X := Real.sqrt_nonneg _
      have h5 : |(y1Raw F t.val : ℝ) * u F * 2 ^ k - X| ≤ 996 / 1000000 * X + ulps F * u F * (1 / 2) := by
        rw [hs, ← sub_mul, abs_mul, abs_of_pos p2k]
        calc _ ≤ (996 / 1000000 * r + ulps F * u F) * 2 ^ k := mul_le_mul_of_nonneg_right hy1 p2k.le
          _ = 996 / 1000000 * (r * 2 ^ k) + ulps F * u F * 2 ^ k := by ring
          _ ≤ _ := by have := mul_le_mul_of_nonneg_left h2k hCu.le; linarith
      have h6 : 0 ≤ 2 * ((ulps F + 1) * u F) * X := by positivity
      have := abs_le.mp h5; have := abs_le.mp hzb
      rw [abs_le]; constructor <;> linarith
    · rw [zpow_zero, mul_one] at hs hzb
      have h6 : (ulps F + 1) * u F ≤ 2 * ((ulps F + 1) * u F) * X := by
        rw [hs]
        have : 0 < (ulps F + 1) * u F := by positivity
        nlinarith
      have := abs_le.mp hzb
      rw [hs] at h6 ⊢
      rw [abs_le]; constructor <;> linarith
  · rw [← hX] at hs1 hs2
    set j := k.toNat
    have p2j : (0:ℝ) < 2 ^ j := by positivity
    have hX0 : 0 ≤ X := Real.sqrt_nonneg _
    have hx0 : 0 < (x'.val : ℝ) * u F := by
      by_contra hc
      have : X = 0 := Real.sqrt_eq_zero_of_nonpos (not_lt.mp hc)
      rw [this] at hs1
      have : 0 < r * 2 ^ j := by positivity
      linarith
    have hXX : X ^ 2 = x'.val * u F := Real.sq_sqrt hx0.le
    have hjX : (2:ℝ) ^ j ≤ 2 * X := by nlinarith
    have hb1 : |(y1Raw F t.val : ℝ) * u F * 2 ^ j| ≤ (1001 / 1000 + 2 * (ulps F * u F)) * X := by
      have : |(y1Raw F t.val : ℝ) * u F| ≤ 1001 / 1000 * r + ulps F * u F := by
        rw [abs_le]; constructor <;> linarith
      rw [abs_mul, abs_of_pos p2j]
      calc _ ≤ (1001 / 1000 * r + ulps F * u F) * 2 ^ j := mul_le_mul_of_nonneg_right this p2j.le
        _ = 1001 / 1000 * (r * 2 ^ j) + ulps F * u F * 2 ^ j := by ring
        _ ≤ 1001 / 1000 * X + ulps F * u F * (2 * X) :=
          add_le_add (by linarith) (mul_le_mul_of_nonneg_left hjX hCu.le)
        _ = _ := by ring
    have hlt : (1001 / 1000 + 2 * (ulps F * u F)) * X < M := by
      set c := 1001 / 1000 + 2 * (ulps F * u F)
      have hc0 : 0 < c := by simp only [c]; positivity
      have hX2 : X ^ 2 < M := by rw [hXX]; exact hxM
      by_contra hcon
      have hcon := not_lt.mp hcon
      have : 2 * (c * X) ≤ c ^ 2 + X ^ 2 := by nlinarith [sq_nonneg (c - X)]
      linarith
    have hfit : Fits s W (y.val * 2 ^ j) := by
      refine hM _ ?_ ?_
      · rcases hsign with h | h
        · left; rw [vy]; positivity
        · exact .inr h
      · rw [vy]; push_cast
        rw [show (y1Raw F t.val : ℝ) * 2 ^ j * u F = y1Raw F t.val * u F * 2 ^ j by ring]
        exact hb1.trans_lt hlt
    obtain ⟨z, hz, vz⟩ := denormalize_pos hcn f2 hk hkW hfit
    refine ⟨z, hz, ?_⟩
    have ez : (z.val:ℝ) * u F = y1Raw F t.val * u F * 2 ^ j := by rw [vz, vy]; push_cast; ring
    have h7 : |(y1Raw F t.val : ℝ) * u F * 2 ^ j - r * 2 ^ j| ≤ 996 / 1000000 * (r * 2 ^ j) + ulps F * u F * 2 ^ j := by
      rw [← sub_mul, abs_mul, abs_of_pos p2j]
      calc _ ≤ (996 / 1000000 * r + ulps F * u F) * 2 ^ j := mul_le_mul_of_nonneg_right hy1 p2j.le
        _ = _ := by ring
    have h8 := abs_le.mp h7
    have h9 : (ulps F * u F) * 2 ^ j ≤ (ulps F * u F) * (2 * X) := mul_le_mul_of_nonneg_left hjX hCu.le
    have h10 : u F * 2 ^ j ≤ u F * (2 * X) := mul_le_mul_of_nonneg_left hjX hu.le
    have h11 : 0 < (ulps F / 2 + 1) * u F := by positivity
    rw [ez, abs_le]; constructor <;> linarith

theorem scale_bound (hF : 2 ≤ F) {M : ℝ} (h2 : 2 ≤ M) (h16 : F < 4 → 16 ≤ M) :
    (1001 / 1000 + 2 * (ulps F * u F)) ^ 2 ≤ M := by
  have hu := u_pos F
  unfold ulps
  by_cases c4 : F < 4
  · have hu4 : u F ≤ 1 / 4 := (u_le hF).trans (by norm_num)
    have := h16 c4
    rw [if_pos c4]; nlinarith
  · have hu16 : u F ≤ 1 / 16 := (u_le (G := 4) (by omega)).trans (by norm_num)
    rw [if_neg c4]
    split_ifs <;> nlinarith

end Fixed
end MixedNum
