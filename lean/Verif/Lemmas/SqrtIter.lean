import Verif.Lemmas.SqrtRun
import Verif.Props.SqrtFixed
/-! The NIIRF square root on signed fixed point with any number of iterations. -/

namespace MixedNum
namespace Fixed
open Niirf
variable {m : Mode} {W F : ℕ}

/-! ### One pass from any start -/

/-- Stored integer after one pass from the stored integer `y`. -/
def stepRaw (F : ℕ) (t y : ℤ) : ℤ := bRaw F t * (t - y * y / 2 ^ F) / 2 ^ F + y

theorem step_expand (F : ℕ) {t : ℤ} (y : ℤ) {r : ℝ} (hr : r ^ 2 = t * u F) :
    ∃ η : ℝ, (stepRaw F t y : ℝ) * u F = r + pass (bRaw F t * u F) r (y * u F - r) + η ∧ -u F ≤ η ∧
      η ≤ bRaw F t * u F * u F := by
  have hu := u_pos F
  obtain ⟨s1, s2⟩ := ediv_pow_real F y y
  obtain ⟨p1, p2⟩ := ediv_pow_real F (bRaw F t) (t - y * y / 2 ^ F)
  have hb : 0 ≤ (bRaw F t : ℝ) * u F := mul_nonneg (by exact_mod_cast (bRaw_bounds F t).1) hu.le
  refine ⟨_, (add_sub_cancel _ _).symm, ?_, ?_⟩
  · rw [← pass_eq, hr, stepRaw]
    have := mul_le_mul_of_nonneg_left s1 hb
    push_cast at p2 ⊢
    nlinarith
  · rw [← pass_eq, hr, stepRaw]
    have := mul_le_mul_of_nonneg_left s2.le hb
    push_cast at p1 ⊢
    nlinarith

/-- A pass shrinks the error to a tenth, up to a unit in the last place. -/
theorem step_contract (hF : 8 ≤ F) {t y : ℤ} {r : ℝ} (hr : r ^ 2 = t * u F) (hl : 1 / 2 ≤ r) (hg : r < 1)
    (he : |(y : ℝ) * u F - r| ≤ 21 / 1000) :
    |(stepRaw F t y : ℝ) * u F - r| ≤ 21 / 200 * |(y : ℝ) * u F - r| + u F := by
  have q1 : 1 / 4 ≤ r ^ 2 := by nlinarith
  have q2 : r ^ 2 < 1 := by nlinarith
  obtain ⟨b, hreg, hb⟩ := bRaw_close (by omega) hr q1 q2
  have hu := u_pos F
  have hu8 : u F ≤ 1 / 256 := (u_le hF).trans (by norm_num)
  obtain ⟨⟨-, -, c3⟩, b1, b2⟩ := region_all (by linarith) hreg
  have c3 := abs_le.mp (c3 _ he)
  have hb' := abs_le.mp hb
  have he' := abs_le.mp he
  obtain ⟨η, ee, e1, e2⟩ := step_expand F y hr
  norm_num at hb'
  set B := (bRaw F t : ℝ) * u F
  set e := (y : ℝ) * u F - r
  have hf : |1 - B * (2 * r + e)| ≤ 21 / 200 := by
    have d1 : |(B - b) * (2 * r + e)| ≤ 2 / 1000 * (2021 / 1000) := by
      rw [abs_mul]; refine mul_le_mul ?_ ?_ (abs_nonneg _) (by norm_num)
      · rw [abs_le]; constructor <;> linarith
      · rw [abs_le]; constructor <;> linarith
    have d1 := abs_le.mp d1
    have id : 1 - B * (2 * r + e) = (1 - b * (2 * r + e)) - (B - b) * (2 * r + e) := by ring
    rw [id, abs_le]; constructor <;> linarith
  have hη : |η| ≤ u F := by
    rw [abs_le]; refine ⟨e1, e2.trans (mul_le_of_le_one_left hu.le (by linarith))⟩
  rw [ee, show r + pass B r e + η - r = e * (1 - B * (2 * r + e)) + η by unfold pass; ring]
  refine (abs_add_le _ _).trans (add_le_add ?_ hη)
  rw [abs_mul, mul_comm]
  exact mul_le_mul_of_nonneg_right hf (abs_nonneg _)

theorem beta_mul_bounds (F : ℕ) (t : ℤ) {d D : ℤ} (h : |d| ≤ D) : |bRaw F t * d / 2 ^ F| ≤ D := by
  have hP : (0:ℤ) < 2 ^ F := by positivity
  obtain ⟨b0, b1⟩ := bRaw_bounds F t
  have hD : 0 ≤ D := (abs_nonneg _).trans h
  obtain ⟨d0, d1⟩ := abs_le.mp h
  rw [abs_le]; constructor
  · rw [Int.le_ediv_iff_mul_le hP]; nlinarith
  · exact Int.ediv_le_of_le_mul hP (by nlinarith)

/-- The code of a pass computes `stepRaw`. -/
theorem step_returns (hK : F + 4 ≤ W) {t y : Fixed m true W F} (h0 : 0 ≤ t.val) (h1 : t.val < 2 ^ F)
    (y0 : 0 ≤ y.val) (y1 : 6 * y.val ≤ 7 * 2 ^ F) (k : ℕ) :
    ∃ z, niirfIter t (k + 1) y = niirfIter t k z ∧ z.val = stepRaw F t.val y.val := by
  have hP : (0:ℤ) < 2 ^ F := by positivity
  have ff : ∀ n : ℤ, |n| ≤ 7 * 2 ^ F → Fits true W n := by
    intro n hn
    have h := pow_le_of_bits (k := 3) (show F + 3 + 1 ≤ W by omega)
    have := abs_le.mp hn
    rw [fits_signed]; constructor <;> nlinarith
  have s0 : 0 ≤ y.val * y.val / 2 ^ F := Int.ediv_nonneg (mul_nonneg y0 y0) hP.le
  have s1 : y.val * y.val / 2 ^ F ≤ 2 * 2 ^ F := Int.ediv_le_of_le_mul hP (by nlinarith)
  have hd : |t.val - y.val * y.val / 2 ^ F| ≤ 2 * 2 ^ F := by rw [abs_le]; constructor <;> linarith
  have hc := beta_mul_bounds F t.val hd
  have hc' := abs_le.mp hc
  have hs : |stepRaw F t.val y.val| ≤ 7 * 2 ^ F := by unfold stepRaw; rw [abs_le]; constructor <;> linarith
  obtain ⟨b, eb, vb⟩ := beta_fixed (m := m) (ff (2 ^ F) (by rw [abs_of_pos hP]; linarith)) t
  obtain ⟨q, eq, vq⟩ := fit_val (m := m) (F := F) (ff (y.val * y.val / 2 ^ F) (by rw [abs_of_nonneg s0]; linarith))
  obtain ⟨d, ed, vd⟩ := fit_val (m := m) (F := F) (ff _ (hd.trans (by linarith)))
  obtain ⟨c, ec, vc⟩ := fit_val (m := m) (F := F) (ff _ (hc.trans (by linarith)))
  obtain ⟨z, ez, vz⟩ := fit_val (m := m) (F := F) (ff _ hs)
  refine ⟨z, ?_, vz⟩
  have q1 : MixedPowi.powi y 2 = pure q := by rw [sq_eq]; exact eq
  have q2 : NumOps.sub t q = pure d := by rw [sub_def, vq]; exact ed
  have q3 : NumOps.mul b d = pure c := by rw [mul_def, vb, vd]; exact ec
  have q4 : NumOps.add c y = pure z := by rw [add_def, vc]; exact ez
  rw [niirfIter, eb, pure_bind, q1, pure_bind, q2, pure_bind, q3, pure_bind, q4, pure_bind]

/-- Any number of passes. -/
theorem iter_close (hF : 8 ≤ F) (hK : F + 4 ≤ W) {t : Fixed m true W F} {r : ℝ} (hr : r ^ 2 = t.val * u F)
    (h0 : 0 ≤ t.val) (h1 : t.val < 2 ^ F) (hl : 1 / 2 ≤ r) (hg : r < 1) : ∀ (k : ℕ) (y : Fixed m true W F) (A : ℝ),
    0 ≤ A → A ≤ 996 / 1000000 → |(y.val : ℝ) * u F - r| ≤ A * r + 5 / 4 * u F →
    ∃ z, niirfIter t k y = pure z ∧ |(z.val : ℝ) * u F - r| ≤ A * (21 / 200) ^ k * r + 5 / 4 * u F := by
  have hu := u_pos F
  have hu8 : u F ≤ 1 / 256 := (u_le hF).trans (by norm_num)
  intro k
  induction k with
  | zero => intro y A _ _ hy; exact ⟨y, rfl, by simpa using hy⟩
  | succ k ih =>
    intro y A A0 A1 hy
    have hAr : A * r ≤ 996 / 1000000 := by nlinarith
    have he : |(y.val : ℝ) * u F - r| ≤ 21 / 1000 := by linarith
    have he' := abs_le.mp he
    have y0 : 0 ≤ y.val := by
      have : 0 < (y.val : ℝ) * u F := by linarith
      have := (pos_iff_pos_of_mul_pos this).mpr hu
      exact_mod_cast this.le
    have y1 : 6 * y.val ≤ 7 * 2 ^ F := by
      have : (6 * y.val : ℝ) * u F ≤ 7 * 2 ^ F * u F := by rw [mul_assoc 7, pow_mul_u]; linarith
      have := le_of_mul_le_mul_right this hu
      exact_mod_cast this
    obtain ⟨z, ez, vz⟩ := step_returns hK h0 h1 y0 y1 k
    have hc := step_contract hF hr hl hg he
    rw [← vz] at hc
    obtain ⟨w, ew, hw⟩ := ih z (A * (21 / 200)) (by linarith) (by linarith) (by linarith)
    refine ⟨w, ez.trans ew, hw.trans_eq ?_⟩
    rw [pow_succ]; ring

/-! ### The whole routine -/

/-- Denormalising a value close to the root of the normalised argument. -/
theorem denormalize_close {cn : Counter} (hcn : cn.Upto W) {K : ℕ} (hK : F + K + 1 = W) (hK2 : 2 ≤ K) {n t k : ℤ} {r A C : ℝ} (hN : Normal n t k) (hkW : |k| ≤ W)
    (hr : r ^ 2 = t * u F) (hl : 1 / 2 ≤ r) (hnM : n * u F < 2 ^ K) (hC : 0 < C) (A0 : 0 ≤ A)
    (hMC : (1 + A + 2 * (C * u F)) ^ 2 ≤ 4)
    {y : Fixed m true W F} (hy : |(y.val : ℝ) * u F - r| ≤ A * r + C * u F) :
    ∃ z, Returns (niirfDenormalize cn y k) z ∧ |(z.val : ℝ) * u F - Real.sqrt (n * u F)| ≤
      (A + 2 * ((C + 1) * u F)) * Real.sqrt (n * u F) + (C / 2 + 1) * u F := by
  have hu := u_pos F
  have hCu : 0 < C * u F := mul_pos hC hu
  have hr0 : 0 ≤ r := by linarith
  have f2 : Fits true W (2 * 2 ^ F) :=
    fits_signed_of hK.le (by norm_num) (lt_of_lt_of_le (by norm_num) (pow_le_pow_right₀ (by norm_num) hK2))
  set X := Real.sqrt (n * u F) with hX
  have hX0 : 0 ≤ X := Real.sqrt_nonneg _
  have hy' := abs_le.mp hy
  rcases sqrt_of_normal hN hr hl with ⟨hk, hs⟩ | ⟨hk, hs1, hs2⟩
  · obtain ⟨z, hz, hzb⟩ := denormalize_neg hcn f2 (y := y) hk hkW
    refine ⟨z, hz, ?_⟩
    have p2k : (0:ℝ) < 2 ^ k := by positivity
    have hzb : |(z.val:ℝ) * u F - y.val * u F * 2 ^ k| ≤ u F := by
      rw [show (z.val:ℝ) * u F - y.val * u F * 2 ^ k = (z.val - y.val * 2 ^ k) * u F by ring, abs_mul, abs_of_pos hu]
      exact mul_le_of_le_one_left hu.le hzb
    rw [← hX] at hs
    rcases hk.lt_or_eq with hk | rfl
    · have h2k : (2:ℝ) ^ k ≤ 1 / 2 := by
        calc (2:ℝ) ^ k ≤ 2 ^ (-1 : ℤ) := zpow_le_zpow_right₀ (by norm_num) (by omega)
          _ = 1 / 2 := by norm_num
      have h5 : |(y.val : ℝ) * u F * 2 ^ k - X| ≤ A * X + C * u F * (1 / 2) := by
        rw [hs, ← sub_mul, abs_mul, abs_of_pos p2k]
        calc _ ≤ (A * r + C * u F) * 2 ^ k := mul_le_mul_of_nonneg_right hy p2k.le
          _ = A * (r * 2 ^ k) + C * u F * 2 ^ k := by ring
          _ ≤ _ := by have := mul_le_mul_of_nonneg_left h2k hCu.le; linarith
      have h6 : 0 ≤ 2 * ((C + 1) * u F) * X := by positivity
      have := abs_le.mp h5; have := abs_le.mp hzb
      rw [abs_le]; constructor <;> linarith
    · rw [zpow_zero, mul_one] at hs hzb
      have h6 : (C + 1) * u F ≤ 2 * ((C + 1) * u F) * X := by
        rw [hs]
        have : 0 < (C + 1) * u F := by positivity
        nlinarith
      have h7 : 0 < (C / 2 + 1) * u F := by positivity
      have := abs_le.mp hzb
      rw [hs] at h6 ⊢
      rw [abs_le]; constructor <;> linarith
  · rw [← hX] at hs1 hs2
    set j := k.toNat
    have p2j : (0:ℝ) < 2 ^ j := by positivity
    have hx0 : 0 < (n : ℝ) * u F := by
      by_contra hc
      have : X = 0 := Real.sqrt_eq_zero_of_nonpos (not_lt.mp hc)
      rw [this] at hs1
      have : 0 < r * 2 ^ j := by positivity
      linarith
    have hXX : X ^ 2 = n * u F := Real.sq_sqrt hx0.le
    have hjX : (2:ℝ) ^ j ≤ 2 * X := by nlinarith
    have hb1 : |(y.val : ℝ) * u F * 2 ^ j| ≤ (1 + A + 2 * (C * u F)) * X := by
      have : |(y.val : ℝ) * u F| ≤ (1 + A) * r + C * u F := by
        have := mul_nonneg A0 hr0
        rw [abs_le]; constructor <;> linarith
      rw [abs_mul, abs_of_pos p2j]
      calc _ ≤ ((1 + A) * r + C * u F) * 2 ^ j := mul_le_mul_of_nonneg_right this p2j.le
        _ = (1 + A) * (r * 2 ^ j) + C * u F * 2 ^ j := by ring
        _ ≤ (1 + A) * X + C * u F * (2 * X) :=
          add_le_add (mul_le_mul_of_nonneg_left hs1 (by linarith)) (mul_le_mul_of_nonneg_left hjX hCu.le)
        _ = _ := by ring
    have hlt : (1 + A + 2 * (C * u F)) * X < 2 ^ K := by
      set c := 1 + A + 2 * (C * u F)
      have hX2 : X ^ 2 < 2 ^ K := by rw [hXX]; exact hnM
      have hM4 : (4:ℝ) ≤ 2 ^ K := by
        calc (4:ℝ) = 2 ^ 2 := by norm_num
          _ ≤ 2 ^ K := pow_le_pow_right₀ (by norm_num) hK2
      by_contra hcon
      have hcon := not_lt.mp hcon
      have : 2 * (c * X) ≤ c ^ 2 + X ^ 2 := by nlinarith [sq_nonneg (c - X)]
      linarith
    have hfit : Fits true W (y.val * 2 ^ j) := by
      refine fits_of_abs hK.le ?_
      push_cast
      rw [show (y.val : ℝ) * 2 ^ j * u F = y.val * u F * 2 ^ j by ring]
      exact hb1.trans_lt hlt
    obtain ⟨z, hz, vz⟩ := denormalize_pos hcn f2 hk hkW hfit
    refine ⟨z, hz, ?_⟩
    have ez : (z.val:ℝ) * u F = y.val * u F * 2 ^ j := by rw [vz]; push_cast; ring
    have h7 : |(y.val : ℝ) * u F * 2 ^ j - r * 2 ^ j| ≤ A * (r * 2 ^ j) + C * u F * 2 ^ j := by
      rw [← sub_mul, abs_mul, abs_of_pos p2j]
      calc _ ≤ (A * r + C * u F) * 2 ^ j := mul_le_mul_of_nonneg_right hy p2j.le
        _ = _ := by ring
    have h8 := abs_le.mp h7
    have h9 : (C * u F) * 2 ^ j ≤ (C * u F) * (2 * X) := mul_le_mul_of_nonneg_left hjX hCu.le
    have h10 : u F * 2 ^ j ≤ u F * (2 * X) := mul_le_mul_of_nonneg_left hjX hu.le
    have h11 : 0 < (C / 2 + 1) * u F := by positivity
    have h12 : A * (r * 2 ^ j) ≤ A * X := mul_le_mul_of_nonneg_left hs1 A0
    rw [ez, abs_le]; constructor <;> linarith

/-- The routine up to the passes: a start value close to the root of the normalised argument. -/
theorem niirf_start {cn : Counter} (hcn : cn.Upto W) (hF : 2 ≤ F) (hK : F + 4 ≤ W) {x : Fixed m true W F}
    (hx : x.val ≠ 0) (hm : Fits true W |x.val|) :
    ∃ (t y : Fixed m true W F) (k : ℤ), 2 ^ F ≤ 4 * t.val ∧ t.val < 2 ^ F ∧ Normal (|x.val|) t.val k ∧ |k| ≤ W ∧
      y.val = yRaw F t.val ∧
      ∀ (n : ℕ) (z w : Fixed m true W F), niirfIter t (n - 1) y = pure z → Returns (niirfDenormalize cn z k) w →
        Returns (niirf cn x n) w := by
  obtain ⟨x', ha, va⟩ := abs_signed hm
  have hP : (0:ℤ) < 2 ^ F := by positivity
  have h4 : Fits true W (4 * 2 ^ F) := fits_signed_of (K := 3) (by omega) (by norm_num) (by norm_num)
  have h3 : Fits true W (3 * 2 ^ F) := fits_signed_of (K := 3) (by omega) (by norm_num) (by norm_num)
  have f2 : Fits true W (2 * 2 ^ F) := fits_signed_of (K := 3) (by omega) (by norm_num) (by norm_num)
  have f1 : Fits true W (2 ^ F) := (fits_zero true W).between f2 hP.le (by linarith)
  have hx' : 0 < x'.val := by rw [va]; exact abs_pos.mpr hx
  obtain ⟨t, k, hn, h1, h2, hN, hkW⟩ := normalize_fixed hcn hF h4 hx'
  have h0 : 0 ≤ t.val := by omega
  obtain ⟨two, e2, v2⟩ := int_lit (m := m) f2
  obtain ⟨three, e3, v3⟩ := int_lit (m := m) h3
  obtain ⟨c, ec, vc⟩ := lit_eq (m := m) f1 (f64_unit (Niirf.f64_close 0.354167 (by simp)) (by norm_num) (by norm_num)).1
    (f64_unit (Niirf.f64_close 0.354167 (by simp)) (by norm_num) (by norm_num)).2
  have yb := yRaw_bounds h0 h2
  obtain ⟨d, ed, vd⟩ := fit_val (m := m) (F := F) ((fits_zero true W).between f2 (n := 2 * t.val) (by omega) (by omega))
  have etd : (2 * t.val).tdiv 3 = 2 * t.val / 3 := Int.tdiv_eq_ediv_of_nonneg (by omega)
  obtain ⟨g, eg, vg⟩ := fit_val (m := m) (F := F) ((fits_zero true W).between f2 (n := 2 * t.val / 3) (by omega) (by omega))
  obtain ⟨y, ey, vy⟩ := fit_val (m := m) (F := F) ((fits_zero true W).between f2 (n := yRaw F t.val) yb.1 yb.2.1)
  refine ⟨t, y, k, h1, h2, va ▸ hN, hkW, vy, fun n z w hz hw => ?_⟩
  have estart : (Lit.ofI32 2 >>= fun a => NumOps.mul a t >>= fun a => Lit.ofI32 3 >>= fun b => NumOps.div a b >>= fun a =>
      Lit.ofF64 (f64Round 0.354167) >>= fun b => NumOps.add a b) = (pure y : Prog (Fixed m true W F)) := by
    have em : NumOps.mul two t = fit (2 * t.val) := by
      rw [mul_def, v2, show 2 * 2 ^ F * t.val = 2 * t.val * 2 ^ F by ring, Int.mul_ediv_cancel _ hP.ne']
    rw [e2, pure_bind, em, ed, pure_bind, e3, pure_bind, div_lit d three (by norm_num) v3, vd, etd, eg, pure_bind, ec,
      pure_bind, add_def, vg, vc]
    exact ey
  have key : niirf cn x n = niirfNormalize cn x' >>= fun r =>
      (Lit.ofI32 2 >>= fun a => NumOps.mul a r.1 >>= fun a => Lit.ofI32 3 >>= fun b => NumOps.div a b >>= fun a =>
        Lit.ofF64 (f64Round 0.354167) >>= fun b => NumOps.add a b)
        >>= fun y => niirfIter r.1 (n - 1) y >>= fun y => niirfDenormalize cn y r.2 := by
    unfold niirf
    rw [if_neg (by rw [beq_def, zero_val, decide_eq_false hx]; exact Bool.false_ne_true), ha]
    simp only [pure_bind, bind_assoc]
  rw [key]
  refine hn.bind ?_
  simp only []
  rw [estart, pure_bind, hz, pure_bind]; exact hw

theorem norm_lt {K : ℕ} (hK : F + K + 1 = W) {n : ℤ} (h : Fits true W n) : (n : ℝ) * u F < 2 ^ K := by
  rw [fits_signed] at h
  have h3 : (n : ℝ) < 2 ^ (W - 1) := by exact_mod_cast h.2
  rw [show W - 1 = K + F by omega, pow_add] at h3
  calc (n : ℝ) * u F < 2 ^ K * 2 ^ F * u F := mul_lt_mul_of_pos_right h3 (u_pos F)
    _ = 2 ^ K := by rw [mul_assoc, pow_mul_u, mul_one]

/-- The root of the normalised argument. -/
theorem normal_root (F : ℕ) {t : ℤ} (h1 : 2 ^ F ≤ 4 * t) (h2 : t < 2 ^ F) :
    ∃ r : ℝ, r ^ 2 = t * u F ∧ 0 ≤ r ∧ 1 / 2 ≤ r ∧ r < 1 := by
  have hu := u_pos F
  have hpu := pow_mul_u F
  have hP : (0:ℤ) < 2 ^ F := by positivity
  have h1' : (2:ℝ) ^ F ≤ 4 * t := by exact_mod_cast h1
  have h2' : (t:ℝ) < 2 ^ F := by exact_mod_cast h2
  refine ⟨Real.sqrt (t * u F), Real.sq_sqrt (mul_nonneg (by exact_mod_cast (show 0 ≤ t by omega)) hu.le), Real.sqrt_nonneg _, ?_, ?_⟩
  · refine Real.le_sqrt_of_sq_le ?_
    have := mul_le_mul_of_nonneg_right h1' hu.le; linarith
  · rw [Real.sqrt_lt' one_pos]
    have := mul_lt_mul_of_pos_right h2' hu; linarith

/-- Two or more iterations. -/
theorem niirf_iterated {cn : Counter} (hcn : cn.Upto W) (hF : 8 ≤ F) (hK : F + 4 ≤ W) {x : Fixed m true W F} (hx : x.val ≠ 0) (hm : Fits true W |x.val|)
    {n : ℕ} (hn : 2 ≤ n) :
    ∃ z, Returns (niirf cn x n) z ∧ |(z.val : ℝ) * u F - Real.sqrt (|(x.val : ℝ)| * u F)| ≤
      (996 / 1000000 * (21 / 200) ^ (n - 2) + 9 / 2 * u F) * Real.sqrt (|(x.val : ℝ)| * u F) + 13 / 8 * u F := by
  have hu := u_pos F
  have hu8 : u F ≤ 1 / 256 := (u_le hF).trans (by norm_num)
  obtain ⟨t, y, k, h1, h2, hN, hkW, vy, hrun⟩ := niirf_start hcn (by omega) hK hx hm
  have hP : (0:ℤ) < 2 ^ F := by positivity
  have h0 : 0 ≤ t.val := by omega
  obtain ⟨r, hr, hr0, hl, hg⟩ := normal_root F h1 h2
  obtain ⟨-, -, hy1⟩ := y1_close (by omega) h1 h2 hr hr0
  obtain ⟨p1, p2, -⟩ := pass_ranges (F := F) (by omega) h0 h2
  rw [← vy] at p1 p2
  obtain ⟨z, ez, vz⟩ := step_returns hK h0 h2 p1 p2 (n - 2)
  have hu1 : ulps F = 5 / 4 := by unfold ulps; rw [if_neg (by omega), if_neg (by omega)]
  have ev : z.val = y1Raw F t.val := by rw [vz, vy]; rfl
  rw [← ev, hu1] at hy1
  obtain ⟨w, ew, hw⟩ := iter_close hF hK hr h0 h2 hl hg (n - 2) z _ (by norm_num) le_rfl hy1
  have hpow : ((21 / 200 : ℝ)) ^ (n - 2) ≤ 1 := pow_le_one₀ (by norm_num) (by norm_num)
  have hpow0 : 0 ≤ ((21 / 200 : ℝ)) ^ (n - 2) := by positivity
  obtain ⟨v, hv, hb⟩ := denormalize_close hcn (K := W - F - 1) (by omega) (by omega) hN hkW hr hl (norm_lt (by omega) hm)
    (C := 5 / 4) (by norm_num) (A := 996 / 1000000 * (21 / 200) ^ (n - 2)) (by positivity) (by nlinarith) hw
  refine ⟨v, hrun n w v ?_ hv, ?_⟩
  · rw [show n - 1 = n - 2 + 1 by omega, ez, ew]
  · push_cast at hb
    refine hb.trans_eq ?_
    ring

/-- At most one iteration: the start value only. -/
theorem niirf_uniterated {cn : Counter} (hcn : cn.Upto W) (hF : 8 ≤ F) (hK : F + 4 ≤ W) {x : Fixed m true W F} (hx : x.val ≠ 0) (hm : Fits true W |x.val|)
    {n : ℕ} (hn : n ≤ 1) :
    ∃ z, Returns (niirf cn x n) z ∧ |(z.val : ℝ) * u F - Real.sqrt (|(x.val : ℝ)| * u F)| ≤
      (41669 / 1000000 + 5 * u F) * Real.sqrt (|(x.val : ℝ)| * u F) + 7 / 4 * u F := by
  have hu := u_pos F
  have hu8 : u F ≤ 1 / 256 := (u_le hF).trans (by norm_num)
  obtain ⟨t, y, k, h1, h2, hN, hkW, vy, hrun⟩ := niirf_start hcn (by omega) hK hx hm
  obtain ⟨r, hr, hr0, hl, hg⟩ := normal_root F h1 h2
  have hy := abs_le.mp (y_close F hr)
  have hy0 := abs_le.mp (y0_sub_bound hl hg.le)
  rw [← vy] at hy
  obtain ⟨v, hv, hb⟩ := denormalize_close hcn (K := W - F - 1) (by omega) (by omega) hN hkW hr hl (norm_lt (by omega) hm)
    (C := 3 / 2) (by norm_num) (A := 41669 / 1000000) (by norm_num) (by nlinarith) (y := y) (by
      norm_num at hy
      rw [abs_le]; constructor <;> linarith)
  refine ⟨v, hrun n y v ?_ hv, ?_⟩
  · rw [show n - 1 = 0 by omega]; rfl
  · push_cast at hb
    refine hb.trans_eq ?_
    ring

end Fixed
end MixedNum
