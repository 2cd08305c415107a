import Verif.Lemmas.SqrtFixed
/-! The NIIRF square root on fixed point: error of the pass, and of the whole routine. -/

namespace MixedNum
namespace Fixed
open Niirf
variable {m : Mode} {s : Bool} {W F : ℕ}

theorem ediv_pow_real (F : ℕ) (a b : ℤ) : ((a * b / 2 ^ F : ℤ) : ℝ) * u F ≤ (a * u F) * (b * u F) ∧
    (a * u F) * (b * u F) < ((a * b / 2 ^ F : ℤ) : ℝ) * u F + u F := by
  have hP : (0:ℤ) < 2 ^ F := by positivity
  have hu := u_pos F
  have hpu := pow_mul_u F
  set n := a * b / 2 ^ F with hn
  have h1 : n * 2 ^ F ≤ a * b := Int.ediv_mul_le _ hP.ne'
  have h2 : a * b < (n + 1) * 2 ^ F := Int.lt_ediv_add_one_mul_self _ hP
  have h1' : (n:ℝ) * 2 ^ F ≤ a * b := by exact_mod_cast h1
  have h2' : (a:ℝ) * b < (n + 1) * 2 ^ F := by exact_mod_cast h2
  have e1 : (n:ℝ) * u F = n * 2 ^ F * (u F * u F) := by
    rw [show (n:ℝ) * 2 ^ F * (u F * u F) = n * u F * (2 ^ F * u F) by ring, hpu, mul_one]
  have e2 : (n:ℝ) * u F + u F = (n + 1) * 2 ^ F * (u F * u F) := by
    rw [show ((n:ℝ) + 1) * 2 ^ F * (u F * u F) = (n + 1) * u F * (2 ^ F * u F) by ring, hpu, mul_one]; ring
  have e3 : (a * u F) * (b * u F) = (a:ℝ) * b * (u F * u F) := by ring
  rw [e3, e1]
  refine ⟨mul_le_mul_of_nonneg_right h1' (mul_pos hu hu).le, ?_⟩
  rw [← e1, e2]; exact mul_lt_mul_of_pos_right h2' (mul_pos hu hu)

theorem y_close (F : ℕ) {t : ℤ} {r : ℝ} (hr : r ^ 2 = t * u F) :
    |(yRaw F t : ℝ) * u F - y0 r| ≤ 3 / 2 * u F + 1 / 10 ^ 15 := by
  have hu := u_pos F
  have hc := lit_f64_close F (c := 354167 / 1000000) (f64_close 0.354167 (by simp)) (by norm_num)
  have h1 : 3 * (2 * t / 3) ≤ 2 * t := by omega
  have h2 : 2 * t ≤ 3 * (2 * t / 3) + 3 := by omega
  have h1' : 3 * ((2 * t / 3 : ℤ) : ℝ) ≤ 2 * t := by exact_mod_cast h1
  have h2' : 2 * (t:ℝ) ≤ 3 * ((2 * t / 3 : ℤ) : ℝ) + 3 := by exact_mod_cast h2
  have e1 := mul_le_mul_of_nonneg_right h1' hu.le
  have e2 := mul_le_mul_of_nonneg_right h2' hu.le
  unfold yRaw y0
  rw [hr]; push_cast
  have := abs_le.mp hc
  rw [abs_le]; constructor <;> linarith

theorem pass_expand (F : ℕ) {t : ℤ} {r : ℝ} (hr : r ^ 2 = t * u F) :
    ∃ η : ℝ, (y1Raw F t : ℝ) * u F = r + pass (bRaw F t * u F) r (yRaw F t * u F - r) + η ∧ -u F ≤ η ∧
      η ≤ bRaw F t * u F * u F := by
  have hu := u_pos F
  obtain ⟨s1, s2⟩ := ediv_pow_real F (yRaw F t) (yRaw F t)
  obtain ⟨p1, p2⟩ := ediv_pow_real F (bRaw F t) (t - sqRaw F t)
  have hb : 0 ≤ (bRaw F t : ℝ) * u F := mul_nonneg (by exact_mod_cast (bRaw_bounds F t).1) hu.le
  refine ⟨_, (add_sub_cancel _ _).symm, ?_, ?_⟩
  · rw [← pass_eq, hr, y1Raw]
    have hs : ((sqRaw F t : ℤ) : ℝ) * u F ≤ yRaw F t * u F * (yRaw F t * u F) := s1
    have := mul_le_mul_of_nonneg_left hs hb
    rw [show bRaw F t * (t - sqRaw F t) / 2 ^ F = corRaw F t from rfl] at p2
    push_cast at p2 ⊢
    nlinarith
  · rw [← pass_eq, hr, y1Raw]
    have hs : yRaw F t * u F * (yRaw F t * u F) ≤ ((sqRaw F t : ℤ) : ℝ) * u F + u F := s2.le
    have := mul_le_mul_of_nonneg_left hs hb
    rw [show bRaw F t * (t - sqRaw F t) / 2 ^ F = corRaw F t from rfl] at p1
    push_cast at p1 ⊢
    nlinarith

/-- Error of the pass from the quality of the table entry. -/
theorem pass_error (F : ℕ) {t : ℤ} {r b δ q β : ℝ} (hr : r ^ 2 = t * u F) (hl : 1 / 2 ≤ r) (hg : r ≤ 1)
    (hreg : Region r b) (hδ : |bRaw F t * u F - b| ≤ δ)
    (hq : |1 - bRaw F t * u F * (2 * r + (y0 r - r) + (yRaw F t * u F - r))| ≤ q) (hβ : bRaw F t * u F ≤ β) (hβ1 : 1 ≤ β) :
    |(y1Raw F t : ℝ) * u F - r| ≤ 995 / 1000000 * r + q * (3 / 2 * u F + 1 / 10 ^ 15) + 43 / 1000 * δ + β * u F := by
  have hu := u_pos F
  obtain ⟨η, he, e1, e2⟩ := pass_expand F hr
  obtain ⟨⟨c1, -, -⟩, -, -⟩ := region_all (by linarith) hreg
  have hy := y_close F hr
  have hy0 := y0_sub_bound hl hg
  set B := (bRaw F t : ℝ) * u F
  set Y := (yRaw F t : ℝ) * u F
  set e := y0 r - r
  have id1 : (y1Raw F t : ℝ) * u F - r = pass b r e + (Y - r - e) * (1 - B * (2 * r + e + (Y - r))) - (B - b) * (e * (2 * r + e)) + η := by
    rw [he]; unfold pass; ring
  have h1 : |(Y - r - e) * (1 - B * (2 * r + e + (Y - r)))| ≤ (3 / 2 * u F + 1 / 10 ^ 15) * q := by
    rw [abs_mul]
    refine mul_le_mul ?_ hq (abs_nonneg _) (by positivity)
    rw [show Y - r - e = Y - y0 r by simp only [e]; ring]; exact hy
  have h2 : |(B - b) * (e * (2 * r + e))| ≤ δ * (43 / 1000) := by
    rw [abs_mul]
    refine mul_le_mul hδ ?_ (abs_nonneg _) ((abs_nonneg _).trans hδ)
    rw [abs_mul]
    have h3 := abs_le.mp hy0
    have : |2 * r + e| ≤ 2 + 20834 / 1000000 := by rw [abs_le]; constructor <;> linarith
    calc |e| * |2 * r + e| ≤ 20834 / 1000000 * (2 + 20834 / 1000000) := mul_le_mul hy0 this (abs_nonneg _) (by norm_num)
      _ ≤ _ := by norm_num
  have h4 : |η| ≤ β * u F := by
    have := mul_le_mul_of_nonneg_right hβ hu.le
    have := mul_le_mul_of_nonneg_right hβ1 hu.le
    rw [abs_le]; constructor <;> linarith
  rw [id1]
  calc _ ≤ |pass b r e| + |(Y - r - e) * (1 - B * (2 * r + e + (Y - r)))| + |(B - b) * (e * (2 * r + e))| + |η| := by
        refine (abs_add_le _ _).trans (add_le_add ((abs_sub _ _).trans (add_le_add (abs_add_le _ _) le_rfl)) le_rfl)
    _ ≤ _ := by linarith

theorem u_le {F G : ℕ} (h : G ≤ F) : u F ≤ 1 / 2 ^ G := by
  unfold u; exact one_div_le_one_div_of_le (by positivity) (pow_le_pow_right₀ (by norm_num) h)

/-- The constant in front of the unit in the last place. -/
noncomputable def ulps (F : ℕ) : ℝ := if F < 4 then 5 else if F < 8 then 3 else 5 / 4

/-- Bounds of the two operands of the contraction factor. -/
theorem factor_bound {B z β ζ q : ℝ} (h0 : 0 ≤ B) (h1 : B ≤ β) (z0 : 0 ≤ z) (z1 : z ≤ ζ) (hq : β * ζ - 1 ≤ q) (q1 : 1 ≤ q) :
    |1 - B * z| ≤ q := by
  have := mul_nonneg h0 z0
  have := mul_le_mul h1 z1 z0 (h0.trans h1)
  rw [abs_le]; constructor <;> linarith

section
variable {t : ℤ} {r : ℝ}

theorem y1_rough (hF : 2 ≤ F) (c4 : F < 4) (h1 : 2 ^ F ≤ 4 * t) (h2 : t < 2 ^ F) (hr : r ^ 2 = t * u F)
    (hl : 1 / 2 ≤ r) (hg : r ≤ 1) : |(y1Raw F t : ℝ) * u F - r| ≤ 996 / 1000000 * r + 5 * u F := by
  obtain ⟨b, hreg, hb⟩ := bRaw_rough hF c4 hr h1 h2
  have hu4 : u F ≤ 1 / 4 := (u_le hF).trans (by norm_num)
  have hu8 : 1 / 8 ≤ u F := by
    unfold u; refine one_div_le_one_div_of_le (by positivity) ?_
    calc (2:ℝ) ^ F ≤ 2 ^ 3 := pow_le_pow_right₀ (by norm_num) (by omega)
      _ = 8 := by norm_num
  obtain ⟨-, b1, b2⟩ := region_all (by linarith) hreg
  have hb' := abs_le.mp hb
  have hy := abs_le.mp (y_close F hr)
  have hy0 := abs_le.mp (y0_sub_bound hl hg)
  norm_num at hy
  have := pass_error F (q := 23 / 10) (β := 27 / 20) hr hl hg hreg hb
    (factor_bound (β := 27 / 20) (ζ := 242 / 100) (by linarith) (by linarith) (by linarith) (by linarith)
      (by norm_num) (by norm_num)) (by linarith) (by norm_num)
  norm_num at this; linarith

theorem y1_mid (c4 : 4 ≤ F) (hr : r ^ 2 = t * u F) (q1 : 1 / 4 ≤ r ^ 2) (q2 : r ^ 2 < 1)
    (hl : 1 / 2 ≤ r) (hg : r ≤ 1) : |(y1Raw F t : ℝ) * u F - r| ≤ 996 / 1000000 * r + 3 * u F := by
  obtain ⟨b, hreg, hb⟩ := bRaw_close c4 hr q1 q2
  have hu := u_pos F
  have hu16 : u F ≤ 1 / 16 := (u_le c4).trans (by norm_num)
  obtain ⟨-, b1, b2⟩ := region_all (by linarith) hreg
  have hb' := abs_le.mp hb
  have hy := abs_le.mp (y_close F hr)
  have hy0 := abs_le.mp (y0_sub_bound hl hg)
  norm_num at hy hb'
  have := pass_error F (q := 6 / 5) (β := 101 / 100) hr hl hg hreg hb
    (factor_bound (β := 101 / 100) (ζ := 217 / 100) (by linarith) (by linarith) (by linarith) (by linarith)
      (by norm_num) (by norm_num)) (by linarith) (by norm_num)
  norm_num at this; linarith

theorem y1_fine (c8 : 8 ≤ F) (hr : r ^ 2 = t * u F) (q1 : 1 / 4 ≤ r ^ 2) (q2 : r ^ 2 < 1)
    (hl : 1 / 2 ≤ r) (hg : r ≤ 1) : |(y1Raw F t : ℝ) * u F - r| ≤ 996 / 1000000 * r + 5 / 4 * u F := by
  obtain ⟨b, hreg, hb⟩ := bRaw_close (by omega) hr q1 q2
  have hu := u_pos F
  have hu8 : u F ≤ 1 / 256 := (u_le c8).trans (by norm_num)
  obtain ⟨⟨-, -, c3⟩, b1, b2⟩ := region_all (by linarith) hreg
  have c3 := abs_le.mp (c3 _ ((y0_sub_bound hl hg).trans (by norm_num)))
  have hb' := abs_le.mp hb
  have hy := abs_le.mp (y_close F hr)
  have hy0 := abs_le.mp (y0_sub_bound hl hg)
  norm_num at hy hb'
  have := pass_error F (q := 13 / 100) (β := 1) hr hl hg hreg hb (by
    set B := (bRaw F t : ℝ) * u F
    set Y := (yRaw F t : ℝ) * u F
    have d1 : |(B - b) * (2 * r + (y0 r - r) + (Y - r))| ≤ 2 / 1000 * (21 / 10) := by
      rw [abs_mul]; refine mul_le_mul ?_ ?_ (abs_nonneg _) (by norm_num)
      · rw [abs_le]; constructor <;> linarith
      · rw [abs_le]; constructor <;> linarith
    have d2 : |b * (Y - r)| ≤ 97 / 100 * (27 / 1000) := by
      rw [abs_mul, abs_of_pos (by linarith : 0 < b)]
      refine mul_le_mul b2 ?_ (abs_nonneg _) (by norm_num)
      rw [abs_le]; constructor <;> linarith
    have d1 := abs_le.mp d1
    have d2 := abs_le.mp d2
    have e : 1 - B * (2 * r + (y0 r - r) + (Y - r)) = (1 - b * (2 * r + (y0 r - r))) - b * (Y - r) -
        (B - b) * (2 * r + (y0 r - r) + (Y - r)) := by ring
    rw [e, abs_le]; constructor <;> linarith) (by linarith) (by norm_num)
  norm_num at this; linarith

end

theorem y1_close (hF : 2 ≤ F) {t : ℤ} (h1 : 2 ^ F ≤ 4 * t) (h2 : t < 2 ^ F) {r : ℝ} (hr : r ^ 2 = t * u F) (hr0 : 0 ≤ r) :
    1 / 2 ≤ r ∧ r < 1 ∧ |(y1Raw F t : ℝ) * u F - r| ≤ 996 / 1000000 * r + ulps F * u F := by
  have hu := u_pos F
  have hpu := pow_mul_u F
  have h1' : (2:ℝ) ^ F ≤ 4 * t := by exact_mod_cast h1
  have h2' : (t:ℝ) < 2 ^ F := by exact_mod_cast h2
  have q1 : 1 / 4 ≤ r ^ 2 := by rw [hr]; have := mul_le_mul_of_nonneg_right h1' hu.le; linarith
  have q2 : r ^ 2 < 1 := by rw [hr]; have := mul_lt_mul_of_pos_right h2' hu; linarith
  have hl : 1 / 2 ≤ r := by nlinarith
  have hg : r < 1 := by nlinarith
  refine ⟨hl, hg, ?_⟩
  unfold ulps
  by_cases c4 : F < 4
  · rw [if_pos c4]; exact y1_rough hF c4 h1 h2 hr hl hg.le
  rw [if_neg c4]
  by_cases c8 : F < 8
  · rw [if_pos c8]; exact y1_mid (by omega) hr q1 q2 hl hg.le
  · rw [if_neg c8]; exact y1_fine (by omega) hr q1 q2 hl hg.le

end Fixed
end MixedNum
