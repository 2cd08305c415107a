import Mathlib.Data.Real.Basic
import Mathlib.Tactic.Positivity
import Mathlib.Tactic.FieldSimp
import Verif.Lemmas.WrapInst
/-! Fixed-point arithmetic as real arithmetic with errors, on signed types with `K` integer bits beside the sign. -/

namespace MixedNum
namespace Fixed
variable {m : Mode} {s : Bool} {W F K : ℕ}

/-- The real value. -/
noncomputable def r (a : Fixed m s W F) : ℝ := a.val / 2 ^ F

/-- One unit in the last place. -/
noncomputable def u (F : ℕ) : ℝ := 1 / 2 ^ F

theorem u_pos (F : ℕ) : 0 < u F := by unfold u; positivity
theorem u_le_one (F : ℕ) : u F ≤ 1 := by
  unfold u; rw [div_le_one (by positivity)]; exact one_le_pow₀ (by norm_num)
theorem pow_mul_u (F : ℕ) : (2:ℝ) ^ F * u F = 1 := by unfold u; field_simp
theorem r_eq (a : Fixed m s W F) : a.r = a.val * u F := by unfold r u; ring

/-- A stored integer fits if its value is below `2^K`. -/
theorem fits_of_abs (hK : F + K + 1 ≤ W) {n : ℤ} (h : |(n:ℝ) * u F| < 2 ^ K) : Fits true W n := by
  have hp : (0:ℝ) < 2 ^ F := by positivity
  have h1 : |(n:ℝ)| < 2 ^ K * 2 ^ F := by
    rw [abs_mul, abs_of_pos (u_pos F), u, mul_one_div, div_lt_iff₀ hp] at h; exact h
  have h2 : |n| < 2 ^ K * 2 ^ F := by exact_mod_cast h1
  have h3 := pow_le_of_bits (k := K) hK
  have := abs_lt.mp h2
  rw [fits_signed]; constructor <;> linarith

theorem add_near (hK : F + K + 1 ≤ W) {a b : Fixed m true W F} {A B ea eb : ℝ} (ha : |a.r - A| ≤ ea)
    (hb : |b.r - B| ≤ eb) (h : |A + B| + ea + eb < 2 ^ K) :
    ∃ c, NumOps.add a b = pure c ∧ |c.r - (A + B)| ≤ ea + eb := by
  have e : ((a.val + b.val : ℤ) : ℝ) * u F = a.r + b.r := by rw [r_eq, r_eq]; push_cast; ring
  have hd : |a.r + b.r - (A + B)| ≤ ea + eb := by
    rw [show a.r + b.r - (A + B) = (a.r - A) + (b.r - B) by ring]; exact (abs_add_le _ _).trans (add_le_add ha hb)
  have hf : Fits true W (a.val + b.val) := by
    refine fits_of_abs hK ?_
    rw [e]
    have : |a.r + b.r| ≤ |A + B| + (ea + eb) := by
      calc |a.r + b.r| = |(A + B) + (a.r + b.r - (A + B))| := by congr 1; ring
        _ ≤ _ := (abs_add_le _ _).trans (by linarith)
    linarith
  refine ⟨_, fit_of_fits hf, ?_⟩
  rw [r_eq, mkv_val, e]; exact hd

theorem sub_near (hK : F + K + 1 ≤ W) {a b : Fixed m true W F} {A B ea eb : ℝ} (ha : |a.r - A| ≤ ea)
    (hb : |b.r - B| ≤ eb) (h : |A - B| + ea + eb < 2 ^ K) :
    ∃ c, NumOps.sub a b = pure c ∧ |c.r - (A - B)| ≤ ea + eb := by
  have e : ((a.val - b.val : ℤ) : ℝ) * u F = a.r - b.r := by rw [r_eq, r_eq]; push_cast; ring
  have hd : |a.r - b.r - (A - B)| ≤ ea + eb := by
    rw [show a.r - b.r - (A - B) = (a.r - A) - (b.r - B) by ring]; exact (abs_sub _ _).trans (add_le_add ha hb)
  have hf : Fits true W (a.val - b.val) := by
    refine fits_of_abs hK ?_
    rw [e]
    have : |a.r - b.r| ≤ |A - B| + (ea + eb) := by
      calc |a.r - b.r| = |(A - B) + (a.r - b.r - (A - B))| := by congr 1; ring
        _ ≤ _ := (abs_add_le _ _).trans (by linarith)
    linarith
  refine ⟨_, fit_of_fits hf, ?_⟩
  rw [r_eq, mkv_val, e]; exact hd

theorem mul_exact (hK : F + K + 1 ≤ W) {a b : Fixed m true W F} (h : |a.r * b.r| + u F < 2 ^ K) :
    ∃ c, NumOps.mul a b = pure c ∧ c.r ≤ a.r * b.r ∧ a.r * b.r < c.r + u F := by
  have hp : (0:ℤ) < 2 ^ F := by positivity
  have hu := u_pos F
  have hpu := pow_mul_u F
  set n := a.val * b.val / 2 ^ F with hn
  have h1 : n * 2 ^ F ≤ a.val * b.val := Int.ediv_mul_le _ hp.ne'
  have h2 : a.val * b.val < (n + 1) * 2 ^ F := Int.lt_ediv_add_one_mul_self _ hp
  have h1' : (n:ℝ) * 2 ^ F ≤ a.val * b.val := by exact_mod_cast h1
  have h2' : (a.val:ℝ) * b.val < (n + 1) * 2 ^ F := by exact_mod_cast h2
  have e : (a.r * b.r : ℝ) = a.val * b.val * u F * u F := by rw [r_eq, r_eq]; ring
  have l : (n:ℝ) * u F ≤ a.r * b.r := by
    rw [e]
    have := mul_le_mul_of_nonneg_right h1' (mul_pos hu hu).le
    calc (n:ℝ) * u F = n * 2 ^ F * (u F * u F) := by
          rw [show (n:ℝ) * 2 ^ F * (u F * u F) = n * u F * (2 ^ F * u F) by ring, hpu, mul_one]
      _ ≤ _ := this
      _ = _ := by ring
  have g : a.r * b.r < (n:ℝ) * u F + u F := by
    rw [e]
    have := mul_lt_mul_of_pos_right h2' (mul_pos hu hu)
    calc (a.val * b.val * u F * u F : ℝ) = a.val * b.val * (u F * u F) := by ring
      _ < _ := this
      _ = (n + 1) * u F * (2 ^ F * u F) := by ring
      _ = _ := by rw [hpu]; ring
  have hf : Fits true W n := by
    refine fits_of_abs hK ?_
    have := abs_le.mp (le_refl |a.r * b.r|)
    rw [abs_lt]; constructor <;> linarith
  exact ⟨mkv n hf, fit_of_fits hf, by rw [r_eq (mkv n hf), mkv_val]; exact l, by rw [r_eq (mkv n hf), mkv_val]; exact g⟩

theorem abs_tdiv_sub (x : ℤ) {y : ℤ} (hy : y ≠ 0) : |((x.tdiv y : ℤ) : ℝ) - x / y| < 1 := by
  have hyr : (y:ℝ) ≠ 0 := by exact_mod_cast hy
  have h := Int.tmod_add_mul_tdiv x y
  have hb : |x.tmod y| < |y| := by
    have : (x.tmod y).natAbs < y.natAbs := by
      rw [Int.natAbs_tmod]; exact Nat.mod_lt _ (Int.natAbs_pos.mpr hy)
    zify at this; exact this
  have h' : (x:ℝ) = x.tmod y + y * x.tdiv y := by exact_mod_cast h.symm
  have hb' : |((x.tmod y : ℤ) : ℝ)| < |(y:ℝ)| := by exact_mod_cast hb
  rw [h', show ((x.tdiv y : ℤ) : ℝ) - (x.tmod y + y * x.tdiv y) / y = -(x.tmod y / y) by field_simp; ring, abs_neg,
    abs_div, div_lt_one (abs_pos.mpr hyr)]
  exact hb'

theorem div_exact (hK : F + K + 1 ≤ W) {a b : Fixed m true W F} (hb : b.val ≠ 0) (h : |a.r / b.r| + u F ≤ 2 ^ K) :
    ∃ c, NumOps.div a b = pure c ∧ |c.r - a.r / b.r| < u F := by
  have hu := u_pos F
  have hpu := pow_mul_u F
  set n := (a.val * 2 ^ F).tdiv b.val with hn
  have hbr : (b.val:ℝ) ≠ 0 := by exact_mod_cast hb
  have e : a.r / b.r = ((a.val * 2 ^ F : ℤ) : ℝ) / b.val * u F := by
    rw [r_eq, r_eq]; push_cast
    rw [show (a.val:ℝ) * 2 ^ F / b.val * u F = a.val / b.val * (2 ^ F * u F) by ring, hpu]; field_simp
  have h1 := abs_tdiv_sub (a.val * 2 ^ F) hb
  have h2 : |(n:ℝ) * u F - a.r / b.r| < u F := by
    rw [e, ← sub_mul, abs_mul, abs_of_pos hu]
    calc _ < 1 * u F := mul_lt_mul_of_pos_right h1 hu
      _ = _ := one_mul _
  have hf : Fits true W n := by
    refine fits_of_abs hK ?_
    calc |(n:ℝ) * u F| = |(n * u F - a.r / b.r) + a.r / b.r| := by congr 1; ring
      _ ≤ _ := abs_add_le _ _
      _ < _ := by linarith
  refine ⟨mkv n hf, ?_, by rw [r_eq (mkv n hf), mkv_val]; exact h2⟩
  rw [div_def, if_neg hb]; exact fit_of_fits hf

/-- An integer literal. -/
theorem ofI32_exact (hK : F + K + 1 ≤ W) (n : ℤ) (h : |(n:ℝ)| < 2 ^ K) :
    ∃ c : Fixed m true W F, Lit.ofI32 n = pure c ∧ c.r = n ∧ c.val = n * 2 ^ F := by
  have hpu := pow_mul_u F
  have e : ((n * 2 ^ F : ℤ) : ℝ) * u F = n := by push_cast; rw [mul_assoc, hpu, mul_one]
  have hf : Fits true W (n * 2 ^ F) := fits_of_abs hK (by rw [e]; exact h)
  exact ⟨mkv _ hf, fit_of_fits hf, by rw [r_eq, mkv_val, e], rfl⟩

/-- Division by a small positive literal. -/
theorem div_lit_near (hK : F + K + 1 ≤ W) {a b : Fixed m true W F} {n : ℤ} (hn : 1 ≤ n) (hb : b.val = n * 2 ^ F)
    {A e : ℝ} (ha : |a.r - A| ≤ e) (h : (|A| + e) / n + 1 ≤ 2 ^ K) :
    ∃ c, NumOps.div a b = pure c ∧ |c.r - A / n| ≤ e / n + u F := by
  have hn' : (0:ℝ) < n := by exact_mod_cast (by omega : 0 < n)
  have hbr : b.r = n := by rw [r_eq, hb]; push_cast; rw [mul_assoc, pow_mul_u, mul_one]
  have hA : |a.r| ≤ |A| + e := by
    calc |a.r| = |A + (a.r - A)| := by congr 1; ring
      _ ≤ _ := (abs_add_le _ _).trans (by linarith)
  have hle : |a.r / b.r| ≤ (|A| + e) / n := by
    rw [hbr, abs_div, abs_of_pos hn']; exact div_le_div_of_nonneg_right hA hn'.le
  obtain ⟨c, hc, hcr⟩ := div_exact hK (a := a) (b := b) (by rw [hb]; positivity) (by have := u_le_one F; linarith)
  refine ⟨c, hc, ?_⟩
  rw [hbr] at hcr
  calc |c.r - A / n| = |(c.r - a.r / n) + (a.r - A) / n| := by congr 1; ring
    _ ≤ _ := abs_add_le _ _
    _ ≤ _ := by
      rw [abs_div, abs_of_pos hn']
      have := div_le_div_of_nonneg_right ha hn'.le
      linarith

/-- Powers by repeated multiplication, base of magnitude at most 2. -/
theorem powiLoop_near (hK : F + K + 1 ≤ W) {x : Fixed m true W F} (hx : |x.r| ≤ 2) :
    ∀ (k j : ℕ) (t : Fixed m true W F), 1 ≤ j → j + k + 1 ≤ K → |t.r - x.r ^ j| ≤ (2 ^ (j - 1) - 1) * u F →
    ∃ c, powiLoop x k t = pure c ∧ |c.r - x.r ^ (j + k)| ≤ (2 ^ (j + k - 1) - 1) * u F
  | 0, j, t, _, _, ht => ⟨t, rfl, ht⟩
  | k + 1, j, t, hj, hjk, ht => by
    have hu := u_pos F; have hu1 := u_le_one F
    have hp1 : (2:ℝ) ^ j = 2 * 2 ^ (j - 1) := by rw [← pow_succ']; congr 1; omega
    have h2j : (1:ℝ) ≤ 2 ^ (j - 1) := one_le_pow₀ (by norm_num)
    have hxj : |x.r ^ j| ≤ 2 ^ j := by rw [abs_pow]; exact pow_le_pow_left₀ (abs_nonneg _) hx j
    have htr : |t.r| ≤ 2 ^ j + (2 ^ (j - 1) - 1) := by
      calc |t.r| = |x.r ^ j + (t.r - x.r ^ j)| := by congr 1; ring
        _ ≤ _ := abs_add_le _ _
        _ ≤ _ := add_le_add hxj (ht.trans (by nlinarith))
    have hprod : |t.r * x.r| ≤ 2 * (2 ^ j + (2 ^ (j - 1) - 1)) := by
      rw [abs_mul]; nlinarith [abs_nonneg t.r, abs_nonneg x.r]
    have hKp : (2:ℝ) ^ (j + 2) ≤ 2 ^ K := pow_le_pow_right₀ (by norm_num) (by omega)
    have hj2 : (2:ℝ) ^ (j + 2) = 4 * 2 ^ j := by rw [pow_add]; ring
    obtain ⟨c, hc, c1, c2⟩ := mul_exact hK (a := t) (b := x) (by linarith)
    have herr : |c.r - x.r ^ (j + 1)| ≤ (2 ^ (j + 1 - 1) - 1) * u F := by
      have e1 : |t.r * x.r - x.r ^ (j + 1)| ≤ (2 ^ (j - 1) - 1) * u F * 2 := by
        rw [pow_succ, ← sub_mul, abs_mul]
        exact mul_le_mul ht hx (abs_nonneg _) (by nlinarith)
      have e2 : |c.r - t.r * x.r| ≤ u F := by rw [abs_le]; constructor <;> linarith
      calc |c.r - x.r ^ (j + 1)| = |(c.r - t.r * x.r) + (t.r * x.r - x.r ^ (j + 1))| := by congr 1; ring
        _ ≤ _ := abs_add_le _ _
        _ ≤ u F + (2 ^ (j - 1) - 1) * u F * 2 := add_le_add e2 e1
        _ = _ := by rw [Nat.add_sub_cancel, hp1]; ring
    obtain ⟨d, hd, hde⟩ := powiLoop_near hK hx k (j + 1) c (by omega) (by omega) herr
    refine ⟨d, ?_, by rw [show j + (k + 1) = j + 1 + k by ring]; exact hde⟩
    rw [powiLoop, hc, pure_bind, hd]

theorem powi_near (hK : F + K + 1 ≤ W) {x : Fixed m true W F} (hx : |x.r| ≤ 2) (n : ℕ) (hn : 1 ≤ n) (hnK : n + 1 ≤ K)
    (hn' : n < 100) :
    ∃ c, MixedPowi.powi x (n : ℤ) = pure c ∧ |c.r - x.r ^ n| ≤ (2 ^ (n - 1) - 1) * u F := by
  obtain ⟨c, hc, h⟩ := powiLoop_near hK hx (n - 1) 1 x le_rfl (by omega) (by simp)
  refine ⟨c, ?_, by rwa [show 1 + (n - 1) = n by omega] at h⟩
  show powi x (usizeOfI32 n) = _
  have e : usizeOfI32 n = n := by unfold usizeOfI32; omega
  rw [e, powi, if_neg (by omega)]; exact hc

end Fixed
end MixedNum
