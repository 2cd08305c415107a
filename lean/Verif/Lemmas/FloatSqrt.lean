import Verif.Lemmas.FloatSqrtTable
/-! The NIIRF square root on floats: the passes and the two loops around them. -/

namespace MixedNum
namespace Flt
open Niirf
variable {f : Format}

theorem cast_abs_le {q c : ℚ} (h : |q| ≤ c) : |(q:ℝ)| ≤ c := by
  have := (Rat.cast_le (K := ℝ)).mpr h
  push_cast at this; exact this

theorem unit_rnd_real (hf : f.Wide) {q : ℚ} (h : |(q:ℝ)| ≤ 5 / 4) :
    |((rnd f.p f.emin q : ℚ) : ℝ) - q| ≤ 1 / 10 ^ 7 ∧ |rnd f.p f.emin q| < 2 ^ f.emax := by
  have h' : |q| ≤ 5 / 4 := by
    rw [← Rat.cast_le (K := ℝ)]; push_cast; exact h
  refine ⟨?_, unit_lt hf (h'.trans (by norm_num))⟩
  have := cast_abs_le (unit_rnd hf h')
  push_cast at this; exact this

theorem sq_flt (x : Flt f) : (MixedPowi.powi x 2 : Prog (Flt f)) = pure (x.mul x) := rfl

/-- What rounding adds to one pass. -/
theorem pass_split {r b B y s d c z : ℝ} (hb1 : b ≤ 97 / 100) (hb0 : 1 / 2 ≤ b) (hB : |B - b| ≤ 11 / 10 ^ 8)
    (hs : |s - y * y| ≤ 1 / 10 ^ 7) (hd : |d - (r ^ 2 - s)| ≤ 1 / 10 ^ 7) (hc : |c - B * d| ≤ 1 / 10 ^ 7)
    (hz : |z - (c + y)| ≤ 1 / 10 ^ 7) : |z - r - pass B r (y - r)| ≤ 4 / 10 ^ 7 := by
  have e : z - r - pass B r (y - r) = B * ((d - (r ^ 2 - s)) - (s - y * y)) + (c - B * d) + (z - (c + y)) := by
    unfold pass; ring
  have hB' := abs_le.mp hB
  have h1 : |B * ((d - (r ^ 2 - s)) - (s - y * y))| ≤ 1 * (2 / 10 ^ 7) := by
    rw [abs_mul]
    refine mul_le_mul ?_ ?_ (abs_nonneg _) (by norm_num)
    · rw [abs_le]; constructor <;> norm_num at hB' <;> linarith
    · refine (abs_sub _ _).trans ?_; linarith
  rw [e]
  refine (abs_add_le _ _).trans ?_
  have := abs_add_le (B * ((d - (r ^ 2 - s)) - (s - y * y))) (c - B * d)
  linarith

/-- One pass on floats. -/
theorem pass_flt (hf : f.Wide) {x y : Flt f} {t yq : ℚ} (hx : Is x t) (hy : Is y yq) {r : ℝ} (hr : r ^ 2 = t)
    (h1 : 1 / 4 ≤ t) (h2 : t < 1) (hrl : 1 / 2 ≤ r) (hru : r ≤ 1) (hyr : |(yq:ℝ) - r| ≤ 21 / 1000) (k : ℕ) :
    ∃ z zq b B, niirfIter x (k + 1) y = niirfIter x k z ∧ Is z zq ∧ Region r b ∧ |B - b| ≤ 11 / 10 ^ 8 ∧
      |(zq:ℝ) - r - pass B r (yq - r)| ≤ 4 / 10 ^ 7 := by
  obtain ⟨c, v, b, hc, hcv, hreg, hv⟩ := beta_flt hf hx hr h1 h2
  obtain ⟨-, hb0, hb1⟩ := region_all (by linarith) hreg
  have hv' := abs_le.mp hv
  have hyr' := abs_le.mp hyr
  have hp := hf.one_le
  have y1 : (yq:ℝ) ≤ 1021 / 1000 := by linarith
  have y0 : 479 / 1000 ≤ (yq:ℝ) := by linarith
  -- the square
  obtain ⟨s1, s2⟩ := unit_rnd_real hf (q := yq * yq) (by push_cast; rw [abs_le]; constructor <;> nlinarith)
  have hs := hy.mul hp hy s2
  set s := rnd f.p f.emin (yq * yq)
  push_cast at s1
  have s1' := abs_le.mp s1
  have ey : (yq:ℝ) * yq = r ^ 2 + (yq - r) * (2 * r + (yq - r)) := by ring
  have hdev : |((yq:ℝ) - r) * (2 * r + (yq - r))| ≤ 21 / 1000 * (21 / 10) := by
    rw [abs_mul]; refine mul_le_mul hyr ?_ (abs_nonneg _) (by norm_num)
    rw [abs_le]; constructor <;> linarith
  have hdev := abs_le.mp hdev
  -- the difference
  have dd : |((t - s : ℚ) : ℝ)| ≤ 45 / 1000 := by
    push_cast; rw [← hr, abs_le]; constructor <;> norm_num at s1' hdev ⊢ <;> linarith
  obtain ⟨d1, d2⟩ := unit_rnd_real hf (q := t - s) (dd.trans (by norm_num))
  have hd := hx.sub hp hs d2
  set d := rnd f.p f.emin (t - s)
  have d1' := abs_le.mp d1
  have dd' := abs_le.mp dd
  -- the correction
  have cc : |((v * d : ℚ) : ℝ)| ≤ 1 * (46 / 1000) := by
    push_cast; rw [abs_mul]; refine mul_le_mul ?_ ?_ (abs_nonneg _) (by norm_num)
    · rw [abs_le]; constructor <;> norm_num at hv' <;> linarith
    · rw [abs_le]; constructor <;> norm_num at d1' dd' <;> linarith
  obtain ⟨c1, c2⟩ := unit_rnd_real hf (q := v * d) (cc.trans (by norm_num))
  have hcd := hcv.mul hp hd c2
  set e := rnd f.p f.emin (v * d)
  have c1' := abs_le.mp c1
  have cc' := abs_le.mp cc
  -- the sum
  obtain ⟨z1, z2⟩ := unit_rnd_real hf (q := e + yq) (by
    push_cast; rw [abs_le]; constructor <;> norm_num at c1' cc' ⊢ <;> linarith)
  have hz := hcd.add hp hy z2
  refine ⟨_, _, b, v, ?_, hz, hreg, hv, ?_⟩
  · rw [niirfIter, hc]; rfl
  · refine pass_split (s := s) (d := d) (c := e) hb1 hb0 hv s1 ?_ ?_ ?_
    · rw [hr]; push_cast at d1; exact d1
    · push_cast at c1; exact c1
    · push_cast at z1; exact z1

theorem pass_contract {r b B E : ℝ} (hr0 : 0 ≤ r) (hr1 : r ≤ 1) (hreg : Region r b) (hB : |B - b| ≤ 11 / 10 ^ 8)
    (hE : |E| ≤ 21 / 1000) : |pass B r E| ≤ |E| / 10 := by
  obtain ⟨⟨-, -, c3⟩, -, -⟩ := region_all hr0 hreg
  have h := abs_le.mp (c3 E hE)
  have hE' := abs_le.mp hE
  have h4 : |(B - b) * (2 * r + E)| ≤ 11 / 10 ^ 8 * 3 := by
    rw [abs_mul]; refine mul_le_mul hB ?_ (abs_nonneg _) (by norm_num)
    rw [abs_le]; constructor <;> linarith
  have h5 := abs_le.mp h4
  unfold pass
  rw [abs_mul, div_eq_mul_inv]
  refine mul_le_mul_of_nonneg_left ?_ (abs_nonneg _)
  rw [abs_le]; constructor <;> norm_num at h5 ⊢ <;> linarith

/-- Any number of passes contract the error, up to rounding. -/
theorem iter_flt (hf : f.Wide) {x : Flt f} {t : ℚ} (hx : Is x t) {r : ℝ} (hr : r ^ 2 = t)
    (h1 : 1 / 4 ≤ t) (h2 : t < 1) (hrl : 1 / 2 ≤ r) (hru : r ≤ 1) : ∀ (k : ℕ) {y : Flt f} {yq : ℚ}, Is y yq →
    |(yq:ℝ) - r| ≤ 208 / 10000 + 45 / 10 ^ 6 →
    ∃ z zq, niirfIter x k y = pure z ∧ Is z zq ∧
      |(zq:ℝ) - r| ≤ |(yq:ℝ) - r| / 10 ^ k + 45 / 10 ^ 8 * (1 - 1 / 10 ^ k)
  | 0, y, yq, hy, hyr => ⟨y, yq, rfl, hy, by simp⟩
  | k + 1, y, yq, hy, hyr => by
    obtain ⟨z, zq, b, B, e, hz, hreg, hB, hb⟩ := pass_flt hf hx hy hr h1 h2 hrl hru (hyr.trans (by norm_num)) k
    have hc := pass_contract (by linarith) hru hreg hB (E := yq - r) (hyr.trans (by norm_num))
    have hzr : |(zq:ℝ) - r| ≤ |(yq:ℝ) - r| / 10 + 4 / 10 ^ 7 := by
      have := abs_sub_abs_le_abs_sub ((zq:ℝ) - r) (pass B r (yq - r))
      linarith
    obtain ⟨w, wq, e2, hw, hwb⟩ := iter_flt hf hx hr h1 h2 hrl hru k hz (by norm_num at hzr hyr ⊢; linarith)
    refine ⟨w, wq, e.trans e2, hw, hwb.trans ?_⟩
    have hp : (0:ℝ) < 1 / 10 ^ k := by positivity
    rw [div_eq_mul_one_div _ ((10:ℝ) ^ k), div_eq_mul_one_div _ ((10:ℝ) ^ (k + 1)),
      show (1:ℝ) / 10 ^ (k + 1) = 1 / 10 ^ k / 10 by rw [pow_succ]; field_simp]
    have := mul_le_mul_of_nonneg_right hzr hp.le
    generalize (1:ℝ) / 10 ^ k = P at *
    linarith

/-- The start value. -/
theorem start_flt (hf : f.Wide) {x : Flt f} {t : ℚ} (hx : Is x t) {r : ℝ} (hr : r ^ 2 = t) (h1 : 1 / 4 ≤ t) (h2 : t < 1) :
    ∃ y yq, (do let a ← NumOps.mul (← Lit.ofI32 2) x
                NumOps.add (← NumOps.div a (← Lit.ofI32 3)) (← Lit.ofF64 (f64Round 0.354167)) : Prog (Flt f)) = pure y ∧
      Is y yq ∧ |(yq:ℝ) - y0 r| ≤ 32 / 10 ^ 8 := by
  have hp := hf.one_le
  have l2 : Is (ofExact false ((2:ℤ):ℚ) : Flt f) 2 := by
    have := lit_sixteenth (f := f) hf (n := 32) (by norm_num) (by norm_num); norm_num at this ⊢; exact this
  have l3 : Is (ofExact false ((3:ℤ):ℚ) : Flt f) 3 := by
    have := lit_sixteenth (f := f) hf (n := 48) (by norm_num) (by norm_num); norm_num at this ⊢; exact this
  obtain ⟨lc, vc⟩ := lit_f64_real (f := f) hf (c := 354167 / 1000000) (f64_close 0.354167 (by simp)) (by norm_num)
    (by norm_num) (by norm_num)
  set cq := rnd f.p f.emin (f64Round 0.354167)
  have e2 : rnd f.p f.emin (2 * t) = 2 * t := rnd_rep hx.rep.two_mul
  have m := l2.mul hp hx (unit_lt hf (by rw [abs_of_nonneg (by linarith)]; linarith))
  rw [e2] at m
  have h2' : (t:ℝ) < 1 := by exact_mod_cast h2
  have h1' : (1/4:ℝ) ≤ t := by have := (Rat.cast_le (K := ℝ)).mpr h1; push_cast at this; linarith
  obtain ⟨d1, d2⟩ := unit_rnd_real hf (q := 2 * t / 3) (by push_cast; rw [abs_le]; constructor <;> linarith)
  have d := m.div hp l3 (by norm_num) d2
  set dq := rnd f.p f.emin (2 * t / 3)
  have d1' := abs_le.mp d1
  have vc' := abs_le.mp vc
  push_cast at d1'
  obtain ⟨a1, a2⟩ := unit_rnd_real hf (q := dq + cq) (by
    push_cast; rw [abs_le]; constructor <;> norm_num at d1' vc' ⊢ <;> linarith)
  have a := d.add hp lc a2
  refine ⟨_, _, rfl, a, ?_⟩
  have a1' := abs_le.mp a1
  push_cast at a1'
  unfold y0
  rw [hr, abs_le]; constructor <;> norm_num at a1' d1' vc' ⊢ <;> linarith

/-- The error of the value between the loops. -/
theorem est_flt (hf : f.Wide) {x : Flt f} {t : ℚ} (hx : Is x t) {r : ℝ} (hr : r ^ 2 = t)
    (h1 : 1 / 4 ≤ t) (h2 : t < 1) (hrl : 1 / 2 ≤ r) (hru : r ≤ 1) (k : ℕ) {y : Flt f} {yq : ℚ} (hy : Is y yq)
    (hb : |(yq:ℝ) - y0 r| ≤ 32 / 10 ^ 8) :
    ∃ z zq, niirfIter x k y = pure z ∧ Is z zq ∧ |(zq:ℝ) - r| ≤ 21 / 1000 ∧
      (1 ≤ k → |(zq:ℝ) - r| ≤ 995 / 1000000 * r / 10 ^ (k - 1) + 45 / 10 ^ 8) := by
  have hy0 := y0_sub_bound hrl hru
  have hyr : |(yq:ℝ) - r| ≤ 208 / 10000 + 45 / 10 ^ 6 := by
    have := abs_le.mp hy0; have := abs_le.mp hb
    rw [abs_le]; constructor <;> norm_num at * <;> linarith
  rcases k with _ | k
  · exact ⟨y, yq, rfl, hy, hyr.trans (by norm_num), by omega⟩
  obtain ⟨z, zq, b, B, e, hz, hreg, hB, hzb⟩ := pass_flt hf hx hy hr h1 h2 hrl hru (hyr.trans (by norm_num)) k
  obtain ⟨⟨c1, c2, c3⟩, c4, c5⟩ := region_all (by linarith) hreg
  have hn := pass_near (b' := B) (e' := yq - r) (δb := 11 / 10 ^ 8) (δe := 32 / 10 ^ 8) (by linarith) hru ⟨c4, c5⟩
    (c3 _ (hy0.trans (by norm_num))) hB (by
      rw [show ((yq:ℝ) - r) - (y0 r - r) = yq - y0 r by ring]; exact hb) (hyr.trans (by norm_num))
  have hz1 : |(zq:ℝ) - r| ≤ 995 / 1000000 * r + 45 / 10 ^ 8 := by
    have g1 := abs_le.mp hzb; have g2 := abs_le.mp hn; have g3 := abs_le.mp c1
    rw [abs_le]; constructor <;> norm_num at g1 g2 g3 ⊢ <;> linarith
  obtain ⟨w, wq, e2, hw, hwb⟩ := iter_flt hf hx hr h1 h2 hrl hru k hz (by norm_num at hz1 ⊢; linarith)
  have hp : (0:ℝ) < 1 / 10 ^ k := by positivity
  have hp1 : (1:ℝ) / 10 ^ k ≤ 1 := by
    rw [div_le_one (by positivity)]; exact one_le_pow₀ (by norm_num)
  have hfin : |(wq:ℝ) - r| ≤ 995 / 1000000 * r / 10 ^ k + 45 / 10 ^ 8 := by
    refine hwb.trans ?_
    rw [div_eq_mul_one_div _ ((10:ℝ) ^ k), div_eq_mul_one_div (995 / 1000000 * r) ((10:ℝ) ^ k)]
    have := mul_le_mul_of_nonneg_right hz1 hp.le
    generalize (1:ℝ) / 10 ^ k = P at *
    linarith
  refine ⟨w, wq, e.trans e2, hw, hfin.trans ?_, fun _ => by simpa using hfin⟩
  have h5 : 995 / 1000000 * r / 10 ^ k ≤ 995 / 1000000 * 1 := by
    rw [div_eq_mul_one_div]
    exact (mul_le_mul (show 995 / 1000000 * r ≤ 995 / 1000000 by linarith) hp1 hp.le (by norm_num)).trans (by norm_num)
  norm_num at h5 ⊢; linarith

end Flt
end MixedNum
