import Verif.Props.Sqrt
import Verif.Props.SqrtFixed
import Verif.Props.MagFloat
import Verif.Lemmas.FixedReal
import Verif.Props.AddSub
import Verif.Lemmas.Run
import Verif.Lemmas.Case
/-! # C137: square and square root are nearly inverse -/

namespace MixedNum
variable {m : Mode} {W F : ℕ}

/-! ## Exact reals -/

/-- A number within `e r` of the positive `r` has its square within `(2 e + e²) r²` of `r²`. -/
theorem square_near {y r e : ℝ} (hr : 0 ≤ r) (h : |y - r| ≤ e * r) : |y * y - r * r| ≤ (2 * e + e ^ 2) * (r * r) := by
  have hs : |y + r| ≤ (2 + e) * r := by
    have := abs_sub_abs_le_abs_sub y r
    have := abs_add_le y r
    rw [abs_of_nonneg hr] at *
    linarith
  rw [show y * y - r * r = (y - r) * (y + r) by ring, abs_mul]
  calc |y - r| * |y + r| ≤ (e * r) * ((2 + e) * r) := mul_le_mul h hs (abs_nonneg _) ((abs_nonneg _).trans h)
    _ = _ := by ring

/-- C137, exact reals: the square of the root is the argument within 0.2 %. -/
theorem C137_real_square (x : ℝ) (hx : 0 ≤ x) :
    ∃ y w, Returns (niirf .exact x 2) y ∧ Returns (NumOps.mul y y) w ∧ |w - x| ≤ 0.002001 * x := by
  rcases hx.eq_or_lt with rfl | hx
  · exact ⟨0, 0, C45_zero 2, .of_eq (by simp), by norm_num⟩
  obtain ⟨y, hy, e⟩ := C45_accuracy hx
  refine ⟨y, y * y, hy, .of_eq rfl, ?_⟩
  have := square_near (Real.sqrt_nonneg x) e.le
  rw [Real.mul_self_sqrt hx.le] at this
  norm_num at this ⊢; exact this

/-- C137, exact reals: the root of the square is the absolute value within 0.1 %. -/
theorem C137_real_root (x : ℝ) : ∃ q y, Returns (MixedPowi.powi x 2) q ∧ Returns (niirf .exact q 2) y ∧
    |y - (|x|)| ≤ 1 / 1000 * |x| := by
  rcases eq_or_ne x 0 with rfl | hx
  · exact ⟨0, 0, .of_eq (by simp), C45_zero 2, by norm_num⟩
  obtain ⟨y, hy, e⟩ := C45_accuracy (x := x ^ 2) (by positivity)
  rw [Real.sqrt_sq_eq_abs] at e
  exact ⟨x ^ 2, y, .of_eq (RealI.powi_two x), hy, e.le⟩

/-! ## Signed fixed point -/

open Fixed

/-- C137, signed fixed point: when the square is in range and not rounded to zero, its root is the absolute value within
0.1 %, 12 units relative, and 4 units in the last place and a share for rounding the square down. -/
theorem C137_fixed_root (hF : 2 ≤ F) (hW : 8 ≤ W) (hW' : W ≤ 128) (hK : F + 4 ≤ W) (x : Fixed m true W F)
    (hlo : 2 ^ F ≤ x.val * x.val) (hhi : x.val * x.val < 2 ^ (W - 1) * 2 ^ F) :
    ∃ q z : Fixed m true W F, Returns (MixedPowi.powi x 2) q ∧ Returns (MixedSqrt.sqrt q) z ∧
      |(z.val : ℝ) / 2 ^ F - (|(x.val : ℝ) / 2 ^ F|)| ≤
        (1 / 1000 + 12 / 2 ^ F) * |(x.val : ℝ) / 2 ^ F| + 4 / 2 ^ F + 1 / |(x.val : ℝ)| := by
  have hP : (0:ℤ) < 2 ^ F := by positivity
  have hn1 : 1 ≤ x.val * x.val / 2 ^ F := (Int.le_ediv_iff_mul_le hP).mpr (by linarith)
  have hn2 : x.val * x.val / 2 ^ F < 2 ^ (W - 1) := (Int.ediv_lt_iff_lt_mul hP).mpr hhi
  have hfit : Fits true W (x.val * x.val / 2 ^ F) := by
    rw [fits_signed]
    have : (0:ℤ) < 2 ^ (W - 1) := by positivity
    constructor <;> omega
  obtain ⟨z, hz, e⟩ := C49_accuracy (m := m) hF hW hW' hK (mkv _ hfit) (by rw [mkv_val]; omega)
  refine ⟨_, z, .of_eq ((sq_eq x).trans (fit_of_fits hfit)), hz, ?_⟩
  rw [mkv_val] at e
  obtain ⟨n, hn⟩ : ∃ n, n = x.val * x.val / 2 ^ F := ⟨_, rfl⟩
  rw [← hn] at e hn1
  have l1 : n * 2 ^ F ≤ x.val * x.val := by rw [hn]; exact Int.ediv_mul_le _ hP.ne'
  have l2 : x.val * x.val < (n + 1) * 2 ^ F := by rw [hn]; exact Int.lt_ediv_add_one_mul_self _ hP
  have l1 : (n:ℝ) * 2 ^ F ≤ x.val * x.val := by exact_mod_cast l1
  have l2 : (x.val:ℝ) * x.val < (n + 1) * 2 ^ F := by exact_mod_cast l2
  have hp : (0:ℝ) < 2 ^ F := by positivity
  have hx0 : (x.val : ℝ) ≠ 0 := by
    have : x.val ≠ 0 := by rintro h; rw [h] at hlo; simp at hlo; omega
    exact_mod_cast this
  have hX : 0 < |(x.val : ℝ)| := abs_pos.mpr hx0
  have hN : (0:ℝ) < n := by exact_mod_cast (by omega : 0 < n)
  obtain ⟨X, hXd⟩ : ∃ X, X = |(x.val : ℝ) / 2 ^ F| := ⟨_, rfl⟩
  have hXp : 0 < X := by rw [hXd]; exact abs_pos.mpr (div_ne_zero hx0 hp.ne')
  have hXX : X * X = x.val * x.val / 2 ^ F / 2 ^ F := by
    rw [hXd, abs_mul_abs_self]; field_simp
  have r1 : Real.sqrt (n / 2 ^ F) ≤ X := by
    rw [Real.sqrt_le_left hXp.le, sq, hXX]
    exact div_le_div_of_nonneg_right ((le_div_iff₀ hp).mpr l1) hp.le
  have r2 : X - 1 / |(x.val : ℝ)| ≤ Real.sqrt (n / 2 ^ F) := by
    have hr := Real.sqrt_nonneg ((n:ℝ) / 2 ^ F)
    have hs := Real.mul_self_sqrt (div_nonneg hN.le hp.le : (0:ℝ) ≤ n / 2 ^ F)
    have g : X * X - n / 2 ^ F ≤ 1 / 2 ^ F := by
      rw [hXX, ← sub_div]
      apply div_le_div_of_nonneg_right _ hp.le
      have := (div_lt_iff₀ hp).mpr l2
      linarith
    have e1 : 1 / |(x.val : ℝ)| * X = 1 / 2 ^ F := by
      rw [hXd, abs_div, abs_of_pos hp]; field_simp
    by_contra hc
    push Not at hc
    have h1 : 1 / |(x.val : ℝ)| < X - Real.sqrt (n / 2 ^ F) := by linarith
    have h2 : 1 / |(x.val : ℝ)| * X < (X - Real.sqrt (n / 2 ^ F)) * X := mul_lt_mul_of_pos_right h1 hXp
    have h3 : 0 ≤ (X - Real.sqrt (n / 2 ^ F)) * Real.sqrt (n / 2 ^ F) :=
      mul_nonneg (by linarith) hr
    nlinarith
  rw [← hXd]
  have c0 : (0:ℝ) ≤ 1 / 1000 + 12 / 2 ^ F := by positivity
  have e2 := e.trans (add_le_add_left (mul_le_mul_of_nonneg_left r1 c0) _)
  have := abs_sub_le ((z.val : ℝ) / 2 ^ F) (Real.sqrt (n / 2 ^ F)) X
  have : |Real.sqrt (n / 2 ^ F) - X| ≤ 1 / |(x.val : ℝ)| := by rw [abs_le]; constructor <;> linarith [div_pos one_pos hX]
  linarith

theorem square_fixed {r d v : ℝ} (r0 : 0 < r) (v0 : 0 < v) (hv : v ≤ 1 / 256) (e : |d| ≤ (1 / 1000 + 4.5 * v) * r + 2 * v) :
    |(r + d) * (r + d) - r * r| ≤ (0.0021 + 9.2 * v) * (r * r) + 4.2 * v * r + 0.02 * v := by
  rw [show (r + d) * (r + d) - r * r = d * (2 * r) + d * d by ring]
  refine (abs_add_le _ _).trans ?_
  rw [abs_mul, abs_mul d d, abs_of_pos (by positivity : 0 < 2 * r)]
  have a1 : |d| * (2 * r) ≤ ((1 / 1000 + 4.5 * v) * r + 2 * v) * (2 * r) := by gcongr
  have a2 : |d| * |d| ≤ ((1 / 1000 + 4.5 * v) * r + 2 * v) * ((1 / 1000 + 4.5 * v) * r + 2 * v) :=
    mul_le_mul e e (abs_nonneg _) ((abs_nonneg _).trans e)
  have t1 : 0 ≤ v * (r * r) := by positivity
  have t2 : 0 ≤ v * r := by positivity
  have t3 : v * (v * (r * r)) ≤ 1 / 256 * (v * (r * r)) := by gcongr
  have t4 : v * (v * r) ≤ 1 / 256 * (v * r) := by gcongr
  have t5 : v * v ≤ 1 / 256 * v := by gcongr
  have t6 : 0 ≤ r * r := by positivity
  norm_num at a1 a2 ⊢
  linarith

/-- C137, signed fixed point with 8 or more fractional bits: for arguments up to half of the range, the square of the root
does not overflow and is the argument within 0.2 %, with a term that grows with the root. -/
theorem C137_fixed_square (hF : 8 ≤ F) (hW' : W ≤ 128) (hK : F + 4 ≤ W) (x : Fixed m true W F)
    (h0 : 0 < x.val) (hhi : 2 * x.val ≤ 2 ^ (W - 1)) :
    ∃ z w : Fixed m true W F, Returns (MixedSqrt.sqrt x) z ∧ Returns (NumOps.mul z z) w ∧
      |(w.val : ℝ) / 2 ^ F - x.val / 2 ^ F| ≤
        (0.0021 + 9.2 / 2 ^ F) * (x.val / 2 ^ F) + 4.2 / 2 ^ F * Real.sqrt (x.val / 2 ^ F) + 1.1 / 2 ^ F := by
  obtain ⟨z, hz, e⟩ := C49_fine hF hW' hK x h0
  obtain ⟨K, rfl⟩ : ∃ K, W = F + K + 1 := ⟨W - F - 1, by omega⟩
  have hu : 0 < u F := u_pos F
  have hu8 : u F ≤ 1 / 2 ^ 8 := by
    unfold u; exact one_div_le_one_div_of_le (by positivity) (pow_le_pow_right₀ (by norm_num) hF)
  have hpu := pow_mul_u F
  simp only [div_pow_eq] at e ⊢
  obtain ⟨r, hr⟩ : ∃ r, r = Real.sqrt (x.val * u F) := ⟨_, rfl⟩
  have hxv : (0:ℝ) < x.val := by exact_mod_cast h0
  have r0 : 0 < r := by rw [hr]; exact Real.sqrt_pos.mpr (by positivity)
  have rr : r * r = x.val * u F := by rw [hr]; exact Real.mul_self_sqrt (by positivity)
  rw [← hr] at e ⊢
  have hX : (2:ℝ) * (x.val * u F) ≤ 2 ^ K := by
    have : (2:ℝ) * x.val ≤ 2 ^ (F + K + 1 - 1) := by exact_mod_cast hhi
    rw [Nat.add_sub_cancel, pow_add] at this
    have := mul_le_mul_of_nonneg_right this hu.le
    nlinarith
  have hK8 : (8:ℝ) ≤ 2 ^ K := by
    rw [show (8:ℝ) = 2 ^ 3 by norm_num]; exact pow_le_pow_right₀ (by norm_num) (by omega)
  obtain ⟨d, hd⟩ : ∃ d, d = (z.val : ℝ) * u F - r := ⟨_, rfl⟩
  have ez : z.r = r + d := by rw [r_eq, hd]; ring
  rw [← hd] at e
  norm_num at hu8
  have hdsq : |z.r * z.r - r * r| ≤ (0.0021 + 9.2 * u F) * (r * r) + 4.2 * u F * r + 0.02 * u F := by
    rw [ez]; exact square_fixed r0 hu hu8 e
  have habs : |z.r * z.r| ≤ r * r + ((0.0021 + 9.2 * u F) * (r * r) + 4.2 * u F * r + 0.02 * u F) := by
    have := abs_sub_abs_le_abs_sub (z.r * z.r) (r * r)
    rw [abs_of_pos (by positivity : 0 < r * r)] at this
    linarith
  have hr2 : r ≤ r * r + 1 := by nlinarith
  obtain ⟨w, hw, w1, w2⟩ := mul_exact (K := K) le_rfl (a := z) (b := z) (by
    rw [rr] at habs
    have b1 : u F * (x.val * u F) ≤ 1 / 256 * (x.val * u F) := by gcongr
    have b2 : u F * r ≤ 1 / 256 * (x.val * u F + 1) := by
      rw [← rr]; exact mul_le_mul hu8 hr2 r0.le (by norm_num)
    have b3 : u F ≤ 1 / 256 := hu8
    have habs : |z.r * z.r| ≤ x.val * u F + (21 / 10000 * (x.val * u F) + 92 / 10 * (u F * (x.val * u F)) + 42 / 10 * (u F * r)
      + 2 / 100 * u F) := habs.trans (le_of_eq (by ring))
    linarith)
  refine ⟨z, w, hz, .of_eq hw, ?_⟩
  rw [← rr]
  rw [r_eq w] at w1 w2
  have := abs_sub_le ((w.val : ℝ) * u F) (z.r * z.r) (r * r)
  have : |(w.val : ℝ) * u F - z.r * z.r| ≤ u F := by rw [abs_le]; constructor <;> linarith
  norm_num at hdsq ⊢
  linarith

/-! ## Floats -/

open Flt
variable {f : Format}

/-- The product of two floats is within half a unit in the last place when it is in the normal range. -/
theorem mul_normal (hf : f.Wide) {x y : Flt f} {a b : ℚ} (hx : Is x a) (hy : Is y b)
    (hlo : (2:ℚ) ^ (f.emin + f.p - 1) ≤ |a * b|) (hhi : |a * b| ≤ 2 ^ ((f.emax : ℤ) - 1)) :
    ∃ q, Is (x.mul y) q ∧ |q - a * b| ≤ |a * b| * uq f := by
  have hmax := hf.emax; have hmin := hf.emin
  exact ⟨_, hx.mul hf.one_le hy (abs_rnd_lt hf.one_le hhi (by omega) (by omega)), abs_rnd_rel hlo⟩

/-- C137, floats: the square of the root of a positive number in the normal range is the number within 0.2 %. -/
theorem C137_float_square (hf : f.Wide) (md : Mode) (x : Flt f) (hx : x.Valid) (s : Bool) (q : ℚ) (e : x = .fin s q)
    (hlo : (2:ℚ) ^ (f.emin + f.p) ≤ x.val) (hhi : x.val ≤ 2 ^ ((f.emax : ℤ) - 2)) :
    ∃ z w : Flt f, Returns (niirf (.i32 md) x 2) z ∧ Returns (NumOps.mul z z) w ∧ w.Valid ∧ w.IsFinite ∧
      |(w.val : ℝ) - x.val| ≤ 0.002 * x.val := by
  have h0 : 0 < x.val := (two_zpow_pos _).trans_le hlo
  have h0' : (0:ℝ) < x.val := by exact_mod_cast h0
  obtain ⟨z, hz, vz, ⟨b, n, ez⟩, -, er⟩ := C70_accuracy hf md x hx s q e h0.ne' 2 le_rfl
  rw [abs_of_pos h0'] at er
  have er := square_near (Real.sqrt_nonneg _) er
  rw [Real.mul_self_sqrt h0'.le] at er
  have er : |(z.val : ℝ) * z.val - x.val| ≤ 1995 / 10 ^ 6 * x.val := er.trans (by norm_num; linarith)
  have er' : |z.val * z.val - x.val| ≤ 1995 / 10 ^ 6 * x.val := by
    rw [← Rat.cast_le (K := ℝ)]; push_cast; exact er
  subst ez
  obtain ⟨v, hv, ev⟩ := mul_normal hf (is_of_valid vz) (is_of_valid vz) (by
      have := (abs_le.mp er').1
      have h1 : (2:ℚ) ^ (f.emin + f.p - 1) = 2 ^ (f.emin + f.p) / 2 := by rw [zpow_sub₀ (by norm_num), zpow_one]
      refine le_trans ?_ (le_abs_self _)
      rw [h1]; linarith) (by
      have := (abs_le.mp er').2
      have h1 : (2:ℚ) ^ ((f.emax : ℤ) - 1) = 2 * 2 ^ ((f.emax : ℤ) - 2) := by
        rw [show (f.emax : ℤ) - 1 = 1 + (f.emax - 2) by ring, zpow_add₀ (by norm_num), zpow_one]
      rw [abs_of_nonneg (mul_self_nonneg _), h1]; linarith)
  refine ⟨_, _, hz, .of_eq rfl, hv.valid, hv.fin, ?_⟩
  rw [hv.val]
  have ul := uq_le hf
  have t : |v - x.val| ≤ 0.002 * x.val := by
    have h2 := abs_sub_le v ((Flt.fin b n : Flt f).val * (Flt.fin b n : Flt f).val) x.val
    have h3 := (abs_le.mp er').2
    rw [abs_of_nonneg (mul_self_nonneg (Flt.fin b n : Flt f).val)] at ev
    generalize (Flt.fin b n : Flt f).val = a at *
    have h4 : a * a * uq f ≤ 2 * x.val * (1 / 10 ^ 7) := mul_le_mul (by linarith) ul uq_pos.le (by linarith)
    norm_num at er' ⊢
    linarith
  have := (Rat.cast_le (K := ℝ)).mpr t
  push_cast at this; norm_num at this ⊢; exact this

example := C137_float_square wide_F32 .checked (.fin false (3 / 2)) (by is_float 3 (-1)) _ _ rfl (by norm_num [Flt.val, F32]) (by norm_num [Flt.val, F32])

/-- C137, floats: the root of the square is the absolute value within 0.1 %, as long as the square is in the normal range. -/
theorem C137_float_root (hf : f.Wide) (md : Mode) (x : Flt f) (hx : x.Valid) (s : Bool) (q : ℚ) (e : x = .fin s q)
    (hlo : (2:ℚ) ^ (f.emin + f.p) ≤ x.val ^ 2) (hhi : x.val ^ 2 ≤ 2 ^ ((f.emax : ℤ) - 1)) :
    ∃ y z : Flt f, Returns (MixedPowi.powi x 2) y ∧ Returns (niirf (.i32 md) y 2) z ∧ z.Valid ∧ z.IsFinite ∧
      |(z.val : ℝ) - (|(x.val : ℝ)|)| ≤ 0.001 * |(x.val : ℝ)| := by
  subst e
  have hi := is_of_valid hx
  obtain ⟨v, hv, ev⟩ := mul_normal hf hi hi
    (by rw [← sq, abs_of_nonneg (sq_nonneg _)]
        exact le_trans (two_zpow_le (by omega)) hlo)
    (by rw [← sq, abs_of_nonneg (sq_nonneg _)]; exact hhi)
  generalize hA : (Flt.fin s q : Flt f).val = a at *
  have ha2 : 0 < a ^ 2 := (two_zpow_pos _).trans_le hlo
  have ul := uq_le hf
  have up := uq_pos (f := f)
  rw [← sq, abs_of_nonneg (sq_nonneg a)] at ev
  have ev' : |v - a ^ 2| ≤ 1 / 10 ^ 7 * a ^ 2 := ev.trans (by rw [mul_comm]; gcongr)
  have v0 : 0 < v := by have := (abs_le.mp ev').1; linarith
  obtain ⟨b, n, eb⟩ := hv.fin
  obtain ⟨z, hz, vz, fz, -, er⟩ := C70_accuracy hf md ((Flt.fin s q : Flt f).mul (.fin s q)) hv.valid b n eb
    (by rw [hv.val]; exact v0.ne') 2 le_rfl
  refine ⟨_, z, .of_eq (sq_flt _), hz, vz, fz, ?_⟩
  rw [hv.val, abs_of_pos (by exact_mod_cast v0 : (0:ℝ) < v)] at er
  have key := sqrt_rel (q := v) (S := (a:ℝ) ^ 2) (u := (uq f : ℝ)) (by exact_mod_cast v0.le) (by exact_mod_cast ha2) (by exact_mod_cast up)
    (by have := (Rat.cast_le (K := ℝ)).mpr ul; push_cast at this; exact this.trans (by norm_num))
    (by
      have := (Rat.cast_le (K := ℝ)).mpr ev
      push_cast at this
      have p2 : (0:ℝ) < (a:ℝ) ^ 2 := by exact_mod_cast ha2
      have p1 : (0:ℝ) < (uq f : ℝ) := by exact_mod_cast up
      nlinarith [mul_pos p2 p1, mul_pos (mul_pos p1 p1) p2])
  rw [Real.sqrt_sq_eq_abs] at key
  have ul' : ((uq f : ℚ) : ℝ) ≤ 1 / 10 ^ 7 := by have := (Rat.cast_le (K := ℝ)).mpr ul; push_cast at this; exact this
  have na := abs_nonneg (a:ℝ)
  have hk : 21 / 10 * (uq f : ℝ) * |(a:ℝ)| ≤ 21 / 10 * (1 / 10 ^ 7) * |(a:ℝ)| := by gcongr
  have := abs_sub_le (z.val : ℝ) (√(v:ℝ)) |(a:ℝ)|
  have := (abs_le.mp key).2
  norm_num at er hk ⊢
  linarith

example : ∃ y w, Returns (niirf .exact (2:ℝ) 2) y ∧ Returns (NumOps.mul y y) w ∧ |w - 2| ≤ 0.002001 * 2 :=
  C137_real_square 2 (by norm_num)
example : ∃ q z : Fixed .checked true 32 16, Returns (MixedPowi.powi (fx .checked true 32 16 (-(3 * 2 ^ 16))) 2) q ∧
    Returns (MixedSqrt.sqrt q) z ∧
      |(z.val : ℝ) / 2 ^ 16 - (|((fx .checked true 32 16 (-(3 * 2 ^ 16))).val : ℝ) / 2 ^ 16|)| ≤
        (1 / 1000 + 12 / 2 ^ 16) * |((fx .checked true 32 16 (-(3 * 2 ^ 16))).val : ℝ) / 2 ^ 16| + 4 / 2 ^ 16
          + 1 / |((fx .checked true 32 16 (-(3 * 2 ^ 16))).val : ℝ)| :=
  C137_fixed_root (by norm_num) (by norm_num) (by norm_num) (by norm_num) _ (by decide) (by decide)
example : ∃ z w : Fixed .checked true 32 16, Returns (MixedSqrt.sqrt (fx .checked true 32 16 (5 * 2 ^ 16))) z ∧
    Returns (NumOps.mul z z) w ∧ |(w.val : ℝ) / 2 ^ 16 - (fx .checked true 32 16 (5 * 2 ^ 16)).val / 2 ^ 16| ≤
        (0.0021 + 9.2 / 2 ^ 16) * ((fx .checked true 32 16 (5 * 2 ^ 16)).val / 2 ^ 16)
          + 4.2 / 2 ^ 16 * Real.sqrt ((fx .checked true 32 16 (5 * 2 ^ 16)).val / 2 ^ 16) + 1.1 / 2 ^ 16 :=
  C137_fixed_square (by norm_num) (by norm_num) (by norm_num) _ (by decide) (by decide)
example : (2:ℚ) ^ (F32.emin + F32.p) ≤ (Flt.fin false 3 : Flt F32).val ∧
    (Flt.fin false 3 : Flt F32).val ≤ 2 ^ ((F32.emax : ℤ) - 2) := ⟨by norm_num [Flt.val, F32], by norm_num [Flt.val, F32]⟩

end MixedNum
