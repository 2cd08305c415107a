import Verif.Lemmas.FloatConv
import Verif.Lemmas.SqrtReal
import Verif.Lemmas.Prog
/-! The NIIRF square root on floats: literals and the acceleration table. -/

namespace MixedNum
namespace Flt
variable {f : Format}

/-- Sizes of the formats of single and double precision, as far as they matter here. -/
structure _root_.MixedNum.Format.Wide (f : Format) : Prop where
  p : 24 ≤ f.p
  emin : f.emin + 2 * f.p + 4 ≤ 0
  emax : f.p + 5 ≤ f.emax
  emin_ge : -2 ^ 30 ≤ f.emin
  emax_le : f.emax ≤ 2 ^ 30

theorem wide_F32 : F32.Wide := ⟨by decide, by decide, by decide, by decide, by decide⟩
theorem wide_F64 : F64.Wide := ⟨by decide, by decide, by decide, by decide, by decide⟩
theorem _root_.MixedNum.Format.Wide.ok (h : f.Wide) : f.Ok :=
  ⟨by have := h.p; omega, by have := h.p; have := h.emin; omega, h.emax⟩
theorem _root_.MixedNum.Format.Wide.one_le (h : f.Wide) : 1 ≤ f.p := by have := h.p; omega

/-- Rounding a number of about unit size. -/
theorem unit_rnd (hf : f.Wide) {q : ℚ} (h : |q| ≤ 5 / 4) : |rnd f.p f.emin q - q| ≤ 1 / 10 ^ 7 := by
  have hp := hf.p; have he := hf.emin
  have h1 : (2:ℚ) ^ (-(f.p:ℤ)) ≤ 2 ^ (-24 : ℤ) := two_zpow_le (by omega)
  have h2 : (2:ℚ) ^ f.emin ≤ 2 ^ (-52 : ℤ) := two_zpow_le (by omega)
  refine (abs_rnd_le q).trans ?_
  have h3 := mul_le_mul h h1 (two_zpow_pos _).le (by norm_num)
  norm_num at h2 h3 ⊢; linarith

theorem unit_lt (hf : f.Wide) {q : ℚ} (h : |q| ≤ 2) : |rnd f.p f.emin q| < 2 ^ f.emax := by
  have := hf.p; have := hf.emin; have := hf.emax
  exact abs_rnd_lt hf.one_le (e := 1) (by simpa using h) (by omega) (by omega)

theorem Is.abs {x : Flt f} {v : ℚ} (h : Is x v) : Is x.abs |v| := by
  obtain ⟨s, m, rfl, h1, h2, h3, h4⟩ := h
  refine ⟨false, m, rfl, h1, ?_, h3.abs, by rwa [abs_abs]⟩
  rw [← h2]; cases s
  · exact (abs_of_nonneg h1).symm
  · show m = |-m|; rw [abs_neg, abs_of_nonneg h1]

theorem Is.div (hp : 1 ≤ f.p) {x y : Flt f} {a b : ℚ} (hx : Is x a) (hy : Is y b) (hb : b ≠ 0)
    (h : |rnd f.p f.emin (a / b)| < 2 ^ f.emax) : Is (x.div y) (rnd f.p f.emin (a / b)) := by
  obtain ⟨s, m, rfl, _, rfl, _, _⟩ := hx
  obtain ⟨t, n, rfl, _, rfl, _, _⟩ := hy
  have hn : n ≠ 0 := by
    rintro rfl; apply hb; cases t <;> simp [Flt.val]
  show Is (if n = 0 then _ else _) _
  rw [if_neg hn]; exact is_ofExact hp _ h

theorem Is.beq {x y : Flt f} {a b : ℚ} (hx : Is x a) (hy : Is y b) : x.beq y = decide (a = b) := by
  obtain ⟨s, m, rfl, _, rfl, _, _⟩ := hx
  obtain ⟨t, n, rfl, _, rfl, _, _⟩ := hy
  rfl

theorem is_zero : Is (Flt.fin false 0 : Flt f) 0 :=
  ⟨false, 0, rfl, le_refl _, rfl, Rep.zero, by simp⟩

/-- Literals below 2 in magnitude, rounded. -/
theorem lit_is (hf : f.Wide) {q : ℚ} (h : |q| ≤ 2) : Is (ofExact false q : Flt f) (rnd f.p f.emin q) :=
  is_ofExact hf.one_le false (unit_lt hf h)

/-- Literals that are small multiples of 1/16. -/
theorem lit_sixteenth (hf : f.Wide) {n : ℤ} (h0 : 0 ≤ n) (h : n ≤ 64) : Is (ofExact false ((n:ℚ) / 16) : Flt f) (n / 16) := by
  have hp := hf.p; have := hf.emin; have := hf.emax
  have hr : Rep f.p f.emin ((n:ℚ) / 16) := by
    refine ⟨n, -4, by omega, ?_, by norm_num [div_eq_mul_inv]⟩
    rw [abs_of_nonneg h0]
    calc n < 2 ^ 7 := by omega
      _ ≤ 2 ^ f.p := pow_le_pow_right₀ (by norm_num) (by omega)
  refine is_exact hf.ok false hr ?_
  have hn : (n:ℚ) ≤ 64 := by exact_mod_cast h
  have hn0 : (0:ℚ) ≤ n := by exact_mod_cast h0
  rw [abs_of_nonneg (by positivity)]
  calc (n:ℚ) / 16 ≤ 2 ^ 2 := by linarith
    _ < 2 ^ f.emax := pow_lt_pow_right₀ (by norm_num) (by omega)

theorem lit_f64_real (hf : f.Wide) {q : ℚ} {c : ℝ} (h : |f64Round q - q| ≤ 1 / 10 ^ 15) (hc : (q:ℝ) = c)
    (h0 : 0 ≤ q) (h1 : q ≤ 99 / 100) :
    Is (ofExact false (f64Round q) : Flt f) (rnd f.p f.emin (f64Round q)) ∧
    |((rnd f.p f.emin (f64Round q) : ℚ) : ℝ) - c| ≤ 11 / 10 ^ 8 := by
  have hb := abs_le.mp h
  have ha : |f64Round q| ≤ 5 / 4 := by rw [abs_le]; constructor <;> norm_num at hb <;> linarith
  refine ⟨lit_is hf (ha.trans (by norm_num)), ?_⟩
  have h2 := unit_rnd hf ha
  have h3 : |rnd f.p f.emin (f64Round q) - q| ≤ 11 / 10 ^ 8 := by
    have := abs_le.mp h2
    rw [abs_le]; constructor <;> norm_num at this hb ⊢ <;> linarith
  have := (Rat.cast_le (K := ℝ)).mpr h3
  push_cast at this; rwa [hc] at this

/-- The table entry chosen for a normalised argument. -/
theorem beta_flt (hf : f.Wide) {x : Flt f} {t : ℚ} (hx : Is x t) {r : ℝ} (hr : r ^ 2 = t) (h1 : 1 / 4 ≤ t) (h2 : t < 1) :
    ∃ c v b, beta x = pure c ∧ Is c v ∧ Niirf.Region r b ∧ |(v:ℝ) - b| ≤ 11 / 10 ^ 8 := by
  obtain ⟨b0, d0⟩ := lit_f64_real hf (c := 0.961914) (Niirf.f64_close 0.961914 (by simp)) (by norm_num) (by norm_num) (by norm_num)
  obtain ⟨b1, d1⟩ := lit_f64_real hf (c := 0.840332) (Niirf.f64_close 0.840332 (by simp)) (by norm_num) (by norm_num) (by norm_num)
  obtain ⟨b2, d2⟩ := lit_f64_real hf (c := 0.782715) (Niirf.f64_close 0.782715 (by simp)) (by norm_num) (by norm_num) (by norm_num)
  obtain ⟨b3, d3⟩ := lit_f64_real hf (c := 0.734869) (Niirf.f64_close 0.734869 (by simp)) (by norm_num) (by norm_num) (by norm_num)
  obtain ⟨b4, d4⟩ := lit_f64_real hf (c := 0.691406) (Niirf.f64_close 0.691406 (by simp)) (by norm_num) (by norm_num) (by norm_num)
  obtain ⟨b5, d5⟩ := lit_f64_real hf (c := 0.654297) (Niirf.f64_close 0.654297 (by simp)) (by norm_num) (by norm_num) (by norm_num)
  obtain ⟨b6, d6⟩ := lit_f64_real hf (c := 0.622070) (Niirf.f64_close 0.622070 (by simp)) (by norm_num) (by norm_num) (by norm_num)
  obtain ⟨b7, d7⟩ := lit_f64_real hf (c := 0.595215) (Niirf.f64_close 0.595215 (by simp)) (by norm_num) (by norm_num) (by norm_num)
  obtain ⟨b8, d8⟩ := lit_f64_real hf (c := 0.573731) (Niirf.f64_close 0.573731 (by simp)) (by norm_num) (by norm_num) (by norm_num)
  obtain ⟨b9, d9⟩ := lit_f64_real hf (c := 0.556152) (Niirf.f64_close 0.556152 (by simp)) (by norm_num) (by norm_num) (by norm_num)
  obtain ⟨b10, d10⟩ := lit_f64_real hf (c := 0.516113) (Niirf.f64_close 0.516113 (by simp)) (by norm_num) (by norm_num) (by norm_num)
  obtain ⟨b11, d11⟩ := lit_f64_real hf (c := 0.502930) (Niirf.f64_close 0.502930 (by simp)) (by norm_num) (by norm_num) (by norm_num)
  have w0 : Is (ofExact false (5/16) : Flt f) (5/16) := lit_sixteenth hf (n := 5) (by norm_num) (by norm_num)
  have w1 : Is (ofExact false (6/16) : Flt f) (6/16) := lit_sixteenth hf (n := 6) (by norm_num) (by norm_num)
  have w2 : Is (ofExact false (7/16) : Flt f) (7/16) := lit_sixteenth hf (n := 7) (by norm_num) (by norm_num)
  have w3 : Is (ofExact false (8/16) : Flt f) (8/16) := lit_sixteenth hf (n := 8) (by norm_num) (by norm_num)
  have w4 : Is (ofExact false (9/16) : Flt f) (9/16) := lit_sixteenth hf (n := 9) (by norm_num) (by norm_num)
  have w5 : Is (ofExact false (10/16) : Flt f) (10/16) := lit_sixteenth hf (n := 10) (by norm_num) (by norm_num)
  have w6 : Is (ofExact false (11/16) : Flt f) (11/16) := lit_sixteenth hf (n := 11) (by norm_num) (by norm_num)
  have w7 : Is (ofExact false (12/16) : Flt f) (12/16) := lit_sixteenth hf (n := 12) (by norm_num) (by norm_num)
  have w8 : Is (ofExact false (13/16) : Flt f) (13/16) := lit_sixteenth hf (n := 13) (by norm_num) (by norm_num)
  have w9 : Is (ofExact false (14/16) : Flt f) (14/16) := lit_sixteenth hf (n := 14) (by norm_num) (by norm_num)
  have w10 : Is (ofExact false (15/16) : Flt f) (15/16) := lit_sixteenth hf (n := 15) (by norm_num) (by norm_num)
  have k0 : t < 5 / 16 ↔ r ^ 2 < 5 / 16 := by rw [hr]; have := (Rat.cast_lt (K := ℝ) (p := t) (q := 5 / 16)).symm; push_cast at this; exact this
  have k1 : t < 6 / 16 ↔ r ^ 2 < 6 / 16 := by rw [hr]; have := (Rat.cast_lt (K := ℝ) (p := t) (q := 6 / 16)).symm; push_cast at this; exact this
  have k2 : t < 7 / 16 ↔ r ^ 2 < 7 / 16 := by rw [hr]; have := (Rat.cast_lt (K := ℝ) (p := t) (q := 7 / 16)).symm; push_cast at this; exact this
  have k3 : t < 8 / 16 ↔ r ^ 2 < 8 / 16 := by rw [hr]; have := (Rat.cast_lt (K := ℝ) (p := t) (q := 8 / 16)).symm; push_cast at this; exact this
  have k4 : t < 9 / 16 ↔ r ^ 2 < 9 / 16 := by rw [hr]; have := (Rat.cast_lt (K := ℝ) (p := t) (q := 9 / 16)).symm; push_cast at this; exact this
  have k5 : t < 10 / 16 ↔ r ^ 2 < 10 / 16 := by rw [hr]; have := (Rat.cast_lt (K := ℝ) (p := t) (q := 10 / 16)).symm; push_cast at this; exact this
  have k6 : t < 11 / 16 ↔ r ^ 2 < 11 / 16 := by rw [hr]; have := (Rat.cast_lt (K := ℝ) (p := t) (q := 11 / 16)).symm; push_cast at this; exact this
  have k7 : t < 12 / 16 ↔ r ^ 2 < 12 / 16 := by rw [hr]; have := (Rat.cast_lt (K := ℝ) (p := t) (q := 12 / 16)).symm; push_cast at this; exact this
  have k8 : t < 13 / 16 ↔ r ^ 2 < 13 / 16 := by rw [hr]; have := (Rat.cast_lt (K := ℝ) (p := t) (q := 13 / 16)).symm; push_cast at this; exact this
  have k9 : t < 14 / 16 ↔ r ^ 2 < 14 / 16 := by rw [hr]; have := (Rat.cast_lt (K := ℝ) (p := t) (q := 14 / 16)).symm; push_cast at this; exact this
  have k10 : t < 15 / 16 ↔ r ^ 2 < 15 / 16 := by rw [hr]; have := (Rat.cast_lt (K := ℝ) (p := t) (q := 15 / 16)).symm; push_cast at this; exact this
  have h1' : 4 / 16 ≤ r ^ 2 := by rw [hr]; have := (Rat.cast_le (K := ℝ)).mpr h1; push_cast at this; linarith
  have h2' : r ^ 2 < 16 / 16 := by rw [hr]; have := (Rat.cast_lt (K := ℝ)).mpr h2; push_cast at this; linarith
  have hl : ∀ q : ℚ, (Lit.ofF64 q : Prog (Flt f)) = pure (ofExact false q) := fun _ => rfl
  unfold beta Niirf.Region
  simp only [hl, pure_bind]
  by_cases g0 : t < 5 / 16
  · rw [if_pos (by rw [lt_def, hx.lt w0]; exact decide_eq_true g0)]; exact ⟨_, _, _, rfl, b0, .inl ⟨k0.mp g0, h1', rfl⟩, d0⟩
  rw [if_neg (by rw [lt_def, hx.lt w0, decide_eq_false g0]; exact Bool.false_ne_true)]
  by_cases g1 : t < 6 / 16
  · rw [if_pos (by rw [lt_def, hx.lt w1]; exact decide_eq_true g1)]; exact ⟨_, _, _, rfl, b1, .inr (.inl ⟨k1.mp g1, not_lt.mp (mt k0.mpr g0), rfl⟩), d1⟩
  rw [if_neg (by rw [lt_def, hx.lt w1, decide_eq_false g1]; exact Bool.false_ne_true)]
  by_cases g2 : t < 7 / 16
  · rw [if_pos (by rw [lt_def, hx.lt w2]; exact decide_eq_true g2)]; exact ⟨_, _, _, rfl, b2, .inr (.inr (.inl ⟨k2.mp g2, not_lt.mp (mt k1.mpr g1), rfl⟩)), d2⟩
  rw [if_neg (by rw [lt_def, hx.lt w2, decide_eq_false g2]; exact Bool.false_ne_true)]
  by_cases g3 : t < 8 / 16
  · rw [if_pos (by rw [lt_def, hx.lt w3]; exact decide_eq_true g3)]; exact ⟨_, _, _, rfl, b3, .inr (.inr (.inr (.inl ⟨k3.mp g3, not_lt.mp (mt k2.mpr g2), rfl⟩))), d3⟩
  rw [if_neg (by rw [lt_def, hx.lt w3, decide_eq_false g3]; exact Bool.false_ne_true)]
  by_cases g4 : t < 9 / 16
  · rw [if_pos (by rw [lt_def, hx.lt w4]; exact decide_eq_true g4)]; exact ⟨_, _, _, rfl, b4, .inr (.inr (.inr (.inr (.inl ⟨k4.mp g4, not_lt.mp (mt k3.mpr g3), rfl⟩)))), d4⟩
  rw [if_neg (by rw [lt_def, hx.lt w4, decide_eq_false g4]; exact Bool.false_ne_true)]
  by_cases g5 : t < 10 / 16
  · rw [if_pos (by rw [lt_def, hx.lt w5]; exact decide_eq_true g5)]; exact ⟨_, _, _, rfl, b5, .inr (.inr (.inr (.inr (.inr (.inl ⟨k5.mp g5, not_lt.mp (mt k4.mpr g4), rfl⟩))))), d5⟩
  rw [if_neg (by rw [lt_def, hx.lt w5, decide_eq_false g5]; exact Bool.false_ne_true)]
  by_cases g6 : t < 11 / 16
  · rw [if_pos (by rw [lt_def, hx.lt w6]; exact decide_eq_true g6)]; exact ⟨_, _, _, rfl, b6, .inr (.inr (.inr (.inr (.inr (.inr (.inl ⟨k6.mp g6, not_lt.mp (mt k5.mpr g5), rfl⟩)))))), d6⟩
  rw [if_neg (by rw [lt_def, hx.lt w6, decide_eq_false g6]; exact Bool.false_ne_true)]
  by_cases g7 : t < 12 / 16
  · rw [if_pos (by rw [lt_def, hx.lt w7]; exact decide_eq_true g7)]; exact ⟨_, _, _, rfl, b7, .inr (.inr (.inr (.inr (.inr (.inr (.inr (.inl ⟨k7.mp g7, not_lt.mp (mt k6.mpr g6), rfl⟩))))))), d7⟩
  rw [if_neg (by rw [lt_def, hx.lt w7, decide_eq_false g7]; exact Bool.false_ne_true)]
  by_cases g8 : t < 13 / 16
  · rw [if_pos (by rw [lt_def, hx.lt w8]; exact decide_eq_true g8)]; exact ⟨_, _, _, rfl, b8, .inr (.inr (.inr (.inr (.inr (.inr (.inr (.inr (.inl ⟨k8.mp g8, not_lt.mp (mt k7.mpr g7), rfl⟩)))))))), d8⟩
  rw [if_neg (by rw [lt_def, hx.lt w8, decide_eq_false g8]; exact Bool.false_ne_true)]
  by_cases g9 : t < 14 / 16
  · rw [if_pos (by rw [lt_def, hx.lt w9]; exact decide_eq_true g9)]; exact ⟨_, _, _, rfl, b9, .inr (.inr (.inr (.inr (.inr (.inr (.inr (.inr (.inr (.inl ⟨k9.mp g9, not_lt.mp (mt k8.mpr g8), rfl⟩))))))))), d9⟩
  rw [if_neg (by rw [lt_def, hx.lt w9, decide_eq_false g9]; exact Bool.false_ne_true)]
  by_cases g10 : t < 15 / 16
  · rw [if_pos (by rw [lt_def, hx.lt w10]; exact decide_eq_true g10)]; exact ⟨_, _, _, rfl, b10, .inr (.inr (.inr (.inr (.inr (.inr (.inr (.inr (.inr (.inr (.inl ⟨k10.mp g10, not_lt.mp (mt k9.mpr g9), rfl⟩)))))))))), d10⟩
  rw [if_neg (by rw [lt_def, hx.lt w10, decide_eq_false g10]; exact Bool.false_ne_true)]
  exact ⟨_, _, _, rfl, b11, .inr (.inr (.inr (.inr (.inr (.inr (.inr (.inr (.inr (.inr (.inr (⟨h2', not_lt.mp (mt k10.mpr g10), rfl⟩))))))))))), d11⟩

end Flt
end MixedNum
