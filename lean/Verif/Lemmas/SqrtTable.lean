import Verif.Lemmas.SqrtReal
import Verif.Lemmas.FixedReal
/-! The acceleration table of the NIIRF square root on fixed point. Generated by tools/gen_sqrt_fixed.py. -/

namespace MixedNum
namespace Fixed
variable {m : Mode} {s : Bool} {W F : ℕ}

/-- Stored integer of a literal. -/
def lit (F : ℕ) (q : ℚ) : ℤ := roundHalfEven (q * 2 ^ F)

theorem lit_bounds (F : ℕ) {q : ℚ} (h0 : 0 ≤ q) (h1 : q ≤ 1) : 0 ≤ lit F q ∧ lit F q ≤ 2 ^ F := by
  have hp : (0:ℚ) < 2 ^ F := by positivity
  constructor
  · exact le_roundHalfEven_of_le (by push_cast; positivity)
  · refine roundHalfEven_le_of_le ?_
    push_cast
    exact mul_le_of_le_one_left hp.le h1

theorem lit_eq (h : Fits s W (2 ^ F)) {q : ℚ} (h0 : 0 ≤ q) (h1 : q ≤ 1) :
    ∃ c : Fixed m s W F, Lit.ofF64 q = pure c ∧ c.val = lit F q := by
  obtain ⟨l, g⟩ := lit_bounds F h0 h1
  have hf := (fits_zero s W).between h l g
  exact ⟨mkv _ hf, fit_of_fits hf, rfl⟩

theorem f64_unit {q : ℚ} (h : |f64Round q - q| ≤ 1 / 10 ^ 15) (h0 : 1 / 100 ≤ q) (h1 : q ≤ 99 / 100) :
    0 ≤ f64Round q ∧ f64Round q ≤ 1 := by
  have := abs_le.mp h
  constructor <;> norm_num at this <;> linarith

/-- Stored integer of the table entry for the stored normalised argument `t`. -/
def bRaw (F : ℕ) (t : ℤ) : ℤ :=
  if t < lit F (5 / 16) then lit F (f64Round 0.961914)
  else if t < lit F (6 / 16) then lit F (f64Round 0.840332)
  else if t < lit F (7 / 16) then lit F (f64Round 0.782715)
  else if t < lit F (8 / 16) then lit F (f64Round 0.734869)
  else if t < lit F (9 / 16) then lit F (f64Round 0.691406)
  else if t < lit F (10 / 16) then lit F (f64Round 0.654297)
  else if t < lit F (11 / 16) then lit F (f64Round 0.622070)
  else if t < lit F (12 / 16) then lit F (f64Round 0.595215)
  else if t < lit F (13 / 16) then lit F (f64Round 0.573731)
  else if t < lit F (14 / 16) then lit F (f64Round 0.556152)
  else if t < lit F (15 / 16) then lit F (f64Round 0.516113)
  else lit F (f64Round 0.502930)

theorem beta_fixed (h : Fits s W (2 ^ F)) (x : Fixed m s W F) : ∃ c, beta x = pure c ∧ c.val = bRaw F x.val := by
  obtain ⟨b0, e0, v0⟩ := lit_eq (m := m) h (q := f64Round 0.961914) (f64_unit (Niirf.f64_close _ (by simp)) (by norm_num) (by norm_num)).1
    (f64_unit (Niirf.f64_close _ (by simp)) (by norm_num) (by norm_num)).2
  obtain ⟨b1, e1, v1⟩ := lit_eq (m := m) h (q := f64Round 0.840332) (f64_unit (Niirf.f64_close _ (by simp)) (by norm_num) (by norm_num)).1
    (f64_unit (Niirf.f64_close _ (by simp)) (by norm_num) (by norm_num)).2
  obtain ⟨b2, e2, v2⟩ := lit_eq (m := m) h (q := f64Round 0.782715) (f64_unit (Niirf.f64_close _ (by simp)) (by norm_num) (by norm_num)).1
    (f64_unit (Niirf.f64_close _ (by simp)) (by norm_num) (by norm_num)).2
  obtain ⟨b3, e3, v3⟩ := lit_eq (m := m) h (q := f64Round 0.734869) (f64_unit (Niirf.f64_close _ (by simp)) (by norm_num) (by norm_num)).1
    (f64_unit (Niirf.f64_close _ (by simp)) (by norm_num) (by norm_num)).2
  obtain ⟨b4, e4, v4⟩ := lit_eq (m := m) h (q := f64Round 0.691406) (f64_unit (Niirf.f64_close _ (by simp)) (by norm_num) (by norm_num)).1
    (f64_unit (Niirf.f64_close _ (by simp)) (by norm_num) (by norm_num)).2
  obtain ⟨b5, e5, v5⟩ := lit_eq (m := m) h (q := f64Round 0.654297) (f64_unit (Niirf.f64_close _ (by simp)) (by norm_num) (by norm_num)).1
    (f64_unit (Niirf.f64_close _ (by simp)) (by norm_num) (by norm_num)).2
  obtain ⟨b6, e6, v6⟩ := lit_eq (m := m) h (q := f64Round 0.622070) (f64_unit (Niirf.f64_close _ (by simp)) (by norm_num) (by norm_num)).1
    (f64_unit (Niirf.f64_close _ (by simp)) (by norm_num) (by norm_num)).2
  obtain ⟨b7, e7, v7⟩ := lit_eq (m := m) h (q := f64Round 0.595215) (f64_unit (Niirf.f64_close _ (by simp)) (by norm_num) (by norm_num)).1
    (f64_unit (Niirf.f64_close _ (by simp)) (by norm_num) (by norm_num)).2
  obtain ⟨b8, e8, v8⟩ := lit_eq (m := m) h (q := f64Round 0.573731) (f64_unit (Niirf.f64_close _ (by simp)) (by norm_num) (by norm_num)).1
    (f64_unit (Niirf.f64_close _ (by simp)) (by norm_num) (by norm_num)).2
  obtain ⟨b9, e9, v9⟩ := lit_eq (m := m) h (q := f64Round 0.556152) (f64_unit (Niirf.f64_close _ (by simp)) (by norm_num) (by norm_num)).1
    (f64_unit (Niirf.f64_close _ (by simp)) (by norm_num) (by norm_num)).2
  obtain ⟨b10, e10, v10⟩ := lit_eq (m := m) h (q := f64Round 0.516113) (f64_unit (Niirf.f64_close _ (by simp)) (by norm_num) (by norm_num)).1
    (f64_unit (Niirf.f64_close _ (by simp)) (by norm_num) (by norm_num)).2
  obtain ⟨b11, e11, v11⟩ := lit_eq (m := m) h (q := f64Round 0.502930) (f64_unit (Niirf.f64_close _ (by simp)) (by norm_num) (by norm_num)).1
    (f64_unit (Niirf.f64_close _ (by simp)) (by norm_num) (by norm_num)).2
  obtain ⟨t0, f0, w0⟩ := lit_eq (m := m) h (q := 5 / 16) (by norm_num) (by norm_num)
  obtain ⟨t1, f1, w1⟩ := lit_eq (m := m) h (q := 6 / 16) (by norm_num) (by norm_num)
  obtain ⟨t2, f2, w2⟩ := lit_eq (m := m) h (q := 7 / 16) (by norm_num) (by norm_num)
  obtain ⟨t3, f3, w3⟩ := lit_eq (m := m) h (q := 8 / 16) (by norm_num) (by norm_num)
  obtain ⟨t4, f4, w4⟩ := lit_eq (m := m) h (q := 9 / 16) (by norm_num) (by norm_num)
  obtain ⟨t5, f5, w5⟩ := lit_eq (m := m) h (q := 10 / 16) (by norm_num) (by norm_num)
  obtain ⟨t6, f6, w6⟩ := lit_eq (m := m) h (q := 11 / 16) (by norm_num) (by norm_num)
  obtain ⟨t7, f7, w7⟩ := lit_eq (m := m) h (q := 12 / 16) (by norm_num) (by norm_num)
  obtain ⟨t8, f8, w8⟩ := lit_eq (m := m) h (q := 13 / 16) (by norm_num) (by norm_num)
  obtain ⟨t9, f9, w9⟩ := lit_eq (m := m) h (q := 14 / 16) (by norm_num) (by norm_num)
  obtain ⟨t10, f10, w10⟩ := lit_eq (m := m) h (q := 15 / 16) (by norm_num) (by norm_num)
  unfold beta bRaw
  simp only [e0, e1, e2, e3, e4, e5, e6, e7, e8, e9, e10, e11, f0, f1, f2, f3, f4, f5, f6, f7, f8, f9, f10, pure_bind, lt_def]
  by_cases g0 : x.val < lit F (5 / 16)
  · rw [if_pos (by rw [w0]; exact decide_eq_true g0), if_pos g0]; exact ⟨b0, rfl, v0⟩
  rw [if_neg (by rw [w0, decide_eq_false g0]; exact Bool.false_ne_true), if_neg g0]
  by_cases g1 : x.val < lit F (6 / 16)
  · rw [if_pos (by rw [w1]; exact decide_eq_true g1), if_pos g1]; exact ⟨b1, rfl, v1⟩
  rw [if_neg (by rw [w1, decide_eq_false g1]; exact Bool.false_ne_true), if_neg g1]
  by_cases g2 : x.val < lit F (7 / 16)
  · rw [if_pos (by rw [w2]; exact decide_eq_true g2), if_pos g2]; exact ⟨b2, rfl, v2⟩
  rw [if_neg (by rw [w2, decide_eq_false g2]; exact Bool.false_ne_true), if_neg g2]
  by_cases g3 : x.val < lit F (8 / 16)
  · rw [if_pos (by rw [w3]; exact decide_eq_true g3), if_pos g3]; exact ⟨b3, rfl, v3⟩
  rw [if_neg (by rw [w3, decide_eq_false g3]; exact Bool.false_ne_true), if_neg g3]
  by_cases g4 : x.val < lit F (9 / 16)
  · rw [if_pos (by rw [w4]; exact decide_eq_true g4), if_pos g4]; exact ⟨b4, rfl, v4⟩
  rw [if_neg (by rw [w4, decide_eq_false g4]; exact Bool.false_ne_true), if_neg g4]
  by_cases g5 : x.val < lit F (10 / 16)
  · rw [if_pos (by rw [w5]; exact decide_eq_true g5), if_pos g5]; exact ⟨b5, rfl, v5⟩
  rw [if_neg (by rw [w5, decide_eq_false g5]; exact Bool.false_ne_true), if_neg g5]
  by_cases g6 : x.val < lit F (11 / 16)
  · rw [if_pos (by rw [w6]; exact decide_eq_true g6), if_pos g6]; exact ⟨b6, rfl, v6⟩
  rw [if_neg (by rw [w6, decide_eq_false g6]; exact Bool.false_ne_true), if_neg g6]
  by_cases g7 : x.val < lit F (12 / 16)
  · rw [if_pos (by rw [w7]; exact decide_eq_true g7), if_pos g7]; exact ⟨b7, rfl, v7⟩
  rw [if_neg (by rw [w7, decide_eq_false g7]; exact Bool.false_ne_true), if_neg g7]
  by_cases g8 : x.val < lit F (13 / 16)
  · rw [if_pos (by rw [w8]; exact decide_eq_true g8), if_pos g8]; exact ⟨b8, rfl, v8⟩
  rw [if_neg (by rw [w8, decide_eq_false g8]; exact Bool.false_ne_true), if_neg g8]
  by_cases g9 : x.val < lit F (14 / 16)
  · rw [if_pos (by rw [w9]; exact decide_eq_true g9), if_pos g9]; exact ⟨b9, rfl, v9⟩
  rw [if_neg (by rw [w9, decide_eq_false g9]; exact Bool.false_ne_true), if_neg g9]
  by_cases g10 : x.val < lit F (15 / 16)
  · rw [if_pos (by rw [w10]; exact decide_eq_true g10), if_pos g10]; exact ⟨b10, rfl, v10⟩
  rw [if_neg (by rw [w10, decide_eq_false g10]; exact Bool.false_ne_true), if_neg g10]
  exact ⟨b11, rfl, v11⟩

theorem lit_close (F : ℕ) (q : ℚ) : |(lit F q : ℝ) * u F - (q : ℝ)| ≤ u F / 2 := by
  have h := abs_roundHalfEven_sub (q * 2 ^ F)
  have h' : |(lit F q : ℝ) - (q : ℝ) * 2 ^ F| ≤ 1 / 2 := by
    have := (Rat.cast_le (K := ℝ)).mpr h
    push_cast at this; exact this
  have hu := u_pos F
  have e : (lit F q : ℝ) * u F - (q : ℝ) = ((lit F q : ℝ) - (q : ℝ) * 2 ^ F) * u F := by
    rw [sub_mul, mul_assoc, pow_mul_u, mul_one]
  rw [e, abs_mul, abs_of_pos hu]
  calc _ ≤ 1 / 2 * u F := mul_le_mul_of_nonneg_right h' hu.le
    _ = _ := by ring

theorem lit_f64_close (F : ℕ) {q : ℚ} {c : ℝ} (h : |f64Round q - q| ≤ 1 / 10 ^ 15) (hc : (q : ℝ) = c) :
    |(lit F (f64Round q) : ℝ) * u F - c| ≤ u F / 2 + 1 / 10 ^ 15 := by
  have h1 := lit_close F (f64Round q)
  have h2 := Niirf.real_close h
  rw [← hc]
  calc _ = |((lit F (f64Round q) : ℝ) * u F - (f64Round q : ℚ)) + (((f64Round q : ℚ) : ℝ) - (q : ℝ))| := by
        congr 1; ring
    _ ≤ _ := (abs_add_le _ _).trans (add_le_add h1 h2)

theorem lit_sixteenth (hF : 4 ≤ F) (i : ℕ) : lit F (i / 16) = i * 2 ^ (F - 4) := by
  obtain ⟨G, rfl⟩ : ∃ G, F = G + 4 := ⟨F - 4, by omega⟩
  unfold lit
  rw [show ((i:ℚ) / 16 * 2 ^ (G + 4)) = ((i * 2 ^ G : ℤ) : ℚ) by push_cast; rw [pow_add]; ring,
    roundHalfEven_intCast]; simp

theorem lt_sixteenth (hF : 4 ≤ F) (i : ℕ) {t : ℤ} {r : ℝ} (hr : r ^ 2 = t * u F) :
    t < lit F (i / 16) ↔ r ^ 2 < i / 16 := by
  rw [lit_sixteenth hF, hr]
  obtain ⟨G, rfl⟩ : ∃ G, F = G + 4 := ⟨F - 4, by omega⟩
  have hp : (0:ℝ) < 2 ^ G := by positivity
  have e : (t:ℝ) * u (G + 4) = t / 2 ^ G / 16 := by unfold u; rw [pow_add]; field_simp; norm_num
  rw [e, div_lt_div_iff_of_pos_right (by norm_num), div_lt_iff₀ hp, Nat.add_sub_cancel]
  exact_mod_cast Iff.rfl

/-- With at least four fraction bits the right table entry is chosen. -/
theorem bRaw_close (hF : 4 ≤ F) {t : ℤ} {r : ℝ} (hr : r ^ 2 = t * u F) (h1 : 1 / 4 ≤ r ^ 2) (h2 : r ^ 2 < 1) :
    ∃ b, Niirf.Region r b ∧ |(bRaw F t : ℝ) * u F - b| ≤ u F / 2 + 1 / 10 ^ 15 := by
  have h1' : 4 / 16 ≤ r ^ 2 := le_trans (by norm_num) h1
  have h2' : r ^ 2 < 16 / 16 := lt_of_lt_of_le h2 (by norm_num)
  have key := fun i : ℕ => lt_sixteenth hF i hr
  have k0 : t < lit F (5 / 16) ↔ r ^ 2 < 5 / 16 := by have := key 5; push_cast at this; exact this
  have k1 : t < lit F (6 / 16) ↔ r ^ 2 < 6 / 16 := by have := key 6; push_cast at this; exact this
  have k2 : t < lit F (7 / 16) ↔ r ^ 2 < 7 / 16 := by have := key 7; push_cast at this; exact this
  have k3 : t < lit F (8 / 16) ↔ r ^ 2 < 8 / 16 := by have := key 8; push_cast at this; exact this
  have k4 : t < lit F (9 / 16) ↔ r ^ 2 < 9 / 16 := by have := key 9; push_cast at this; exact this
  have k5 : t < lit F (10 / 16) ↔ r ^ 2 < 10 / 16 := by have := key 10; push_cast at this; exact this
  have k6 : t < lit F (11 / 16) ↔ r ^ 2 < 11 / 16 := by have := key 11; push_cast at this; exact this
  have k7 : t < lit F (12 / 16) ↔ r ^ 2 < 12 / 16 := by have := key 12; push_cast at this; exact this
  have k8 : t < lit F (13 / 16) ↔ r ^ 2 < 13 / 16 := by have := key 13; push_cast at this; exact this
  have k9 : t < lit F (14 / 16) ↔ r ^ 2 < 14 / 16 := by have := key 14; push_cast at this; exact this
  have k10 : t < lit F (15 / 16) ↔ r ^ 2 < 15 / 16 := by have := key 15; push_cast at this; exact this
  clear key
  have d0 := lit_f64_close F (c := 0.961914) (Niirf.f64_close 0.961914 (by simp)) (by norm_num)
  have d1 := lit_f64_close F (c := 0.840332) (Niirf.f64_close 0.840332 (by simp)) (by norm_num)
  have d2 := lit_f64_close F (c := 0.782715) (Niirf.f64_close 0.782715 (by simp)) (by norm_num)
  have d3 := lit_f64_close F (c := 0.734869) (Niirf.f64_close 0.734869 (by simp)) (by norm_num)
  have d4 := lit_f64_close F (c := 0.691406) (Niirf.f64_close 0.691406 (by simp)) (by norm_num)
  have d5 := lit_f64_close F (c := 0.654297) (Niirf.f64_close 0.654297 (by simp)) (by norm_num)
  have d6 := lit_f64_close F (c := 0.622070) (Niirf.f64_close 0.622070 (by simp)) (by norm_num)
  have d7 := lit_f64_close F (c := 0.595215) (Niirf.f64_close 0.595215 (by simp)) (by norm_num)
  have d8 := lit_f64_close F (c := 0.573731) (Niirf.f64_close 0.573731 (by simp)) (by norm_num)
  have d9 := lit_f64_close F (c := 0.556152) (Niirf.f64_close 0.556152 (by simp)) (by norm_num)
  have d10 := lit_f64_close F (c := 0.516113) (Niirf.f64_close 0.516113 (by simp)) (by norm_num)
  have d11 := lit_f64_close F (c := 0.502930) (Niirf.f64_close 0.502930 (by simp)) (by norm_num)
  unfold bRaw Niirf.Region
  by_cases g0 : t < lit F (5 / 16)
  · rw [if_pos g0]; exact ⟨_, .inl ⟨(k0).mp g0, h1', rfl⟩, d0⟩
  rw [if_neg g0]
  by_cases g1 : t < lit F (6 / 16)
  · rw [if_pos g1]; exact ⟨_, .inr (.inl ⟨(k1).mp g1, not_lt.mp (mt (k0).mpr g0), rfl⟩), d1⟩
  rw [if_neg g1]
  by_cases g2 : t < lit F (7 / 16)
  · rw [if_pos g2]; exact ⟨_, .inr (.inr (.inl ⟨(k2).mp g2, not_lt.mp (mt (k1).mpr g1), rfl⟩)), d2⟩
  rw [if_neg g2]
  by_cases g3 : t < lit F (8 / 16)
  · rw [if_pos g3]; exact ⟨_, .inr (.inr (.inr (.inl ⟨(k3).mp g3, not_lt.mp (mt (k2).mpr g2), rfl⟩))), d3⟩
  rw [if_neg g3]
  by_cases g4 : t < lit F (9 / 16)
  · rw [if_pos g4]; exact ⟨_, .inr (.inr (.inr (.inr (.inl ⟨(k4).mp g4, not_lt.mp (mt (k3).mpr g3), rfl⟩)))), d4⟩
  rw [if_neg g4]
  by_cases g5 : t < lit F (10 / 16)
  · rw [if_pos g5]; exact ⟨_, .inr (.inr (.inr (.inr (.inr (.inl ⟨(k5).mp g5, not_lt.mp (mt (k4).mpr g4), rfl⟩))))), d5⟩
  rw [if_neg g5]
  by_cases g6 : t < lit F (11 / 16)
  · rw [if_pos g6]; exact ⟨_, .inr (.inr (.inr (.inr (.inr (.inr (.inl ⟨(k6).mp g6, not_lt.mp (mt (k5).mpr g5), rfl⟩)))))), d6⟩
  rw [if_neg g6]
  by_cases g7 : t < lit F (12 / 16)
  · rw [if_pos g7]; exact ⟨_, .inr (.inr (.inr (.inr (.inr (.inr (.inr (.inl ⟨(k7).mp g7, not_lt.mp (mt (k6).mpr g6), rfl⟩))))))), d7⟩
  rw [if_neg g7]
  by_cases g8 : t < lit F (13 / 16)
  · rw [if_pos g8]; exact ⟨_, .inr (.inr (.inr (.inr (.inr (.inr (.inr (.inr (.inl ⟨(k8).mp g8, not_lt.mp (mt (k7).mpr g7), rfl⟩)))))))), d8⟩
  rw [if_neg g8]
  by_cases g9 : t < lit F (14 / 16)
  · rw [if_pos g9]; exact ⟨_, .inr (.inr (.inr (.inr (.inr (.inr (.inr (.inr (.inr (.inl ⟨(k9).mp g9, not_lt.mp (mt (k8).mpr g8), rfl⟩))))))))), d9⟩
  rw [if_neg g9]
  by_cases g10 : t < lit F (15 / 16)
  · rw [if_pos g10]; exact ⟨_, .inr (.inr (.inr (.inr (.inr (.inr (.inr (.inr (.inr (.inr (.inl ⟨(k10).mp g10, not_lt.mp (mt (k9).mpr g9), rfl⟩)))))))))), d10⟩
  rw [if_neg g10]
  exact ⟨_, .inr (.inr (.inr (.inr (.inr (.inr (.inr (.inr (.inr (.inr (.inr ⟨h2', not_lt.mp (mt (k10).mpr g10), rfl⟩)))))))))), d11⟩

/-- With two or three fraction bits the thresholds are rounded, and a neighbouring entry may be chosen. -/
theorem bRaw_rough (hF2 : 2 ≤ F) (hF4 : F < 4) {t : ℤ} {r : ℝ} (hr : r ^ 2 = t * u F) (h1 : 2 ^ F ≤ 4 * t)
    (h2 : t < 2 ^ F) : ∃ b, Niirf.Region r b ∧ |(bRaw F t : ℝ) * u F - b| ≤ 3 / 2 * u F := by
  unfold Niirf.Region
  obtain rfl | rfl : F = 2 ∨ F = 3 := by omega
  · norm_num at h1 h2
    obtain rfl | rfl | rfl : t = 1 ∨ t = 2 ∨ t = 3 := by omega
    · refine ⟨0.961914, .inl ⟨by rw [hr]; unfold u; norm_num, by rw [hr]; unfold u; norm_num, rfl⟩, ?_⟩
      rw [show bRaw 2 1 = 3 by decide +kernel]; unfold u; rw [abs_le]; norm_num
    · refine ⟨0.691406, .inr (.inr (.inr (.inr (.inl ⟨by rw [hr]; unfold u; norm_num, by rw [hr]; unfold u; norm_num, rfl⟩)))), ?_⟩
      rw [show bRaw 2 2 = 2 by decide +kernel]; unfold u; rw [abs_le]; norm_num
    · refine ⟨0.573731, .inr (.inr (.inr (.inr (.inr (.inr (.inr (.inr (.inl ⟨by rw [hr]; unfold u; norm_num, by rw [hr]; unfold u; norm_num, rfl⟩)))))))), ?_⟩
      rw [show bRaw 2 3 = 2 by decide +kernel]; unfold u; rw [abs_le]; norm_num
  · norm_num at h1 h2
    obtain rfl | rfl | rfl | rfl | rfl | rfl : t = 2 ∨ t = 3 ∨ t = 4 ∨ t = 5 ∨ t = 6 ∨ t = 7 := by omega
    · refine ⟨0.961914, .inl ⟨by rw [hr]; unfold u; norm_num, by rw [hr]; unfold u; norm_num, rfl⟩, ?_⟩
      rw [show bRaw 3 2 = 7 by decide +kernel]; unfold u; rw [abs_le]; norm_num
    · refine ⟨0.782715, .inr (.inr (.inl ⟨by rw [hr]; unfold u; norm_num, by rw [hr]; unfold u; norm_num, rfl⟩)), ?_⟩
      rw [show bRaw 3 3 = 6 by decide +kernel]; unfold u; rw [abs_le]; norm_num
    · refine ⟨0.691406, .inr (.inr (.inr (.inr (.inl ⟨by rw [hr]; unfold u; norm_num, by rw [hr]; unfold u; norm_num, rfl⟩)))), ?_⟩
      rw [show bRaw 3 4 = 5 by decide +kernel]; unfold u; rw [abs_le]; norm_num
    · refine ⟨0.622070, .inr (.inr (.inr (.inr (.inr (.inr (.inl ⟨by rw [hr]; unfold u; norm_num, by rw [hr]; unfold u; norm_num, rfl⟩)))))), ?_⟩
      rw [show bRaw 3 5 = 5 by decide +kernel]; unfold u; rw [abs_le]; norm_num
    · refine ⟨0.573731, .inr (.inr (.inr (.inr (.inr (.inr (.inr (.inr (.inl ⟨by rw [hr]; unfold u; norm_num, by rw [hr]; unfold u; norm_num, rfl⟩)))))))), ?_⟩
      rw [show bRaw 3 6 = 4 by decide +kernel]; unfold u; rw [abs_le]; norm_num
    · refine ⟨0.516113, .inr (.inr (.inr (.inr (.inr (.inr (.inr (.inr (.inr (.inr (.inl ⟨by rw [hr]; unfold u; norm_num, by rw [hr]; unfold u; norm_num, rfl⟩)))))))))), ?_⟩
      rw [show bRaw 3 7 = 4 by decide +kernel]; unfold u; rw [abs_le]; norm_num

end Fixed
end MixedNum
