import Verif.Lemmas.AtanFloat
/-! The relative error of the polynomial arctangent. -/

namespace MixedNum

/-- Eight terms of the arctangent series are a lower bound. -/
theorem arctan_lower8 {t : ℝ} (ht : 0 ≤ t) :
    t - t ^ 3 / 3 + t ^ 5 / 5 - t ^ 7 / 7 + t ^ 9 / 9 - t ^ 11 / 11 + t ^ 13 / 13 - t ^ 15 / 15 ≤ Real.arctan t := by
  let f : ℝ → ℝ := fun t => Real.arctan t -
    (t - t ^ 3 / 3 + t ^ 5 / 5 - t ^ 7 / 7 + t ^ 9 / 9 - t ^ 11 / 11 + t ^ 13 / 13 - t ^ 15 / 15)
  have hf : ∀ t, HasDerivAt f (t ^ 16 / (1 + t ^ 2)) t := by
    intro t
    have h := (((((((hasDerivAt_id t).sub ((hasDerivAt_pow 3 t).div_const 3)).add ((hasDerivAt_pow 5 t).div_const 5)).sub
      ((hasDerivAt_pow 7 t).div_const 7)).add ((hasDerivAt_pow 9 t).div_const 9)).sub ((hasDerivAt_pow 11 t).div_const 11)).add
      ((hasDerivAt_pow 13 t).div_const 13)).sub ((hasDerivAt_pow 15 t).div_const 15)
    refine ((Real.hasDerivAt_arctan t).sub h).congr_deriv ?_
    have : 1 + t ^ 2 ≠ 0 := by positivity
    field_simp
    push_cast
    ring
  have hm : Monotone f := by
    refine monotone_of_deriv_nonneg (fun t => (hf t).differentiableAt) fun t => ?_
    rw [(hf t).deriv]; positivity
  have := hm ht
  simp only [f, Real.arctan_zero] at this
  norm_num at this
  linarith

/-- Seven terms of the arctangent series are an upper bound. -/
theorem arctan_upper7 {t : ℝ} (ht : 0 ≤ t) :
    Real.arctan t ≤ t - t ^ 3 / 3 + t ^ 5 / 5 - t ^ 7 / 7 + t ^ 9 / 9 - t ^ 11 / 11 + t ^ 13 / 13 := by
  let f : ℝ → ℝ := fun t => (t - t ^ 3 / 3 + t ^ 5 / 5 - t ^ 7 / 7 + t ^ 9 / 9 - t ^ 11 / 11 + t ^ 13 / 13) - Real.arctan t
  have hf : ∀ t, HasDerivAt f (t ^ 14 / (1 + t ^ 2)) t := by
    intro t
    have h := ((((((hasDerivAt_id t).sub ((hasDerivAt_pow 3 t).div_const 3)).add ((hasDerivAt_pow 5 t).div_const 5)).sub
      ((hasDerivAt_pow 7 t).div_const 7)).add ((hasDerivAt_pow 9 t).div_const 9)).sub ((hasDerivAt_pow 11 t).div_const 11)).add
      ((hasDerivAt_pow 13 t).div_const 13)
    refine (h.sub (Real.hasDerivAt_arctan t)).congr_deriv ?_
    have : 1 + t ^ 2 ≠ 0 := by positivity
    field_simp
    push_cast
    ring
  have hm : Monotone f := by
    refine monotone_of_deriv_nonneg (fun t => (hf t).differentiableAt) fun t => ?_
    rw [(hf t).deriv]; positivity
  have := hm ht
  simp only [f, Real.arctan_zero] at this
  norm_num at this
  linarith

/-- The polynomial that compares the two, with its least value near u = 0.357. -/
theorem ratan_poly {u : ℝ} (h0 : 0 ≤ u) (h1 : u ≤ 563 / 1000) :
    1 ≤ 10082 / 10000 * (1 - u / 3 + u ^ 2 / 5 - u ^ 3 / 7 + u ^ 4 / 9 - u ^ 5 / 11 + u ^ 6 / 13 - u ^ 7 / 15) *
      (1 + 9 / 32 * u) := by
  obtain ⟨v, rfl⟩ : ∃ v, u = 357 / 1000 + v := ⟨u - 357 / 1000, by ring⟩
  have key : 0 ≤ 14 / 10 ^ 6 - 25 / 10 ^ 5 * v + 3 / 100 * v ^ 2 := by nlinarith [sq_nonneg (v - 4 / 1000)]
  rcases le_total 0 v with hv | hv
  · have hv1 : v ≤ 206 / 1000 := by linarith
    have p2 : v ^ 2 ≤ 206 / 1000 * v := by nlinarith
    have p3 : v ^ 3 ≤ 206 / 1000 * v ^ 2 := by nlinarith [sq_nonneg v]
    have p4 : v ^ 4 ≤ (206 / 1000) ^ 2 * v ^ 2 := by nlinarith [sq_nonneg v]
    have p5 : v ^ 5 ≤ (206 / 1000) ^ 3 * v ^ 2 := by nlinarith [pow_nonneg hv 4]
    have p6 : v ^ 6 ≤ (206 / 1000) ^ 4 * v ^ 2 := by nlinarith [pow_nonneg hv 5]
    have p7 : v ^ 7 ≤ (206 / 1000) ^ 5 * v ^ 2 := by nlinarith [pow_nonneg hv 6]
    have p8 : v ^ 8 ≤ (206 / 1000) ^ 6 * v ^ 2 := by nlinarith [pow_nonneg hv 7]
    ring_nf at key p2 p3 p4 p5 p6 p7 p8 ⊢
    linarith [sq_nonneg v]
  · obtain ⟨w, rfl⟩ : ∃ w, v = -w := ⟨-v, by ring⟩
    have hw : 0 ≤ w := by linarith
    have hw1 : w ≤ 357 / 1000 := by linarith
    have p4 : w ^ 4 ≤ 357 / 1000 * w ^ 3 := by nlinarith [pow_nonneg hw 3]
    have p6 : w ^ 6 ≤ 357 / 1000 * w ^ 5 := by nlinarith [pow_nonneg hw 5]
    have p8 : w ^ 8 ≤ 357 / 1000 * w ^ 7 := by nlinarith [pow_nonneg hw 7]
    have q3 := pow_nonneg hw 3
    have q5 := pow_nonneg hw 5
    have q7 := pow_nonneg hw 7
    ring_nf at key p4 p6 p8 ⊢
    linarith [sq_nonneg w]

/-- The rational function is within 0.82 % of the arctangent. -/
theorem abs_ratanErr_rel {t : ℝ} (h : |t| ≤ 1) : |ratan t - Real.arctan t| ≤ 82 / 10000 * |Real.arctan t| := by
  have key : ∀ t : ℝ, 0 ≤ t → t ≤ 1 → |ratanErr t| ≤ 82 / 10000 * Real.arctan t := by
    intro t h0 h1
    have hd := ratan_den_pos t
    rcases le_total t (3 / 4) with hc | hc
    · have hu : ratan t ≤ 10082 / 10000 * Real.arctan t := by
        have l := arctan_lower8 h0
        have p := mul_le_mul_of_nonneg_left (ratan_poly (u := t ^ 2) (by positivity) (by nlinarith)) h0
        unfold ratan
        rw [div_le_iff₀ hd]
        refine le_trans ?_ (mul_le_mul_of_nonneg_right (mul_le_mul_of_nonneg_left l (by norm_num)) hd.le)
        refine (mul_one t).symm.le.trans (p.trans (le_of_eq ?_))
        ring
      have hl : 0 ≤ ratanErr t := by
        rcases le_total t ratanTop with hm | hm
        · have := ratanErr_mono ⟨le_rfl, ratanTop_pos.le⟩ ⟨h0, hm⟩ h0
          rwa [ratanErr_zero] at this
        · have a := ratanErr_anti (Set.mem_Ici.mpr hm) (Set.mem_Ici.mpr (hm.trans hc)) hc
          have b := arctan_upper7 (t := 3 / 4) (by norm_num)
          refine le_trans ?_ a
          unfold ratanErr ratan
          norm_num at b ⊢
          linarith
      rw [abs_of_nonneg hl]; unfold ratanErr; linarith
    · have h2 := abs_ratanErr (t := t) (by rw [abs_of_nonneg h0]; exact h1)
      have h3 := arctan_lower8 (t := 3 / 4) (by norm_num)
      have h4 := Real.arctan_mono hc
      have h5 := Real.pi_lt_d4
      norm_num at h3 h5
      linarith
  change |ratanErr t| ≤ _
  rcases le_total 0 t with h0 | h0
  · rw [abs_of_nonneg (Real.arctan_nonneg.mpr h0)]
    exact key t h0 ((le_abs_self t).trans h)
  · have := key (-t) (by linarith) ((neg_le_abs t).trans h)
    rw [ratanErr_neg, abs_neg, Real.arctan_neg] at this
    have h1 : Real.arctan t ≤ 0 := by have := Real.arctan_mono h0; rwa [Real.arctan_zero] at this
    rw [abs_of_nonpos h1]; exact this
/-- At t = 3/5 it is off by more than 0.81 %. -/
theorem ratanErr_rel_sharp : 81 / 10000 * Real.arctan (3 / 5) < ratan (3 / 5) - Real.arctan (3 / 5) := by
  have b := arctan_upper7 (t := 3 / 5) (by norm_num)
  unfold ratan
  norm_num at b ⊢
  linarith

namespace Flt
variable {f : Format}

/-- The quotient of a product that does not underflow and the denominator. -/
theorem quot_rel (hf : f.Wide) {x y : Flt f} {a b : ℚ} (hT : Scale f (a * a)) (hx : Is x a) (hy : Is y b)
    (h : |(b:ℝ)| ≤ |(a:ℝ)|) (hn : (2:ℚ) ^ (f.emin + f.p - 1) ≤ |a * b|) :
    ∃ q, Is ((x.mul y).div ((x.mul x).add ((ofExact false (9 / 32 : ℚ)).mul (y.mul y)))) q ∧
      |(q:ℝ) - ratan (b / a)| ≤ 7 * eta f * |ratan ((b:ℝ) / a)| + 2 ^ f.emin / 2 := by
  have hT0 := hT.pos
  have ha : (a:ℝ) ≠ 0 := fun e => by rw [e] at hT0; simp at hT0
  have hbb : (b:ℝ) * b ≤ a * a := by rw [← abs_mul_abs_self (a:ℝ), ← abs_mul_abs_self (b:ℝ)]; exact mul_self_le_mul_self (abs_nonneg _) h
  have hab : |(a:ℝ) * b| ≤ a * a := by
    rw [abs_mul, ← abs_mul_abs_self (a:ℝ)]; exact mul_le_mul_of_nonneg_left h (abs_nonneg _)
  have hb0 := mul_self_nonneg (b:ℝ)
  have he := eta_pos (f := f); have hel := eta_le hf
  have s1 := hx.mul_sc hf hT hx (by rw [abs_of_pos hT0])
  have s2 := hy.mul_sc hf hT hy (by rw [abs_of_nonneg hb0]; exact hbb)
  have s3 : Sc ((ofExact false (9 / 32 : ℚ)).mul (y.mul y)) (9 / 32 * ((b:ℝ) * b)) (1204 / 1000) (a * a) := by
    obtain ⟨q, hq, e⟩ := s2
    obtain ⟨h1, h2⟩ := round_scale hf (q := 9 / 32 * q) (A := 9 / 32 * ((b:ℝ) * b)) (c := 27 / 64) (U := 9 / 32)
      (M := 782 / 1000) hT (by
        push_cast
        rw [← mul_sub, abs_mul, abs_of_pos (by norm_num : (0:ℝ) < 9 / 32)]; linarith)
      (by rw [abs_of_nonneg (by positivity)]; linarith) (by norm_num) (by norm_num)
    exact ⟨_, (lit_coef hf).mul hf.one_le hq h1, h2.trans (mul_le_mul_of_nonneg_right (by norm_num) (by positivity))⟩
  have s4 := s1.add hf hT s3 (U := 41 / 32) (M := 1782 / 1000) (by rw [abs_of_nonneg (by positivity)]; linarith)
    (by norm_num) (by norm_num)
  obtain ⟨dq, hdq, ed⟩ := s4
  have hnq : Is (x.mul y) (rnd f.p f.emin (a * b)) := by
    refine hx.mul hf.one_le hy ?_
    exact (round_scale hf (q := a * b) (A := a * b) (c := 0) (U := 1) (M := 3 / 2) hT (by push_cast; simp)
      (by linarith) (by norm_num) (by norm_num)).1
  have en : |((rnd f.p f.emin (a * b) : ℚ) : ℝ) - a * b| ≤ |(a:ℝ) * b| * eta f := by
    have := cast_abs_le (abs_rnd_rel hn)
    push_cast at this; exact this
  set nq := rnd f.p f.emin (a * b)
  set D : ℝ := a * a + 9 / 32 * (b * b) with hD
  have hDT : (a:ℝ) * a ≤ D := by rw [hD]; linarith
  have hsm : eta f * (a * a) ≤ 6 / 10 ^ 8 * (a * a) := mul_le_mul_of_nonneg_right hel hT0.le
  have hsD : eta f * (a * a) ≤ eta f * D := mul_le_mul_of_nonneg_left hDT he.le
  have hd1 : 999 / 1000 * D ≤ dq := by
    have := (abs_le.mp ed).1
    norm_num at hsm this ⊢; linarith
  have hD0 : 0 < D := by linarith
  have hd0 : (0:ℝ) < dq := by linarith
  have hr := ratan_le ha h
  have eR : (b:ℝ) * a / D = ratan (b / a) := by
    rw [hD]; unfold ratan
    have : (a:ℝ) * a + 9 / 32 * (b * b) ≠ 0 := by linarith
    field_simp
  have hdq0 : dq ≠ 0 := by rintro rfl; simp at hd0
  set R := ratan ((b:ℝ) / a)
  have eab : (a:ℝ) * b = R * D := by rw [← eR]; field_simp
  have hq : |((nq / dq : ℚ):ℝ) - R| ≤ 55 / 10 * eta f * |R| := by
    push_cast
    have : (nq:ℝ) / dq - R = ((nq - a * b) - R * (dq - D)) / dq := by
      rw [eab]; field_simp; ring
    rw [this, abs_div, abs_of_pos hd0, div_le_iff₀ hd0]
    have t1 : |R * (dq - D)| ≤ |R| * ((3 / 2 + 1204 / 1000 + 1782 / 1000) * (eta f * D)) := by
      rw [abs_mul]
      exact mul_le_mul_of_nonneg_left (ed.trans (mul_le_mul_of_nonneg_left hsD (by norm_num))) (abs_nonneg _)
    rw [eab, abs_mul R D, abs_of_pos hD0] at en
    have t0 : 0 ≤ eta f * |R| := by positivity
    have t2 := mul_le_mul_of_nonneg_left hd1 t0
    have t3 : 0 ≤ eta f * |R| * D := by positivity
    refine (abs_sub _ _).trans ?_
    rw [eab] at *
    nlinarith
  have hRl : |R| ≤ 32 / 41 := by rw [← eR]; exact hr
  have hR0 := abs_nonneg R
  have hq2 : |((nq / dq : ℚ):ℝ)| ≤ 101 / 100 * |R| := by
    have h1 := abs_sub_abs_le_abs_sub (((nq / dq : ℚ):ℝ)) R
    have h2 : 55 / 10 * eta f * |R| ≤ 1 / 100 * |R| := mul_le_mul_of_nonneg_right (by norm_num at hel ⊢; linarith) hR0
    linarith
  have hfin : |rnd f.p f.emin (nq / dq)| < 2 ^ f.emax := by
    refine abs_rnd_lt hf.one_le (e := 0) ?_ (by have := hf.emin; have := hf.p; omega) (by have := hf.emax; omega)
    rw [← Rat.cast_le (K := ℝ), Rat.cast_abs, zpow_zero, Rat.cast_one]; linarith
  refine ⟨_, hnq.div hf.one_le hdq hdq0 hfin, ?_⟩
  have h1 := cast_abs_le (abs_rnd_le (p := f.p) (emin := f.emin) (nq / dq))
  have h2 := mul_le_mul_of_nonneg_right hq2 he.le
  have h3 := abs_sub_le (((rnd f.p f.emin (nq / dq) : ℚ) : ℝ)) ((nq / dq : ℚ):ℝ) R
  have h4 : |((rnd f.p f.emin (nq / dq) : ℚ) : ℝ) - ((nq / dq : ℚ):ℝ)| ≤ |((nq / dq : ℚ):ℝ)| * eta f + 2 ^ f.emin / 2 := by
    have := h1; push_cast at this ⊢; exact this
  have h5 : 0 ≤ eta f * |R| := by positivity
  nlinarith

end Flt
end MixedNum
