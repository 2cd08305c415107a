import Verif.Lemmas.SqrtFixed
/-! The NIIRF square root with at most one fraction bit, where the literal 0.25 rounds to zero. -/

namespace MixedNum
namespace Fixed
variable {m : Mode} {s : Bool} {W F : ℕ}

theorem normalize_small {cn : Counter} (hcn : cn.Upto W) (hF : F ≤ 1) (h4 : Fits s W (4 * 2 ^ F)) {x : Fixed m s W F} (hx : 0 ≤ x.val) :
    ∃ t : Fixed m s W F, ∃ k : ℕ, Returns (niirfNormalize cn x) (t, (k:ℤ)) ∧ 0 ≤ t.val ∧ t.val < 2 ^ F ∧
      t.val = x.val / 4 ^ k ∧ (k ≠ 0 → 2 ^ F * 4 ^ (k - 1) ≤ x.val) ∧ |(k:ℤ)| ≤ W := by
  have hP : (0:ℤ) < 2 ^ F := by positivity
  have h1 : Fits s W (2 ^ F) := (fits_zero s W).between h4 hP.le (by linarith)
  obtain ⟨q, hq, vq⟩ := lit_eq (m := m) h1 (q := 1 / 4) (by norm_num) (by norm_num)
  obtain ⟨o, ho, vo⟩ := lit_eq (m := m) h1 (q := 1) (by norm_num) (by norm_num)
  obtain ⟨f, hf, vf⟩ := int_lit (m := m) h4
  have lq : lit F (1 / 4) = 0 := by
    obtain rfl | rfl : F = 0 ∨ F = 1 := by omega
    · decide +kernel
    · decide +kernel
  rw [lq] at vq
  rw [lit_one] at vo
  unfold niirfNormalize
  obtain ⟨b, hb, ⟨k0, k1, k2, k3⟩, hc'⟩ := whileLoop_total (σ := Fixed m s W F × ℤ)
    (c := fun s => do pure (MixedCmp.le (← Lit.ofF64 1) s.1))
    (b := fun s => do
      let k ← cn.fit (s.2 + 1)
      pure (← NumOps.div s.1 (← Lit.ofI32 4), k))
    (fun s => 0 ≤ s.1.val ∧ 0 ≤ s.2 ∧ s.1.val = x.val / 4 ^ s.2.toNat ∧ (s.2 ≠ 0 → 2 ^ F * 4 ^ (s.2.toNat - 1) ≤ x.val))
    (fun s => s.1.val.toNat) (by
      rintro ⟨a, k⟩ ⟨j0, j1, j2, -⟩
      simp only [ho, hf, pure_bind, le_def] at j0 j1 j2 ⊢
      by_cases h : o.val ≤ a.val
      · have e : a.val.tdiv 4 = a.val / 4 := Int.tdiv_eq_ediv_of_nonneg (by omega)
        obtain ⟨c, hc, vc⟩ := fit_val (m := m) (F := F) ((fits_zero s W).between a.fits (n := a.val.tdiv 4)
          (by omega) (by omega))
        rw [e] at vc
        have hk : |k + 1| ≤ (W:ℤ) := by
          have hp : (0:ℤ) < 4 ^ k.toNat := by positivity
          have h4 : (4:ℤ) ^ k.toNat ≤ x.val := by
            have := Int.ediv_mul_le x.val hp.ne'
            rw [← j2] at this; nlinarith
          have := four_pow_lt h4 (lt_two_pow x)
          rw [abs_le]; omega
        refine .inr ⟨by rw [decide_eq_true h], (c, k + 1), by rw [hcn _ hk, pure_bind, div_lit a f (by norm_num) vf, hc]; rfl, ?_, ?_⟩
        · simp only [vc]
          have e1 : (k + 1).toNat = k.toNat + 1 := by omega
          refine ⟨by omega, by omega, ?_, fun _ => ?_⟩
          · rw [e1, pow_succ, j2, Int.ediv_ediv_of_nonneg (by positivity)]
          · rw [e1, Nat.add_sub_cancel, ← Int.le_ediv_iff_mul_le (by positivity), ← j2, ← vo]; exact h
        · simp only [vc]; omega
      · exact .inl (by rw [decide_eq_false h])) (x, 0) ⟨hx, le_refl _, by simp, by simp⟩
  refine ⟨b.1, b.2.toNat, ?_, k0, ?_, k2, fun h => k3 (by omega), ?_⟩
  · rw [Int.toNat_of_nonneg k1]
    refine Returns.bind (whileLoop_done ?_) hb
    simp only [hq, pure_bind, lt_def]; rw [decide_eq_false (by omega)]
  · simp only [ho, pure_bind, le_def] at hc'
    have := Prog.pure_inj hc'
    simp only [decide_eq_false_iff_not, not_le] at this
    omega
  · rw [abs_of_nonneg (by positivity)]
    by_cases h : b.2 = 0
    · rw [h]; simp
    · have h5 : (4:ℤ) ^ (b.2.toNat - 1) ≤ x.val := by
        have := k3 h
        have hp : (0:ℤ) < 4 ^ (b.2.toNat - 1) := by positivity
        nlinarith
      have := four_pow_lt h5 (lt_two_pow x)
      omega

/-- With one fraction bit the result is a power of two. -/
theorem niirf_one_bit {cn : Counter} (hcn : cn.Upto W) (h4 : Fits s W (4 * 2 ^ 1)) {x x' : Fixed m s W 1} (hx : x.val ≠ 0)
    (ha : MixedAbs.abs x = pure x') (hx' : 0 < x'.val) :
    ∃ z, ∃ k : ℕ, Returns (niirf cn x 2) z ∧ z.val = 2 ^ k ∧ x'.val < 2 * 4 ^ k ∧ (k ≠ 0 → 2 * 4 ^ (k - 1) ≤ x'.val) := by
  obtain ⟨t, k, hn, h0, h1, ht, hk, hkW⟩ := normalize_small hcn (F := 1) (by norm_num) h4 hx'.le
  have h3 : Fits s W (3 * 2 ^ 1) := (fits_zero s W).between h4 (by norm_num) (by norm_num)
  have h2 : Fits s W (2 * 2 ^ 1) := (fits_zero s W).between h4 (by norm_num) (by norm_num)
  have hf1 : Fits s W 1 := (fits_zero s W).between h4 (by norm_num) (by norm_num)
  have pass : ∀ y : Fixed m s W 1, y.val = yRaw 1 t.val → ∃ z, niirfIter t 1 y = pure z ∧ z.val = 1 := by
    intro y hy
    have ht2 : t.val = 0 ∨ t.val = 1 := by omega
    have hs : sqRaw 1 t.val = 0 := by rcases ht2 with h | h <;> rw [h] <;> decide +kernel
    have hc : corRaw 1 t.val = 0 := by rcases ht2 with h | h <;> rw [h] <;> decide +kernel
    have hy1 : y1Raw 1 t.val = 1 := by rcases ht2 with h | h <;> rw [h] <;> decide +kernel
    have := pass_returns h2 h0 h1 hy (by rw [hs]; exact fits_zero s W)
      (by rw [hs, sub_zero]; exact t.fits) (by rw [hc]; exact fits_zero s W) (by rw [hy1]; exact hf1)
    rw [hy1] at this; exact this
  have hlt : x'.val < 2 * 4 ^ k := by
    have := Int.lt_ediv_add_one_mul_self x'.val (show (0:ℤ) < 4 ^ k by positivity)
    rw [← ht] at this
    have hp : (0:ℤ) < 4 ^ k := by positivity
    nlinarith
  have hle : (2:ℤ) ^ k ≤ x'.val := by
    rcases Nat.eq_zero_or_pos k with rfl | hp
    · rw [pow_zero]; omega
    · obtain ⟨j, rfl⟩ : ∃ j, k = j + 1 := ⟨k - 1, by omega⟩
      have := hk (by omega)
      rw [Nat.add_sub_cancel] at this
      have : (2:ℤ) ^ j ≤ 4 ^ j := pow_le_pow_left₀ (by norm_num) (by norm_num) j
      rw [pow_succ]; linarith
  obtain ⟨one, v1⟩ : ∃ p : Fixed m s W 1, p.val = 1 := ⟨mkv 1 hf1, rfl⟩
  obtain ⟨z, hz, vz⟩ := denormalize_pos hcn h2 (y := one) (k := k) (by positivity) hkW (by
    rw [v1, one_mul, Int.toNat_natCast]; exact (fits_zero s W).between x'.fits (by positivity) hle)
  rw [v1, one_mul, Int.toNat_natCast] at vz
  refine ⟨z, k, (niirf_split hx ha hn h3 h0 h1 (p := niirfDenormalize cn one k) fun y hy => ?_).1 z hz, vz, hlt, fun h => hk h⟩
  obtain ⟨z', hz', vz'⟩ := pass y hy
  rw [hz', pure_bind, show z' = one from Fixed.ext (vz'.trans v1.symm)]

/-- With no fraction bits the result is zero, for every iteration count. -/
theorem niirf_no_bits {cn : Counter} (hcn : cn.Upto W) (h4 : Fits s W (4 * 2 ^ 0)) {x x' : Fixed m s W 0} (hx : x.val ≠ 0)
    (ha : MixedAbs.abs x = pure x') (hx' : 0 < x'.val) (n : ℕ) : ∃ z, Returns (niirf cn x n) z ∧ z.val = 0 := by
  obtain ⟨t, k, hn, h0, h1, ht, hk, hkW⟩ := normalize_small hcn (F := 0) (by norm_num) h4 hx'.le
  have ht0 : t.val = 0 := by rw [pow_zero] at h1; omega
  have f1 : Fits s W (2 ^ 0) := (fits_zero s W).between h4 (by norm_num) (by norm_num)
  have f2 : Fits s W (2 * 2 ^ 0) := (fits_zero s W).between h4 (by norm_num) (by norm_num)
  have f3 : Fits s W (3 * 2 ^ 0) := (fits_zero s W).between h4 (by norm_num) (by norm_num)
  obtain ⟨two, e2, v2⟩ := int_lit (m := m) f2
  obtain ⟨three, e3, v3⟩ := int_lit (m := m) f3
  obtain ⟨c, ec, vc⟩ := lit_eq (m := m) f1 (f64_unit (Niirf.f64_close 0.354167 (by simp)) (by norm_num) (by norm_num)).1
    (f64_unit (Niirf.f64_close 0.354167 (by simp)) (by norm_num) (by norm_num)).2
  have vc : c.val = 0 := by rw [vc]; decide +kernel
  obtain ⟨z, ez, vz⟩ := fit_val (m := m) (F := 0) (fits_zero s W)
  have iter : ∀ (j : ℕ) (y : Fixed m s W 0), y.val = 0 → ∃ w : Fixed m s W 0, niirfIter t j y = pure w ∧ w.val = 0 := by
    intro j
    induction j with
    | zero => exact fun y hy => ⟨y, rfl, hy⟩
    | succ j ih =>
      intro y hy
      obtain ⟨b, eb, -⟩ := beta_fixed f1 t
      have q1 : MixedPowi.powi y 2 = pure z := by rw [sq_eq, hy]; exact ez
      have q2 : NumOps.sub t z = pure z := by rw [sub_def, vz, ht0]; exact ez
      have q3 : NumOps.mul b z = pure z := by rw [mul_def, vz, mul_zero]; exact ez
      have q4 : NumOps.add z y = pure z := by rw [add_def, vz, hy]; exact ez
      rw [niirfIter, eb, pure_bind, q1, pure_bind, q2, pure_bind, q3, pure_bind, q4, pure_bind]
      exact ih z vz
  obtain ⟨w, hw, vw⟩ := iter (n - 1) z vz
  obtain ⟨v, hv, vv⟩ := denormalize_pos hcn f2 (y := w) (k := k) (by positivity) hkW (by rw [vw, zero_mul]; exact fits_zero s W)
  refine ⟨v, ?_, by rw [vv, vw, zero_mul]⟩
  unfold niirf
  rw [if_neg (by rw [beq_def, zero_val, decide_eq_false hx]; exact Bool.false_ne_true), ha, pure_bind]
  refine hn.bind ?_
  have em : NumOps.mul two t = pure z := by rw [mul_def, ht0, mul_zero]; exact ez
  have ed : NumOps.div z three = pure z := by rw [div_lit z three (by norm_num) v3, vz]; exact ez
  have ea : NumOps.add z c = pure z := by rw [add_def, vz, vc]; exact ez
  simp only [e2, pure_bind, em, e3, ed, ec, ea, hw]
  exact hv

end Fixed
end MixedNum
