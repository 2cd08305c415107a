import Verif.Lemmas.Word
import Verif.Lemmas.Prog
import Verif.Lemmas.Counter
/-! The NIIRF square root on integers. -/

namespace MixedNum
namespace PInt
variable {m : Mode} {s : Bool} {W : ℕ}

theorem ite_pure {α : Type} {c : Prop} [Decidable c] {a : α} {p : Prog α} (h : ∃ b, p = pure b) :
    ∃ b, (if c then pure a else p) = pure b := by
  split
  · exact ⟨a, rfl⟩
  · exact h

theorem beta_pure (x : PInt m s W) : ∃ b, beta x = pure b := by
  unfold beta
  have e : ∀ q : ℚ, (Lit.ofF64 q : Prog (PInt m s W)) = pure ⟨Word.saturate (truncQ q)⟩ := fun _ => rfl
  simp only [e, pure_bind]
  iterate 11 refine ite_pure ?_
  exact ⟨_, rfl⟩

theorem f64_lit {q : ℚ} {n : ℤ} (hq : truncQ q = n) (h : Fits s W n) :
    ∃ c : PInt m s W, Lit.ofF64 q = pure c ∧ c.val = n := by
  refine ⟨⟨Word.saturate (truncQ q)⟩, rfl, ?_⟩
  show (Word.saturate (truncQ q) : Word s W).val = n
  rw [hq, Word.saturate, dif_pos h]

theorem i32_lit {n : ℤ} (h : Fits s W n) : ∃ c : PInt m s W, Lit.ofI32 n = pure c ∧ c.val = n :=
  ⟨⟨Word.wrap n⟩, rfl, wrapInt_of_fits h⟩

theorem fit_val {n : ℤ} (h : Fits s W n) : ∃ c : PInt m s W, fit n = pure c ∧ c.val = n := ⟨mkv n h, fit_of_fits h, rfl⟩

theorem div_fits {a b : PInt m s W} (hb : b.val ≠ 0) (h : Fits s W (a.val.tdiv b.val)) :
    ∃ c, NumOps.div a b = pure c ∧ c.val = a.val.tdiv b.val := by
  refine ⟨mkv _ h, ?_, rfl⟩
  rw [div_def, if_neg hb, dif_pos h]

theorem sq_zero {y : PInt m s W} (hy : y.val = 0) : ∃ c, MixedPowi.powi y 2 = pure c ∧ c.val = 0 := by
  obtain ⟨z, ez, vz⟩ := fit_val (m := m) (fits_zero s W)
  refine ⟨z, ?_, vz⟩
  show powi y (usizeOfI32 2) = _
  have e : usizeOfI32 2 = 2 := by decide
  rw [e, powi, if_neg (by norm_num), powiLoop]
  show (do let t ← NumOps.mul y y; powiLoop y 0 t) = _
  rw [mul_def, hy, mul_zero, ez]
  rfl

/-- On integers the result is zero, for every argument and iteration count. -/
theorem niirf_zero {cn : Counter} (hcn : cn.Upto W) (h4 : Fits s W 4) {x x' : PInt m s W} (hx : x.val ≠ 0)
    (ha : MixedAbs.abs x = pure x') (hx' : 0 < x'.val) (n : ℕ) : ∃ z, Returns (niirf cn x n) z ∧ z.val = 0 := by
  obtain ⟨q, eq, vq⟩ := f64_lit (m := m) (q := 1 / 4) (n := 0) (by decide +kernel) (fits_zero s W)
  obtain ⟨o, eo, vo⟩ := f64_lit (m := m) (q := 1) (n := 1) (by decide +kernel)
    ((fits_zero s W).between h4 (by norm_num) (by norm_num))
  obtain ⟨c, ec, vc⟩ := f64_lit (m := m) (q := f64Round 0.354167) (n := 0) (by decide +kernel) (fits_zero s W)
  obtain ⟨four, e4, v4⟩ := i32_lit (m := m) h4
  obtain ⟨three, e3, v3⟩ := i32_lit (m := m) (n := 3) ((fits_zero s W).between h4 (by norm_num) (by norm_num))
  obtain ⟨two, e2, v2⟩ := i32_lit (m := m) (n := 2) ((fits_zero s W).between h4 (by norm_num) (by norm_num))
  obtain ⟨z, ez, vz⟩ := fit_val (m := m) (fits_zero s W)
  -- normalisation
  obtain ⟨t, k, hn, ht, hkW⟩ : ∃ t : PInt m s W, ∃ k : ℤ, Returns (niirfNormalize cn x') (t, k) ∧ t.val = 0 ∧ |k| ≤ W := by
    unfold niirfNormalize
    obtain ⟨b, hb, ⟨k0, k1, k2, k3⟩, hc⟩ := whileLoop_total (σ := PInt m s W × ℤ)
      (c := fun s => do pure (MixedCmp.le (← Lit.ofF64 1) s.1))
      (b := fun s => do
        let k ← cn.fit (s.2 + 1)
        pure (← NumOps.div s.1 (← Lit.ofI32 4), k))
      (fun s => 0 ≤ s.1.val ∧ 0 ≤ s.2 ∧ s.1.val = x'.val / 4 ^ s.2.toNat ∧ (s.2 ≠ 0 → 4 ^ (s.2.toNat - 1) ≤ x'.val))
      (fun s => s.1.val.toNat) (by
        rintro ⟨a, k⟩ ⟨j0, j1, j2, -⟩
        simp only [eo, e4, pure_bind, le_def] at j0 j1 j2 ⊢
        by_cases h : o.val ≤ a.val
        · have e : a.val.tdiv 4 = a.val / 4 := Int.tdiv_eq_ediv_of_nonneg (by omega)
          obtain ⟨c, hc, vc⟩ := div_fits (a := a) (b := four) (by rw [v4]; norm_num)
            (by rw [v4, e]; exact (fits_zero s W).between a.fits (by omega) (by omega))
          rw [v4, e] at vc
          have hp : (0:ℤ) < 4 ^ k.toNat := by positivity
          have h4 : (4:ℤ) ^ k.toNat ≤ x'.val := by
            have := Int.ediv_mul_le x'.val hp.ne'
            rw [← j2] at this; nlinarith
          have hk : |k + 1| ≤ (W:ℤ) := by
            have := four_pow_lt h4 x'.fits.lt_two_pow
            rw [abs_le]; omega
          refine .inr ⟨by rw [decide_eq_true h], (c, k + 1), by rw [hcn _ hk, pure_bind, hc]; rfl, ?_, ?_⟩
          · simp only [vc]
            have e1 : (k + 1).toNat = k.toNat + 1 := by omega
            refine ⟨by omega, by omega, ?_, fun _ => by rwa [e1, Nat.add_sub_cancel]⟩
            rw [e1, pow_succ, j2, Int.ediv_ediv_of_nonneg (by positivity)]
          · simp only [vc]; omega
        · exact .inl (by rw [decide_eq_false h])) (x', 0) ⟨hx'.le, le_refl _, by simp, by simp⟩
    refine ⟨b.1, b.2, Returns.bind (whileLoop_done ?_) hb, ?_, ?_⟩
    · simp only [eq, pure_bind, lt_def]; rw [decide_eq_false (by omega)]
    · simp only [eo, pure_bind, le_def] at hc
      have := Prog.pure_inj hc
      simp only [decide_eq_false_iff_not, not_le] at this
      omega
    · rw [abs_of_nonneg k1]
      by_cases h : b.2 = 0
      · rw [h]; simp
      · have := four_pow_lt (k3 h) x'.fits.lt_two_pow
        omega
  have iter : ∀ (j : ℕ) (y : PInt m s W), y.val = 0 → ∃ w : PInt m s W, niirfIter t j y = pure w ∧ w.val = 0 := by
    intro j
    induction j with
    | zero => exact fun y hy => ⟨y, rfl, hy⟩
    | succ j ih =>
      intro y hy
      obtain ⟨b, eb⟩ := beta_pure t
      obtain ⟨p, ep, vp⟩ := sq_zero hy
      have q2 : NumOps.sub t p = pure z := by rw [sub_def, vp, ht]; exact ez
      have q3 : NumOps.mul b z = pure z := by rw [mul_def, vz, mul_zero]; exact ez
      have q4 : NumOps.add z y = pure z := by rw [add_def, vz, hy]; exact ez
      rw [niirfIter, eb, pure_bind, ep, pure_bind, q2, pure_bind, q3, pure_bind, q4, pure_bind]
      exact ih z vz
  obtain ⟨w, hw, vw⟩ := iter (n - 1) z vz
  have hden : ∃ v, Returns (niirfDenormalize cn w k) v ∧ v.val = 0 := by
    rw [denormalize_eq hcn w hkW]
    unfold denormalizeExact
    obtain ⟨a, ha, hi, -⟩ := whileLoop_total (σ := PInt m s W × ℤ)
      (c := fun s => pure (s.2.natAbs != 0))
      (b := fun s => do
        if 0 < s.2 then pure (← NumOps.mul s.1 (← Lit.ofI32 2), s.2 - 1)
        else if s.2 < 0 then pure (← NumOps.div s.1 (← Lit.ofI32 2), s.2 + 1)
        else pure s)
      (fun s => s.1.val = 0) (fun s => s.2.natAbs) (by
        rintro ⟨a, j⟩ h
        simp only [e2, pure_bind] at h ⊢
        rcases lt_trichotomy j 0 with hj | rfl | hj
        · obtain ⟨c, hc, vc⟩ := div_fits (a := a) (b := two) (by rw [v2]; norm_num)
            (by rw [v2, h]; exact fits_zero s W)
          refine .inr ⟨by congr 1; simp; omega, (c, j + 1), by rw [if_neg (by omega), if_pos hj, hc]; rfl, ?_,
            by simp only []; omega⟩
          simp only [vc, v2, h]; rfl
        · exact .inl rfl
        · refine .inr ⟨by congr 1; simp; omega, (z, j - 1), ?_, vz, by simp only []; omega⟩
          rw [if_pos hj, mul_def, h, zero_mul, ez]; rfl) (w, k) vw
    exact ⟨a.1, ha.bind (.of_eq rfl), hi⟩
  obtain ⟨v, hv, vv⟩ := hden
  refine ⟨v, ?_, vv⟩
  unfold niirf
  rw [if_neg (by rw [beq_def, zero_val, decide_eq_false hx]; exact Bool.false_ne_true), ha, pure_bind]
  refine hn.bind ?_
  have em : NumOps.mul two t = pure z := by rw [mul_def, ht, mul_zero]; exact ez
  obtain ⟨d, hd, vd⟩ := div_fits (a := z) (b := three) (by rw [v3]; norm_num) (by rw [v3, vz]; exact fits_zero s W)
  have vd : d.val = 0 := by rw [vd, vz, v3]; rfl
  have ea : NumOps.add d c = pure z := by rw [add_def, vd, vc]; exact ez
  simp only [e2, pure_bind, em, e3, hd, ec, ea, hw]
  exact hv

end PInt
end MixedNum
