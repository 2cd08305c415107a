import Verif.Props.SqrtRelease
/-! # C50 without overflow checks on the signed types with three integer bits, where the literal 4 wraps round to -4 -/

namespace MixedNum
variable {W F : ℕ}
open Fixed

namespace Fixed

theorem minus_four (hW : F + 3 = W) : ∃ f : Fixed .wrapping true W F, Lit.ofI32 4 = pure f ∧ f.val = -4 * 2 ^ F := by
  refine ⟨_, by rw [ofI32_def, fit_wrapping], ?_⟩
  show wrapInt true W (4 * 2 ^ F) = _
  have hP : (0:ℤ) < 2 ^ F := by positivity
  have e : (2:ℤ) ^ (W - 1) = 4 * 2 ^ F := by rw [show W - 1 = 2 + F by omega, pow_add]; norm_num
  refine eq_of_modEq_of_fits (s := true) (by omega) (fits_wrapInt ..) (by rw [fits_signed]; constructor <;> omega)
    ((wrapInt_modEq (by omega) _).trans ?_)
  refine Int.modEq_iff_dvd.mpr ⟨-1, ?_⟩
  rw [← hW, pow_add]
  ring

theorem div_minus_four (a f : Fixed .wrapping true W F) (hf : f.val = -4 * 2 ^ F) : NumOps.div a f = fit (-(a.val.tdiv 4)) := by
  have hP : (0:ℤ) < 2 ^ F := by positivity
  rw [div_def, hf, if_neg (by omega), Int.mul_tdiv_mul_of_pos_left _ _ hP, Int.tdiv_neg]

/-- Normalisation with the factor -4: two steps multiply by 16, and a number between 1 and 4 turns negative. -/
theorem normalize_minus_four {cn : Counter} (hcn : cn.Upto W) (hF : 2 ≤ F) (hW : F + 3 = W) {x : Fixed .wrapping true W F}
    (hx : 0 < x.val) : ∃ (t : Fixed .wrapping true W F) (i : ℕ), 2 * i < W ∧ 2 ^ F ≤ 4 * (x.val * 16 ^ i) ∧ x.val * 16 ^ i < 4 * 2 ^ F ∧
      ((x.val * 16 ^ i < 2 ^ F ∧ t.val = x.val * 16 ^ i ∧ Returns (niirfNormalize cn x) (t, -(2 * i : ℤ))) ∨
        (2 ^ F ≤ x.val * 16 ^ i ∧ t.val = -(x.val * 16 ^ i / 4) ∧ Returns (niirfNormalize cn x) (t, 1 - 2 * i))) := by
  have hP : (0:ℤ) < 2 ^ F := by positivity
  have hW1 : (2:ℤ) ^ (W - 1) = 4 * 2 ^ F := by rw [show W - 1 = 2 + F by omega, pow_add]; norm_num
  have ft (n : ℤ) (h : -(4 * 2 ^ F) ≤ n ∧ n < 4 * 2 ^ F) : Fits true W n := by rw [fits_signed, hW1]; omega
  have h1 : Fits true W (2 ^ F) := ft _ (by omega)
  obtain ⟨q, hq, vq⟩ := lit_eq (m := .wrapping) h1 (q := 1 / 4) (by norm_num) (by norm_num)
  obtain ⟨o, ho, vo⟩ := lit_eq (m := .wrapping) h1 (q := 1) (by norm_num) (by norm_num)
  obtain ⟨f, hf, vf⟩ := minus_four hW
  have lq := lit_quarter hF
  rw [← vq] at lq
  rw [lit_one] at vo
  have hx4 : x.val < 4 * 2 ^ F := by have := (fits_signed.mp x.fits).2; rwa [hW1] at this
  unfold niirfNormalize
  obtain ⟨a, ha, ⟨i0, i1, i2, i3, i4⟩, hc⟩ := whileLoop_total (σ := Fixed .wrapping true W F × ℤ)
    (c := fun s => do pure (MixedCmp.lt s.1 (← Lit.ofF64 (1/4))))
    (b := fun s => do
      let k ← cn.fit (s.2 - 1)
      pure (← NumOps.mul s.1 (← Lit.ofI32 4), k))
    (fun s => -2 ^ F < s.1.val ∧ s.1.val < 4 * 2 ^ F ∧ s.2 ≤ 0 ∧ s.1.val = x.val * (-4) ^ (-s.2).toNat ∧ 2 * (-s.2) < W)
    (fun s => (4 * 2 ^ F - |s.1.val|).toNat) (by
      rintro ⟨a, k⟩ ⟨j0, j1, j2, j3, j4⟩
      simp only [hq, hf, pure_bind, lt_def] at j0 j1 j2 j3 j4 ⊢
      by_cases h : a.val < q.val
      · have habs : |a.val| < 2 ^ F := by rw [abs_lt]; constructor <;> omega
        have ha' : |a.val| = x.val * 4 ^ (-k).toNat := by rw [j3, abs_mul, abs_pow, abs_of_pos hx]; norm_num
        have hpos : 0 < |a.val| := by rw [ha']; positivity
        obtain ⟨c, hc, vc⟩ := fit_val (m := .wrapping) (F := F) (ft (-4 * a.val) (by omega))
        have hk : 2 * (-(k - 1)) < (W:ℤ) := by
          have h4 : (4:ℤ) ^ (-k).toNat ≤ |a.val| := by
            rw [ha']
            have : (0:ℤ) < 4 ^ (-k).toNat := by positivity
            nlinarith
          have := four_pow_lt h4 habs
          omega
        refine .inr ⟨by rw [decide_eq_true h], (c, k - 1), by rw [hcn _ (by rw [abs_le]; omega), pure_bind, mul_lit a f vf, hc]; rfl, ?_, ?_⟩
        · simp only [vc]
          refine ⟨by omega, by omega, by omega, ?_, hk⟩
          rw [show (-(k - 1)).toNat = (-k).toNat + 1 by omega, pow_succ, j3]; ring
        · simp only [vc]
          rw [abs_mul, show |(-4:ℤ)| = 4 by norm_num]
          omega
      · exact .inl (by rw [decide_eq_false h])) (x, 0) ⟨by simp only []; omega, hx4, le_refl _, by simp, by simp only []; omega⟩
  have hge : q.val ≤ a.1.val := by
    simp only [hq, pure_bind, lt_def] at hc
    have := Prog.pure_inj hc
    simpa using this
  -- an even number of steps
  obtain ⟨i, hi⟩ : ∃ i : ℕ, a.2 = -(2 * i : ℤ) := by
    rcases Nat.even_or_odd' (-a.2).toNat with ⟨i, hi | hi⟩
    · exact ⟨i, by omega⟩
    · exfalso
      rw [hi, pow_succ, pow_mul] at i3
      have : (0:ℤ) < ((-4) ^ 2) ^ i := by positivity
      nlinarith
  have e16 : a.1.val = x.val * 16 ^ i := by
    rw [i3, hi, show (- -(2 * i : ℤ)).toNat = 2 * i by omega, pow_mul]; norm_num
  have hiW : 2 * i < W := by omega
  by_cases h : a.1.val < 2 ^ F
  · refine ⟨a.1, i, hiW, by omega, by omega, .inl ⟨by omega, e16, ha.bind ?_⟩⟩
    rw [show ((a.1, -(2 * i : ℤ)) : Fixed .wrapping true W F × ℤ) = a by rw [← hi]]
    refine whileLoop_done ?_
    simp only [ho, pure_bind, le_def]; rw [decide_eq_false (by omega)]
  · have e : a.1.val.tdiv 4 = a.1.val / 4 := Int.tdiv_eq_ediv_of_nonneg (by omega)
    obtain ⟨c, hc, vc⟩ := fit_val (m := .wrapping) (F := F) (ft (-(a.1.val.tdiv 4)) (by omega))
    refine ⟨c, i, hiW, by omega, by omega, .inr ⟨by omega, by rw [vc, e, e16], ha.bind ?_⟩⟩
    obtain ⟨b, hb, hbi, hcb⟩ := whileLoop_total (σ := Fixed .wrapping true W F × ℤ)
      (c := fun s => do pure (MixedCmp.le (← Lit.ofF64 1) s.1))
      (b := fun s => do
        let k ← cn.fit (s.2 + 1)
        pure (← NumOps.div s.1 (← Lit.ofI32 4), k))
      (fun s => s = a ∨ s = (c, 1 - 2 * (i:ℤ))) (fun s => if s = a then 1 else 0) (by
        rintro s (rfl | rfl)
        · have hne : (c, 1 - 2 * (i:ℤ)) ≠ s := fun h => by
            have := congrArg Prod.snd h
            simp only [] at this
            omega
          refine .inr ⟨?_, (c, 1 - 2 * (i:ℤ)), ?_, .inr rfl, ?_⟩
          · simp only [ho, pure_bind, le_def]; rw [decide_eq_true (by omega)]
          · simp only [hf, pure_bind]
            rw [hcn _ (by rw [abs_le]; omega), pure_bind, div_minus_four _ f vf, hc, pure_bind, hi]
            congr 2; ring
          · rw [if_neg hne, if_pos rfl]; norm_num
        · refine .inl ?_
          simp only [ho, pure_bind, le_def]; rw [decide_eq_false (by omega)]) a (.inl rfl)
    rcases hbi with rfl | rfl
    · exfalso
      simp only [ho, pure_bind, le_def] at hcb
      have := Prog.pure_inj hcb
      simp only [decide_eq_false_iff_not] at this
      omega
    · exact hb

/-- A literal of the table, in units of the last place. -/
theorem table_lit (F : ℕ) (q : ℚ) (hq : q ∈ [(0.961914 : ℚ), 0.840332, 0.782715, 0.734869, 0.691406, 0.654297, 0.622070, 0.595215,
      0.573731, 0.556152, 0.516113, 0.502930, 0.354167]) :
    |(lit F (f64Round q) : ℚ) - q * 2 ^ F| ≤ 1 / 2 + 2 ^ F / 10 ^ 15 := by
  have hP : (0:ℚ) < 2 ^ F := by positivity
  have h1 := abs_roundHalfEven_sub (f64Round q * 2 ^ F)
  have h2 := Niirf.f64_close q hq
  have h3 : |f64Round q * 2 ^ F - q * 2 ^ F| ≤ 2 ^ F / 10 ^ 15 := by
    rw [← sub_mul, abs_mul, abs_of_pos hP]
    have := mul_le_mul_of_nonneg_right h2 hP.le
    linarith
  have h4 : (lit F (f64Round q) : ℚ) - q * 2 ^ F =
    ((roundHalfEven (f64Round q * 2 ^ F) : ℚ) - f64Round q * 2 ^ F) + (f64Round q * 2 ^ F - q * 2 ^ F) := by unfold lit; ring
  rw [h4]
  exact (abs_add_le _ _).trans (add_le_add h1 h3)

/-- The ranges of one pass from a negative argument. -/
theorem negative_pass {P t g c y sq b cor : ℤ} (hP : 64 ≤ P) (h1 : -P < t) (h2 : 4 * t ≤ -P) (hg1 : 2 * t ≤ 3 * g) (hg2 : 3 * g ≤ 2 * t + 2)
    (hc1 : 34 * P ≤ 100 * c) (hc2 : 10000 * c ≤ 3542 * P + 5001) (hy : y = g + c) (hs1 : 0 ≤ sq) (hs2 : sq * P ≤ y * y)
    (hb1 : 95 * P ≤ 100 * b) (hb2 : b ≤ P) (hcor1 : cor * P ≤ b * (t - sq)) (hcor2 : b * (t - sq) < (cor + 1) * P) :
    5 * y ≤ 2 * P ∧ -(2 * P) ≤ 5 * y ∧ 25 * sq ≤ 4 * P ∧ cor < 0 ∧ -(2 * P) < cor ∧ cor + y < 0 ∧ -(2 * P) < cor + y := by
  have y1 : 5 * y ≤ 2 * P := by omega
  have y2 : -(2 * P) ≤ 5 * y := by omega
  have s1 : 25 * sq ≤ 4 * P := by
    by_contra hc
    nlinarith
  have d : 0 < -(t - sq) := by omega
  have c1 : 100 * cor ≤ 95 * (t - sq) := by
    by_contra hc
    nlinarith
  have c2 : t - sq ≤ cor + 1 := by
    by_contra hc
    nlinarith
  refine ⟨y1, y2, s1, ?_, ?_, ?_, ?_⟩ <;> omega

/-- `niirf` after normalisation, when the start value and the pass are known. -/
theorem niirf_of {cn : Counter} {x x' t : Fixed .wrapping true W F} {k : ℤ} (hx : x.val ≠ 0) (ha : MixedAbs.abs x = pure x')
    (hn : Returns (niirfNormalize cn x') (t, k)) {y p z : Fixed .wrapping true W F}
    (hs : (Lit.ofI32 2 >>= fun a => NumOps.mul a t >>= fun a => Lit.ofI32 3 >>= fun b => NumOps.div a b >>= fun a =>
      Lit.ofF64 (f64Round 0.354167) >>= fun b => NumOps.add a b) = (pure y : Prog (Fixed .wrapping true W F)))
    (hp : niirfIter t 1 y = pure p) (hz : Returns (niirfDenormalize cn p k) z) : Returns (niirf cn x 2) z := by
  have key : niirf cn x 2 = niirfNormalize cn x' >>= fun r =>
      (Lit.ofI32 2 >>= fun a => NumOps.mul a r.1 >>= fun a => Lit.ofI32 3 >>= fun b => NumOps.div a b >>= fun a =>
        Lit.ofF64 (f64Round 0.354167) >>= fun b => NumOps.add a b)
        >>= fun y => niirfIter r.1 1 y >>= fun y => niirfDenormalize cn y r.2 := by
    unfold niirf
    rw [if_neg (by rw [beq_def, zero_val, decide_eq_false hx]; exact Bool.false_ne_true), ha]
    simp only [pure_bind, bind_assoc, Nat.add_one_sub_one]
  rw [key]
  refine hn.bind ?_
  simp only []
  rw [hs, pure_bind, hp, pure_bind]
  exact hz

theorem tdiv_three (a : ℤ) (h : a ≤ 0) : a ≤ 3 * a.tdiv 3 ∧ 3 * a.tdiv 3 ≤ a + 2 := by
  have e : a.tdiv 3 = -(-a / 3) := by
    rw [← Int.tdiv_eq_ediv_of_nonneg (by omega), Int.neg_tdiv, neg_neg]
  rw [e]; omega

/-- The start value and the pass from a negative argument: the result is negative. -/
theorem pass_negative (hF : 6 ≤ F) (hW : F + 3 = W) {t : Fixed .wrapping true W F} (h1 : -2 ^ F < t.val) (h2 : 4 * t.val ≤ -2 ^ F) :
    ∃ y p : Fixed .wrapping true W F,
      (Lit.ofI32 2 >>= fun a => NumOps.mul a t >>= fun a => Lit.ofI32 3 >>= fun b => NumOps.div a b >>= fun a =>
        Lit.ofF64 (f64Round 0.354167) >>= fun b => NumOps.add a b) = (pure y : Prog (Fixed .wrapping true W F)) ∧
      niirfIter t 1 y = pure p ∧ p.val < 0 ∧ -(2 * 2 ^ F) < p.val := by
  have hP : (0:ℤ) < 2 ^ F := by positivity
  have hP64 : (64:ℤ) ≤ 2 ^ F := by
    calc (64:ℤ) = 2 ^ 6 := by norm_num
      _ ≤ _ := pow_le_pow_right₀ (by norm_num) hF
  have hW1 : (2:ℤ) ^ (W - 1) = 4 * 2 ^ F := by rw [show W - 1 = 2 + F by omega, pow_add]; norm_num
  have ft (n : ℤ) (h : -(4 * 2 ^ F) ≤ n ∧ n < 4 * 2 ^ F) : Fits true W n := by rw [fits_signed, hW1]; omega
  have f1 : Fits true W (2 ^ F) := ft _ (by omega)
  obtain ⟨two, e2, v2⟩ := int_lit (m := .wrapping) (ft (2 * 2 ^ F) (by omega))
  obtain ⟨three, e3, v3⟩ := int_lit (m := .wrapping) (ft (3 * 2 ^ F) (by omega))
  obtain ⟨c, ec, vc⟩ := lit_eq (m := .wrapping) f1 (f64_unit (Niirf.f64_close 0.354167 (by simp)) (by norm_num) (by norm_num)).1
    (f64_unit (Niirf.f64_close 0.354167 (by simp)) (by norm_num) (by norm_num)).2
  obtain ⟨b, eb, vb⟩ := beta_fixed f1 t
  have hb : bRaw F t.val = lit F (f64Round 0.961914) := by
    have := (lit_bounds F (q := 5 / 16) (by norm_num) (by norm_num)).1
    unfold bRaw
    rw [if_pos (by omega)]
  have hPq : (64:ℚ) ≤ 2 ^ F := by exact_mod_cast hP64
  have c1 : 34 * 2 ^ F ≤ 100 * c.val ∧ 10000 * c.val ≤ 3542 * 2 ^ F + 5001 := by
    have := abs_le.mp (table_lit F 0.354167 (by simp))
    rw [← vc] at this
    constructor
    · have : 34 * 2 ^ F ≤ 100 * (c.val : ℚ) := by norm_num at this; linarith
      exact_mod_cast this
    · have : 10000 * (c.val : ℚ) ≤ 3542 * 2 ^ F + 5001 := by norm_num at this; linarith
      exact_mod_cast this
  have b1 : 95 * 2 ^ F ≤ 100 * b.val ∧ b.val ≤ 2 ^ F := by
    refine ⟨?_, vb ▸ (bRaw_bounds F t.val).2⟩
    have := abs_le.mp (table_lit F 0.961914 (by simp))
    rw [← hb, ← vb] at this
    have : 95 * 2 ^ F ≤ 100 * (b.val : ℚ) := by norm_num at this; linarith
    exact_mod_cast this
  have g1 := tdiv_three (2 * t.val) (by omega)
  set g := (2 * t.val).tdiv 3 with hg
  set sq := (g + c.val) * (g + c.val) / 2 ^ F with hsq
  set cor := b.val * (t.val - sq) / 2 ^ F with hcor
  obtain ⟨r1, r2, r3, r4, r5, r6, r7⟩ := negative_pass (y := g + c.val) (sq := sq) (cor := cor) hP64 h1 h2 g1.1 g1.2 c1.1 c1.2 rfl
    (Int.ediv_nonneg (mul_self_nonneg _) hP.le) (Int.ediv_mul_le _ hP.ne') b1.1 b1.2 (Int.ediv_mul_le _ hP.ne')
    (Int.lt_ediv_add_one_mul_self _ hP)
  have sq0 : 0 ≤ sq := Int.ediv_nonneg (mul_self_nonneg _) hP.le
  obtain ⟨d, ed, vd⟩ := fit_val (m := .wrapping) (F := F) (ft (2 * t.val) (by omega))
  obtain ⟨gg, eg, vg⟩ := fit_val (m := .wrapping) (F := F) (ft g (by omega))
  obtain ⟨y, ey, vy⟩ := fit_val (m := .wrapping) (F := F) (ft (g + c.val) (by omega))
  obtain ⟨qq, eq, vq⟩ := fit_val (m := .wrapping) (F := F) (ft sq (by omega))
  obtain ⟨dd, edd, vdd⟩ := fit_val (m := .wrapping) (F := F) (ft (t.val - sq) (by omega))
  obtain ⟨cc, ecc, vcc⟩ := fit_val (m := .wrapping) (F := F) (ft cor (by omega))
  obtain ⟨p, ep, vp⟩ := fit_val (m := .wrapping) (F := F) (ft (cor + (g + c.val)) (by omega))
  refine ⟨y, p, ?_, ?_, by omega, by omega⟩
  · have em : NumOps.mul two t = fit (2 * t.val) := by
      rw [mul_def, v2, show 2 * 2 ^ F * t.val = 2 * t.val * 2 ^ F by ring, Int.mul_ediv_cancel _ hP.ne']
    rw [e2, pure_bind, em, ed, pure_bind, e3, pure_bind, div_lit d three (by norm_num) v3, vd, eg, pure_bind, ec,
      pure_bind, add_def, vg, ey]
  · have q1 : MixedPowi.powi y 2 = pure qq := by rw [sq_eq, vy]; exact eq
    have q2 : NumOps.sub t qq = pure dd := by rw [sub_def, vq]; exact edd
    have q3 : NumOps.mul b dd = pure cc := by rw [mul_def, vdd]; exact ecc
    have q4 : NumOps.add cc y = pure p := by rw [add_def, vcc, vy]; exact ep
    rw [niirfIter, eb, pure_bind, q1, pure_bind, q2, pure_bind, q3, pure_bind, q4, pure_bind]
    rfl

/-- Only one power of 16 takes a number between 1/4 and 4. -/
theorem scale_unique {n P : ℤ} (hn : 0 < n) {i j : ℕ} (h1 : P ≤ 4 * (n * 16 ^ i)) (h2 : n * 16 ^ i < 4 * P) (h3 : P ≤ 4 * (n * 16 ^ j))
    (h4 : n * 16 ^ j < 4 * P) : i = j := by
  rcases lt_trichotomy i j with h | h | h
  · exfalso
    obtain ⟨d, rfl⟩ := Nat.exists_eq_add_of_lt h
    have h5 : (1:ℤ) ≤ 16 ^ d := one_le_pow₀ (by norm_num)
    have h6 : (0:ℤ) < n * 16 ^ i := by positivity
    rw [pow_succ, pow_add] at h4
    nlinarith
  · exact h
  · exfalso
    obtain ⟨d, rfl⟩ := Nat.exists_eq_add_of_lt h
    have h5 : (1:ℤ) ≤ 16 ^ d := one_le_pow₀ (by norm_num)
    have h6 : (0:ℤ) < n * 16 ^ j := by positivity
    rw [pow_succ, pow_add] at h2
    nlinarith

end Fixed

theorem release_cases (hF : 6 ≤ F) (hW : F + 3 = W) (h128 : W ≤ 128) (x : Fixed .wrapping true W F) (hx : 0 < x.val) :
    ∃ z, Returns (MixedSqrt.sqrt x) z ∧ ∃ i : ℕ,
      (2 ^ F ≤ 4 * (x.val * 16 ^ i) ∧ x.val * 16 ^ i < 2 ^ F ∧ |(z.val : ℝ) / 2 ^ F - Real.sqrt (x.val / 2 ^ F)| ≤
        (1 / 1000 + 8 / 2 ^ F) * Real.sqrt (x.val / 2 ^ F) + 2.5 / 2 ^ F) ∨
      (2 ^ F ≤ x.val * 16 ^ i ∧ x.val * 16 ^ i < 4 * 2 ^ F ∧ z.val ≤ 0 ∧ (i = 0 → z.val < 0)) := by
  have hP : (0:ℤ) < 2 ^ F := by positivity
  have hcn := Counter.upto_width .wrapping h128
  obtain ⟨x', ha, va⟩ := abs_signed (x := x) (by rw [abs_of_pos hx]; exact x.fits)
  rw [abs_of_pos hx] at va
  obtain ⟨t, i, hi, a1, a2, h⟩ := normalize_minus_four hcn (by omega) hW (x := x') (by omega)
  rw [va] at a1 a2 h
  have f2 : Fits true W (2 * 2 ^ F) := fits_signed_of (K := 2) (by omega) (by norm_num) (by norm_num)
  rcases h with ⟨b1, b2, hn⟩ | ⟨b1, b2, hn⟩
  · obtain ⟨z, hz, hb⟩ := sqrt_normalised hcn (K := 2) (by omega) (by omega) le_rfl (by omega) hx.ne' ha hn (by omega)
      (by omega) (.inl ⟨by omega, by
        rw [b2, va, show (- -(2 * i : ℤ)).toNat = 2 * i by omega, pow_mul]; norm_num⟩) (by rw [abs_le]; omega)
    refine ⟨z, hz, i, .inl ⟨a1, b1, ?_⟩⟩
    rw [va] at hb
    simp only [div_pow_eq]
    have hu := u_pos F
    have hC : ulps F ≤ 3 := by unfold ulps; rw [if_neg (by omega)]; split_ifs <;> norm_num
    have hCu := mul_le_mul_of_nonneg_right hC hu.le
    have hX := Real.sqrt_nonneg (x.val * u F)
    refine hb.trans (add_le_add (mul_le_mul_of_nonneg_right ?_ hX) ?_) <;> norm_num <;> linarith
  · have h4 : (2:ℤ) ^ F = 4 * 2 ^ (F - 2) := by rw [show (4:ℤ) = 2 ^ 2 by norm_num, ← pow_add]; congr 1; omega
    obtain ⟨y, p, hs, hp, p0, p1⟩ := pass_negative hF hW (t := t) (by omega) (by omega)
    rcases Nat.eq_zero_or_pos i with hi0 | hi0
    · obtain ⟨z, hz, vz⟩ := denormalize_pos hcn f2 (y := p) (k := 1 - 2 * i) (by omega) (by rw [abs_le]; omega) (by
        have hW1 : (2:ℤ) ^ (W - 1) = 4 * 2 ^ F := by rw [show W - 1 = 2 + F by omega, pow_add]; norm_num
        rw [show (1 - 2 * (i:ℤ)).toNat = 1 by omega, fits_signed, hW1]; omega)
      rw [show (1 - 2 * (i:ℤ)).toNat = 1 by omega] at vz
      exact ⟨z, niirf_of hx.ne' ha hn hs hp hz, i, .inr ⟨b1, a2, by omega, fun _ => by omega⟩⟩
    · obtain ⟨z, hz, vz⟩ := denormalize_neg hcn f2 (y := p) (k := 1 - 2 * i) (by omega) (by rw [abs_le]; omega)
      refine ⟨z, niirf_of hx.ne' ha hn hs hp hz, i, .inr ⟨b1, a2, ?_, fun h => by omega⟩⟩
      have hp' : (p.val : ℝ) * 2 ^ (1 - 2 * (i:ℤ)) < 0 := mul_neg_of_neg_of_pos (by exact_mod_cast p0) (by positivity)
      have : (z.val : ℝ) < 1 := by have := (abs_le.mp vz).2; linarith
      have : z.val < 1 := by exact_mod_cast this
      omega

/-- C50 without overflow checks on the signed types with three integer bits: `mixed_sqrt` of a positive number returns. If a
power of 16 takes the number into [1/4, 1) the root is right, if it takes it into [1, 4) the result is zero or negative;
one of the two holds for every positive number. -/
theorem C50_release (hF : 6 ≤ F) (hW : F + 3 = W) (h128 : W ≤ 128) (x : Fixed .wrapping true W F) (hx : 0 < x.val) :
    ∃ z, Returns (MixedSqrt.sqrt x) z ∧
      (∀ i : ℕ, 2 ^ F ≤ 4 * (x.val * 16 ^ i) → x.val * 16 ^ i < 2 ^ F → |(z.val : ℝ) / 2 ^ F - Real.sqrt (x.val / 2 ^ F)| ≤
        (1 / 1000 + 8 / 2 ^ F) * Real.sqrt (x.val / 2 ^ F) + 2.5 / 2 ^ F) ∧
      (∀ i : ℕ, 2 ^ F ≤ x.val * 16 ^ i → x.val * 16 ^ i < 4 * 2 ^ F → z.val ≤ 0 ∧ (i = 0 → z.val < 0)) ∧
      ∃ i : ℕ, 2 ^ F ≤ 4 * (x.val * 16 ^ i) ∧ x.val * 16 ^ i < 4 * 2 ^ F := by
  obtain ⟨z, hz, i, h⟩ := release_cases hF hW h128 x hx
  have hP : (0:ℤ) < 2 ^ F := by positivity
  have hi : 2 ^ F ≤ 4 * (x.val * 16 ^ i) ∧ x.val * 16 ^ i < 4 * 2 ^ F := by rcases h with h | h <;> omega
  refine ⟨z, hz, fun j h1 h2 => ?_, fun j h1 h2 => ?_, i, hi⟩
  · obtain rfl := scale_unique hx hi.1 hi.2 h1 (by omega)
    rcases h with h | h
    · exact h.2.2
    · omega
  · obtain rfl := scale_unique hx hi.1 hi.2 (by omega) h2
    rcases h with h | h
    · omega
    · exact h.2.2

-- the root of 1 on a 3.29 bit type is negative, the root of 1/2 is right, and the root of 1/16 is zero or negative
example : ∃ z, Returns (MixedSqrt.sqrt (fx .wrapping true 32 29 (2 ^ 29))) z ∧ z.val < 0 := by
  obtain ⟨z, hz, -, h, -⟩ := C50_release (by norm_num) (by norm_num) (by norm_num) (fx .wrapping true 32 29 (2 ^ 29)) (by decide)
  exact ⟨z, hz, (h 0 (by decide) (by decide)).2 rfl⟩
example : ∃ z, Returns (MixedSqrt.sqrt (fx .wrapping true 32 29 (2 ^ 25))) z ∧ z.val ≤ 0 := by
  obtain ⟨z, hz, -, h, -⟩ := C50_release (by norm_num) (by norm_num) (by norm_num) (fx .wrapping true 32 29 (2 ^ 25)) (by decide)
  exact ⟨z, hz, (h 1 (by decide) (by decide)).1⟩
example : 2 ^ 29 ≤ 4 * ((fx .wrapping true 32 29 (2 ^ 28)).val * 16 ^ 0) ∧ (fx .wrapping true 32 29 (2 ^ 28)).val * 16 ^ 0 < 2 ^ 29 := by
  decide

end MixedNum
