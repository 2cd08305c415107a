import Verif.Lemmas.FloatSqrt
/-! The NIIRF square root on floats: the loops, which are exact, and the whole routine. -/

namespace MixedNum

/-- Scaling a large enough number of the format by a power of two is exact. -/
theorem Rep.scale {p : ℕ} {emin : ℤ} {q : ℚ} (h : Rep p emin q) {e j : ℤ} (hq : (2:ℚ) ^ e ≤ q) (he : emin ≤ e - p + 1 + j) :
    Rep p emin (q * 2 ^ j) := by
  have hq0 : 0 < q := (two_zpow_pos e).trans_le hq
  obtain ⟨k, hk⟩ := h.units hq0
  have hl := le_ilog2 hq0 hq
  have hu := two_zpow_pos (ulpExp p emin q)
  refine ⟨k, ulpExp p emin q + j, ?_, ?_, ?_⟩
  · unfold ulpExp; omega
  · have hk0 : 0 < (k:ℚ) := by
      by_contra hc
      have := mul_nonpos_of_nonpos_of_nonneg (not_lt.mp hc) hu.le
      linarith
    have h2 := (ilog2_spec hq0).2
    have h3 : (2:ℚ) ^ (ilog2 q + 1) ≤ 2 ^ (p:ℤ) * 2 ^ ulpExp p emin q := by
      rw [← two_zpow_add]; refine two_zpow_le ?_; unfold ulpExp; omega
    have h4 : (k:ℚ) < 2 ^ (p:ℤ) := by
      have : (k:ℚ) * 2 ^ ulpExp p emin q < 2 ^ (p:ℤ) * 2 ^ ulpExp p emin q := by rw [← hk]; exact h2.trans_le h3
      exact lt_of_mul_lt_mul_right this hu.le
    rw [zpow_natCast] at h4
    have h5 : k < 2 ^ p := by exact_mod_cast h4
    have h6 : 0 < k := by exact_mod_cast hk0
    rwa [abs_of_pos h6]
  · rw [two_zpow_add, ← mul_assoc, ← hk]

theorem Rep.ge_emin {p : ℕ} {emin : ℤ} {q : ℚ} (h : Rep p emin q) (hq : 0 < q) : (2:ℚ) ^ emin ≤ q := by
  obtain ⟨k, hk⟩ := h.units_emin
  have hu := two_zpow_pos emin
  have hk0 : 0 < (k:ℚ) := by
    by_contra hc
    have := mul_nonpos_of_nonpos_of_nonneg (not_lt.mp hc) hu.le
    linarith
  have h1 : (1:ℚ) ≤ k := by exact_mod_cast (show 0 < k by exact_mod_cast hk0)
  rw [hk]; exact le_mul_of_one_le_left hu.le h1

namespace Flt
open Niirf
variable {f : Format}

theorem lit_small (hf : f.Wide) {n : ℤ} (h0 : 0 ≤ n) (h : n ≤ 4) : Is (ofExact false (n:ℚ) : Flt f) n := by
  have := lit_sixteenth (f := f) hf (n := 16 * n) (by omega) (by omega)
  rwa [show ((16 * n : ℤ) : ℚ) / 16 = n by push_cast; ring] at this

/-- The exponent that relates two positive floats is small. -/
theorem counter_bound (hf : f.Wide) {x y : Flt f} {X a : ℚ} (hx : Is x X) (hy : Is y a) (hX : 0 < X) (ha : 0 < a) {k : ℤ}
    (e : X = a * 4 ^ k) : |k| ≤ 2 ^ 30 := by
  have h4k : (4:ℚ) ^ k = 2 ^ (2 * k) := by rw [show (4:ℚ) = 2 ^ (2:ℤ) by norm_num, ← zpow_mul]
  have l1 := hx.rep.ge_emin hX
  have l2 := hy.rep.ge_emin ha
  have g1 := hx.lt_max
  have g2 := hy.lt_max
  rw [abs_of_pos hX] at g1
  rw [abs_of_pos ha] at g2
  rw [← zpow_natCast] at g1 g2
  have h1 := hf.emin_ge; have h2 := hf.emax_le
  have hp := two_zpow_pos (2 * k)
  rw [e, h4k] at l1 g1
  have b1 : f.emin < f.emax + 2 * k := by
    refine lt_of_two_zpow_lt (l1.trans_lt ?_)
    rw [two_zpow_add]; exact mul_lt_mul_of_pos_right g2 hp
  have b2 : f.emin + 2 * k < f.emax := by
    refine lt_of_two_zpow_lt (lt_of_le_of_lt ?_ g1)
    rw [two_zpow_add]; exact mul_le_mul_of_nonneg_right l2 hp.le
  rw [abs_le]; omega

/-- Normalisation is exact and ends for every positive finite float. -/
theorem normalize_flt {cn : Counter} (hcn : cn.Upto (2 ^ 30 + 1)) (hf : f.Wide) {x : Flt f} {X : ℚ} (hx : Is x X) (hX : 0 < X) :
    ∃ t tq k, Returns (niirfNormalize cn x) (t, k) ∧ Is t tq ∧ 1 / 4 ≤ tq ∧ tq < 1 ∧ X = tq * 4 ^ k ∧
      |k| ≤ 2 ^ 30 + 1 := by
  unfold niirfNormalize
  have hp := hf.one_le
  have hmin := hf.emin; have hmax := hf.emax; have hp24 := hf.p
  have h4 : (4:ℚ) ≠ 0 := by norm_num
  have l4 : Is (ofExact false ((4:ℤ):ℚ) : Flt f) 4 := by simpa using lit_small (f := f) hf (n := 4) (by norm_num) (by norm_num)
  have lq : Is (ofExact false (1/4) : Flt f) (1/4) := by
    have := lit_sixteenth (f := f) hf (n := 4) (by norm_num) (by norm_num); norm_num at this ⊢; exact this
  have l1 : Is (ofExact false 1 : Flt f) 1 := by simpa using lit_small (f := f) hf (n := 1) (by norm_num) (by norm_num)
  have big : (4:ℚ) < 2 ^ f.emax := by
    calc (4:ℚ) = 2 ^ 2 := by norm_num
      _ < _ := pow_lt_pow_right₀ (by norm_num) (by omega)
  obtain ⟨s, hs, ⟨a, ha, i1, i2⟩, hc⟩ := whileLoop_total (σ := Flt f × ℤ)
    (c := fun s => do pure (MixedCmp.lt s.1 (← Lit.ofF64 (1/4))))
    (b := fun s => do
      let k ← cn.fit (s.2 - 1)
      pure (← NumOps.mul s.1 (← Lit.ofI32 4), k))
    (fun s => ∃ a, Is s.1 a ∧ 0 < a ∧ X = a * 4 ^ s.2) (fun s => ⌊1 / s.1.val⌋₊) (by
      rintro ⟨y, k⟩ ⟨a, ha, h1, h2⟩
      simp only at ha h2
      by_cases h : a < 1 / 4
      · have hr : Rep f.p f.emin (a * 4) := by
          have := ha.rep.two_mul.two_mul; rwa [show a * 4 = 2 * (2 * a) by ring]
        have hm : Is (y.mul (ofExact false ((4:ℤ):ℚ))) (a * 4) := by
          have := ha.mul hp l4 (by rw [rnd_rep hr, abs_of_pos (by positivity)]; linarith)
          rwa [rnd_rep hr] at this
        have hk := abs_le.mp (counter_bound hf hx ha hX h1 h2)
        refine .inr ⟨?_, (y.mul (ofExact false ((4:ℤ):ℚ)), k - 1), by rw [hcn _ (abs_le.mpr (by simp only []; omega))]; rfl, ⟨a * 4, hm, by positivity, ?_⟩, ?_⟩
        · show (pure (y.lt (ofExact false (1/4))) : Prog Bool) = pure true; rw [ha.lt lq, decide_eq_true h]
        · simp only; rw [h2, zpow_sub_one₀ h4]; field_simp
        · simp only [hm.val, ha.val]
          have h5 : 4 < 1 / a := by rw [lt_div_iff₀ h1]; linarith
          have h6 := Nat.lt_floor_add_one (1 / a)
          rw [Nat.floor_lt (by positivity)]
          have : 1 / (a * 4) = 1 / a / 4 := by field_simp
          rw [this]; linarith
      · refine .inl ?_
        show (pure (y.lt (ofExact false (1/4))) : Prog Bool) = pure false; rw [ha.lt lq, decide_eq_false h]) (x, 0) ⟨X, hx, hX, by simp⟩
  have hs1 : 1 / 4 ≤ a := by
    have : pure (s.1.lt (ofExact false (1/4))) = (pure false : Prog Bool) := hc
    have := Prog.pure_inj this
    rw [ha.lt lq] at this
    simpa using this
  obtain ⟨s', hs', ⟨a', ha', j1, j2⟩, hc'⟩ := whileLoop_total (σ := Flt f × ℤ)
    (c := fun s => do pure (MixedCmp.le (← Lit.ofF64 1) s.1))
    (b := fun s => do
      let k ← cn.fit (s.2 + 1)
      pure (← NumOps.div s.1 (← Lit.ofI32 4), k))
    (fun s => ∃ a, Is s.1 a ∧ 1 / 4 ≤ a ∧ X = a * 4 ^ s.2) (fun s => ⌊s.1.val⌋₊) (by
      rintro ⟨y, k⟩ ⟨a, ha, h1, h2⟩
      simp only at ha h2
      by_cases h : 1 ≤ a
      · have hr : Rep f.p f.emin (a / 4) := by
          have := ha.rep.scale (e := 0) (j := -2) (by simpa using h) (by omega)
          rwa [show a * 2 ^ (-2:ℤ) = a / 4 by norm_num [div_eq_mul_inv]] at this
        have hb : |a / 4| < 2 ^ f.emax := by
          have := ha.lt_max
          rw [abs_of_pos (by linarith)] at this
          rw [abs_of_pos (by linarith)]; linarith
        have hm : Is (y.div (ofExact false ((4:ℤ):ℚ))) (a / 4) := by
          have := ha.div hp l4 h4 (by rwa [rnd_rep hr])
          rwa [rnd_rep hr] at this
        have hk := abs_le.mp (counter_bound hf hx ha hX (by linarith) h2)
        refine .inr ⟨?_, (y.div (ofExact false ((4:ℤ):ℚ)), k + 1), by rw [hcn _ (abs_le.mpr (by simp only []; omega))]; rfl, ⟨a / 4, hm, by linarith, ?_⟩, ?_⟩
        · show (pure (MixedCmp.le (ofExact false 1) y) : Prog Bool) = pure true; rw [l1.le ha, decide_eq_true h]
        · simp only; rw [h2, zpow_add_one₀ h4]; field_simp
        · simp only [hm.val, ha.val]
          have h6 := Nat.lt_floor_add_one a
          have h7 : 1 ≤ ⌊a⌋₊ := (Nat.one_le_floor_iff a).mpr h
          have h8 : (1:ℚ) ≤ ⌊a⌋₊ := by exact_mod_cast h7
          rw [Nat.floor_lt (by positivity)]; linarith
      · refine .inl ?_
        show (pure (MixedCmp.le (ofExact false 1) y) : Prog Bool) = pure false; rw [l1.le ha, decide_eq_false h]) s ⟨a, ha, hs1, i2⟩
  refine ⟨s'.1, a', s'.2, hs.bind hs', ha', j1, ?_, j2, (counter_bound hf hx ha' hX (by linarith) j2).trans (by norm_num)⟩
  have : pure (MixedCmp.le (ofExact false 1) s'.1) = (pure false : Prog Bool) := hc'
  have := Prog.pure_inj this
  rw [l1.le ha'] at this
  simpa using this

/-- Denormalisation is exact when the result is in the normal range. -/
theorem denormalize_flt {cn : Counter} {B : ℤ} (hcn : cn.Upto B) (hf : f.Wide) {y : Flt f} {yq : ℚ} (hy : Is y yq) {k : ℤ} (hk : |k| ≤ B)
    (h1 : (2:ℚ) ^ (f.emin + f.p) ≤ yq * 2 ^ k) (h2 : yq * 2 ^ k < 2 ^ f.emax) : ∃ z, Returns (niirfDenormalize cn y k) z ∧ Is z (yq * 2 ^ k) := by
  rw [denormalize_eq hcn y hk]
  unfold denormalizeExact
  have hp := hf.one_le
  have h0 : 0 < yq * 2 ^ k := (two_zpow_pos _).trans_le h1
  have hz : (2:ℚ) ≠ 0 := by norm_num
  have l2 : Is (ofExact false ((2:ℤ):ℚ) : Flt f) 2 := by simpa using lit_small (f := f) hf (n := 2) (by norm_num) (by norm_num)
  obtain ⟨s, hs, ⟨a, ha, hi⟩, hc⟩ := whileLoop_total (σ := Flt f × ℤ)
    (c := fun s => pure (s.2.natAbs != 0))
    (b := fun s => do
      if 0 < s.2 then pure (← NumOps.mul s.1 (← Lit.ofI32 2), s.2 - 1)
      else if s.2 < 0 then pure (← NumOps.div s.1 (← Lit.ofI32 2), s.2 + 1)
      else pure s)
    (fun s => ∃ a, Is s.1 a ∧ a * 2 ^ s.2 = yq * 2 ^ k) (fun s => s.2.natAbs) (by
      rintro ⟨z, j⟩ ⟨a, ha, h⟩
      simp only at ha h
      have hj0 := two_zpow_pos j
      have ha0 : 0 < a := by
        by_contra hc
        have := mul_nonpos_of_nonpos_of_nonneg (not_lt.mp hc) hj0.le
        linarith
      rcases lt_trichotomy j 0 with hj | rfl | hj
      · have hlow : (2:ℚ) ^ (f.emin + f.p + 1) ≤ a := by
          have e : a = yq * 2 ^ k * 2 ^ (-j) := by rw [← h, mul_assoc, ← two_zpow_add]; simp
          rw [e, two_zpow_add]
          exact mul_le_mul h1 (two_zpow_le (by omega)) (two_zpow_pos _).le h0.le
        have hr : Rep f.p f.emin (a / 2) := by
          have := ha.rep.scale (j := -1) hlow (by omega)
          rwa [show a * 2 ^ (-1:ℤ) = a / 2 by norm_num [div_eq_mul_inv]] at this
        have hb : |a / 2| < 2 ^ f.emax := by
          have := ha.lt_max
          rw [abs_of_pos ha0] at this
          rw [abs_of_pos (by linarith)]; linarith
        have hm : Is (z.div (ofExact false ((2:ℤ):ℚ))) (a / 2) := by
          have := ha.div hp l2 hz (by rwa [rnd_rep hr])
          rwa [rnd_rep hr] at this
        refine .inr ⟨?_, (z.div (ofExact false ((2:ℤ):ℚ)), j + 1), ?_, ⟨a / 2, hm, ?_⟩, ?_⟩
        · congr 1; simp; omega
        · rw [if_neg (by omega), if_pos hj]; rfl
        · simp only []; rw [← h, zpow_add_one₀ hz]; field_simp
        · simp only []; omega
      · exact .inl rfl
      · have hr : Rep f.p f.emin (a * 2) := by rw [mul_comm]; exact ha.rep.two_mul
        have hb : |a * 2| < 2 ^ f.emax := by
          rw [abs_of_pos (by linarith)]
          refine lt_of_le_of_lt ?_ h2
          rw [← h]
          refine mul_le_mul_of_nonneg_left ?_ ha0.le
          calc (2:ℚ) = 2 ^ (1:ℤ) := by norm_num
            _ ≤ _ := two_zpow_le (by omega)
        have hm : Is (z.mul (ofExact false ((2:ℤ):ℚ))) (a * 2) := by
          have := ha.mul hp l2 (by rwa [rnd_rep hr])
          rwa [rnd_rep hr] at this
        refine .inr ⟨?_, (z.mul (ofExact false ((2:ℤ):ℚ)), j - 1), ?_, ⟨a * 2, hm, ?_⟩, ?_⟩
        · congr 1; simp; omega
        · rw [if_pos hj]; rfl
        · simp only []; rw [← h, zpow_sub_one₀ hz]; field_simp
        · simp only []; omega) (y, k) ⟨yq, hy, rfl⟩
  have hs0 : s.2 = 0 := by
    have := Prog.pure_inj hc
    simpa using this
  rw [hs0, zpow_zero, mul_one] at hi
  exact ⟨s.1, hs.bind (.of_eq rfl), hi ▸ ha⟩

/-- The routine on a finite non-zero float, split into its three steps: the argument is `tq·4^k`, the starting value and the passes
of the iteration give `z` from `t` alone, and the result is `z·2^k`. -/
theorem niirf_flt_parts {cn : Counter} (hcn : cn.Upto (2 ^ 30 + 1)) (hf : f.Wide) {x : Flt f} {v : ℚ} (hx : Is x v) (hv : v ≠ 0) (n : ℕ) :
    ∃ (t : Flt f) (tq : ℚ) (k : ℤ) (z : Flt f) (zq : ℚ) (w : Flt f), Is t tq ∧ 1 / 4 ≤ tq ∧ tq < 1 ∧ |v| = tq * 4 ^ k ∧
      (do let a ← NumOps.mul (← Lit.ofI32 2) t
          let y ← NumOps.add (← NumOps.div a (← Lit.ofI32 3)) (← Lit.ofF64 (f64Round 0.354167))
          niirfIter t (n - 1) y : Prog (Flt f)) = pure z ∧
      Is z zq ∧ Returns (niirf cn x n) w ∧ Is w (zq * 2 ^ k) ∧
      |(zq:ℝ) - Real.sqrt tq| ≤ 42 / 1000 * Real.sqrt tq ∧
      (2 ≤ n → |(zq:ℝ) - Real.sqrt tq| ≤ (995 / 1000000 / 10 ^ (n - 2) + 1 / 1000000) * Real.sqrt tq) := by
  have hX : 0 < |v| := abs_pos.mpr hv
  obtain ⟨t, tq, k, hn, ht, h1, h2, e, hkB⟩ := normalize_flt hcn hf hx.abs hX
  have h2' : (tq:ℝ) < 1 := by exact_mod_cast h2
  have h1' : (1/4:ℝ) ≤ tq := by have := (Rat.cast_le (K := ℝ)).mpr h1; push_cast at this; linarith
  set r := Real.sqrt tq with hrdef
  have hr : r ^ 2 = tq := Real.sq_sqrt (by linarith)
  have hr0 : 0 ≤ r := Real.sqrt_nonneg _
  have hrl : 1 / 2 ≤ r := by nlinarith
  have hru : r ≤ 1 := by nlinarith
  obtain ⟨y, yq, hy, hyq, hyb⟩ := start_flt hf ht hr h1 h2
  obtain ⟨z, zq, hz, hzq, hzb, hzc⟩ := est_flt hf ht hr h1 h2 hrl hru (n - 1) hyq hyb
  have hz1 := abs_le.mp hzb
  have zl : (1/4:ℚ) ≤ zq := by
    have : (((1/4:ℚ)):ℝ) ≤ zq := by push_cast; linarith
    exact_mod_cast this
  have zu : zq ≤ 2 := by
    have : (zq:ℝ) ≤ ((2:ℚ):ℝ) := by push_cast; linarith
    exact_mod_cast this
  -- the exponent
  have h4k : (4:ℚ) ^ k = 2 ^ (2 * k) := by rw [show (4:ℚ) = 2 ^ (2:ℤ) by norm_num, ← zpow_mul]
  have hlo : f.emin < 2 * k := by
    refine lt_of_two_zpow_lt ((hx.abs.rep.ge_emin hX).trans_lt ?_)
    rw [e, h4k]; exact mul_lt_of_lt_one_left (two_zpow_pos _) h2
  have hhi : 2 * k < f.emax + 2 := by
    refine lt_of_two_zpow_lt ?_
    have hm : tq * 2 ^ (2 * k) < 2 ^ (f.emax:ℤ) := by rw [zpow_natCast, ← h4k, ← e]; exact hx.lt_max
    have := mul_le_mul_of_nonneg_right h1 (two_zpow_pos (2 * k)).le
    rw [two_zpow_add, show (2:ℚ) ^ (2:ℤ) = 4 by norm_num]; linarith
  have hemin := hf.emin; have hemax := hf.emax; have hp := hf.p
  have hk0 := two_zpow_pos k
  obtain ⟨w, hw, hwq⟩ := denormalize_flt hcn hf hzq (k := k) hkB (by
      calc (2:ℚ) ^ (f.emin + f.p) ≤ 2 ^ (-2 + k) := two_zpow_le (by omega)
        _ = 1 / 4 * 2 ^ k := by rw [two_zpow_add]; norm_num
        _ ≤ _ := mul_le_mul_of_nonneg_right zl hk0.le) (by
      calc zq * 2 ^ k ≤ 2 ^ (1:ℤ) * 2 ^ k := mul_le_mul_of_nonneg_right (by simpa using zu) hk0.le
        _ = 2 ^ (1 + k) := (two_zpow_add _ _).symm
        _ < 2 ^ (f.emax:ℤ) := two_zpow_lt (by omega)
        _ = _ := zpow_natCast _ _)
  refine ⟨t, tq, k, z, zq, w, ht, h1, h2, e, ?_, hzq, ?_, hwq, by linarith, ?_⟩
  · have := congrArg (· >>= niirfIter t (n - 1)) hy
    simpa only [bind_assoc, pure_bind, hz] using this
  · unfold niirf
    have hb : MixedCmp.beq x (MixedZero.zero : Flt f) = false := by
      show x.beq (.fin false 0) = _
      rw [hx.beq is_zero, decide_eq_false hv]
    rw [hb, if_neg Bool.false_ne_true]
    show Returns (do let x_ ← pure x.abs; _) w
    rw [pure_bind]
    refine hn.bind ?_
    have hy' := congrArg (fun p : Prog (Flt f) => do
      let y ← p
      let y ← niirfIter t (n - 1) y
      niirfDenormalize cn y k) hy
    simp only [bind_assoc, pure_bind, hz] at hy'
    simp only []
    exact hy' ▸ hw
  · intro hn2
    refine (hzc (by omega)).trans ?_
    rw [show n - 1 - 1 = n - 2 by omega, show 995 / 1000000 * r / 10 ^ (n - 2) = 995 / 1000000 / 10 ^ (n - 2) * r by ring]
    linarith

/-- The routine on a finite non-zero float. -/
theorem niirf_flt {cn : Counter} (hcn : cn.Upto (2 ^ 30 + 1)) (hf : f.Wide) {x : Flt f} {v : ℚ} (hx : Is x v) (hv : v ≠ 0) (n : ℕ) :
    ∃ z zq, Returns (niirf cn x n) z ∧ Is z zq ∧
      |(zq:ℝ) - Real.sqrt (|(v:ℝ)|)| ≤ 42 / 1000 * Real.sqrt (|(v:ℝ)|) ∧
      (2 ≤ n → |(zq:ℝ) - Real.sqrt (|(v:ℝ)|)| ≤ (995 / 1000000 / 10 ^ (n - 2) + 1 / 1000000) * Real.sqrt (|(v:ℝ)|)) := by
  obtain ⟨t, tq, k, z, zq, w, ht, h1, h2, e, -, hz, hw, hwq, b1, b2⟩ := niirf_flt_parts hcn hf hx hv n
  have h1' : (0:ℝ) ≤ tq := by exact_mod_cast (by linarith : (0:ℚ) ≤ tq)
  have eR : |(v:ℝ)| = tq * 4 ^ k := by have := congrArg (fun q : ℚ => (q:ℝ)) e; push_cast at this; exact this
  have hS : Real.sqrt (|(v:ℝ)|) = Real.sqrt tq * 2 ^ k := by
    rw [eR, Real.sqrt_mul h1', show (4:ℝ) ^ k = (2 ^ k) ^ 2 by rw [show (4:ℝ) = 2 * 2 by norm_num, mul_zpow, sq],
      Real.sqrt_sq (by positivity)]
  have hk : (0:ℝ) < 2 ^ k := by positivity
  refine ⟨w, _, hw, hwq, ?_, fun h => ?_⟩ <;>
  · push_cast
    rw [hS, ← sub_mul, abs_mul, abs_of_pos hk, ← mul_assoc]
    exact mul_le_mul_of_nonneg_right (by first | exact b1 | exact b2 h) hk.le

end Flt
end MixedNum
