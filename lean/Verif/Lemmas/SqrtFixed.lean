import Verif.Lemmas.SqrtTable
import Verif.Lemmas.Prog
/-! The NIIRF square root on fixed point: stored integers of the two loops and of the pass between them. -/

namespace MixedNum
namespace Fixed
variable {m : Mode} {s : Bool} {W F : ℕ}

theorem int_lit {n : ℤ} (h : Fits s W (n * 2 ^ F)) : ∃ c : Fixed m s W F, Lit.ofI32 n = pure c ∧ c.val = n * 2 ^ F :=
  ⟨mkv _ h, fit_of_fits h, rfl⟩

theorem mul_lit (a c : Fixed m s W F) {n : ℤ} (hc : c.val = n * 2 ^ F) : NumOps.mul a c = fit (n * a.val) := by
  have hP : (2:ℤ) ^ F ≠ 0 := by positivity
  rw [mul_def, hc, show a.val * (n * 2 ^ F) = n * a.val * 2 ^ F by ring, Int.mul_ediv_cancel _ hP]

theorem div_lit (a c : Fixed m s W F) {n : ℤ} (hn : 0 < n) (hc : c.val = n * 2 ^ F) :
    NumOps.div a c = fit (a.val.tdiv n) := by
  have hP : (0:ℤ) < 2 ^ F := by positivity
  rw [div_def, hc, if_neg (by positivity), Int.mul_tdiv_mul_of_pos_left _ _ hP]

theorem sq_eq (x : Fixed m s W F) : MixedPowi.powi x 2 = fit (x.val * x.val / 2 ^ F) := by
  show powi x (usizeOfI32 2) = _
  have e : usizeOfI32 2 = 2 := by decide
  rw [e, powi, if_neg (by norm_num), powiLoop]
  show (do let t ← NumOps.mul x x; powiLoop x 0 t) = _
  rw [mul_def]
  simp only [powiLoop, bind_pure]

theorem fit_val {n : ℤ} (h : Fits s W n) : ∃ c : Fixed m s W F, fit n = pure c ∧ c.val = n :=
  ⟨mkv n h, fit_of_fits h, rfl⟩

theorem lit_one (F : ℕ) : lit F 1 = 2 ^ F := by
  unfold lit
  rw [show (1 * 2 ^ F : ℚ) = ((2 ^ F : ℤ) : ℚ) by push_cast; ring, roundHalfEven_intCast]

theorem lit_quarter (hF : 2 ≤ F) : 4 * lit F (1 / 4) = 2 ^ F := by
  obtain ⟨G, rfl⟩ : ∃ G, F = G + 2 := ⟨F - 2, by omega⟩
  unfold lit
  rw [show (1 / 4 * 2 ^ (G + 2) : ℚ) = ((2 ^ G : ℤ) : ℚ) by push_cast; rw [pow_add]; ring, roundHalfEven_intCast, pow_add]
  ring

/-! ### Normalisation -/

theorem lt_two_pow (x : Fixed m s W F) : x.val < 2 ^ W := x.fits.lt_two_pow

theorem frac_lt (h : Fits s W (2 ^ F)) : F < W := by
  have h := h.2
  unfold whi at h
  have : (2:ℤ) ^ (W - 1) ≤ 2 ^ W := pow_le_pow_right₀ (by norm_num) (by omega)
  have h : (2:ℤ) ^ F < 2 ^ W := by split at h <;> omega
  exact (pow_lt_pow_iff_right₀ (by norm_num)).mp h

/-- Relation between the stored argument `n`, its normalised form `t` and the exponent `k`. -/
def Normal (n t : ℤ) (k : ℤ) : Prop :=
  (k ≤ 0 ∧ t = n * 4 ^ (-k).toNat) ∨ (0 ≤ k ∧ t = n / 4 ^ k.toNat)

theorem normalize_fixed {cn : Counter} (hcn : cn.Upto W) (hF : 2 ≤ F) (h4 : Fits s W (4 * 2 ^ F)) {x : Fixed m s W F} (hx : 0 < x.val) :
    ∃ t : Fixed m s W F, ∃ k : ℤ, Returns (niirfNormalize cn x) (t, k) ∧ 2 ^ F ≤ 4 * t.val ∧ t.val < 2 ^ F ∧
      Normal x.val t.val k ∧ |k| ≤ W := by
  have hP : (0:ℤ) < 2 ^ F := by positivity
  have h1 : Fits s W (2 ^ F) := (fits_zero s W).between h4 hP.le (by linarith)
  have hFW := frac_lt h1
  obtain ⟨q, hq, vq⟩ := lit_eq (m := m) h1 (q := 1 / 4) (by norm_num) (by norm_num)
  obtain ⟨o, ho, vo⟩ := lit_eq (m := m) h1 (q := 1) (by norm_num) (by norm_num)
  obtain ⟨f, hf, vf⟩ := int_lit (m := m) h4
  have lq := lit_quarter hF
  rw [← vq] at lq
  rw [lit_one] at vo
  unfold niirfNormalize
  obtain ⟨a, ha, ⟨i0, i1, i2, i3⟩, hc⟩ := whileLoop_total (σ := Fixed m s W F × ℤ)
    (c := fun s => do pure (MixedCmp.lt s.1 (← Lit.ofF64 (1/4))))
    (b := fun s => do
      let k ← cn.fit (s.2 - 1)
      pure (← NumOps.mul s.1 (← Lit.ofI32 4), k))
    (fun s => 0 < s.1.val ∧ s.2 ≤ 0 ∧ s.1.val = x.val * 4 ^ (-s.2).toNat ∧ (s.2 = 0 ∨ s.1.val < 2 ^ F))
    (fun s => (2 ^ F - s.1.val).toNat) (by
      rintro ⟨a, k⟩ ⟨j0, j1, j2, j3⟩
      simp only [hq, hf, pure_bind, lt_def] at j0 j1 j2 j3 ⊢
      by_cases h : a.val < q.val
      · obtain ⟨c, hc, vc⟩ := fit_val (m := m) (F := F) ((fits_zero s W).between h1 (n := 4 * a.val) (by omega) (by omega))
        have hk : |k - 1| ≤ (W:ℤ) := by
          have h4 : (4:ℤ) ^ ((-k).toNat + 1) ≤ 4 * a.val := by
            rw [j2, pow_succ]
            have : (0:ℤ) < 4 ^ (-k).toNat := by positivity
            nlinarith
          have := four_pow_lt h4 (show 4 * a.val < 2 ^ F by omega)
          rw [abs_le]; omega
        refine .inr ⟨by rw [decide_eq_true h], (c, k - 1), by rw [hcn _ hk, pure_bind, mul_lit a f vf, hc]; rfl, ?_, ?_⟩
        · simp only [vc]
          refine ⟨by omega, by omega, ?_, .inr (by omega)⟩
          rw [show (-(k - 1)).toNat = (-k).toNat + 1 by omega, pow_succ, j2]; ring
        · simp only [vc]; omega
      · exact .inl (by rw [decide_eq_false h])) (x, 0) ⟨hx, le_refl _, by simp, .inl rfl⟩
  have hge : q.val ≤ a.1.val := by
    simp only [hq, pure_bind, lt_def] at hc
    have := Prog.pure_inj hc
    simpa using this
  obtain ⟨b, hb, ⟨k0, k1⟩, hc'⟩ := whileLoop_total (σ := Fixed m s W F × ℤ)
    (c := fun s => do pure (MixedCmp.le (← Lit.ofF64 1) s.1))
    (b := fun s => do
      let k ← cn.fit (s.2 + 1)
      pure (← NumOps.div s.1 (← Lit.ofI32 4), k))
    (fun s => 2 ^ F ≤ 4 * s.1.val ∧ ((s.2 ≤ 0 ∧ s.1.val = x.val * 4 ^ (-s.2).toNat ∧ s.1.val < 2 ^ F) ∨
      (0 ≤ s.2 ∧ s.1.val = x.val / 4 ^ s.2.toNat)))
    (fun s => s.1.val.toNat) (by
      rintro ⟨a, k⟩ ⟨j0, j1⟩
      simp only [ho, hf, pure_bind, le_def] at j0 j1 ⊢
      by_cases h : o.val ≤ a.val
      · have e : a.val.tdiv 4 = a.val / 4 := Int.tdiv_eq_ediv_of_nonneg (by omega)
        obtain ⟨c, hc, vc⟩ := fit_val (m := m) (F := F) ((fits_zero s W).between a.fits (n := a.val.tdiv 4)
          (by omega) (by omega))
        rw [e] at vc
        have hk : |k + 1| ≤ (W:ℤ) := by
          rcases j1 with j1 | ⟨j1, j2⟩
          · omega
          · have hp : (0:ℤ) < 4 ^ k.toNat := by positivity
            have h4 : (4:ℤ) ^ k.toNat ≤ x.val := by
              have := Int.ediv_mul_le x.val hp.ne'
              rw [← j2] at this; nlinarith
            have := four_pow_lt h4 (lt_two_pow x)
            rw [abs_le]; omega
        refine .inr ⟨by rw [decide_eq_true h], (c, k + 1), by rw [hcn _ hk, pure_bind, div_lit a f (by norm_num) vf, hc]; rfl, ?_, ?_⟩
        · simp only [vc]
          refine ⟨by omega, .inr ?_⟩
          rcases j1 with j1 | ⟨j1, j2⟩
          · omega
          · refine ⟨by omega, ?_⟩
            rw [show (k + 1).toNat = k.toNat + 1 by omega, pow_succ, j2, Int.ediv_ediv_of_nonneg (by positivity)]
        · simp only [vc]; omega
      · exact .inl (by rw [decide_eq_false h])) a ⟨by omega, by
        rcases i3 with i3 | i3
        · right; rw [i3]; exact ⟨le_refl _, by rw [i2, i3]; simp⟩
        · left; exact ⟨i1, i2, i3⟩⟩
  refine ⟨b.1, b.2, ha.bind hb, k0, ?_, ?_, ?_⟩
  · simp only [ho, pure_bind, le_def] at hc'
    have := Prog.pure_inj hc'
    simp only [decide_eq_false_iff_not, not_le] at this
    omega
  · rcases k1 with ⟨a1, a2, -⟩ | ⟨a1, a2⟩
    · exact .inl ⟨a1, a2⟩
    · exact .inr ⟨a1, a2⟩
  · rcases k1 with ⟨a1, a2, a3⟩ | ⟨a1, a2⟩
    · have hp : (0:ℤ) < 4 ^ (-b.2).toNat := by positivity
      have := four_pow_lt (show (4:ℤ) ^ (-b.2).toNat ≤ b.1.val by rw [a2]; nlinarith) a3
      rw [abs_le]; omega
    · have hp : (0:ℤ) < 4 ^ b.2.toNat := by positivity
      have h4 : (4:ℤ) ^ b.2.toNat ≤ x.val := by
        have := Int.ediv_mul_le x.val hp.ne'
        rw [← a2] at this
        have : 1 ≤ b.1.val := by omega
        nlinarith
      have := four_pow_lt h4 (lt_two_pow x)
      rw [abs_le]; omega

/-- A normalised argument is left alone; the literal 4 is not needed. -/
theorem normalize_done (cn : Counter) (hF : 2 ≤ F) (h1 : Fits s W (2 ^ F)) {x : Fixed m s W F} (hl : 2 ^ F ≤ 4 * x.val)
    (hg : x.val < 2 ^ F) : Returns (niirfNormalize cn x) (x, 0) := by
  obtain ⟨q, hq, vq⟩ := lit_eq (m := m) h1 (q := 1 / 4) (by norm_num) (by norm_num)
  obtain ⟨o, ho, vo⟩ := lit_eq (m := m) h1 (q := 1) (by norm_num) (by norm_num)
  have lq := lit_quarter hF
  rw [← vq] at lq
  rw [lit_one] at vo
  unfold niirfNormalize
  refine Returns.bind (whileLoop_done ?_) (whileLoop_done ?_)
  · simp only [hq, pure_bind, lt_def]; rw [decide_eq_false (by omega)]
  · simp only [ho, pure_bind, le_def]; rw [decide_eq_false (by omega)]

/-! ### The pass -/

/-- Stored integer of the start value. -/
def yRaw (F : ℕ) (t : ℤ) : ℤ := 2 * t / 3 + lit F (f64Round 0.354167)
/-- Stored integer of the square of the start value. -/
def sqRaw (F : ℕ) (t : ℤ) : ℤ := yRaw F t * yRaw F t / 2 ^ F
/-- Stored integer of the correction. -/
def corRaw (F : ℕ) (t : ℤ) : ℤ := bRaw F t * (t - sqRaw F t) / 2 ^ F
/-- Stored integer after one pass. -/
def y1Raw (F : ℕ) (t : ℤ) : ℤ := corRaw F t + yRaw F t

theorem yRaw_bounds {t : ℤ} (h0 : 0 ≤ t) (h1 : t < 2 ^ F) : 0 ≤ yRaw F t ∧ yRaw F t ≤ 2 * 2 ^ F ∧ 0 ≤ sqRaw F t ∧
    sqRaw F t ≤ 2 * yRaw F t := by
  have hP : (0:ℤ) < 2 ^ F := by positivity
  obtain ⟨c0, c1⟩ := lit_bounds F (f64_unit (Niirf.f64_close 0.354167 (by simp)) (by norm_num) (by norm_num)).1
    (f64_unit (Niirf.f64_close 0.354167 (by simp)) (by norm_num) (by norm_num)).2
  have h2 : 0 ≤ yRaw F t := by unfold yRaw; omega
  have h3 : yRaw F t ≤ 2 * 2 ^ F := by unfold yRaw; omega
  refine ⟨h2, h3, Int.ediv_nonneg (mul_nonneg h2 h2) hP.le, ?_⟩
  unfold sqRaw
  refine Int.ediv_le_of_le_mul hP ?_
  nlinarith

theorem ite_bounds {p : Prop} [Decidable p] {a b P : ℤ} (ha : 0 ≤ a ∧ a ≤ P) (hb : 0 ≤ b ∧ b ≤ P) :
    0 ≤ (if p then a else b) ∧ (if p then a else b) ≤ P := by split <;> assumption

theorem bRaw_bounds (F : ℕ) (t : ℤ) : 0 ≤ bRaw F t ∧ bRaw F t ≤ 2 ^ F := by
  have hl : ∀ q ∈ [(0.961914 : ℚ), 0.840332, 0.782715, 0.734869, 0.691406, 0.654297, 0.622070, 0.595215,
      0.573731, 0.556152, 0.516113, 0.502930, 0.354167], 1 / 100 ≤ q → q ≤ 99 / 100 →
      0 ≤ lit F (f64Round q) ∧ lit F (f64Round q) ≤ 2 ^ F := fun q hq h0 h1 =>
    lit_bounds F (f64_unit (Niirf.f64_close q hq) h0 h1).1 (f64_unit (Niirf.f64_close q hq) h0 h1).2
  unfold bRaw
  iterate 11 refine ite_bounds (hl _ (by simp) (by norm_num) (by norm_num)) ?_
  exact hl _ (by simp) (by norm_num) (by norm_num)

/-- The result of `niirf(x, 2)` between the loops. -/
theorem niirf_split {cn : Counter} {x x' t : Fixed m s W F} {k : ℤ} (hx : x.val ≠ 0) (ha : MixedAbs.abs x = pure x')
    (hn : Returns (niirfNormalize cn x') (t, k)) {p : Prog (Fixed m s W F)}
    (h2 : Fits s W (3 * 2 ^ F)) (h0 : 0 ≤ t.val) (h1 : t.val < 2 ^ F)
    (hp : ∀ y : Fixed m s W F, y.val = yRaw F t.val → niirfIter t 1 y >>= (fun y => niirfDenormalize cn y k) = p) :
    (∀ v, Returns p v → Returns (niirf cn x 2) v) ∧ (∀ e, Panics p e → Panics (niirf cn x 2) e) := by
  have hP : (0:ℤ) < 2 ^ F := by positivity
  have f1 : Fits s W (2 ^ F) := (fits_zero s W).between h2 hP.le (by linarith)
  have f2 : Fits s W (2 * 2 ^ F) := (fits_zero s W).between h2 (by positivity) (by linarith)
  obtain ⟨two, e2, v2⟩ := int_lit (m := m) f2
  obtain ⟨three, e3, v3⟩ := int_lit (m := m) h2
  obtain ⟨c, ec, vc⟩ := lit_eq (m := m) f1 (f64_unit (Niirf.f64_close 0.354167 (by simp)) (by norm_num) (by norm_num)).1
    (f64_unit (Niirf.f64_close 0.354167 (by simp)) (by norm_num) (by norm_num)).2
  have yb := yRaw_bounds h0 h1
  obtain ⟨d, ed, vd⟩ := fit_val (m := m) (F := F) ((fits_zero s W).between f2 (n := 2 * t.val) (by omega) (by omega))
  have etd : (2 * t.val).tdiv 3 = 2 * t.val / 3 := Int.tdiv_eq_ediv_of_nonneg (by omega)
  obtain ⟨g, eg, vg⟩ := fit_val (m := m) (F := F) ((fits_zero s W).between f2 (n := 2 * t.val / 3) (by omega) (by omega))
  obtain ⟨y, ey, vy⟩ := fit_val (m := m) (F := F) ((fits_zero s W).between f2 (n := yRaw F t.val) yb.1 yb.2.1)
  have key : niirf cn x 2 = niirfNormalize cn x' >>= fun r =>
      (Lit.ofI32 2 >>= fun a => NumOps.mul a r.1 >>= fun a => Lit.ofI32 3 >>= fun b => NumOps.div a b >>= fun a =>
        Lit.ofF64 (f64Round 0.354167) >>= fun b => NumOps.add a b)
        >>= fun y => niirfIter r.1 1 y >>= fun y => niirfDenormalize cn y r.2 := by
    unfold niirf
    rw [if_neg (by rw [beq_def, zero_val, decide_eq_false hx]; exact Bool.false_ne_true), ha]
    simp only [pure_bind, bind_assoc, Nat.add_one_sub_one]
  have estart : (Lit.ofI32 2 >>= fun a => NumOps.mul a t >>= fun a => Lit.ofI32 3 >>= fun b => NumOps.div a b >>= fun a =>
      Lit.ofF64 (f64Round 0.354167) >>= fun b => NumOps.add a b) = (pure y : Prog (Fixed m s W F)) := by
    have em : NumOps.mul two t = fit (2 * t.val) := by
      rw [mul_def, v2, show 2 * 2 ^ F * t.val = 2 * t.val * 2 ^ F by ring, Int.mul_ediv_cancel _ hP.ne']
    rw [e2, pure_bind, em, ed, pure_bind, e3, pure_bind, div_lit d three (by norm_num) v3, vd, etd, eg, pure_bind, ec,
      pure_bind, add_def, vg, vc]
    exact ey
  rw [key]
  refine ⟨fun v hv => hn.bind ?_, fun e he => hn.bind_panics ?_⟩
  · simp only []; rw [estart, pure_bind, hp y vy]; exact hv
  · simp only []; rw [estart, pure_bind, hp y vy]; exact he

theorem pass_returns {t y : Fixed m s W F} (f2 : Fits s W (2 * 2 ^ F)) (h0 : 0 ≤ t.val) (h1 : t.val < 2 ^ F)
    (hy : y.val = yRaw F t.val) (hsq : Fits s W (sqRaw F t.val)) (hd : Fits s W (t.val - sqRaw F t.val))
    (hc : Fits s W (corRaw F t.val)) (h : Fits s W (y1Raw F t.val)) :
    ∃ z, niirfIter t 1 y = pure z ∧ z.val = y1Raw F t.val := by
  have hP : (0:ℤ) < 2 ^ F := by positivity
  have f1 : Fits s W (2 ^ F) := (fits_zero s W).between f2 hP.le (by linarith)
  obtain ⟨b, eb, vb⟩ := beta_fixed f1 t
  obtain ⟨q, eq, vq⟩ := fit_val (m := m) (F := F) hsq
  obtain ⟨d, ed, vd⟩ := fit_val (m := m) (F := F) hd
  obtain ⟨c, ec, vc⟩ := fit_val (m := m) (F := F) hc
  obtain ⟨z, ez, vz⟩ := fit_val (m := m) (F := F) h
  refine ⟨z, ?_, vz⟩
  have q1 : MixedPowi.powi y 2 = pure q := by rw [sq_eq, hy]; exact eq
  have q2 : NumOps.sub t q = pure d := by rw [sub_def, vq]; exact ed
  have q3 : NumOps.mul b d = pure c := by rw [mul_def, vb, vd]; exact ec
  have q4 : NumOps.add c y = pure z := by rw [add_def, vc, hy]; exact ez
  rw [niirfIter, eb, pure_bind, q1, pure_bind, q2, pure_bind, q3, pure_bind, q4, pure_bind]
  rfl

theorem pass_fails {t y : Fixed .checked s W F} (f2 : Fits s W (2 * 2 ^ F)) (hy : y.val = yRaw F t.val)
    (hsq : Fits s W (sqRaw F t.val)) (hd : ¬ Fits s W (t.val - sqRaw F t.val)) :
    niirfIter t 1 y = Prog.fail .overflow := by
  have hP : (0:ℤ) < 2 ^ F := by positivity
  have f1 : Fits s W (2 ^ F) := (fits_zero s W).between f2 hP.le (by linarith)
  obtain ⟨b, eb, vb⟩ := beta_fixed f1 t
  obtain ⟨q, eq, vq⟩ := fit_val (m := .checked) (F := F) hsq
  have q1 : MixedPowi.powi y 2 = pure q := by rw [sq_eq, hy]; exact eq
  have q2 : NumOps.sub t q = Prog.fail .overflow := by rw [sub_def, vq]; exact fit_checked hd
  rw [niirfIter, eb, pure_bind, q1, pure_bind, q2, Prog.fail_bind]

/-! ### Denormalisation -/

theorem denormalize_pos {cn : Counter} {B : ℤ} (hcn : cn.Upto B) (f2 : Fits s W (2 * 2 ^ F)) {y : Fixed m s W F} {k : ℤ} (hk : 0 ≤ k) (hkB : |k| ≤ B)
    (hf : Fits s W (y.val * 2 ^ k.toNat)) :
    ∃ z, Returns (niirfDenormalize cn y k) z ∧ z.val = y.val * 2 ^ k.toNat := by
  obtain ⟨two, e2, v2⟩ := int_lit (m := m) f2
  rw [denormalize_eq hcn y hkB]
  unfold denormalizeExact
  obtain ⟨a, ha, ⟨i1, i2⟩, hc⟩ := whileLoop_total (σ := Fixed m s W F × ℤ)
    (c := fun s => pure (s.2.natAbs != 0))
    (b := fun s => do
      if 0 < s.2 then pure (← NumOps.mul s.1 (← Lit.ofI32 2), s.2 - 1)
      else if s.2 < 0 then pure (← NumOps.div s.1 (← Lit.ofI32 2), s.2 + 1)
      else pure s)
    (fun s => 0 ≤ s.2 ∧ s.1.val * 2 ^ s.2.toNat = y.val * 2 ^ k.toNat) (fun s => s.2.natAbs) (by
      rintro ⟨a, j⟩ ⟨h1, h2⟩
      simp only [e2, pure_bind] at h1 h2 ⊢
      rcases h1.lt_or_eq with hj | rfl
      · have e : j.toNat = (j - 1).toNat + 1 := by omega
        rw [e, pow_succ, ← mul_assoc, mul_right_comm, mul_comm a.val 2] at h2
        have hp : (1:ℤ) ≤ 2 ^ (j - 1).toNat := one_le_pow₀ (by norm_num)
        have hfit : Fits s W (2 * a.val) := by
          rcases le_total 0 a.val with g | g
          · exact (fits_zero s W).between hf (by omega) (by nlinarith)
          · exact hf.between (fits_zero s W) (by nlinarith) (by omega)
        obtain ⟨c, ec, vc⟩ := fit_val (m := m) (F := F) hfit
        refine .inr ⟨?_, (c, j - 1), ?_, ⟨by simp only []; omega, ?_⟩, by simp only []; omega⟩
        · congr 1; simp; omega
        · rw [if_pos hj, mul_lit a two v2, ec]; rfl
        · simp only [vc]; exact h2
      · exact .inl rfl) (y, k) ⟨hk, rfl⟩
  have h0 : a.2 = 0 := by
    have := Prog.pure_inj hc
    simpa using this
  rw [h0] at i2
  exact ⟨a.1, ha.bind (.of_eq rfl), by simpa using i2⟩

theorem tdiv_two (a : ℤ) : 2 * a.tdiv 2 ≤ a + 1 ∧ a ≤ 2 * a.tdiv 2 + 1 ∧ (0 ≤ a → 0 ≤ a.tdiv 2) ∧
    (a ≤ 0 → a.tdiv 2 ≤ 0) := by
  rcases le_total 0 a with h | h
  · rw [Int.tdiv_eq_ediv_of_nonneg h]; omega
  · have e : a.tdiv 2 = -(-a / 2) := by
      rw [← Int.tdiv_eq_ediv_of_nonneg (by omega), Int.neg_tdiv, neg_neg]
    rw [e]; omega

theorem denormalize_neg {cn : Counter} {B : ℤ} (hcn : cn.Upto B) (f2 : Fits s W (2 * 2 ^ F)) {y : Fixed m s W F} {k : ℤ} (hk : k ≤ 0) (hkB : |k| ≤ B) :
    ∃ z, Returns (niirfDenormalize cn y k) z ∧ |(z.val : ℝ) - y.val * 2 ^ k| ≤ 1 := by
  obtain ⟨two, e2, v2⟩ := int_lit (m := m) f2
  rw [denormalize_eq hcn y hkB]
  unfold denormalizeExact
  obtain ⟨a, ha, ⟨i1, i2⟩, hc⟩ := whileLoop_total (σ := Fixed m s W F × ℤ)
    (c := fun s => pure (s.2.natAbs != 0))
    (b := fun s => do
      if 0 < s.2 then pure (← NumOps.mul s.1 (← Lit.ofI32 2), s.2 - 1)
      else if s.2 < 0 then pure (← NumOps.div s.1 (← Lit.ofI32 2), s.2 + 1)
      else pure s)
    (fun s => s.2 ≤ 0 ∧ |(s.1.val : ℝ) - y.val * 2 ^ (k - s.2)| ≤ 1) (fun s => s.2.natAbs) (by
      rintro ⟨a, j⟩ ⟨h1, h2⟩
      simp only [e2, pure_bind] at h1 h2 ⊢
      rcases h1.lt_or_eq with hj | rfl
      · have htd := tdiv_two a.val
        have hfit : Fits s W (a.val.tdiv 2) := by
          rcases le_total 0 a.val with g | g
          · exact (fits_zero s W).between a.fits (by omega) (by omega)
          · exact a.fits.between (fits_zero s W) (by omega) (by omega)
        obtain ⟨c, ec, vc⟩ := fit_val (m := m) (F := F) hfit
        refine .inr ⟨?_, (c, j + 1), ?_, ⟨by simp only []; omega, ?_⟩, by simp only []; omega⟩
        · congr 1; simp; omega
        · rw [if_neg (by omega), if_pos hj, div_lit a two (by norm_num) v2, ec]; rfl
        · have hv : 2 * c.val ≤ a.val + 1 ∧ a.val ≤ 2 * c.val + 1 := by rw [vc]; omega
          have hv1 : 2 * (c.val : ℝ) ≤ a.val + 1 := by exact_mod_cast hv.1
          have hv2 : (a.val : ℝ) ≤ 2 * c.val + 1 := by exact_mod_cast hv.2
          have e : (2:ℝ) ^ (k - j) = 2 ^ (k - (j + 1)) * 2 := by
            rw [← zpow_add_one₀ (by norm_num)]; congr 1; ring
          simp only []
          rw [e] at h2
          have := abs_le.mp h2
          rw [abs_le]; constructor <;> linarith
      · exact .inl rfl) (y, k) ⟨hk, by simp⟩
  have h0 : a.2 = 0 := by
    have := Prog.pure_inj hc
    simpa using this
  rw [h0, sub_zero] at i2
  exact ⟨a.1, ha.bind (.of_eq rfl), i2⟩

end Fixed
end MixedNum
