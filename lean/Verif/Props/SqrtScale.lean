import Verif.Props.CPowLaws
import Verif.Lemmas.SqrtFixed
import Verif.Lemmas.TimeOps
import Verif.Lemmas.Outcome
import Verif.Lemmas.Run
import Verif.Props.AddSub
/-! # C157: the square root of four times a number, on fixed point -/

namespace MixedNum
variable {m : Mode} {s : Bool} {W F : ℕ}
open Fixed

/-! ## Normalisation -/

/-- The exponent of the normal form is the power of four next to the number. -/
theorem normal_between (hF : 2 ≤ F) {n t k : ℤ} (h : Normal n t k) (h1 : 2 ^ F ≤ 4 * t) (h2 : t < 2 ^ F) :
    (2:ℝ) ^ F * 4 ^ k ≤ 4 * n ∧ (n : ℝ) < 2 ^ F * 4 ^ k := by
  rcases h with ⟨hk, ht⟩ | ⟨hk, ht⟩
  · obtain ⟨j, rfl⟩ : ∃ j : ℕ, k = -(j : ℤ) := ⟨(-k).toNat, by omega⟩
    rw [neg_neg, Int.toNat_natCast] at ht
    have p4 : (0:ℝ) < 4 ^ j := by positivity
    rw [zpow_neg, zpow_natCast]
    have e1 : (2:ℝ) ^ F ≤ 4 * (n * 4 ^ j) := by rw [ht] at h1; exact_mod_cast h1
    have e2 : (n:ℝ) * 4 ^ j < 2 ^ F := by rw [ht] at h2; exact_mod_cast h2
    constructor
    · rw [mul_inv_le_iff₀ p4]; linarith
    · rw [← div_eq_mul_inv, lt_div_iff₀ p4]; exact e2
  · obtain ⟨j, rfl⟩ : ∃ j : ℕ, k = (j : ℤ) := ⟨k.toNat, by omega⟩
    rw [Int.toNat_natCast] at ht
    have p4 : (0:ℤ) < 4 ^ j := by positivity
    obtain ⟨G, rfl⟩ : ∃ G, F = G + 2 := ⟨F - 2, by omega⟩
    rw [pow_add] at h1 h2
    have e1 : (2:ℤ) ^ G ≤ t := by omega
    rw [ht, Int.le_ediv_iff_mul_le p4] at e1
    rw [ht, Int.ediv_lt_iff_lt_mul p4] at h2
    rw [zpow_natCast]
    constructor
    · have : (2:ℝ) ^ G * 4 ^ j ≤ n := by exact_mod_cast e1
      rw [pow_add]; linarith
    · rw [pow_add]; exact_mod_cast h2

theorem normal_unique_fixed (hF : 2 ≤ F) {n t t' k k' : ℤ} (h : Normal n t k) (h1 : 2 ^ F ≤ 4 * t) (h2 : t < 2 ^ F)
    (h' : Normal n t' k') (h1' : 2 ^ F ≤ 4 * t') (h2' : t' < 2 ^ F) : t = t' ∧ k = k' := by
  have a := normal_between hF h h1 h2
  have b := normal_between hF h' h1' h2'
  have P : (0:ℝ) < 2 ^ F := by positivity
  have key : ∀ i j : ℤ, (2:ℝ) ^ F * 4 ^ i ≤ 4 * n → (n : ℝ) < 2 ^ F * 4 ^ j → i ≤ j := by
    intro i j hi hj
    have : (2:ℝ) ^ F * 4 ^ i < 2 ^ F * 4 ^ (j + 1) := by
      rw [zpow_add_one₀ (by norm_num)]; nlinarith
    have := (mul_lt_mul_iff_right₀ P).mp this
    have := (zpow_lt_zpow_iff_right₀ (by norm_num : (1:ℝ) < 4)).mp this
    omega
  obtain rfl : k = k' := le_antisymm (key _ _ a.1 b.2) (key _ _ b.1 a.2)
  refine ⟨?_, rfl⟩
  rcases h with ⟨hk, ht⟩ | ⟨hk, ht⟩ <;> rcases h' with ⟨hk', ht'⟩ | ⟨hk', ht'⟩
  · rw [ht, ht']
  · obtain rfl : k = 0 := by omega
    simp at ht ht'; rw [ht, ht']
  · obtain rfl : k = 0 := by omega
    simp at ht ht'; rw [ht, ht']
  · rw [ht, ht']

theorem normal_scale {n t k : ℤ} (h : Normal n t k) : Normal (4 * n) t (k + 1) := by
  rcases h with ⟨hk, ht⟩ | ⟨hk, ht⟩
  · rcases hk.lt_or_eq with hk | rfl
    · left
      refine ⟨by omega, ?_⟩
      rw [ht, show (-k).toNat = (-(k + 1)).toNat + 1 by omega, pow_succ]; ring
    · right
      simp at ht ⊢
      rw [ht]
  · right
    refine ⟨by omega, ?_⟩
    rw [ht, show (k + 1).toNat = k.toNat + 1 by omega, pow_succ, _root_.mul_comm (4 ^ k.toNat) 4,
      Int.mul_ediv_mul_of_pos _ _ (by norm_num)]

theorem normal_scales {n t k : ℤ} (h : Normal n t k) : ∀ j : ℕ, Normal (4 ^ j * n) t (k + j)
  | 0 => by simpa using h
  | j + 1 => by
    have := normal_scale (normal_scales h j)
    rw [pow_succ']
    push_cast
    rw [_root_.mul_assoc, ← _root_.add_assoc]; exact this

/-! ## Denormalisation -/

/-- Doubling `k` times is one multiplication by `2^k`. -/
theorem fit_double (hW : 0 < W) (n : ℤ) (k : ℕ) : (fit n : Prog (Fixed m s W F)) >>= (fun c => fit (2 ^ k * c.val)) =
    (fit (2 ^ k * n) : Prog (Fixed m s W F)) := by
  by_cases h : Fits s W n
  · rw [fit_of_fits h, pure_bind]; rfl
  · cases m
    · rw [fit_checked h, Prog.fail_bind, fit_checked]
      intro h'
      apply h
      have : (1:ℤ) ≤ 2 ^ k := one_le_pow₀ (by norm_num)
      rcases le_total 0 n with g | g
      · exact (fits_zero s W).between h' g (by nlinarith)
      · exact h'.between (fits_zero s W) (by nlinarith) g
    · rw [fit_wrapping, pure_bind, fit_wrapping, fit_wrapping]
      congr 1
      refine Fixed.ext ?_
      simp only [mkv_val]
      exact wrapInt_congr hW ((wrapInt_modEq hW n).mul_left _)

theorem denormalize_up {cn : Counter} {B : ℤ} (hcn : cn.Upto B) (hW : 0 < W) (f2 : Fits s W (2 * 2 ^ F)) (y : Fixed m s W F)
    (k : ℕ) (hk : (k : ℤ) ≤ B) : SameOutcome (niirfDenormalize cn y k) (fit (2 ^ k * y.val)) := by
  obtain ⟨two, e2, v2⟩ := int_lit (m := m) f2
  rw [denormalize_eq hcn y (by rw [abs_of_nonneg (by omega)]; exact hk)]
  have key : ∀ (k : ℕ) (y : Fixed m s W F) (n : ℕ), k < n →
      whileGo (fun s : Fixed m s W F × ℤ => pure (s.2.natAbs != 0))
        (fun s => do
          if 0 < s.2 then pure (← NumOps.mul s.1 (← Lit.ofI32 2), s.2 - 1)
          else if s.2 < 0 then pure (← NumOps.div s.1 (← Lit.ofI32 2), s.2 + 1)
          else pure s) n (y, (k : ℤ)) = (fit (2 ^ k * y.val) >>= fun r => pure (r, 0)) := by
    intro k
    induction k with
    | zero =>
      intro y n hn
      obtain ⟨j, rfl⟩ : ∃ j, n = j + 1 := ⟨n - 1, by omega⟩
      refine (whileGo_done (by rfl)).trans ?_
      rw [pow_zero, one_mul, fit_of_fits y.fits, pure_bind]
      rfl
    | succ k ih =>
      intro y n hn
      obtain ⟨j, rfl⟩ : ∃ j, n = j + 1 := ⟨n - 1, by omega⟩
      rw [whileGo_succ, pure_bind, if_pos (by simp; omega)]
      simp only [e2, pure_bind] at ih ⊢
      rw [if_pos (by positivity), mul_lit y two v2, pow_succ, _root_.mul_assoc, ← fit_double hW, bind_assoc, bind_assoc]
      congr 1
      funext c
      rw [pure_bind, show ((k + 1 : ℕ) : ℤ) - 1 = k by push_cast; ring]
      exact ih c j (by omega)
  refine ⟨k + 1, fun n hn => ?_⟩
  unfold denormalizeExact
  have : (fit (2 ^ k * y.val) : Prog (Fixed m s W F)) n = ((fit (2 ^ k * y.val) >>= fun r => pure (r, (0:ℤ))) >>= fun s => pure s.1) n := by
    rw [bind_assoc]; simp
  rw [this, ← key k y n (by omega)]
  rfl

theorem tdiv_two_pow (a : ℤ) (k : ℕ) : (a.tdiv 2).tdiv (2 ^ k) = a.tdiv (2 ^ (k + 1)) := by
  have key : ∀ b : ℤ, 0 ≤ b → (b.tdiv 2).tdiv (2 ^ k) = b.tdiv (2 ^ (k + 1)) := by
    intro b hb
    rw [Int.tdiv_eq_ediv_of_nonneg hb, Int.tdiv_eq_ediv_of_nonneg (by omega), Int.tdiv_eq_ediv_of_nonneg hb,
      Int.ediv_ediv_of_nonneg (by norm_num), pow_succ']
  rcases le_total 0 a with h | h
  · exact key a h
  · have := key (-a) (by omega)
    rw [Int.neg_tdiv, Int.neg_tdiv, Int.neg_tdiv] at this
    omega

theorem denormalize_down {cn : Counter} {B : ℤ} (hcn : cn.Upto B) (f2 : Fits s W (2 * 2 ^ F)) (y : Fixed m s W F)
    (k : ℕ) (hk : (k : ℤ) ≤ B) : ∃ z, Returns (niirfDenormalize cn y (-(k : ℤ))) z ∧ z.val = y.val.tdiv (2 ^ k) := by
  obtain ⟨two, e2, v2⟩ := int_lit (m := m) f2
  rw [denormalize_eq hcn y (by rw [abs_neg, abs_of_nonneg (by omega)]; exact hk)]
  have key : ∀ (k : ℕ) (y : Fixed m s W F), ∃ z : Fixed m s W F, z.val = y.val.tdiv (2 ^ k) ∧
      Steps (fun s : Fixed m s W F × ℤ => pure (s.2.natAbs != 0))
        (fun s => do
          if 0 < s.2 then pure (← NumOps.mul s.1 (← Lit.ofI32 2), s.2 - 1)
          else if s.2 < 0 then pure (← NumOps.div s.1 (← Lit.ofI32 2), s.2 + 1)
          else pure s) k (y, -(k : ℤ)) (z, 0) := by
    intro k
    induction k with
    | zero => intro y; exact ⟨y, by simp, .done rfl⟩
    | succ k ih =>
      intro y
      have htd := tdiv_two y.val
      have hfit : Fits s W (y.val.tdiv 2) := by
        rcases le_total 0 y.val with g | g
        · exact (fits_zero s W).between y.fits (by omega) (by omega)
        · exact y.fits.between (fits_zero s W) (by omega) (by omega)
      obtain ⟨c, ec, vc⟩ := fit_val (m := m) (F := F) hfit
      obtain ⟨z, vz, st⟩ := ih c
      refine ⟨z, ?_, .step (s' := (c, -(k : ℤ))) ?_ ?_ st⟩
      · rw [vz, vc, tdiv_two_pow]
      · congr 1
      · simp only [e2, pure_bind]
        rw [if_neg (by omega), if_pos (by omega), div_lit y two (by norm_num) v2, ec, pure_bind]
        congr 2; push_cast; ring
  obtain ⟨z, vz, st⟩ := key k y
  exact ⟨z, st.returns.bind (.of_eq rfl), vz⟩

/-! ## The whole routine -/

/-- What `niirf` does between its two loops. -/
def niirfMid (t : Fixed m s W F) (n : ℕ) : Prog (Fixed m s W F) := do
  let y ← NumOps.add (← NumOps.div (← NumOps.mul (← Lit.ofI32 2) t) (← Lit.ofI32 3)) (← Lit.ofF64 (f64Round 0.354167))
  niirfIter t (n - 1) y

theorem niirfMid_free (t : Fixed m s W F) (n : ℕ) : LoopFree (niirfMid t n) := by
  unfold niirfMid
  have o : FreeOps (Fixed m s W F) := freeOps
  refine LoopFree.bind (o.int _) fun _ => LoopFree.bind (o.mul _ _) fun _ => LoopFree.bind (o.int _) fun _ =>
    LoopFree.bind (o.div _ _) fun _ => LoopFree.bind (o.flt _) fun _ => LoopFree.bind (o.add _ _) fun _ => o.iter _ _ _

theorem niirf_mid {cn : Counter} {x t : Fixed m s W F} {k : ℤ} (h0 : 0 < x.val) (hn : Returns (niirfNormalize cn x) (t, k))
    (n : ℕ) : SameOutcome (niirf cn x n) (niirfMid t n >>= fun y => niirfDenormalize cn y k) := by
  have ha : MixedAbs.abs x = pure x := by
    show (if s then fit |x.val| else pure x) = _
    split
    · rw [abs_of_pos h0, fit_of_fits x.fits]; rfl
    · rfl
  have key : niirf cn x n = niirfNormalize cn x >>= fun r => niirfMid r.1 n >>= fun y => niirfDenormalize cn y r.2 := by
    unfold niirf niirfMid
    rw [if_neg (by rw [beq_def, zero_val, decide_eq_false h0.ne']; exact Bool.false_ne_true), ha]
    simp only [pure_bind, bind_assoc]
  rw [key]
  have := SameOutcome.step (g := fun r : Fixed m s W F × ℤ => niirfMid r.1 n >>= fun y => niirfDenormalize cn y r.2) hn
  exact this

theorem SameOutcome.ret {α : Type} {p q : Prog α} {a : α} (h : SameOutcome p q) (hp : Returns p a) : Returns q a := by
  obtain ⟨N, hN⟩ := h
  obtain ⟨M, hM⟩ := hp
  exact ⟨max N M, fun n hn => by rw [← hN n (le_trans (le_max_left _ _) hn)]; exact hM n (le_trans (le_max_right _ _) hn)⟩

theorem SameOutcome.pan {α : Type} {p q : Prog α} {e : Panic} (h : SameOutcome p q) (hp : Panics p e) : Panics q e := by
  obtain ⟨N, hN⟩ := h
  obtain ⟨M, hM⟩ := hp
  exact ⟨max N M, fun n hn => by rw [← hN n (le_trans (le_max_left _ _) hn)]; exact hM n (le_trans (le_max_right _ _) hn)⟩

theorem tdiv_pow_pow (a : ℤ) (i j : ℕ) : (a.tdiv (2 ^ i)).tdiv (2 ^ j) = a.tdiv (2 ^ (i + j)) := by
  induction i generalizing a with
  | zero => simp
  | succ i ih => rw [← tdiv_two_pow a i, ih, tdiv_two_pow, show i + j + 1 = i + 1 + j by ring]

/-- The normal forms of a number and of `4^j` times it. -/
theorem normalize_scaled (hW : W ≤ 128) (md : Mode) (hF : 2 ≤ F) (h4 : InRange s W (4 * 2 ^ F)) (x x' : Fixed m s W F)
    (h0 : 0 < x.val) (j : ℕ) (hx : x'.val = 4 ^ j * x.val) : ∃ (t : Fixed m s W F) (k : ℤ),
    Returns (niirfNormalize (.i32 md) x) (t, k) ∧ Returns (niirfNormalize (.i32 md) x') (t, k + j) ∧ |k| ≤ W ∧ |k + j| ≤ W ∧
      (2:ℝ) ^ F * 4 ^ k ≤ 4 * x.val ∧ (x.val : ℝ) < 2 ^ F * 4 ^ k := by
  rw [inRange_iff] at h4
  have hcn := Counter.upto_width md hW
  obtain ⟨t, k, r, t1, t2, hn, kw⟩ := normalize_fixed hcn hF h4 h0
  obtain ⟨t', k', r', t1', t2', hn', kw'⟩ := normalize_fixed hcn hF h4 (x := x') (by rw [hx]; positivity)
  have := normal_scales hn j
  rw [← hx] at this
  obtain ⟨e1, e2⟩ := normal_unique_fixed hF this t1 t2 hn' t1' t2'
  obtain rfl : t = t' := Fixed.ext e1
  subst e2
  exact ⟨t, k, r, r', kw, kw', normal_between hF hn t1 t2⟩

theorem fits_two_of_four (h4 : InRange s W (4 * 2 ^ F)) : Fits s W (2 * 2 ^ F) := by
  rw [inRange_iff] at h4
  have hP : (0:ℤ) < 2 ^ F := by positivity
  exact (fits_zero s W).between h4 (by positivity) (by linarith)

theorem width_pos (h4 : InRange s W (4 * 2 ^ F)) : 0 < W := by
  rcases Nat.eq_zero_or_pos W with rfl | h
  · have hP : (0:ℤ) < 2 ^ F := by positivity
    unfold InRange at h4
    split at h4 <;> norm_num at h4 <;> omega
  · exact h

/-- C157, from a quarter on: the root of `4^j x` is `2^j` times the root of `x`, to the last bit. If that does not fit,
the call does what a multiplication by `2^j` would do. -/
theorem C157_up (hW : W ≤ 128) (md : Mode) (hF : 2 ≤ F) (h4 : InRange s W (4 * 2 ^ F)) (x x' : Fixed m s W F)
    (h1 : 2 ^ F ≤ 4 * x.val) (j : ℕ) (hx : x'.val = 4 ^ j * x.val) (n : ℕ) :
    (∀ r, Returns (niirf (.i32 md) x n) r →
      Outcome (fun a : Fixed m s W F => a.val) m s W (2 ^ j * r.val) (niirf (.i32 md) x' n)) ∧
    ∀ e, Panics (niirf (.i32 md) x n) e → Panics (niirf (.i32 md) x' n) e := by
  have hP : (0:ℤ) < 2 ^ F := by positivity
  have h0 : 0 < x.val := by omega
  have W0 := width_pos h4
  have hcn := Counter.upto_width md hW
  have f2 := fits_two_of_four h4
  obtain ⟨t, k, r, r', kw, kw', b1, b2⟩ := normalize_scaled hW md hF h4 x x' h0 j hx
  have hk : 0 ≤ k := by
    by_contra hk
    have : (4:ℝ) ^ k ≤ 4 ^ (-1 : ℤ) := zpow_le_zpow_right₀ (by norm_num) (by omega)
    have h1' : (2:ℝ) ^ F ≤ 4 * x.val := by exact_mod_cast h1
    have : (2:ℝ) ^ F * 4 ^ k ≤ 2 ^ F * 4 ^ (-1 : ℤ) := mul_le_mul_of_nonneg_left this (by positivity)
    rw [zpow_neg_one] at this
    linarith
  obtain ⟨i, rfl⟩ : ∃ i : ℕ, k = i := ⟨k.toNat, by omega⟩
  have s1 := niirf_mid h0 r n
  have s2 := niirf_mid (x := x') (by rw [hx]; positivity) r' n
  rcases niirfMid_free t n with ⟨y, hy⟩ | ⟨e, he⟩
  · rw [hy, pure_bind] at s1 s2
    rw [abs_of_nonneg (by omega)] at kw kw'
    have s1 := s1.trans (denormalize_up hcn W0 f2 y i kw)
    have s2 := s2.trans (denormalize_up hcn W0 f2 y (i + j) (by push_cast; exact kw'))
    rw [pow_add, _root_.mul_comm (2 ^ i) (2 ^ j), _root_.mul_assoc, ← fit_double W0] at s2
    constructor
    · intro v hv
      have hv := s1.ret hv
      rcases free_fit (m := m) (s := s) (W := W) (F := F) (2 ^ i * y.val) with ⟨c, hc⟩ | ⟨e, he⟩
      · rw [hc, returns_pure] at hv
        subst hv
        rw [hc, pure_bind] at s2
        have := Fixed.outcome (m := m) (s := s) (F := F) W0 (2 ^ j * c.val)
        refine ⟨fun h => ?_, fun h => ?_⟩
        · obtain ⟨a, ha, va⟩ := this.1 h
          exact ⟨a, s2.symm.ret ha, va⟩
        · have := this.2 h
          cases m
          · exact s2.symm.pan this
          · obtain ⟨a, ha, va⟩ := this
            exact ⟨a, s2.symm.ret ha, va⟩
      · rw [he] at hv; exact absurd hv returns_fail
    · intro e he
      exact s2.symm.pan ((s1.pan he).bind)
  · rw [he, Prog.fail_bind] at s1 s2
    constructor
    · intro v hv
      exact absurd (s1.ret hv) returns_fail
    · intro e' he'
      exact s2.symm.pan (s1.pan he')

example := C157_up (by decide) .checked (by decide) (by decide) (fx .checked true 16 8 100) (fx .checked true 16 8 1600) (by decide) 2 (by decide) 2

/-- C157, below one: the root of `x` is the root of `4^j x` divided by `2^j`, the remainder dropped. -/
theorem C157_down (hW : W ≤ 128) (md : Mode) (hF : 2 ≤ F) (h4 : InRange s W (4 * 2 ^ F)) (x x' : Fixed m s W F)
    (h0 : 0 < x.val) (j : ℕ) (hx : x'.val = 4 ^ j * x.val) (h1 : x'.val < 2 ^ F) (n : ℕ) :
    (∀ r', Returns (niirf (.i32 md) x' n) r' → ∃ r, Returns (niirf (.i32 md) x n) r ∧ r.val = r'.val.tdiv (2 ^ j)) ∧
    ∀ e, Panics (niirf (.i32 md) x' n) e ↔ Panics (niirf (.i32 md) x n) e := by
  have hcn := Counter.upto_width md hW
  have f2 := fits_two_of_four h4
  obtain ⟨t, k, r, r', kw, kw', b1, b2⟩ := normalize_scaled hW md hF h4 x x' h0 j hx
  have hk : k + j ≤ 0 := by
    by_contra hk
    have : (4:ℝ) ^ (1 - j : ℤ) ≤ 4 ^ k := zpow_le_zpow_right₀ (by norm_num) (by omega)
    have h1' : (4:ℝ) ^ j * x.val < 2 ^ F := by rw [hx] at h1; exact_mod_cast h1
    have p4 : (0:ℝ) < 4 ^ j := by positivity
    have e : (4:ℝ) ^ (1 - j : ℤ) * 4 ^ j = 4 := by
      rw [← zpow_natCast, ← zpow_add₀ (by norm_num)]; norm_num
    have P : (0:ℝ) < 2 ^ F := by positivity
    have q1 : (2:ℝ) ^ F * 4 ^ (1 - j : ℤ) ≤ 4 * x.val := le_trans (mul_le_mul_of_nonneg_left this P.le) b1
    have q2 := mul_le_mul_of_nonneg_right q1 p4.le
    rw [_root_.mul_assoc, e] at q2
    nlinarith
  obtain ⟨i, hi⟩ : ∃ i : ℕ, k + j = -(i : ℤ) := ⟨(-(k + j)).toNat, by omega⟩
  have hk' : k = -((i + j : ℕ) : ℤ) := by push_cast; omega
  rw [hi] at r' kw'
  subst hk'
  rw [abs_neg, abs_of_nonneg (by omega)] at kw kw'
  have s1 := niirf_mid h0 r n
  have s2 := niirf_mid (x := x') (by rw [hx]; positivity) r' n
  rcases niirfMid_free t n with ⟨y, hy⟩ | ⟨e, he⟩
  · rw [hy, pure_bind] at s1 s2
    obtain ⟨z, hz, vz⟩ := denormalize_down hcn f2 y (i + j) kw
    obtain ⟨z', hz', vz'⟩ := denormalize_down hcn f2 y i kw'
    have g1 := s1.symm.ret hz
    have g2 := s2.symm.ret hz'
    refine ⟨fun v hv => ⟨z, g1, ?_⟩, fun e => ⟨fun h => absurd h g2.not_panics, fun h => absurd h g1.not_panics⟩⟩
    rw [hv.unique g2, vz, vz', tdiv_pow_pow]
  · rw [he, Prog.fail_bind] at s1 s2
    refine ⟨fun v hv => absurd (s2.ret hv) returns_fail, fun e' => ⟨fun h => s1.symm.pan (s2.pan h), fun h => s2.symm.pan (s1.pan h)⟩⟩

/-! The hypotheses hold, and the roots are those claimed. -/

example : InRange true 32 (4 * 2 ^ 16) := by unfold InRange; norm_num
example : Returns (niirf (.i32 .checked) (fx .checked true 32 16 (3 * 2 ^ 16)) 2) (fx .checked true 32 16 113492) := by
  run 60
example : Returns (niirf (.i32 .checked) (fx .checked true 32 16 (4 * (3 * 2 ^ 16))) 2)
    (fx .checked true 32 16 (2 * 113492)) := by run 60
example : Returns (niirf (.i32 .checked) (fx .checked true 32 16 1000) 2) (fx .checked true 32 16 8095) := by run 60
example : Returns (niirf (.i32 .checked) (fx .checked true 32 16 (4 ^ 2 * 1000)) 2) (fx .checked true 32 16 32380) := by
  run 60

end MixedNum
