import Verif.Props.AtanExact
import Verif.Lemmas.Run
import Mathlib.Tactic.IntervalCases
import Verif.Props.AddSub
/-! # C150: the polynomial arctangent on fixed point is monotone, exactly -/

namespace MixedNum
variable {m : Mode} {W F : ℕ}

namespace Fixed

/-- The stored integer of the arctangent. -/
def atanInt (F : ℕ) (x : ℤ) : ℤ :=
  if |x| < 2 ^ F then (x * 2 ^ F).tdiv (2 ^ F + aRaw F * (x * x / 2 ^ F) / 2 ^ F)
  else if 0 < x then halfRaw F - (x * 2 ^ F).tdiv (x * x / 2 ^ F + aRaw F)
  else -halfRaw F - (x * 2 ^ F).tdiv (x * x / 2 ^ F + aRaw F)

theorem quo_one (x : ℤ) : quoRaw F (2 ^ F) x = (x * 2 ^ F).tdiv (2 ^ F + aRaw F * (x * x / 2 ^ F) / 2 ^ F) := by
  have hP : (2:ℤ) ^ F ≠ 0 := by positivity
  unfold quoRaw numRaw denRaw
  rw [Int.mul_ediv_cancel _ hP, mul_comm ((2:ℤ) ^ F) x, Int.mul_ediv_cancel _ hP]

theorem quo_one' (x : ℤ) : quoRaw F x (2 ^ F) = (x * 2 ^ F).tdiv (x * x / 2 ^ F + aRaw F) := by
  have hP : (2:ℤ) ^ F ≠ 0 := by positivity
  unfold quoRaw numRaw denRaw
  rw [Int.mul_ediv_cancel _ hP, Int.mul_ediv_cancel _ hP, Int.mul_ediv_cancel _ hP]

theorem Angle.atanInt {x v : ℤ} (h : Angle F x (2 ^ F) v) : v = atanInt F x := by
  have hP : (0:ℤ) < 2 ^ F := by positivity
  have e1 : |(2:ℤ) ^ F| = 2 ^ F := abs_of_pos hP
  unfold Fixed.atanInt
  cases h with
  | axisPos h0 _ => subst h0; simp
  | axisNeg _ h1 => omega
  | up _ h1 => omega
  | down _ h1 => omega
  | right _ _ h1 => rw [e1] at h1; rw [if_pos h1, quo_one]
  | upper h0 _ h1 => rw [e1] at h1; rw [if_neg (by omega), if_pos h0, quo_one']
  | lower h0 _ h1 => rw [e1] at h1; rw [if_neg (by omega), if_neg (by omega), quo_one']
  | left _ h1 => omega
  | left' _ h1 => omega

theorem atanInt_neg (x : ℤ) : atanInt F (-x) = -atanInt F x := by
  have hP : (0:ℤ) < 2 ^ F := by positivity
  unfold atanInt
  rw [abs_neg]
  simp only [neg_mul, mul_neg, neg_neg, Int.neg_tdiv]
  split_ifs with h1 h2 h3 h3
  · rfl
  · omega
  · ring
  · ring
  · exfalso
    have : x = 0 := by omega
    rw [this, abs_zero] at h1; omega

theorem ediv_le_of_cross {a b c d : ℤ} (hb : 0 < b) (hd : 0 < d) (h : a * d ≤ c * b) : a / b ≤ c / d := by
  rw [Int.le_ediv_iff_mul_le hd]
  have h1 : a / b * b ≤ a := Int.ediv_mul_le _ hb.ne'
  have h2 : a / b * b * d ≤ a * d := mul_le_mul_of_nonneg_right h1 hd.le
  refine le_of_mul_le_mul_right (a := b) ?_ hb
  linarith [show a / b * d * b = a / b * b * d by ring]

/-- Below one the quotient rises. -/
theorem quo_mono_low {s t : ℤ} (h0 : 0 ≤ s) (hst : s ≤ t) (ht : t ≤ 2 ^ F) :
    s * 2 ^ F / (2 ^ F + aRaw F * (s * s / 2 ^ F) / 2 ^ F) ≤ t * 2 ^ F / (2 ^ F + aRaw F * (t * t / 2 ^ F) / 2 ^ F) := by
  have hP : (0:ℤ) < 2 ^ F := by positivity
  obtain ⟨a0, a1⟩ := aRaw_bounds F
  generalize (2:ℤ) ^ F = P at *
  generalize aRaw F = a at *
  have g0 : ∀ r : ℤ, 0 ≤ a * (r * r / P) / P := fun r => Int.ediv_nonneg (mul_nonneg a0 (Int.ediv_nonneg (mul_self_nonneg r) hP.le)) hP.le
  have hq : t * t / P ≤ s * s / P + 2 * (t - s) := by
    have h1 : t * t ≤ s * s + 2 * (t - s) * P := by nlinarith
    have := Int.ediv_le_ediv hP h1
    rwa [Int.add_mul_ediv_right _ _ hP.ne'] at this
  have hg : a * (t * t / P) / P ≤ a * (s * s / P) / P + (t - s) := by
    have h1 : a * (t * t / P) ≤ a * (s * s / P) + (t - s) * P := by
      have h2 := mul_le_mul_of_nonneg_left hq a0
      have h3 : 2 * a * (t - s) ≤ P * (t - s) := mul_le_mul_of_nonneg_right a1 (by omega)
      linarith [show a * (s * s / P + 2 * (t - s)) = a * (s * s / P) + 2 * a * (t - s) by ring, mul_comm P (t - s)]
    have := Int.ediv_le_ediv hP h1
    rwa [Int.add_mul_ediv_right _ _ hP.ne'] at this
  have gs := g0 s; have gt := g0 t
  generalize a * (s * s / P) / P = x at *
  generalize a * (t * t / P) / P = y at *
  refine ediv_le_of_cross (by omega) (by omega) ?_
  have h1 : s * (P + y) ≤ t * (P + x) := by nlinarith
  nlinarith

/-- Above one the quotient falls. -/
theorem quo_mono_high {s t : ℤ} (h0 : 2 ^ F ≤ s) (hst : s ≤ t) :
    t * 2 ^ F / (t * t / 2 ^ F + aRaw F) ≤ s * 2 ^ F / (s * s / 2 ^ F + aRaw F) := by
  have hP : (0:ℤ) < 2 ^ F := by positivity
  obtain ⟨a0, a1⟩ := aRaw_bounds F
  generalize (2:ℤ) ^ F = P at *
  generalize aRaw F = a at *
  have pos : ∀ r : ℤ, P ≤ r → 0 < r * r / P := fun r hr => by
    have : P ≤ r * r / P := by rw [Int.le_ediv_iff_mul_le hP]; nlinarith
    omega
  have hs := pos s h0; have ht := pos t (h0.trans hst)
  refine ediv_le_of_cross (by omega) (by omega) ?_
  set J := (2 * s + 1) / P with hJ
  have j1 : J * P ≤ 2 * s + 1 := Int.ediv_mul_le _ hP.ne'
  have j2 : 2 * s + 1 < (J + 1) * P := Int.lt_ediv_add_one_mul_self _ hP
  have j3 : 2 ≤ J := by rw [hJ, Int.le_ediv_iff_mul_le hP]; omega
  have hd : s * s / P + (t - s) * J ≤ t * t / P := by
    have h1 : s * s + (t - s) * J * P ≤ t * t := by
      rcases eq_or_lt_of_le hst with rfl | hlt
      · simp
      · have : (t - s) * (J * P) ≤ (t - s) * (2 * s + 1) := mul_le_mul_of_nonneg_left j1 (by omega)
        have h2 : (t - s) * (2 * s + 1) ≤ (t - s) * (t + s) := mul_le_mul_of_nonneg_left (by omega) (by omega)
        nlinarith
    have := Int.ediv_le_ediv hP h1
    rwa [Int.add_mul_ediv_right _ _ hP.ne'] at this
  have hfl : s * s / P * P ≤ s * s := Int.ediv_mul_le _ hP.ne'
  have key : s * s / P + a ≤ s * J := by
    refine le_of_mul_le_mul_right (a := P) ?_ hP
    have h1 : s * s + a * P ≤ s * J * P := by
      rcases le_or_gt (2 * s) (3 * P) with hc | hc
      · have h2 : s * (2 * P) ≤ s * (J * P) := mul_le_mul_of_nonneg_left (by nlinarith) (by omega)
        nlinarith
      · have h2 : s * (2 * s + 2 - P) ≤ s * (J * P) := mul_le_mul_of_nonneg_left (by nlinarith) (by omega)
        nlinarith
    linarith [show (s * s / P + a) * P = s * s / P * P + a * P by ring]
  generalize s * s / P = x at *
  generalize t * t / P = y at *
  have h1 : t * (x + a) ≤ s * (y + a) := by
    have h2 : s * (x + (t - s) * J) ≤ s * y := mul_le_mul_of_nonneg_left hd (by omega)
    have h3 : (t - s) * (x + a) ≤ (t - s) * (s * J) := mul_le_mul_of_nonneg_left key (by omega)
    nlinarith
  nlinarith

/-- Both quotients at one, which is 32/41, leave room below a quarter turn. -/
theorem quo_at_one (F : ℕ) (h0 : 0 < F) : 2 * (2 ^ F * 2 ^ F / (2 ^ F + aRaw F)) ≤ halfRaw F := by
  by_cases hF : F < 9
  · interval_cases F <;> decide +kernel
  · have hP : (512:ℤ) ≤ 2 ^ F := by
      calc (512:ℤ) = 2 ^ 9 := by norm_num
        _ ≤ 2 ^ F := pow_le_pow_right₀ (by norm_num) (by omega)
    have ha : 32 * aRaw F = 9 * 2 ^ F := by
      have e : (9 / 32 : ℚ) * 2 ^ F = ((9 * 2 ^ (F - 5) : ℤ) : ℚ) := by
        obtain ⟨k, rfl⟩ : ∃ k, F = k + 5 := ⟨F - 5, by omega⟩
        rw [Nat.add_sub_cancel, pow_add]; push_cast; ring
      have : aRaw F = 9 * 2 ^ (F - 5) := by unfold aRaw; rw [e, roundHalfEven_intCast]
      rw [this]
      obtain ⟨k, rfl⟩ : ∃ k, F = k + 5 := ⟨F - 5, by omega⟩
      rw [Nat.add_sub_cancel, pow_add]; norm_num; ring
    have hpi : (3141 * 2 ^ F : ℤ) ≤ 1000 * piRaw F + 1000 := by
      have h1 := abs_roundHalfEven_sub (piLit * 2 ^ F)
      have h2 : (piRaw F : ℚ) = roundHalfEven (piLit * 2 ^ F) := rfl
      rw [← h2] at h1
      have h3 := (abs_le.mp h1).1
      have h4 : (3.141 : ℚ) ≤ piLit := by rw [piLit_eq]; norm_num
      have h5 : (3.141 : ℚ) * 2 ^ F ≤ piLit * 2 ^ F := mul_le_mul_of_nonneg_right h4 (by positivity)
      have h6 : (3141 * 2 ^ F : ℚ) ≤ 1000 * piRaw F + 1000 := by linarith
      exact_mod_cast h6
    obtain ⟨-, -, -, hh⟩ := halfRaw_bounds F
    have hq : 2 ^ F * 2 ^ F / (2 ^ F + aRaw F) * 41 ≤ 32 * 2 ^ F := by
      have h1 : 2 ^ F * 2 ^ F / (2 ^ F + aRaw F) * (2 ^ F + aRaw F) ≤ 2 ^ F * 2 ^ F := Int.ediv_mul_le _ (by omega)
      generalize (2:ℤ) ^ F * 2 ^ F / (2 ^ F + aRaw F) = q at *
      generalize (2:ℤ) ^ F = P at *
      have h2 : q * (41 * P) ≤ 32 * (P * P) := by nlinarith
      nlinarith
    omega

theorem quo_at_zero : (2:ℤ) ^ 0 * 2 ^ 0 / (2 ^ 0 + aRaw 0) ≤ 1 := by
  obtain ⟨a0, -⟩ := aRaw_bounds 0
  exact Int.ediv_le_self _ (by norm_num)

theorem atanInt_low {x : ℤ} (h0 : 0 ≤ x) (h : x < 2 ^ F) :
    atanInt F x = x * 2 ^ F / (2 ^ F + aRaw F * (x * x / 2 ^ F) / 2 ^ F) := by
  have hP : (0:ℤ) < 2 ^ F := by positivity
  unfold atanInt
  rw [if_pos (by rwa [abs_of_nonneg h0]), Int.tdiv_eq_ediv_of_nonneg (by positivity)]

theorem atanInt_high {x : ℤ} (h : 2 ^ F ≤ x) : atanInt F x = halfRaw F - x * 2 ^ F / (x * x / 2 ^ F + aRaw F) := by
  have hP : (0:ℤ) < 2 ^ F := by positivity
  unfold atanInt
  rw [if_neg (by rw [abs_of_nonneg (by omega)]; omega), if_pos (by omega), Int.tdiv_eq_ediv_of_nonneg (mul_nonneg (by omega) hP.le)]

theorem atanInt_mono_nonneg {x y : ℤ} (h0 : 0 ≤ x) (h : x ≤ y) : atanInt F x ≤ atanInt F y := by
  have hP : (0:ℤ) < 2 ^ F := by positivity
  rcases lt_or_ge y (2 ^ F) with hy | hy
  · rw [atanInt_low h0 (by omega), atanInt_low (by omega) hy]
    exact quo_mono_low h0 h hy.le
  rcases lt_or_ge x (2 ^ F) with hx | hx
  · rw [atanInt_low h0 hx, atanInt_high hy]
    have h1 := quo_mono_low (F := F) h0 hx.le le_rfl
    have h2 := quo_mono_high (F := F) le_rfl hy
    rw [Int.mul_ediv_cancel _ hP.ne'] at h2
    rw [Int.mul_ediv_cancel _ hP.ne', Int.mul_ediv_cancel _ hP.ne'] at h1
    rcases Nat.eq_zero_or_pos F with rfl | hF
    · have h3 : x = 0 := by simp at hx; omega
      have h4 := quo_at_zero
      have h5 := (halfRaw_bounds 0).1
      subst h3
      simp only [zero_mul, Int.zero_ediv]
      simp only [pow_zero, one_mul] at h2 h4 ⊢
      omega
    · have := quo_at_one F hF
      omega
  · rw [atanInt_high hx, atanInt_high hy]
    have := quo_mono_high (F := F) hx h
    omega

theorem atanInt_zero : atanInt F 0 = 0 := by
  rw [atanInt_low le_rfl (by positivity)]; simp

theorem atanInt_mono {x y : ℤ} (h : x ≤ y) : atanInt F x ≤ atanInt F y := by
  rcases le_or_gt 0 x with h0 | h0
  · exact atanInt_mono_nonneg h0 h
  rcases le_or_gt 0 y with h1 | h1
  · have a1 := atanInt_mono_nonneg (F := F) (x := 0) (y := -x) le_rfl (by omega)
    have a2 := atanInt_mono_nonneg (F := F) (x := 0) (y := y) le_rfl h1
    rw [atanInt_neg, atanInt_zero] at a1
    rw [atanInt_zero] at a2
    omega
  · have := atanInt_mono_nonneg (F := F) (x := -y) (y := -x) (by omega) (by omega)
    rw [atanInt_neg, atanInt_neg] at this
    omega

theorem abs_atanInt_le (x : ℤ) : |atanInt F x| ≤ halfRaw F := by
  have hP : (0:ℤ) < 2 ^ F := by positivity
  obtain ⟨a0, -⟩ := aRaw_bounds F
  have key : ∀ x : ℤ, 0 ≤ x → 0 ≤ atanInt F x ∧ atanInt F x ≤ halfRaw F := by
    intro x hx
    have h1 := atanInt_mono_nonneg (F := F) le_rfl hx
    rw [atanInt_zero] at h1
    refine ⟨h1, (atanInt_mono_nonneg hx (le_max_left x (2 ^ F))).trans ?_⟩
    rw [atanInt_high (le_max_right _ _)]
    have : 0 ≤ max x (2 ^ F) * 2 ^ F / (max x (2 ^ F) * max x (2 ^ F) / 2 ^ F + aRaw F) :=
      Int.ediv_nonneg (by positivity) (add_nonneg (Int.ediv_nonneg (mul_self_nonneg _) hP.le) a0)
    omega
  rcases le_or_gt 0 x with h | h
  · obtain ⟨h1, h2⟩ := key x h
    rw [abs_of_nonneg h1]; exact h2
  · obtain ⟨h1, h2⟩ := key (-x) (by omega)
    rw [atanInt_neg] at h1 h2
    rw [abs_of_nonpos (by omega)]; exact h2

/-- The value of `atan`, where nothing overflows. -/
theorem atan_value (h : F + 3 ≤ W) (x a : Fixed m true W F) (ha : (Lit.ofF64 (9 / 32) : Prog (Fixed m true W F)) = pure a)
    (hx : |x.val| < 2 ^ (W - 1)) (hR : |x.val| < 2 ^ F ∨ x.val * x.val / 2 ^ F + a.val < 2 ^ (W - 1)) :
    ∃ v : Fixed m true W F, atanPoly x = pure v ∧ v.val = atanInt F x.val := by
  obtain ⟨o, ho, vo⟩ := one_eq (m := m) h
  obtain ⟨c1, c2, c3⟩ := one_condition h x.val
  rw [lit_aRaw h ha, ← c3] at hR
  have hD' := (max_sq _ _ _).mp c2
  rw [C44_def x o ho]
  obtain ⟨v, hv, hA⟩ := atan2_value h x o ((fits_iff_lt (abs_nonneg _)).mpr hx)
    ((fits_iff_lt (abs_nonneg _)).mpr (by rw [vo]; exact c1))
    (fun _ _ hc => (fits_iff_lt (den_nonneg hc.le)).mpr (by rw [vo] at hc ⊢; rwa [← denBig_left hc.le]))
    (fun _ _ hc => (fits_iff_lt (den_nonneg hc)).mpr (by rw [vo] at hc ⊢; rwa [← denBig_right hc])) (by rw [vo]; tauto)
  rw [vo] at hA
  exact ⟨v, hv, hA.atanInt⟩

end Fixed

/-! ## C150 -/

/-- C150: with overflow checks, `atan` never falls: if it returns for x and for a larger y, the second result is at least the first. -/
theorem C150_monotone (h : F + 3 ≤ W) (x y u v : Fixed .checked true W F) (hx : Returns (atanPoly x) u) (hy : Returns (atanPoly y) v)
    (hxy : x.val ≤ y.val) : u.val ≤ v.val := by
  have ha : (Lit.ofF64 (9 / 32) : Prog (Fixed .checked true W F)) = pure (Fixed.mkv _ (Fixed.fits_aRaw h)) := Fixed.fit_of_fits _
  obtain ⟨x1, x2⟩ := (C105_returns h x _ ha).mp ⟨u, hx⟩
  obtain ⟨y1, y2⟩ := (C105_returns h y _ ha).mp ⟨v, hy⟩
  obtain ⟨u', hu, eu⟩ := Fixed.atan_value h x _ ha x1 x2
  obtain ⟨v', hv, ev⟩ := Fixed.atan_value h y _ ha y1 y2
  rw [hx.unique (.of_eq hu), hy.unique (.of_eq hv), eu, ev]
  exact Fixed.atanInt_mono hxy

example := C150_monotone (W := 16) (F := 8) (by decide) (fx .checked true 16 8 100) (fx .checked true 16 8 700) (fx .checked true 16 8 96)
  (fx .checked true 16 8 312) (by run 0) (by run 0) (by decide)

/-- C150: in either mode, where nothing overflows, `atan` returns and never falls. -/
theorem C150_monotone_release (h : F + 3 ≤ W) (x y a : Fixed m true W F) (ha : (Lit.ofF64 (9 / 32) : Prog (Fixed m true W F)) = pure a)
    (hx : |x.val| < 2 ^ (W - 1)) (hR : |x.val| < 2 ^ F ∨ x.val * x.val / 2 ^ F + a.val < 2 ^ (W - 1))
    (hy : |y.val| < 2 ^ (W - 1)) (hR' : |y.val| < 2 ^ F ∨ y.val * y.val / 2 ^ F + a.val < 2 ^ (W - 1)) (hxy : x.val ≤ y.val) :
    ∃ u v, Returns (atanPoly x) u ∧ Returns (atanPoly y) v ∧ u.val ≤ v.val := by
  obtain ⟨u, hu, eu⟩ := Fixed.atan_value h x a ha hx hR
  obtain ⟨v, hv, ev⟩ := Fixed.atan_value h y a ha hy hR'
  exact ⟨u, v, .of_eq hu, .of_eq hv, by rw [eu, ev]; exact Fixed.atanInt_mono hxy⟩

example := C150_monotone_release (m := .wrapping) (W := 16) (F := 8) (by decide) (fx .wrapping true 16 8 100) (fx .wrapping true 16 8 700)
  (fx .wrapping true 16 8 72) (by kernel_rfl) (by decide) (by decide) (by decide) (by decide) (by decide)

/-- C150: `atan` is odd, to the last bit, and never exceeds half the type's pi. -/
theorem C150_odd (h : F + 3 ≤ W) (x y u p : Fixed .checked true W F) (hp : (MixedPi.pi : Prog (Fixed .checked true W F)) = pure p)
    (hx : Returns (atanPoly x) u) (hxy : y.val = -x.val) :
    2 * |u.val| ≤ p.val ∧ ∃ v, Returns (atanPoly y) v ∧ v.val = -u.val := by
  have ha : (Lit.ofF64 (9 / 32) : Prog (Fixed .checked true W F)) = pure (Fixed.mkv _ (Fixed.fits_aRaw h)) := Fixed.fit_of_fits _
  obtain ⟨x1, x2⟩ := (C105_returns h x _ ha).mp ⟨u, hx⟩
  obtain ⟨u', hu, eu⟩ := Fixed.atan_value h x _ ha x1 x2
  obtain rfl := hx.unique (.of_eq hu)
  obtain ⟨v, hv, ev⟩ := Fixed.atan_value h y _ ha (by rwa [hxy, abs_neg]) (by rw [hxy, abs_neg, neg_mul_neg]; exact x2)
  have epi : p.val = Fixed.piRaw F := by rw [Fixed.pi_def h] at hp; rw [← Prog.pure_inj hp]; rfl
  refine ⟨?_, v, .of_eq hv, by rw [ev, eu, hxy, Fixed.atanInt_neg]⟩
  have h1 := Fixed.abs_atanInt_le (F := F) x.val
  obtain ⟨-, -, h2, -⟩ := Fixed.halfRaw_bounds F
  rw [eu, epi]; omega

/-- Two neighbours on either side of one. -/
example : Returns (atanPoly (fx .checked true 32 16 65535)) (fx .checked true 32 16 51149) ∧
    Returns (atanPoly (fx .checked true 32 16 65536)) (fx .checked true 32 16 51793) := by
  constructor <;> run 1

end MixedNum
