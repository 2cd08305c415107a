import Mathlib.Tactic.Positivity
import Mathlib.Tactic.FieldSimp
import Mathlib.Algebra.Order.Field.Power
import Mathlib.Data.Nat.Log
import Verif.Lemmas.Round
/-! Rounding to a binary format: monotone, identity on representable numbers, error at most half a unit. -/

namespace MixedNum

theorem pow2_eq (e : ℤ) : pow2 e = (2:ℚ) ^ e := by
  unfold pow2
  split
  next h => rw [← zpow_natCast, Int.toNat_of_nonneg h]
  next h =>
    rw [one_div, ← zpow_natCast, ← zpow_neg, Int.toNat_of_nonneg (by omega)]; congr 1; ring

theorem two_zpow_pos (e : ℤ) : (0:ℚ) < 2 ^ e := zpow_pos (by norm_num) e
theorem two_zpow_le {a b : ℤ} (h : a ≤ b) : (2:ℚ) ^ a ≤ 2 ^ b := zpow_le_zpow_right₀ (by norm_num) h
theorem two_zpow_lt {a b : ℤ} (h : a < b) : (2:ℚ) ^ a < 2 ^ b := zpow_lt_zpow_right₀ (by norm_num) h
theorem lt_of_two_zpow_lt {a b : ℤ} (h : (2:ℚ) ^ a < 2 ^ b) : a < b := (zpow_lt_zpow_iff_right₀ (by norm_num)).mp h
theorem two_zpow_add (a b : ℤ) : (2:ℚ) ^ (a + b) = 2 ^ a * 2 ^ b := zpow_add₀ (by norm_num) a b

theorem ilog2_spec {q : ℚ} (hq : 0 < q) : (2:ℚ) ^ ilog2 q ≤ q ∧ q < 2 ^ (ilog2 q + 1) := by
  have hn : 0 < q.num := Rat.num_pos.mpr hq
  have hd : 0 < q.den := q.den_pos
  set a := Nat.log2 q.num.natAbs
  set b := Nat.log2 q.den
  have hna : q.num.natAbs ≠ 0 := by omega
  have h1 : 2 ^ a ≤ q.num.natAbs := Nat.log2_self_le hna
  have h2 : q.num.natAbs < 2 ^ (a + 1) := Nat.lt_log2_self
  have h3 : 2 ^ b ≤ q.den := Nat.log2_self_le hd.ne'
  have h4 : q.den < 2 ^ (b + 1) := Nat.lt_log2_self
  have hnq : (q.num.natAbs : ℚ) = q.num := by
    have : (q.num.natAbs : ℤ) = q.num := by omega
    rw [← Int.cast_natCast, this]
  have h1' : (2:ℚ) ^ (a:ℤ) ≤ q.num := by rw [← hnq, zpow_natCast]; exact_mod_cast h1
  have h2' : (q.num : ℚ) < 2 ^ ((a:ℤ) + 1) := by
    rw [← hnq, show ((a:ℤ) + 1) = ((a + 1 : ℕ) : ℤ) by push_cast; ring, zpow_natCast]; exact_mod_cast h2
  have h3' : (2:ℚ) ^ (b:ℤ) ≤ q.den := by rw [zpow_natCast]; exact_mod_cast h3
  have h4' : (q.den : ℚ) < 2 ^ ((b:ℤ) + 1) := by
    rw [show ((b:ℤ) + 1) = ((b + 1 : ℕ) : ℤ) by push_cast; ring, zpow_natCast]; exact_mod_cast h4
  have hdq : (0:ℚ) < q.den := by exact_mod_cast hd
  have hqe : q = q.num / q.den := (Rat.num_div_den q).symm
  have hlow : (2:ℚ) ^ ((a:ℤ) - b - 1) < q := by
    rw [hqe, lt_div_iff₀ hdq]
    calc (2:ℚ) ^ ((a:ℤ) - b - 1) * q.den < 2 ^ ((a:ℤ) - b - 1) * 2 ^ ((b:ℤ) + 1) := by
          exact mul_lt_mul_of_pos_left h4' (two_zpow_pos _)
      _ = 2 ^ (a:ℤ) := by rw [← two_zpow_add]; congr 1; ring
      _ ≤ q.num := h1'
  have hhigh : q < (2:ℚ) ^ ((a:ℤ) - b + 1) := by
    rw [hqe, div_lt_iff₀ hdq]
    calc (q.num : ℚ) < 2 ^ ((a:ℤ) + 1) := h2'
      _ = 2 ^ ((a:ℤ) - b + 1) * 2 ^ (b:ℤ) := by rw [← two_zpow_add]; congr 1; ring
      _ ≤ 2 ^ ((a:ℤ) - b + 1) * q.den := mul_le_mul_of_nonneg_left h3' (two_zpow_pos _).le
  unfold ilog2
  simp only [pow2_eq]
  split
  next h => exact ⟨h, hhigh⟩
  next h =>
    refine ⟨hlow.le, ?_⟩
    rw [sub_add_cancel]; exact not_le.mp h

theorem ilog2_lt {q : ℚ} (hq : 0 < q) {e : ℤ} (h : q < 2 ^ e) : ilog2 q < e :=
  lt_of_two_zpow_lt ((ilog2_spec hq).1.trans_lt h)
theorem le_ilog2 {q : ℚ} (hq : 0 < q) {e : ℤ} (h : (2:ℚ) ^ e ≤ q) : e ≤ ilog2 q := by
  have := lt_of_two_zpow_lt (h.trans_lt (ilog2_spec hq).2); omega
theorem ilog2_mono {a b : ℚ} (ha : 0 < a) (h : a ≤ b) : ilog2 a ≤ ilog2 b :=
  le_ilog2 (ha.trans_le h) ((ilog2_spec ha).1.trans h)

/-- Exponent of the last place of the result of rounding `q`. -/
def ulpExp (p : ℕ) (emin : ℤ) (q : ℚ) : ℤ := max (ilog2 q - (p - 1)) emin

theorem roundTo_pos {p : ℕ} {emin : ℤ} {q : ℚ} (hq : 0 < q) :
    roundTo p emin q = roundHalfEven (q / 2 ^ ulpExp p emin q) * 2 ^ ulpExp p emin q := by
  unfold roundTo
  rw [if_neg hq.ne']
  simp only [pow2_eq, abs_of_pos hq]
  rfl

@[simp] theorem roundTo_zero {p : ℕ} {emin : ℤ} : roundTo p emin 0 = 0 := by simp [roundTo]

theorem ulpExp_mono {p : ℕ} {emin : ℤ} {a b : ℚ} (ha : 0 < a) (h : a ≤ b) : ulpExp p emin a ≤ ulpExp p emin b := by
  unfold ulpExp; have := ilog2_mono ha h; omega

/-- `q` is a number of the format (exponent overflow aside). -/
def Rep (p : ℕ) (emin : ℤ) (q : ℚ) : Prop := ∃ n : ℤ, ∃ e : ℤ, emin ≤ e ∧ |n| < 2 ^ p ∧ q = n * 2 ^ e

theorem Rep.zero {p : ℕ} {emin : ℤ} : Rep p emin 0 := ⟨0, emin, le_refl _, by simp, by simp⟩
theorem Rep.neg {p : ℕ} {emin : ℤ} {q : ℚ} (h : Rep p emin q) : Rep p emin (-q) := by
  obtain ⟨n, e, h1, h2, h3⟩ := h; exact ⟨-n, e, h1, by rwa [abs_neg], by rw [h3]; push_cast; ring⟩
theorem Rep.abs {p : ℕ} {emin : ℤ} {q : ℚ} (h : Rep p emin q) : Rep p emin |q| := by
  rcases abs_cases q with ⟨e, _⟩ | ⟨e, _⟩ <;> rw [e]
  · exact h
  · exact h.neg
theorem Rep.two_mul {p : ℕ} {emin : ℤ} {q : ℚ} (h : Rep p emin q) : Rep p emin (2 * q) := by
  obtain ⟨n, e, h1, h2, h3⟩ := h
  exact ⟨n, e + 1, by omega, h2, by rw [h3, two_zpow_add]; ring⟩
theorem Rep.zpow {p : ℕ} {emin e : ℤ} (hp : 1 ≤ p) (h : emin ≤ e) : Rep p emin (2 ^ e) :=
  ⟨1, e, h, by rw [abs_one]; exact one_lt_pow₀ (by norm_num) (by omega), by simp⟩

/-- A number of the format is a whole number of units in its own last place. -/
theorem Rep.units {p : ℕ} {emin : ℤ} {q : ℚ} (hq : 0 < q) (h : Rep p emin q) : ∃ k : ℤ, q = k * 2 ^ ulpExp p emin q := by
  obtain ⟨n, e, h1, h2, h3⟩ := h
  by_cases hu : ulpExp p emin q ≤ e
  · obtain ⟨d, hd⟩ := Int.le.dest hu
    refine ⟨n * 2 ^ d, ?_⟩
    rw [← hd, two_zpow_add, zpow_natCast] at h3
    rw [h3, ← h3]; push_cast; linarith
  · exfalso
    have hlt : q < 2 ^ ((p:ℤ) + e) := by
      rw [h3, two_zpow_add, zpow_natCast]
      have : (n:ℚ) < 2 ^ p := by exact_mod_cast (abs_lt.mp h2).2
      exact mul_lt_mul_of_pos_right this (two_zpow_pos _)
    have := ilog2_lt hq hlt
    unfold ulpExp at hu; omega

theorem Rep.units_of_le {p : ℕ} {emin : ℤ} {q : ℚ} (hq : 0 < q) (h : Rep p emin q) {u : ℤ} (hu : u ≤ ulpExp p emin q) :
    ∃ k : ℤ, q = k * 2 ^ u := by
  obtain ⟨k, hk⟩ := h.units hq
  obtain ⟨d, hd⟩ := Int.le.dest hu
  refine ⟨k * 2 ^ d, ?_⟩
  rw [hk]; rw [← hd, two_zpow_add, zpow_natCast]; push_cast; ring

theorem Rep.units_emin {p : ℕ} {emin : ℤ} {q : ℚ} (h : Rep p emin q) : ∃ k : ℤ, q = k * 2 ^ emin := by
  obtain ⟨n, e, h1, _, h3⟩ := h
  obtain ⟨d, hd⟩ := Int.le.dest h1
  exact ⟨n * 2 ^ d, by rw [h3, ← hd, two_zpow_add, zpow_natCast]; push_cast; ring⟩

/-- Rounding does not change a number of the format. -/
theorem roundTo_rep {p : ℕ} {emin : ℤ} {q : ℚ} (hq : 0 ≤ q) (h : Rep p emin q) : roundTo p emin q = q := by
  rcases hq.eq_or_lt with rfl | hq
  · simp
  obtain ⟨k, hk⟩ := h.units hq
  have hu := two_zpow_pos (ulpExp p emin q)
  rw [roundTo_pos hq, show q / 2 ^ ulpExp p emin q = (k:ℚ) by rw [div_eq_iff hu.ne', ← hk], roundHalfEven_intCast, ← hk]

theorem roundTo_nonneg {p : ℕ} {emin : ℤ} {q : ℚ} (hq : 0 ≤ q) : 0 ≤ roundTo p emin q := by
  rcases hq.eq_or_lt with rfl | hq
  · simp
  rw [roundTo_pos hq]
  have hu := two_zpow_pos (ulpExp p emin q)
  have : 0 ≤ roundHalfEven (q / 2 ^ ulpExp p emin q) := le_roundHalfEven_of_le (by push_cast; positivity)
  have : (0:ℚ) ≤ roundHalfEven (q / 2 ^ ulpExp p emin q) := by exact_mod_cast this
  positivity

/-- The result of rounding is a number of the format. -/
theorem rep_roundTo {p : ℕ} {emin : ℤ} (hp : 1 ≤ p) {q : ℚ} (hq : 0 ≤ q) : Rep p emin (roundTo p emin q) := by
  rcases hq.eq_or_lt with rfl | hq
  · simpa using Rep.zero
  set u := ulpExp p emin q with hu
  have hpos := two_zpow_pos u
  have h0 : 0 ≤ roundHalfEven (q / 2 ^ u) := le_roundHalfEven_of_le (by push_cast; positivity)
  have hlt : q / 2 ^ u ≤ ((2 ^ p : ℤ) : ℚ) := by
    rw [div_le_iff₀ hpos]
    have h1 := (ilog2_spec hq).2.le
    refine h1.trans ?_
    push_cast
    rw [← zpow_natCast (2:ℚ) p, ← two_zpow_add]
    apply two_zpow_le
    have : ilog2 q - (p - 1) ≤ u := le_max_left _ _
    omega
  have h1 : roundHalfEven (q / 2 ^ u) ≤ 2 ^ p := roundHalfEven_le_of_le hlt
  have hmin : emin ≤ u := le_max_right _ _
  rw [roundTo_pos hq]
  rcases h1.eq_or_lt with h1 | h1
  · refine ⟨2 ^ (p - 1), u + 1, by omega, ?_, ?_⟩
    · rw [abs_of_pos (by positivity)]; exact pow_lt_pow_right₀ (by norm_num) (by omega)
    · rw [← hu, h1, two_zpow_add]
      push_cast
      have : (2:ℚ) ^ p = 2 ^ (p - 1) * 2 := by rw [← pow_succ]; congr 1; omega
      rw [this]; ring
  · exact ⟨_, u, hmin, by rwa [abs_of_nonneg h0], rfl⟩

/-- Rounding is monotone. -/
theorem roundTo_mono {p : ℕ} {emin : ℤ} (hp : 1 ≤ p) {a b : ℚ} (ha : 0 ≤ a) (h : a ≤ b) :
    roundTo p emin a ≤ roundTo p emin b := by
  rcases ha.eq_or_lt with rfl | ha
  · simpa using roundTo_nonneg h
  have hb := ha.trans_le h
  have hua := two_zpow_pos (ulpExp p emin a)
  have hub := two_zpow_pos (ulpExp p emin b)
  rcases (ulpExp_mono (p := p) (emin := emin) ha h).eq_or_lt with he | hlt
  · rw [roundTo_pos ha, roundTo_pos hb, he]
    rw [he] at hua
    refine mul_le_mul_of_nonneg_right ?_ hub.le
    exact_mod_cast roundHalfEven_mono (div_le_div_of_nonneg_right h hub.le)
  · -- the power of two between them
    have h1 : ulpExp p emin b = ilog2 b - (p - 1) := by
      unfold ulpExp at hlt ⊢; have := ilog2_mono ha h; omega
    have h2 : ilog2 a + 1 ≤ ilog2 b := by unfold ulpExp at hlt; omega
    have hab : a ≤ 2 ^ ilog2 b := (ilog2_spec ha).2.le.trans (two_zpow_le h2)
    have hbb : (2:ℚ) ^ ilog2 b ≤ b := (ilog2_spec hb).1
    have key : ∀ u : ℤ, u ≤ ilog2 b → ∃ k : ℤ, (2:ℚ) ^ ilog2 b = k * 2 ^ u := by
      intro u hu
      obtain ⟨d, hd⟩ := Int.le.dest hu
      exact ⟨2 ^ d, by rw [← hd, two_zpow_add, zpow_natCast]; push_cast; ring⟩
    obtain ⟨k, hk⟩ := key (ulpExp p emin a) (by omega)
    obtain ⟨l, hl⟩ := key (ulpExp p emin b) (by omega)
    trans (2:ℚ) ^ ilog2 b
    · rw [roundTo_pos ha, hk]
      refine mul_le_mul_of_nonneg_right ?_ hua.le
      have : a / 2 ^ ulpExp p emin a ≤ (k:ℚ) := by rw [div_le_iff₀ hua, ← hk]; exact hab
      exact_mod_cast roundHalfEven_le_of_le this
    · rw [roundTo_pos hb, hl]
      refine mul_le_mul_of_nonneg_right ?_ hub.le
      have : (l:ℚ) ≤ b / 2 ^ ulpExp p emin b := by rw [le_div_iff₀ hub, ← hl]; exact hbb
      exact_mod_cast le_roundHalfEven_of_le this

theorem roundTo_le_rep {p : ℕ} {emin : ℤ} (hp : 1 ≤ p) {a b : ℚ} (ha : 0 ≤ a) (h : a ≤ b) (hb : Rep p emin b) :
    roundTo p emin a ≤ b := (roundTo_mono hp ha h).trans_eq (roundTo_rep (ha.trans h) hb)
theorem rep_le_roundTo {p : ℕ} {emin : ℤ} (hp : 1 ≤ p) {a b : ℚ} (ha : 0 ≤ a) (h : a ≤ b) (hr : Rep p emin a) :
    a ≤ roundTo p emin b := (roundTo_rep ha hr).symm.trans_le (roundTo_mono hp ha h)

/-- The rounding error is at most half a unit in the last place. -/
theorem abs_roundTo_sub {p : ℕ} {emin : ℤ} {q : ℚ} (hq : 0 < q) :
    |roundTo p emin q - q| ≤ 2 ^ ulpExp p emin q / 2 := by
  have hu := two_zpow_pos (ulpExp p emin q)
  rw [roundTo_pos hq]
  have h := abs_roundHalfEven_sub (q / 2 ^ ulpExp p emin q)
  calc _ = |(roundHalfEven (q / 2 ^ ulpExp p emin q) - q / 2 ^ ulpExp p emin q) * 2 ^ ulpExp p emin q| := by
        congr 1; field_simp
    _ = |(roundHalfEven (q / 2 ^ ulpExp p emin q) : ℚ) - q / 2 ^ ulpExp p emin q| * 2 ^ ulpExp p emin q := by
        rw [abs_mul, abs_of_pos hu]
    _ ≤ 1 / 2 * 2 ^ ulpExp p emin q := mul_le_mul_of_nonneg_right h hu.le
    _ = _ := by ring

theorem ulpExp_le {p : ℕ} {emin : ℤ} {q : ℚ} (hq : 0 < q) {e : ℤ} (h : q < 2 ^ (e + p)) (he : emin ≤ e) :
    ulpExp p emin q ≤ e := by
  have := ilog2_lt hq h; unfold ulpExp; omega

/-! ### Signed rounding -/

/-- Rounding of a signed rational. -/
def rnd (p : ℕ) (emin : ℤ) (q : ℚ) : ℚ := if q < 0 then -roundTo p emin |q| else roundTo p emin |q|

theorem rnd_neg {p : ℕ} {emin : ℤ} (q : ℚ) : rnd p emin (-q) = -rnd p emin q := by
  unfold rnd
  rcases lt_trichotomy q 0 with h | h | h
  · rw [if_neg (by linarith), if_pos h, abs_neg, neg_neg]
  · subst h; simp
  · rw [if_pos (by linarith), if_neg (by linarith), abs_neg]

theorem rnd_nonneg_eq {p : ℕ} {emin : ℤ} {q : ℚ} (h : 0 ≤ q) : rnd p emin q = roundTo p emin q := by
  rw [rnd, if_neg (not_lt.mpr h), abs_of_nonneg h]

theorem rnd_rep {p : ℕ} {emin : ℤ} {q : ℚ} (h : Rep p emin q) : rnd p emin q = q := by
  unfold rnd
  rw [roundTo_rep (abs_nonneg q) h.abs]
  split
  next h' => rw [abs_of_neg h', neg_neg]
  next h' => rw [abs_of_nonneg (not_lt.mp h')]

theorem rep_rnd {p : ℕ} {emin : ℤ} (hp : 1 ≤ p) (q : ℚ) : Rep p emin (rnd p emin q) := by
  unfold rnd; split
  · exact (rep_roundTo hp (abs_nonneg q)).neg
  · exact rep_roundTo hp (abs_nonneg q)

theorem rnd_mono {p : ℕ} {emin : ℤ} (hp : 1 ≤ p) {a b : ℚ} (h : a ≤ b) : rnd p emin a ≤ rnd p emin b := by
  unfold rnd
  split <;> rename_i ha <;> split <;> rename_i hb
  · rw [neg_le_neg_iff, abs_of_neg ha, abs_of_neg hb]; exact roundTo_mono hp (by linarith) (by linarith)
  · have := roundTo_nonneg (p := p) (emin := emin) (abs_nonneg a)
    have := roundTo_nonneg (p := p) (emin := emin) (abs_nonneg b)
    linarith
  · exact absurd hb (by linarith)
  · rw [abs_of_nonneg (not_lt.mp ha), abs_of_nonneg (not_lt.mp hb)]; exact roundTo_mono hp (not_lt.mp ha) h

theorem rnd_le_rep {p : ℕ} {emin : ℤ} (hp : 1 ≤ p) {a b : ℚ} (h : a ≤ b) (hb : Rep p emin b) : rnd p emin a ≤ b :=
  (rnd_mono hp h).trans_eq (rnd_rep hb)
theorem rep_le_rnd {p : ℕ} {emin : ℤ} (hp : 1 ≤ p) {a b : ℚ} (h : a ≤ b) (hr : Rep p emin a) : a ≤ rnd p emin b :=
  (rnd_rep hr).symm.trans_le (rnd_mono hp h)

theorem abs_rnd {p : ℕ} {emin : ℤ} (q : ℚ) : |rnd p emin q| = roundTo p emin |q| := by
  have := roundTo_nonneg (p := p) (emin := emin) (abs_nonneg q)
  unfold rnd; split
  · rw [abs_neg, abs_of_nonneg this]
  · rw [abs_of_nonneg this]

/-- The error of signed rounding. -/
theorem abs_rnd_sub {p : ℕ} {emin : ℤ} {q : ℚ} (hq : q ≠ 0) : |rnd p emin q - q| ≤ 2 ^ ulpExp p emin |q| / 2 := by
  have h := abs_roundTo_sub (p := p) (emin := emin) (abs_pos.mpr hq)
  unfold rnd
  split
  next h' =>
    rw [show -roundTo p emin |q| - q = -(roundTo p emin |q| - |q|) by rw [abs_of_neg h']; ring, abs_neg]; exact h
  next h' => rwa [show roundTo p emin |q| - q = roundTo p emin |q| - |q| by rw [abs_of_nonneg (not_lt.mp h')]]

theorem abs_rnd_sub_le {p : ℕ} {emin : ℤ} {q : ℚ} {e : ℤ} (h : |q| < 2 ^ (e + p)) (he : emin ≤ e) :
    |rnd p emin q - q| ≤ 2 ^ e / 2 := by
  have hpos := two_zpow_pos e
  by_cases hq : q = 0
  · subst hq; simp [rnd]; positivity
  · refine (abs_rnd_sub hq).trans ?_
    have := two_zpow_le (ulpExp_le (p := p) (emin := emin) (abs_pos.mpr hq) h he)
    linarith

/-- Relative error of rounding in the normal range. -/
theorem abs_rnd_rel {p : ℕ} {emin : ℤ} {q : ℚ} (h : (2:ℚ) ^ (emin + p - 1) ≤ |q|) :
    |rnd p emin q - q| ≤ |q| * 2 ^ (-(p:ℤ)) := by
  have hq : 0 < |q| := (two_zpow_pos _).trans_le h
  refine (abs_rnd_sub (abs_pos.mp hq)).trans ?_
  have h1 := le_ilog2 hq h
  have h2 := (ilog2_spec hq).1
  have e : ulpExp p emin |q| = ilog2 |q| + (-(p:ℤ)) + 1 := by unfold ulpExp; omega
  rw [e, two_zpow_add, two_zpow_add, zpow_one, mul_div_assoc, div_self (by norm_num : (2:ℚ) ≠ 0), mul_one]
  exact mul_le_mul_of_nonneg_right h2 (two_zpow_pos _).le

/-- Absolute error of rounding: relative part plus half the least subnormal. -/
theorem abs_rnd_le {p : ℕ} {emin : ℤ} (q : ℚ) : |rnd p emin q - q| ≤ |q| * 2 ^ (-(p:ℤ)) + 2 ^ emin / 2 := by
  have hu := two_zpow_pos emin
  have hv := two_zpow_pos (-(p:ℤ))
  rcases le_or_gt ((2:ℚ) ^ (emin + p - 1)) |q| with h | h
  · exact (abs_rnd_rel h).trans (by linarith)
  · have := abs_rnd_sub_le (p := p) (emin := emin) (h.trans (two_zpow_lt (by omega : emin + p - 1 < emin + p))) le_rfl
    have : 0 ≤ |q| * 2 ^ (-(p:ℤ)) := by positivity
    linarith

end MixedNum
