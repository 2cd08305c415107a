import Verif.Lemmas.FloatSqrtTable
/-! Integer powers on floats: relative error of exponentiation by squaring. -/

namespace MixedNum
namespace Flt
variable {f : Format}

/-- Unit roundoff. -/
def uq (f : Format) : ℚ := 2 ^ (-(f.p : ℤ))

theorem uq_pos : 0 < uq f := two_zpow_pos _

theorem uq_le (hf : f.Wide) : uq f ≤ 1 / 10 ^ 7 := by
  refine (two_zpow_le (by have := hf.p; omega : -(f.p:ℤ) ≤ -24)).trans ?_
  norm_num

/-- `k` roundings stay below a factor 4/3 as long as `k ≤ 2^(p-2)`. -/
theorem pow_le_of_small (hf : f.Wide) {k : ℕ} (hk : k ≤ 2 ^ (f.p - 2)) : (1 + uq f) ^ k ≤ 4 / 3 := by
  have hu := uq_pos (f := f); have hu' := uq_le hf
  have h1 : 1 + (k:ℚ) * -uq f ≤ (1 + -uq f) ^ k := one_add_mul_le_pow (by linarith) k
  have h2 : (k:ℚ) * uq f ≤ 1 / 4 := by
    have : (k:ℚ) ≤ 2 ^ (f.p - 2) := by exact_mod_cast hk
    have h3 := mul_le_mul_of_nonneg_right this hu.le
    refine h3.trans ?_
    have hp := hf.p
    unfold uq
    rw [← zpow_natCast, ← two_zpow_add, show ((f.p - 2 : ℕ) : ℤ) + -(f.p:ℤ) = -2 by omega]; norm_num
  have h4 : (1 + uq f) ^ k * (1 + -uq f) ^ k ≤ 1 := by
    rw [← mul_pow]; apply pow_le_one₀ <;> nlinarith
  have h5 : (3:ℚ) / 4 ≤ (1 + -uq f) ^ k := by linarith
  have h6 : 0 ≤ (1 + uq f) ^ k := by positivity
  nlinarith

/-- `x` is `A` up to `k` relative roundings. -/
def Rel (x : Flt f) (A : ℚ) (k : ℕ) : Prop := ∃ q, Is x q ∧ |q - A| ≤ ((1 + uq f) ^ k - 1) * |A|

theorem Is.rel {x : Flt f} {q : ℚ} (h : Is x q) : Rel x q 0 := ⟨q, h, by simp⟩

/-- Rounding a number in the normal range. -/
theorem rel_round (hf : f.Wide) {q A : ℚ} {k : ℕ} (h : |q - A| ≤ ((1 + uq f) ^ k - 1) * |A|) (hk : (1 + uq f) ^ k ≤ 4 / 3)
    (hlo : (2:ℚ) ^ (f.emin + f.p) ≤ |A|) (hhi : 2 * |A| ≤ 2 ^ f.emax) :
    |rnd f.p f.emin q| < 2 ^ f.emax ∧ |rnd f.p f.emin q - A| ≤ ((1 + uq f) ^ (k + 1) - 1) * |A| := by
  have hu := uq_pos (f := f); have hu' := uq_le hf
  have hA : 0 < |A| := (two_zpow_pos _).trans_le hlo
  have h1 : |q| ≤ (1 + uq f) ^ k * |A| := by
    have := abs_sub_abs_le_abs_sub q A; linarith
  have h2 : 2 / 3 * |A| ≤ |q| := by
    have h3 := abs_sub_abs_le_abs_sub A q; rw [abs_sub_comm] at h3
    have := mul_le_mul_of_nonneg_right hk hA.le
    linarith
  have h4 : |rnd f.p f.emin q - q| ≤ |q| * uq f := by
    apply abs_rnd_rel
    have e : (2:ℚ) ^ (f.emin + f.p) = 2 * 2 ^ (f.emin + f.p - 1) := by
      rw [show f.emin + (f.p:ℤ) = 1 + (f.emin + f.p - 1) by ring, two_zpow_add, zpow_one,
        show 1 + (f.emin + (f.p:ℤ) - 1) - 1 = f.emin + f.p - 1 by ring]
    have := two_zpow_pos (f.emin + f.p - 1)
    rw [e] at hlo; linarith
  have h5 : |q| * uq f ≤ (1 + uq f) ^ k * |A| * uq f := mul_le_mul_of_nonneg_right h1 hu.le
  have h6 : |rnd f.p f.emin q - A| ≤ ((1 + uq f) ^ (k + 1) - 1) * |A| := by
    have := abs_sub_le (rnd f.p f.emin q) q A
    rw [pow_succ]; linarith
  refine ⟨?_, h6⟩
  have h7 := abs_sub_abs_le_abs_sub (rnd f.p f.emin q) A
  have h8 : (1 + uq f) ^ (k + 1) * |A| ≤ 3 / 2 * |A| := by
    apply mul_le_mul_of_nonneg_right _ hA.le
    rw [pow_succ]; nlinarith
  linarith

theorem Rel.mul (hf : f.Wide) {x y : Flt f} {A B : ℚ} {a b : ℕ} (hx : Rel x A a) (hy : Rel y B b)
    (hk : (1 + uq f) ^ (a + b) ≤ 4 / 3) (hlo : (2:ℚ) ^ (f.emin + f.p) ≤ |A * B|) (hhi : 2 * |A * B| ≤ 2 ^ f.emax) :
    Rel (x.mul y) (A * B) (a + b + 1) := by
  obtain ⟨q, hq, hq'⟩ := hx
  obtain ⟨r, hr, hr'⟩ := hy
  have h : |q * r - A * B| ≤ ((1 + uq f) ^ (a + b) - 1) * |A * B| := by
    rw [show q * r - A * B = A * (r - B) + (q - A) * B + (q - A) * (r - B) by ring]
    have h1 : |A * (r - B)| ≤ |A| * (((1 + uq f) ^ b - 1) * |B|) := by
      rw [abs_mul]; exact mul_le_mul_of_nonneg_left hr' (abs_nonneg _)
    have h2 : |(q - A) * B| ≤ ((1 + uq f) ^ a - 1) * |A| * |B| := by
      rw [abs_mul]; exact mul_le_mul_of_nonneg_right hq' (abs_nonneg _)
    have h3 : |(q - A) * (r - B)| ≤ ((1 + uq f) ^ a - 1) * |A| * (((1 + uq f) ^ b - 1) * |B|) := by
      rw [abs_mul]; exact mul_le_mul hq' hr' (abs_nonneg _) ((abs_nonneg _).trans hq')
    have h4 := abs_add_three (A * (r - B)) ((q - A) * B) ((q - A) * (r - B))
    rw [abs_mul A B, pow_add]
    nlinarith
  have := rel_round hf h hk hlo hhi
  exact ⟨_, hq.mul hf.one_le hr this.1, this.2⟩

/-- All powers up to the `n`-th are in the normal range. -/
def PowRange (f : Format) (A : ℚ) (n : ℕ) : Prop :=
  ∀ j, 1 ≤ j → j ≤ n → (2:ℚ) ^ (f.emin + f.p) ≤ |A ^ j| ∧ 2 * |A ^ j| ≤ 2 ^ f.emax

theorem powRange (hf : f.Wide) {A : ℚ} {n : ℕ} (hlo : (2:ℚ) ^ (f.emin + f.p) ≤ |A| ^ n) (hhi : 2 * |A| ^ n ≤ 2 ^ f.emax) :
    PowRange f A n := by
  have hp := hf.p; have hmin := hf.emin; have hmax := hf.emax
  have l1 : (2:ℚ) ^ (f.emin + f.p) ≤ 1 := zpow_le_one_of_nonpos₀ (by norm_num) (by omega)
  have l2 : (2:ℚ) * 1 ≤ 2 ^ f.emax := by
    calc (2:ℚ) * 1 = 2 ^ 1 := by norm_num
      _ ≤ _ := pow_le_pow_right₀ (by norm_num) (by omega)
  intro j _ h2
  rw [abs_pow]
  rcases le_total 1 |A| with h | h
  · have h3 := one_le_pow₀ (n := j) h
    have h4 := pow_le_pow_right₀ h h2
    exact ⟨l1.trans h3, (by linarith : 2 * |A| ^ j ≤ 2 * |A| ^ n).trans hhi⟩
  · have h3 := pow_le_one₀ (n := j) (abs_nonneg A) h
    have h4 := pow_le_pow_of_le_one (abs_nonneg A) h h2
    exact ⟨hlo.trans h4, (by linarith : 2 * |A| ^ j ≤ 2 * 1).trans l2⟩

/-- One multiplication of two powers. -/
theorem Rel.mul_pow (hf : f.Wide) {A : ℚ} {n w i j : ℕ} (hr : PowRange f A n) (hn : w * n ≤ 2 ^ (f.p - 2)) (hw : 1 ≤ w)
    (hi : 1 ≤ i) (hj : 1 ≤ j) (hij : i + j ≤ n) {x y : Flt f} (hx : Rel x (A ^ i) (w * i - 1)) (hy : Rel y (A ^ j) (w * j - 1)) :
    Rel (x.mul y) (A ^ (i + j)) (w * (i + j) - 1) := by
  have h1 : 1 ≤ w * i := Nat.mul_pos hw hi
  have h2 : 1 ≤ w * j := Nat.mul_pos hw hj
  have h3 : w * (i + j) ≤ w * n := Nat.mul_le_mul_left w hij
  have e : w * i - 1 + (w * j - 1) + 1 = w * (i + j) - 1 := by rw [Nat.mul_add] at *; omega
  have := hr (i + j) (by omega) hij
  rw [pow_add] at this
  have := hx.mul hf hy (pow_le_of_small hf (by rw [Nat.mul_add] at h3; omega)) this.1 this.2
  rwa [e, ← pow_add] at this

/-! Exponentiation by squaring, for any predicate that products of powers preserve. -/
section induction
variable {P : Flt f → ℕ → Prop} {n : ℕ}
  (hP : ∀ x y i j, 1 ≤ i → 1 ≤ j → i + j ≤ n → P x i → P y j → P (x.mul y) (i + j))
include hP

theorem powStrip_ind : ∀ (k : ℕ) (x : Flt f) (m e : ℕ), 1 ≤ m → 1 ≤ e → m * e = n → e < 2 ^ k → P x m →
      ∃ x' m' e', powStrip k x e = (x', e') ∧ 1 ≤ m' ∧ e' % 2 = 1 ∧ e' ≤ e ∧ m' * e' = n ∧ P x' m'
  | 0, _, _, e, _, h2, _, h4, _ => by simp at h4; omega
  | k + 1, x, m, e, h1, h2, h3, h4, h5 => by
    by_cases he : e % 2 = 0
    · have h6 : m + m ≤ n := by
        rw [← h3]; have : m * 2 ≤ m * e := Nat.mul_le_mul_left m (by omega)
        omega
      have h7 := hP x x m m h1 h1 h6 h5 h5
      obtain ⟨x', m', e', r1, r2, r3, r4, r5, r6⟩ := powStrip_ind k (x.mul x) (m + m) (e / 2) (by omega) (by omega)
        (by rw [← h3]; conv_rhs => rw [show e = 2 * (e / 2) by omega]
            ring) (by rw [pow_succ] at h4; omega) h7
      exact ⟨x', m', e', by rw [powStrip, if_pos he]; exact r1, r2, r3, by omega, r5, r6⟩
    · exact ⟨x, m, e, by rw [powStrip, if_neg he], h1, by omega, le_refl _, h3, h5⟩

theorem powAcc_ind : ∀ (k : ℕ) (acc x : Flt f) (i m e : ℕ), 1 ≤ m → 1 ≤ i → 1 ≤ e → i + m * (e - e % 2) = n →
      e < 2 ^ (k + 1) → P acc i → P x m → P (powAcc k acc x e) n
  | 0, acc, x, i, m, e, _, _, h3, h4, h5, h6, _ => by
    have : e = 1 := by simp at h5; omega
    subst this
    simp at h4; subst h4
    exact h6
  | k + 1, acc, x, i, m, e, h1, h2, h3, h4, h5, h6, h7 => by
    rw [powAcc]
    by_cases he : 1 < e
    · rw [if_pos he]
      have e1 : e - e % 2 = 2 * (e / 2) := by omega
      rw [e1] at h4
      have h8 : m + m ≤ n := by
        have : m * 2 ≤ m * (2 * (e / 2)) := Nat.mul_le_mul_left m (by omega)
        omega
      have h9 := hP x x m m h1 h1 h8 h7 h7
      rcases Nat.mod_two_eq_zero_or_one (e / 2) with hz | hz
      · simp only [hz, if_neg (by norm_num : ¬ 0 = 1)]
        refine powAcc_ind k acc (x.mul x) i (m + m) (e / 2) (by omega) h2 (by omega) ?_ ?_ h6 h9
        · rw [← h4, hz, Nat.sub_zero]; ring
        · rw [pow_succ] at h5; omega
      · simp only [hz, if_true]
        have h10 : m * (2 * (e / 2)) = (m + m) + (m + m) * (e / 2 - 1) := by
          conv_lhs => rw [show e / 2 = 1 + (e / 2 - 1) by omega]
          ring
        have h11 : i + (m + m) ≤ n := by omega
        refine powAcc_ind k _ (x.mul x) (i + (m + m)) (m + m) (e / 2) (by omega) (by omega) (by omega) ?_ ?_
          (hP acc (x.mul x) i (m + m) h2 (by omega) h11 h6 h9) h9
        · rw [← h4, h10, hz]; ring
        · rw [pow_succ] at h5; omega
    · have : e = 1 := by omega
      subst this
      simp at h4; subst h4
      exact h6

/-- `num::pow`. -/
theorem pow_ind (h0 : 1 ≤ n) (h64 : n < 2 ^ 64) {x : Flt f} (hx : P x 1) : P (pow x n) n := by
  obtain ⟨x', m', e', r1, r2, r3, r4, r5, r6⟩ := powStrip_ind hP 64 x 1 n (le_refl _) h0 (by simp) h64 hx
  unfold pow
  rw [if_neg (by omega), r1]
  refine powAcc_ind hP 64 x' x' m' m' e' r2 r2 (by omega) ?_ (by omega) r6 r6
  rw [r3, ← r5]
  conv_rhs => rw [show e' = 1 + (e' - 1) by omega]
  ring

end induction

/-- `w n - 1` roundings if the base carries `w - 1` of them. -/
theorem pow_rel (hf : f.Wide) {A : ℚ} {n w : ℕ} (h0 : 1 ≤ n) (h64 : n < 2 ^ 64) (hr : PowRange f A n)
    (hn : w * n ≤ 2 ^ (f.p - 2)) (hw : 1 ≤ w) {x : Flt f} (hx : Rel x A (w - 1)) :
    Rel (pow x n) (A ^ n) (w * n - 1) :=
  pow_ind (P := fun x j => Rel x (A ^ j) (w * j - 1))
    (fun _ _ _ _ hi hj hij h1 h2 => h1.mul_pow hf hr hn hw hi hj hij h2) h0 h64 (by simpa using hx)

/-- No rounding at all if every power is representable. -/
theorem pow_exact (hf : f.Wide) {A : ℚ} {n : ℕ} (h0 : 1 ≤ n) (h64 : n < 2 ^ 64)
    (hr : ∀ j, j ≤ n → Rep f.p f.emin (A ^ j) ∧ |A ^ j| < 2 ^ f.emax) {x : Flt f} (hx : Is x A) : Is (pow x n) (A ^ n) :=
  pow_ind (P := fun x j => Is x (A ^ j))
    (fun _ _ i j _ _ hij h1 h2 => by
      have h := hr (i + j) hij
      have e := rnd_rep h.1
      have := h1.mul hf.one_le h2 (by rw [← pow_add, e]; exact h.2)
      rwa [← pow_add, e] at this) h0 h64 (by simpa using hx)

end Flt
end MixedNum
