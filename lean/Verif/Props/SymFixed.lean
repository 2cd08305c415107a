import Verif.Props.PowFixed
import Verif.Props.SinFixed
import Verif.Props.AtanExact
import Verif.Props.Wrap
import Verif.Lemmas.Run
import Verif.Props.AddSub
/-! # C133: odd and even functions on fixed point -/

namespace MixedNum
namespace Fixed
variable {m : Mode} {W F : ℕ}

/-- The stored sine of a folded stored argument. -/
def sinRaw (F : ℕ) (a : ℤ) : ℤ :=
  a - (roundedPow F a 2).tdiv 6 + (roundedPow F a 4).tdiv 120 - (roundedPow F a 6).tdiv 5040 + (roundedPow F a 8).tdiv 362880

theorem roundedPow_bound {a : ℤ} (h : |a| ≤ 2 * 2 ^ F) : ∀ j : ℕ, |roundedPow F a j| ≤ 2 ^ (j + 1) * 2 ^ F := by
  have hp : (0:ℤ) < 2 ^ F := by positivity
  intro j
  induction j with
  | zero => simpa [roundedPow] using h
  | succ j ih =>
    rw [roundedPow_succ]
    have h1 : |roundedPow F a j * a| ≤ (2 ^ (j + 1) * 2 ^ F) * (2 * 2 ^ F) := by
      rw [abs_mul]; exact mul_le_mul ih h (abs_nonneg _) (by positivity)
    rw [show (2:ℤ) ^ (j + 1) * 2 ^ F * (2 * 2 ^ F) = 2 ^ (j + 1 + 1) * 2 ^ F * 2 ^ F by ring] at h1
    rw [abs_le] at h1 ⊢
    constructor
    · rw [Int.le_ediv_iff_mul_le hp]; linarith [h1.1]
    · have := Int.ediv_mul_le (roundedPow F a j * a) hp.ne'
      exact le_of_mul_le_mul_right (this.trans h1.2) hp

/-- A truncated quotient by `n` moves by at most `k` when its numerator moves by at most `k n`. -/
theorem tdiv_near {a b n k : ℤ} (hn : 0 < n) (h : |a - b| ≤ k * n) : |a.tdiv n - b.tdiv n| ≤ k := by
  have hk : 0 ≤ k := nonneg_of_mul_nonneg_left ((abs_nonneg _).trans h) hn
  have up : ∀ a b : ℤ, a ≤ b + k * n → a.tdiv n ≤ b.tdiv n + k := by
    intro a b h
    · by_cases hb : 0 ≤ b
      · calc a.tdiv n ≤ (b + k * n).tdiv n := Int.tdiv_le_tdiv hn h
          _ = b.tdiv n + k := by
            rw [Int.tdiv_eq_ediv_of_nonneg (by positivity), Int.tdiv_eq_ediv_of_nonneg hb, Int.add_mul_ediv_right _ _ hn.ne']
      · by_cases ha : a ≤ 0
        · -- both at most zero: mirror
          have h1 : (-b).tdiv n ≤ (-a + k * n).tdiv n := Int.tdiv_le_tdiv hn (by linarith)
          rw [Int.tdiv_eq_ediv_of_nonneg (show 0 ≤ -a + k * n by nlinarith), Int.add_mul_ediv_right _ _ hn.ne',
            ← Int.tdiv_eq_ediv_of_nonneg (show 0 ≤ -a by omega), Int.neg_tdiv, Int.neg_tdiv] at h1
          linarith
        · -- a > 0 > b
          push Not at ha hb
          rw [Int.tdiv_eq_ediv_of_nonneg ha.le, show b = -(-b) by ring, Int.neg_tdiv,
            Int.tdiv_eq_ediv_of_nonneg (show 0 ≤ -b by omega)]
          have q1 := Int.ediv_mul_le a hn.ne'
          have q2 := Int.ediv_mul_le (-b) hn.ne'
          have q3 : (a / n + -b / n) * n ≤ k * n := by rw [add_mul]; linarith
          have := le_of_mul_le_mul_right q3 hn
          linarith
  have h' := abs_le.mp h
  rw [abs_le]
  have h1 := up a b (by linarith [h'.2])
  have h2 := up b a (by linarith [h'.1])
  constructor <;> linarith

theorem fits_wide (h : F + 20 ≤ W) {n : ℤ} (hn : |n| < 2 ^ 19 * 2 ^ F) : Fits true W n := by
  have h3 := pow_le_of_bits (k := 19) (show F + 19 + 1 ≤ W by omega)
  have : (0:ℤ) < 2 ^ F := by positivity
  have hn' := abs_lt.mp hn
  rw [fits_signed]; constructor <;> norm_num at h3 hn' <;> linarith

theorem abs_tdiv_le (a n : ℤ) : |a.tdiv n| ≤ |a| := by
  rw [Int.abs_eq_natAbs, Int.abs_eq_natAbs, Int.natAbs_tdiv]
  exact_mod_cast Nat.div_le_self _ _

theorem div_whole (h : F + 20 ≤ W) (a : Fixed m true W F) (n : ℤ) (hn : 0 < n) (hn' : n < 2 ^ 19) (ha : |a.val| < 2 ^ 19 * 2 ^ F) :
    ∃ l q : Fixed m true W F, Lit.ofI32 n = pure l ∧ NumOps.div a l = pure q ∧ q.val = a.val.tdiv n := by
  have hp : (0:ℤ) < 2 ^ F := by positivity
  have hl : Fits true W (n * 2 ^ F) := fits_wide h (by rw [abs_of_nonneg (by positivity)]; exact mul_lt_mul_of_pos_right hn' hp)
  have e : (a.val * 2 ^ F).tdiv (n * 2 ^ F) = a.val.tdiv n := Int.mul_tdiv_mul_of_pos_left _ _ hp
  have hq : Fits true W (a.val.tdiv n) := fits_wide h ((abs_tdiv_le _ _).trans_lt ha)
  refine ⟨mkv _ hl, mkv _ hq, by rw [ofI32_def, fit_of_fits hl], ?_, rfl⟩
  rw [div_def, mkv_val, if_neg (by positivity), e, fit_of_fits hq]

theorem powi_raw (h : F + 20 ≤ W) (y : Fixed m true W F) (hy : |y.val| ≤ 2 * 2 ^ F) (n : ℕ) (hn : n ≤ 8) :
    ∃ p : Fixed m true W F, MixedPowi.powi y ((n + 1 : ℕ) : ℤ) = pure p ∧ p.val = roundedPow F y.val n ∧ |p.val| ≤ 2 ^ 9 * 2 ^ F := by
  have hp : (0:ℤ) < 2 ^ F := by positivity
  have bd : ∀ i ≤ 8, |roundedPow F y.val i| ≤ 2 ^ 9 * 2 ^ F := fun i hi =>
    (roundedPow_bound hy i).trans (mul_le_mul_of_nonneg_right (pow_le_pow_right₀ (by norm_num) (by omega)) hp.le)
  obtain ⟨z, hz, hv⟩ := powiLoop_exact n 0 y rfl (fun i hi => fits_wide h ((bd i (by omega)).trans_lt
    (mul_lt_mul_of_pos_right (by norm_num) hp)))
  rw [Nat.zero_add] at hv
  refine ⟨z, ?_, hv, by rw [hv]; exact bd n hn⟩
  show mixedPowiVia y _ = _
  rw [mixedPowiVia, usizeOfI32_nat (n + 1) (by omega), powi, if_neg (by omega), Nat.add_sub_cancel, hz]

/-- What the sine stores. -/
theorem sin_exact (h : F + 20 ≤ W) (x y : Fixed m true W F) (hfold : sinFold x = pure y) (hy : |y.val| ≤ 2 * 2 ^ F) :
    ∃ z : Fixed m true W F, sin x = pure z ∧ z.val = sinRaw F y.val := by
  have hp : (0:ℤ) < 2 ^ F := by positivity
  obtain ⟨p3, hp3, v3, b3⟩ := powi_raw h y hy 2 (by norm_num)
  obtain ⟨p5, hp5, v5, b5⟩ := powi_raw h y hy 4 (by norm_num)
  obtain ⟨p7, hp7, v7, b7⟩ := powi_raw h y hy 6 (by norm_num)
  obtain ⟨p9, hp9, v9, b9⟩ := powi_raw h y hy 8 (by norm_num)
  have b1 := abs_le.mp hy
  have big : ∀ n : ℤ, |n| ≤ 2 ^ 9 * 2 ^ F → |n| < 2 ^ 19 * 2 ^ F := fun n hn => hn.trans_lt (mul_lt_mul_of_pos_right (by norm_num) hp)
  obtain ⟨l3, d3, hl3, hd3, w3⟩ := div_whole h p3 6 (by norm_num) (by norm_num) (big _ b3)
  obtain ⟨l5, d5, hl5, hd5, w5⟩ := div_whole h p5 120 (by norm_num) (by norm_num) (big _ b5)
  obtain ⟨l7, d7, hl7, hd7, w7⟩ := div_whole h p7 5040 (by norm_num) (by norm_num) (big _ b7)
  obtain ⟨l9, d9, hl9, hd9, w9⟩ := div_whole h p9 362880 (by norm_num) (by norm_num) (big _ b9)
  have c3 := abs_le.mp (w3 ▸ (abs_tdiv_le p3.val 6).trans b3)
  have c5 := abs_le.mp (w5 ▸ (abs_tdiv_le p5.val 120).trans b5)
  have c7 := abs_le.mp (w7 ▸ (abs_tdiv_le p7.val 5040).trans b7)
  have c9 := abs_le.mp (w9 ▸ (abs_tdiv_le p9.val 362880).trans b9)
  norm_num at c3 c5 c7 c9
  have f1 : Fits true W (y.val - d3.val) := fits_wide h (by rw [abs_lt]; norm_num; constructor <;> linarith)
  have f2 : Fits true W (y.val - d3.val + d5.val) := fits_wide h (by rw [abs_lt]; norm_num; constructor <;> linarith)
  have f3 : Fits true W (y.val - d3.val + d5.val - d7.val) := fits_wide h (by rw [abs_lt]; norm_num; constructor <;> linarith)
  have f4 : Fits true W (y.val - d3.val + d5.val - d7.val + d9.val) := fits_wide h (by rw [abs_lt]; norm_num; constructor <;> linarith)
  refine ⟨mkv _ f4, ?_, by rw [mkv_val, sinRaw, ← v3, ← v5, ← v7, ← v9, w3, w5, w7, w9]⟩
  simp only [Nat.reduceAdd, Nat.cast_ofNat] at hp3 hp5 hp7 hp9
  unfold sin
  simp only [hfold, pure_bind, hp3, hl3, hd3, hp5, hl5, hd5, hp7, hl7, hd7, hp9, hl9, hd9, sub_def, add_def]
  simp only [fit_of_fits f1, pure_bind, mkv_val, fit_of_fits f2, fit_of_fits f3, fit_of_fits f4]

theorem fold_abs {x y : Fixed m true W F} (hx : |x.val| ≤ piRaw F + 1)
    (hy : (y.val = x.val ∧ |x.val| ≤ halfRaw F) ∨ (y.val = 2 * halfRaw F - x.val ∧ halfRaw F < x.val) ∨
       (y.val = -(2 * halfRaw F) - x.val ∧ x.val < -halfRaw F)) : |y.val| ≤ 2 * 2 ^ F := by
  have hb := halfRaw_bounds F
  have hb' := piRaw_bounds F
  have hp : (1:ℤ) ≤ 2 ^ F := one_le_pow₀ (by norm_num)
  have hx' := abs_le.mp hx
  rcases hy with ⟨e, h⟩ | ⟨e, h⟩ | ⟨e, h⟩
  · rw [e]; exact h.trans (by omega)
  · rw [e, abs_le]; omega
  · rw [e, abs_le]; omega

theorem ediv_sub_near {u v D k : ℤ} (hD : 0 < D) (h : |u - v| ≤ k * D) : |u / D - v / D| ≤ k := by
  have h' := abs_le.mp h
  have h1 : u / D ≤ (v + k * D) / D := Int.ediv_le_ediv hD (by linarith [h'.2])
  have h2 : v / D ≤ (u + k * D) / D := Int.ediv_le_ediv hD (by linarith [h'.1])
  rw [Int.add_mul_ediv_right _ _ hD.ne'] at h1 h2
  rw [abs_le]; constructor <;> linarith

theorem ediv_add_near {u v D k : ℤ} (hD : 0 < D) (h : |u + v| ≤ k * D) : |u / D + v / D| ≤ k + 1 := by
  have h' := abs_le.mp h
  have a1 := Int.ediv_mul_le u hD.ne'; have a2 := Int.ediv_mul_le v hD.ne'
  have b1 := Int.lt_ediv_add_one_mul_self u hD; have b2 := Int.lt_ediv_add_one_mul_self v hD
  have h1 : (u / D + v / D) * D ≤ k * D := by linarith
  have h2 : -(k + 2) * D < (u / D + v / D) * D := by linarith
  have h1 := le_of_mul_le_mul_right h1 hD
  have h2 := lt_of_mul_lt_mul_right h2 hD.le
  rw [abs_le]; constructor <;> omega

/-- Rounded powers of opposite numbers. -/
theorem roundedPow_neg {a : ℤ} (h : |a| ≤ 2 * 2 ^ F) :
    ∀ j : ℕ, |roundedPow F (-a) (j + 1) - (-1) ^ j * roundedPow F a (j + 1)| ≤ 2 ^ j - 1 := by
  have hp : (0:ℤ) < 2 ^ F := by positivity
  intro j
  induction j with
  | zero => rw [roundedPow_succ, roundedPow_succ]; simp [roundedPow]
  | succ j ih =>
    rw [roundedPow_succ F (-a) (j + 1), roundedPow_succ F a (j + 1)]
    set r := roundedPow F a (j + 1)
    set r' := roundedPow F (-a) (j + 1)
    have hE : |(r' - (-1) ^ j * r) * a| ≤ 2 * (2 ^ j - 1) * 2 ^ F := by
      rw [abs_mul]
      calc _ ≤ (2 ^ j - 1) * (2 * 2 ^ F) := mul_le_mul ih h (abs_nonneg _) ((abs_nonneg _).trans ih)
        _ = _ := by ring
    rcases neg_one_pow_eq_or ℤ j with e | e
    · rw [pow_succ (-1 : ℤ), e]
      rw [e] at hE
      have := ediv_add_near (u := r' * -a) (v := r * a) (k := 2 * (2 ^ j - 1)) hp (by
        rw [← abs_neg, show -(r' * -a + r * a) = (r' - 1 * r) * a by ring]; exact hE)
      rw [show r' * -a / 2 ^ F - 1 * -1 * (r * a / 2 ^ F) = r' * -a / 2 ^ F + r * a / 2 ^ F by ring, pow_succ]
      linarith
    · rw [pow_succ (-1 : ℤ), e]
      rw [e] at hE
      have := ediv_sub_near (u := r' * -a) (v := r * a) (k := 2 * (2 ^ j - 1)) hp (by
        rw [← abs_neg, show -(r' * -a - r * a) = (r' - -1 * r) * a by ring]; exact hE)
      rw [show r' * -a / 2 ^ F - -1 * -1 * (r * a / 2 ^ F) = r' * -a / 2 ^ F - r * a / 2 ^ F by ring, pow_succ]
      linarith

/-- Rounded powers of numbers two units apart. -/
theorem roundedPow_near {a b : ℤ} (ha : |a| ≤ 2 * 2 ^ F) (hb : |b| ≤ 2 * 2 ^ F) (hab : |a - b| ≤ 2) :
    ∀ j : ℕ, |roundedPow F a j - roundedPow F b j| ≤ 2 ^ (j + 1) * (j + 1) := by
  have hp : (0:ℤ) < 2 ^ F := by positivity
  intro j
  induction j with
  | zero => simpa [roundedPow] using hab
  | succ j ih =>
    rw [roundedPow_succ, roundedPow_succ]
    refine ediv_sub_near hp ?_
    have hB := roundedPow_bound hb j
    set r := roundedPow F a j
    set r' := roundedPow F b j
    calc |r * a - r' * b| = |(r - r') * a + r' * (a - b)| := by congr 1; ring
      _ ≤ |r - r'| * |a| + |r'| * |a - b| := by rw [← abs_mul, ← abs_mul]; exact abs_add_le _ _
      _ ≤ 2 ^ (j + 1) * (j + 1) * (2 * 2 ^ F) + 2 ^ (j + 1) * 2 ^ F * 2 :=
        add_le_add (mul_le_mul ih ha (abs_nonneg _) (by positivity)) (mul_le_mul hB hab (abs_nonneg _) (by positivity))
      _ = _ := by push_cast; ring

theorem sinRaw_near {a b : ℤ} (ha : |a| ≤ 2 * 2 ^ F) (hb : |b| ≤ 2 * 2 ^ F) (hab : |a - b| ≤ 2) :
    |sinRaw F a - sinRaw F b| ≤ 10 := by
  have k3 := abs_le.mp (tdiv_near (n := 6) (k := 4) (by norm_num) ((roundedPow_near ha hb hab 2).trans (by norm_num)))
  have k5 := abs_le.mp (tdiv_near (n := 120) (k := 2) (by norm_num) ((roundedPow_near ha hb hab 4).trans (by norm_num)))
  have k7 := abs_le.mp (tdiv_near (n := 5040) (k := 1) (by norm_num) ((roundedPow_near ha hb hab 6).trans (by norm_num)))
  have k9 := abs_le.mp (tdiv_near (n := 362880) (k := 1) (by norm_num) ((roundedPow_near ha hb hab 8).trans (by norm_num)))
  have h := abs_le.mp hab
  unfold sinRaw
  rw [abs_le]; constructor <;> linarith

theorem sinRaw_neg {a : ℤ} (h : |a| ≤ 2 * 2 ^ F) : |sinRaw F (-a) + sinRaw F a| ≤ 4 := by
  have k : ∀ (j : ℕ) (n : ℤ), 0 < n → (2:ℤ) ^ (2 * j + 1) - 1 ≤ n →
      |(roundedPow F (-a) (2 * j + 1 + 1)).tdiv n + (roundedPow F a (2 * j + 1 + 1)).tdiv n| ≤ 1 := by
    intro j n hn hj
    have h1 := roundedPow_neg h (2 * j + 1)
    rw [Odd.neg_one_pow ⟨j, rfl⟩] at h1
    have h2 := tdiv_near (k := 1) hn (h1.trans (by linarith))
    rw [neg_one_mul, Int.neg_tdiv, sub_neg_eq_add] at h2
    exact h2
  have k3 := abs_le.mp (k 0 6 (by norm_num) (by norm_num))
  have k5 := abs_le.mp (k 1 120 (by norm_num) (by norm_num))
  have k7 := abs_le.mp (k 2 5040 (by norm_num) (by norm_num))
  have k9 := abs_le.mp (k 3 362880 (by norm_num) (by norm_num))
  norm_num at k3 k5 k7 k9
  unfold sinRaw
  rw [abs_le]; constructor <;> linarith


theorem den_neg (b s : ℤ) : denRaw F b (-s) = denRaw F b s ∧ denRaw F (-b) s = denRaw F b s := by
  unfold denRaw; constructor <;> simp

/-- Quotients of opposite small coordinates, and of opposite large ones. -/
theorem quo_neg {b s : ℤ} (hs : |s| ≤ |b|) (hb : 2 ^ F ≤ b * b) :
    |quoRaw F b (-s) + quoRaw F b s| ≤ 2 ^ F / (b * b / 2 ^ F) + 1 ∧
    |quoRaw F (-b) s + quoRaw F b s| ≤ 2 ^ F / (b * b / 2 ^ F) + 1 := by
  have hP : (0:ℤ) < 2 ^ F := by positivity
  have hd := den_pos hs hb
  have hD : 1 ≤ b * b / 2 ^ F := by rw [Int.le_ediv_iff_mul_le hP]; linarith
  have hle : b * b / 2 ^ F ≤ denRaw F b s := (den_bounds F hs).1
  have hk : 2 ^ F / denRaw F b s ≤ 2 ^ F / (b * b / 2 ^ F) := by
    rw [Int.le_ediv_iff_mul_le (by omega)]
    calc 2 ^ F / denRaw F b s * (b * b / 2 ^ F) ≤ 2 ^ F / denRaw F b s * denRaw F b s :=
          mul_le_mul_of_nonneg_left hle (Int.ediv_nonneg hP.le (by omega))
      _ ≤ 2 ^ F := Int.ediv_mul_le _ (by omega)
  have hk2 : (2:ℤ) ^ F ≤ (2 ^ F / denRaw F b s + 1) * denRaw F b s :=
    (Int.lt_ediv_add_one_mul_self _ (by omega)).le
  have key : ∀ n' : ℤ, |n' + numRaw F b s| ≤ 1 →
      |(n' * 2 ^ F).tdiv (denRaw F b s) + quoRaw F b s| ≤ 2 ^ F / (b * b / 2 ^ F) + 1 := by
    intro n' hn
    have := tdiv_near (a := n' * 2 ^ F) (b := -(numRaw F b s * 2 ^ F)) (n := denRaw F b s)
      (k := 2 ^ F / denRaw F b s + 1) (by omega) (by
        rw [sub_neg_eq_add, ← add_mul, abs_mul, abs_of_pos hP]
        exact (mul_le_mul_of_nonneg_right hn hP.le).trans (by rw [one_mul]; exact hk2))
    rw [Int.neg_tdiv, sub_neg_eq_add] at this
    exact this.trans (by linarith)
  have num : |-(b * s) / 2 ^ F + numRaw F b s| ≤ 1 := by
    have := ediv_add_near (u := -(b * s)) (v := b * s) (k := 0) hP (by simp)
    simpa [numRaw] using this
  constructor
  · have := key (numRaw F b (-s)) (by unfold numRaw at num ⊢; rw [mul_neg]; exact num)
    rw [quoRaw, (den_neg b s).1]; exact this
  · have := key (numRaw F (-b) s) (by unfold numRaw at num ⊢; rw [neg_mul]; exact num)
    rw [quoRaw, (den_neg b s).2]; exact this

end Fixed

variable {m : Mode} {s : Bool} {W F : ℕ}

/-! ## C133

Full statement (false of the code for sin, cos and atan2): for a fixed-point number x and its negative x',
`sin x' = -sin x`, `cos x' = cos x`, `atan2(-y, x) = -atan2(y, x)`, `sqrt x' = sqrt x`. -/

/-- C133 fails: products are rounded toward minus infinity, so sin(-70/256) is not -sin(70/256) on `FixedI32<U8>`. -/
theorem C133_sin_counterexample : ∃ z z' : Fixed .checked true 32 8,
    Returns (sin (fx .checked true 32 8 70)) z ∧ Returns (sin (fx .checked true 32 8 (-70))) z' ∧ z'.val = -z.val + 1 := by
  have hpi : Fixed.halfRaw 8 = 402 := by unfold Fixed.halfRaw Fixed.piRaw; rw [Fixed.piLit_eq]; decide +kernel
  have hpi' : Fixed.piRaw 8 = 804 := by unfold Fixed.piRaw; rw [Fixed.piLit_eq]; decide +kernel
  obtain ⟨y, hy, c⟩ := Fixed.sinFold_eq (by norm_num) (fx .checked true 32 8 70) (by rw [hpi']; decide)
  obtain ⟨y', hy', c'⟩ := Fixed.sinFold_eq (by norm_num) (fx .checked true 32 8 (-70)) (by rw [hpi']; decide)
  have e : y.val = 70 := by
    rcases c with ⟨e, -⟩ | ⟨-, h⟩ | ⟨-, h⟩
    · exact e
    · exfalso; rw [hpi] at h; revert h; decide
    · exfalso; rw [hpi] at h; revert h; decide
  have e' : y'.val = -70 := by
    rcases c' with ⟨e, -⟩ | ⟨-, h⟩ | ⟨-, h⟩
    · exact e
    · exfalso; rw [hpi] at h; revert h; decide
    · exfalso; rw [hpi] at h; revert h; decide
  obtain ⟨z, hz, v⟩ := Fixed.sin_exact (by norm_num) _ y hy (by rw [e]; decide)
  obtain ⟨z', hz', v'⟩ := Fixed.sin_exact (by norm_num) _ y' hy' (by rw [e']; decide)
  refine ⟨z, z', .of_eq hz, .of_eq hz', ?_⟩
  rw [v, v', e, e']
  simp only [Fixed.sinRaw, roundedPow]
  decide +kernel

/-- C133, partial: from -π to π the sine is odd up to four units in the last place.
Missing for the full property: the four units (`C133_sin_counterexample`). -/
theorem C133_sin_partial (h : F + 20 ≤ W) (x x' p : Fixed m true W F) (hp : (MixedPi.pi : Prog (Fixed m true W F)) = pure p)
    (hx : |x.val| ≤ p.val + 1) (hn : x'.val = -x.val) :
    ∃ z z' : Fixed m true W F, Returns (sin x) z ∧ Returns (sin x') z' ∧ |z'.val + z.val| ≤ 4 := by
  have hpv : p.val = Fixed.piRaw F := by
    rw [Fixed.pi_def (by omega)] at hp; rw [← Prog.pure_inj hp]; rfl
  rw [hpv] at hx
  have hx' : |x'.val| ≤ Fixed.piRaw F + 1 := by rw [hn, abs_neg]; exact hx
  obtain ⟨y, hy, c⟩ := Fixed.sinFold_eq (by omega) x hx
  obtain ⟨y', hy', c'⟩ := Fixed.sinFold_eq (by omega) x' hx'
  have b := Fixed.fold_abs hx c
  obtain ⟨z, hz, v⟩ := Fixed.sin_exact h x y hy b
  obtain ⟨z', hz', v'⟩ := Fixed.sin_exact h x' y' hy' (Fixed.fold_abs hx' c')
  have e : y'.val = -y.val := by
    have hb := Fixed.halfRaw_bounds F
    rw [hn, abs_neg] at c'
    rcases c with ⟨e, g⟩ | ⟨e, g⟩ | ⟨e, g⟩ <;> rcases c' with ⟨e', g'⟩ | ⟨e', g'⟩ | ⟨e', g'⟩ <;>
      (try rw [abs_le] at g) <;> (try rw [abs_le] at g') <;> omega
  refine ⟨z, z', .of_eq hz, .of_eq hz', ?_⟩
  rw [v, v', e]; exact Fixed.sinRaw_neg b

example := C133_sin_partial (by decide) (fx .checked true 32 8 300) (fx .checked true 32 8 (-300)) (fx .checked true 32 8 804) (by kernel_rfl) (by decide) (by decide)

/-- What the cosine stores, from -π to π of the type. -/
theorem Fixed.cos_exact (h : F + 20 ≤ W) (x : Fixed m true W F) (hx : |x.val| ≤ Fixed.piRaw F) :
    ∃ (z : Fixed m true W F) (a : ℤ), Returns (cos x) z ∧ z.val = Fixed.sinRaw F a ∧ |a| ≤ 2 * 2 ^ F ∧
      ((x.val + Fixed.halfRaw F < Fixed.piRaw F ∧ -Fixed.piRaw F ≤ x.val + Fixed.halfRaw F ∧
          ((a = Fixed.halfRaw F - x.val ∧ 0 ≤ x.val) ∨ (a = Fixed.halfRaw F + x.val ∧ x.val ≤ 0 ∧ -(2 * Fixed.halfRaw F) ≤ x.val) ∨
           (a = -(3 * Fixed.halfRaw F) - x.val ∧ x.val < -(2 * Fixed.halfRaw F)))) ∨
       (Fixed.piRaw F ≤ x.val + Fixed.halfRaw F ∧ a = 2 * Fixed.piRaw F - 3 * Fixed.halfRaw F - x.val)) := by
  have hb := Fixed.halfRaw_bounds F; have hb' := Fixed.piRaw_bounds F
  have h2F : (0:ℤ) < 2 ^ F := by positivity
  have hx' := abs_le.mp hx
  have hfit : Fits true W (x.val + Fixed.halfRaw F) := Fixed.fits_small (F := F) (by omega) (by omega) (by omega)
  set q : Fixed m true W F := Fixed.mkv (x.val + Fixed.halfRaw F) hfit with hq
  have hqv : q.val = x.val + Fixed.halfRaw F := rfl
  obtain ⟨p, w, hp, -, hw, w1, w2, k, hk⟩ := C30_wrap_fixed (m := m) (show F + 4 ≤ W by omega) q
  have hpv : p.val = Fixed.piRaw F := by
    rw [Fixed.pi_def (by omega), returns_pure] at hp; rw [← hp]; rfl
  rw [hpv] at w1 w2 hk
  have hk1 : k = 0 ∨ k = -1 := by
    have hpos : 0 < 2 * Fixed.piRaw F := by omega
    have a : k < 1 := by
      by_contra hc
      have : 1 * (2 * Fixed.piRaw F) ≤ k * (2 * Fixed.piRaw F) := mul_le_mul_of_nonneg_right (by omega) hpos.le
      omega
    have b : -2 < k := by
      by_contra hc
      have : k * (2 * Fixed.piRaw F) ≤ -2 * (2 * Fixed.piRaw F) := mul_le_mul_of_nonneg_right (by omega) hpos.le
      omega
    omega
  have hwa : |w.val| ≤ Fixed.piRaw F + 1 := abs_le.mpr ⟨by omega, by omega⟩
  obtain ⟨y, hy, c⟩ := Fixed.sinFold_eq (by omega) w hwa
  have b := Fixed.fold_abs hwa c
  obtain ⟨z, hz, v⟩ := Fixed.sin_exact h w y hy b
  refine ⟨z, y.val, ?_, v, b, ?_⟩
  · unfold cos
    have assoc : ∀ (g : Fixed m true W F → Prog (Fixed m true W F)),
        (do let p ← MixedPi.pi; let two ← Lit.ofI32 2; let ph ← NumOps.div p two; g ph) =
        (do let ph ← (do let p ← MixedPi.pi; let two ← Lit.ofI32 2; NumOps.div p two); g ph) := by
      intro g; simp only [bind_assoc]
    rw [assoc, Fixed.half_eq (by omega), pure_bind, Fixed.add_def, Fixed.mkv_val, Fixed.fit_of_fits hfit, pure_bind]
    exact hw.bind (.of_eq hz)
  · rw [hqv] at hk
    rcases hk1 with rfl | rfl <;> rcases c with ⟨e, g⟩ | ⟨e, g⟩ | ⟨e, g⟩ <;> (try rw [abs_le] at g) <;> omega

/-- C133 fails: where the stored π is odd, twice the stored π/2 is not π, and cos(-x) differs from cos(x) beyond a
quarter turn, here by three units on `FixedI32<U10>`. -/
theorem C133_cos_counterexample : ∃ z z' : Fixed .checked true 32 10,
    Returns (cos (fx .checked true 32 10 2374)) z ∧ Returns (cos (fx .checked true 32 10 (-2374))) z' ∧ z.val = z'.val + 3 := by
  have hpi : Fixed.halfRaw 10 = 1608 := by unfold Fixed.halfRaw Fixed.piRaw; rw [Fixed.piLit_eq]; decide +kernel
  have hpi' : Fixed.piRaw 10 = 3217 := by unfold Fixed.piRaw; rw [Fixed.piLit_eq]; decide +kernel
  obtain ⟨z, a, hz, v, -, c⟩ := Fixed.cos_exact (by norm_num) (fx .checked true 32 10 2374) (by rw [hpi']; decide)
  obtain ⟨z', a', hz', v', -, c'⟩ := Fixed.cos_exact (by norm_num) (fx .checked true 32 10 (-2374)) (by rw [hpi']; decide)
  refine ⟨z, z', hz, hz', ?_⟩
  rw [show (fx .checked true 32 10 2374).val = 2374 from rfl, hpi, hpi'] at c
  rw [show (fx .checked true 32 10 (-2374)).val = -2374 from rfl, hpi, hpi'] at c'
  obtain rfl : a = -764 := by omega
  obtain rfl : a' = -766 := by omega
  rw [v, v']
  simp only [Fixed.sinRaw, roundedPow]
  decide +kernel

/-- C133, partial: from -π to π the cosine is even up to ten units in the last place, and exactly even up to a quarter
turn, and on types whose stored π is even. Missing for the full property: the ten units (`C133_cos_counterexample`). -/
theorem C133_cos_partial (h : F + 20 ≤ W) (x x' p : Fixed m true W F) (hp : (MixedPi.pi : Prog (Fixed m true W F)) = pure p)
    (hx : |x.val| ≤ p.val) (hn : x'.val = -x.val) :
    ∃ z z' : Fixed m true W F, Returns (cos x) z ∧ Returns (cos x') z' ∧ |z'.val - z.val| ≤ 10 ∧
      ((|x.val| + p.val / 2 < p.val ∨ p.val % 2 = 0) → z' = z) := by
  have hpv : p.val = Fixed.piRaw F := by
    rw [Fixed.pi_def (by omega)] at hp; rw [← Prog.pure_inj hp]; rfl
  rw [hpv] at hx ⊢
  have hx' : |x'.val| ≤ Fixed.piRaw F := by rw [hn, abs_neg]; exact hx
  obtain ⟨z, a, hz, v, b, c⟩ := Fixed.cos_exact h x hx
  obtain ⟨z', a', hz', v', b', c'⟩ := Fixed.cos_exact h x' hx'
  have hb := Fixed.halfRaw_bounds F
  have hh : Fixed.piRaw F / 2 = Fixed.halfRaw F := rfl
  have hab := abs_le.mp hx
  rw [hn] at c'
  refine ⟨z, z', hz, hz', ?_, ?_⟩
  · rw [v, v']
    refine Fixed.sinRaw_near b' b ?_
    rw [abs_le]; omega
  · intro hc
    apply Fixed.ext
    show z'.val = z.val
    rw [v, v']
    rw [hh] at hc
    obtain rfl : a = a' := by
      rcases hc with hc | hc
      · have h1 := neg_abs_le x.val; have h2 := le_abs_self x.val; omega
      · omega
    rfl

example := C133_cos_partial (by decide) (fx .checked true 32 8 300) (fx .checked true 32 8 (-300)) (fx .checked true 32 8 804) (by kernel_rfl) (by decide) (by decide)

/-- C133 fails: on `FixedI8<U4>`, atan2(1/16, 1/4) is 0 and atan2(-1/16, 1/4) is -1 (the angle is 0.245). -/
theorem C133_atan2_counterexample :
    Returns (atan2Poly (fx .checked true 8 4 1) (fx .checked true 8 4 4)) (fx .checked true 8 4 0) ∧
    Returns (atan2Poly (fx .checked true 8 4 (-1)) (fx .checked true 8 4 4)) (fx .checked true 8 4 (-16)) := by
  constructor <;> exact .of_eq (by kernel_rfl)

/-- C133, partial: with a non-zero first argument, `atan2` is odd in it up to one unit and 2^F/(M²/2^F) units, M the larger of
the stored coordinates. Missing for the full property: these units (`C133_atan2_counterexample`), and the negative real
axis, where both signs of zero are the same number and the angle is π. -/
theorem C133_atan2_partial (h : F + 3 ≤ W) (y y' x a : Fixed m true W F)
    (ha : (Lit.ofF64 (9 / 32) : Prog (Fixed m true W F)) = pure a) (hn : y'.val = -y.val) (h0 : y.val ≠ 0)
    (hy : |y.val| < 2 ^ (W - 1)) (hx : |x.val| < 2 ^ (W - 1))
    (hD : 2 ^ F ≤ max |x.val| |y.val| * max |x.val| |y.val|)
    (hR : max |x.val| |y.val| * max |x.val| |y.val| / 2 ^ F +
      a.val * (min |x.val| |y.val| * min |x.val| |y.val| / 2 ^ F) / 2 ^ F < 2 ^ (W - 1)) :
    ∃ v v' : Fixed m true W F, Returns (atan2Poly y x) v ∧ Returns (atan2Poly y' x) v' ∧
      |v'.val + v.val| ≤ 2 ^ F / (max |x.val| |y.val| * max |x.val| |y.val| / 2 ^ F) + 1 := by
  have hD' := (Fixed.max_sq _ _ _).mp hD
  have hR' : Fixed.denBig F a.val x.val y.val < 2 ^ (W - 1) := hR
  rw [Fixed.lit_aRaw h ha] at hR'
  obtain ⟨v, hv, hA⟩ := Fixed.atan2_value h y x ((Fixed.fits_iff_lt (abs_nonneg _)).mpr hy)
    ((Fixed.fits_iff_lt (abs_nonneg _)).mpr hx)
    (fun _ _ hc => (Fixed.fits_iff_lt (Fixed.den_nonneg hc.le)).mpr (by rwa [← Fixed.denBig_left hc.le]))
    (fun _ _ hc => (Fixed.fits_iff_lt (Fixed.den_nonneg hc)).mpr (by rwa [← Fixed.denBig_right hc])) (by tauto)
  have ay : |y'.val| = |y.val| := by rw [hn, abs_neg]
  obtain ⟨v', hv', hA'⟩ := Fixed.atan2_value h y' x (by rw [ay]; exact (Fixed.fits_iff_lt (abs_nonneg _)).mpr hy)
    ((Fixed.fits_iff_lt (abs_nonneg _)).mpr hx)
    (fun _ _ hc => by
      rw [ay] at hc; rw [hn, (Fixed.den_neg _ _).1]
      exact (Fixed.fits_iff_lt (Fixed.den_nonneg hc.le)).mpr (by rwa [← Fixed.denBig_left hc.le]))
    (fun _ _ hc => by
      rw [ay] at hc; rw [hn, (Fixed.den_neg _ _).2]
      exact (Fixed.fits_iff_lt (Fixed.den_nonneg hc)).mpr (by rwa [← Fixed.denBig_right hc]))
    (by rw [hn, neg_mul_neg]; tauto)
  refine ⟨v, v', .of_eq hv, .of_eq hv', ?_⟩
  have hP : (0:ℤ) < 2 ^ F := by positivity
  have hnn : (0:ℤ) ≤ 2 ^ F / (max |x.val| |y.val| * max |x.val| |y.val| / 2 ^ F) + 1 := by
    have : (0:ℤ) ≤ 2 ^ F / (max |x.val| |y.val| * max |x.val| |y.val| / 2 ^ F) :=
      Int.ediv_nonneg hP.le (Int.ediv_nonneg (mul_self_nonneg _) hP.le)
    omega
  rw [hn] at hA'
  generalize hvv : v.val = vv at hA ⊢
  generalize hvv' : v'.val = vv' at hA' ⊢
  have hl : |y.val| < |x.val| → max |x.val| |y.val| * max |x.val| |y.val| = x.val * x.val ∧ 2 ^ F ≤ x.val * x.val := fun g => by
    rw [max_eq_left g.le] at hD ⊢; rw [abs_mul_abs_self] at hD ⊢; exact ⟨rfl, hD⟩
  have hu : |x.val| ≤ |y.val| → max |x.val| |y.val| * max |x.val| |y.val| = y.val * y.val ∧ 2 ^ F ≤ y.val * y.val := fun g => by
    rw [max_eq_right g] at hD ⊢; rw [abs_mul_abs_self] at hD ⊢; exact ⟨rfl, hD⟩
  cases hA <;> cases hA' <;> (try omega) <;> (try rw [abs_neg] at *) <;> (try omega)
  case up.down => rw [neg_add_cancel, abs_zero]; exact hnn
  case down.up => rw [add_neg_cancel, abs_zero]; exact hnn
  case right.right =>
    obtain ⟨e, g'⟩ := hl (by assumption)
    rw [e]; exact (Fixed.quo_neg (le_of_lt (by assumption)) g').1
  case upper.lower =>
    obtain ⟨e, g'⟩ := hu (by assumption)
    rw [e, show -Fixed.halfRaw F - Fixed.quoRaw F (-y.val) x.val + (Fixed.halfRaw F - Fixed.quoRaw F y.val x.val) =
      -(Fixed.quoRaw F (-y.val) x.val + Fixed.quoRaw F y.val x.val) by ring, abs_neg]
    exact (Fixed.quo_neg (by assumption) g').2
  case lower.upper =>
    obtain ⟨e, g'⟩ := hu (by assumption)
    rw [e, show Fixed.halfRaw F - Fixed.quoRaw F (-y.val) x.val + (-Fixed.halfRaw F - Fixed.quoRaw F y.val x.val) =
      -(Fixed.quoRaw F (-y.val) x.val + Fixed.quoRaw F y.val x.val) by ring, abs_neg]
    exact (Fixed.quo_neg (by assumption) g').2
  case left.left' =>
    obtain ⟨e, g'⟩ := hl (by assumption)
    rw [e, show -Fixed.piRaw F + Fixed.quoRaw F x.val (-y.val) + (Fixed.piRaw F + Fixed.quoRaw F x.val y.val) =
      Fixed.quoRaw F x.val (-y.val) + Fixed.quoRaw F x.val y.val by ring]
    exact (Fixed.quo_neg (le_of_lt (by assumption)) g').1
  case left'.left =>
    obtain ⟨e, g'⟩ := hl (by assumption)
    rw [e, show Fixed.piRaw F + Fixed.quoRaw F x.val (-y.val) + (-Fixed.piRaw F + Fixed.quoRaw F x.val y.val) =
      Fixed.quoRaw F x.val (-y.val) + Fixed.quoRaw F x.val y.val by ring]
    exact (Fixed.quo_neg (le_of_lt (by assumption)) g').1

example : |(fx .wrapping true 32 12 (-9000)).val| ≤ Fixed.piRaw 12 ∧ (Fixed.piRaw 12) % 2 = 0 ∧
    (fx .wrapping true 32 12 9000).val = -(fx .wrapping true 32 12 (-9000)).val := by
  unfold Fixed.piRaw; rw [Fixed.piLit_eq]; decide +kernel

/-- C133: the square root is even on every fixed-point type, in both overflow modes and for every number of iterations. -/
theorem C133_sqrt (c : Counter) (x x' : Fixed m true W F) (hn : x'.val = -x.val) (n : ℕ) : niirf c x' n = niirf c x n := by
  have h2 : (MixedAbs.abs x' : Prog (Fixed m true W F)) = MixedAbs.abs x := by
    show Fixed.fit |x'.val| = Fixed.fit |x.val|
    rw [hn, abs_neg]
  unfold niirf
  rw [h2]
  simp only [Fixed.beq_def, Fixed.zero_val, hn, neg_eq_zero]

example (c : Counter) := C133_sqrt c (fx .checked true 16 8 300) (fx .checked true 16 8 (-300)) (by decide) 2

/-- C133: squares do not depend on the sign, on every fixed-point type and integer, panics included. -/
theorem C133_square (x x' : Fixed m true W F) (hn : x'.val = -x.val) : MixedPowi.powi x' 2 = MixedPowi.powi x 2 := by
  show mixedPowiVia x' 2 = mixedPowiVia x 2
  have e : usizeOfI32 2 = 2 := rfl
  simp [mixedPowiVia, e, powi, powiLoop, Fixed.mul_def, hn]

example := C133_square (fx .checked true 16 8 300) (fx .checked true 16 8 (-300)) (by decide)

end MixedNum
