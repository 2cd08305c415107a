import Verif.Props.FixedComplex
import Verif.Lemmas.Run
import Verif.Props.AddSub
/-! # C123: conjugation against multiplication on integers and fixed point -/

namespace MixedNum
variable {m : Mode} {W F : ℕ}
open Fixed

/-- C123 is false on fixed point: with both parts one unit in the last place, `z * conj z` has a non-zero imaginary part, and `conj (z * z)`
is not `conj z * conj z`. -/
theorem C123_counterexample :
    let z : Cartesian (Fixed .checked true 16 8) := ⟨fx .checked true 16 8 1, fx .checked true 16 8 1⟩
    Returns (do z.mul (← z.conj)) ⟨fx .checked true 16 8 1, fx .checked true 16 8 (-1)⟩ ∧
    Returns (do (← z.mul z).conj) ⟨fx .checked true 16 8 0, fx .checked true 16 8 0⟩ ∧
    Returns (do (← z.conj).mul (← z.conj)) ⟨fx .checked true 16 8 0, fx .checked true 16 8 (-2)⟩ :=
  ⟨.of_eq rfl, .of_eq rfl, .of_eq rfl⟩

/-- The quotient by a power of two rounded up is the one rounded down, plus one if there is a remainder. -/
theorem neg_floor_neg (n : ℤ) : -(-n / 2 ^ F) = n / 2 ^ F + if (2:ℤ) ^ F ∣ n then 0 else 1 := by
  have hp : (0:ℤ) < 2 ^ F := by positivity
  generalize (2:ℤ) ^ F = P at *
  split_ifs with h
  · obtain ⟨k, rfl⟩ := h
    rw [← mul_neg, Int.mul_ediv_cancel_left _ hp.ne', Int.mul_ediv_cancel_left _ hp.ne']; ring
  · have h1 := Int.emod_add_mul_ediv n P
    have h2 := Int.emod_nonneg n hp.ne'
    have h3 := Int.emod_lt_of_pos n hp
    have h4 : n % P ≠ 0 := fun h' => h (Int.dvd_of_emod_eq_zero h')
    have : -n / P = -(n / P) - 1 := by
      rw [Int.ediv_eq_iff_of_pos hp]
      constructor <;> nlinarith [lt_of_le_of_ne h2 (Ne.symm h4)]
    omega

/-- **C123**, what does hold for `z * conj z` with overflow checks, `a` and `b` the parts of `z`: it returns exactly if `⌊a²⌋ + ⌈b²⌉` is
representable, and that is the real part; the imaginary part is zero if `a b` is a whole number of units in the last place, and one unit
below zero otherwise. Missing compared to C123: imaginary part zero in the second case. -/
theorem C123_norm_partial (hF : F < W) (z : Cartesian (Fixed .checked true W F)) :
    let re := z.re.val ^ 2 / 2 ^ F + -(-(z.im.val ^ 2) / 2 ^ F)
    (re < 2 ^ (W - 1) → ∃ c, Returns (do z.mul (← z.conj)) c ∧ c.re.val = re ∧
      c.im.val = if (2:ℤ) ^ F ∣ z.re.val * z.im.val then 0 else -1) ∧
    (2 ^ (W - 1) ≤ re → Panics (do z.mul (← z.conj)) .overflow) := by
  obtain ⟨x, y⟩ := z
  intro re
  obtain ⟨a, ha⟩ : ∃ a, a = x.val := ⟨_, rfl⟩
  obtain ⟨b, hb⟩ : ∃ b, b = y.val := ⟨_, rfl⟩
  have hre : re = a ^ 2 / 2 ^ F + -(-(b ^ 2) / 2 ^ F) := by rw [ha, hb]
  clear_value re
  have fa := x.fits; have fb := y.fits
  rw [← ha] at fa; rw [← hb] at fb
  simp only [Fits, wlo, whi, if_true] at fa fb
  have hp : (0:ℤ) < 2 ^ F := by positivity
  have hT : (0:ℤ) < 2 ^ (W - 1) := by positivity
  have hPT : (2:ℤ) ^ F ≤ 2 ^ (W - 1) := pow_le_pow_right₀ (by norm_num) (by omega)
  have A0 : 0 ≤ a ^ 2 / 2 ^ F := Int.ediv_nonneg (sq_nonneg _) hp.le
  have B0 : 0 ≤ -(-(b ^ 2) / 2 ^ F) := by
    have : -(b ^ 2) / 2 ^ F ≤ 0 := Int.ediv_nonpos_of_nonpos_of_neg (by nlinarith [sq_nonneg b]) hp
    omega
  by_cases hmin : b = -2 ^ (W - 1)
  · -- the most negative imaginary part: the negation overflows, and so does the square
    have big : 2 ^ (W - 1) ≤ re := by
      have : (2:ℤ) ^ (W - 1) ≤ -(-(b ^ 2) / 2 ^ F) := by
        rw [neg_floor_neg, hmin]
        have : (2:ℤ) ^ (W - 1) ≤ (-2 ^ (W - 1)) ^ 2 / 2 ^ F := by
          rw [Int.le_ediv_iff_mul_le hp]; nlinarith
        split_ifs <;> omega
      omega
    refine ⟨fun h => absurd h (by omega), fun _ => .of_eq ?_⟩
    have hf : ¬ Fits true W (-y.val) := by rw [← hb, hmin]; simp [Fits, whi, wlo]
    show (fit (-y.val) >>= fun i => _ : Prog _) >>= _ = _
    rw [fit_checked hf]; rfl
  have fnb : Fits true W (-b) := by simp only [Fits, wlo, whi, if_true]; omega
  have hc : (Cartesian.mk x y).conj = pure ⟨x, mkv (-b) fnb⟩ := by
    show (fit (-y.val) >>= fun i => _ : Prog _) = _
    rw [← hb, fit_of_fits fnb]; rfl
  have hprog : (do (Cartesian.mk x y).mul (← (Cartesian.mk x y).conj)) = (Cartesian.mk x y).mul ⟨x, mkv (-b) fnb⟩ := by
    rw [hc, pure_bind]
  rw [hprog]
  have hd := C73_checked_domain (Cartesian.mk x y) ⟨x, mkv (-b) fnb⟩
  have he := C73_checked_exact (Cartesian.mk x y) ⟨x, mkv (-b) fnb⟩
  simp only [mkv_val, ← ha, ← hb, inRange_iff] at hd he
  rw [show b * -b = -(b ^ 2) by ring, show a * a = a ^ 2 by ring, show a * -b = -(a * b) by ring, mul_comm b a] at hd he
  have hsum : -(a * b) / 2 ^ F + a * b / 2 ^ F = if (2:ℤ) ^ F ∣ a * b then 0 else -1 := by
    have := neg_floor_neg (F := F) (a * b)
    split_ifs at this ⊢ <;> omega
  refine ⟨fun h => ?_, fun h => hd.2 ?_⟩
  · -- the mixed products are dominated by the squares
    have up : ∀ n : ℤ, n ≤ (n / 2 ^ F + 1) * 2 ^ F - 1 := fun n => by
      have := Int.lt_ediv_add_one_mul_self n hp; omega
    have dn : ∀ n : ℤ, n / 2 ^ F * 2 ^ F ≤ n := fun n => Int.ediv_mul_le _ hp.ne'
    have hbound : 2 * |a * b| ≤ (re + 1) * 2 ^ F := by
      have e1 := up (a ^ 2)
      have e2 := dn (-(b ^ 2))
      have : 2 * |a * b| ≤ a ^ 2 + b ^ 2 := by
        rw [abs_mul, ← sq_abs a, ← sq_abs b]; nlinarith [sq_nonneg (|a| - |b|)]
      rw [hre]; nlinarith
    have hab : ∀ n : ℤ, |n| = |a * b| → Fits true W (n / 2 ^ F) := by
      intro n hn
      rw [← hn] at hbound
      have l1 := le_abs_self n; have l2 := neg_abs_le n
      simp only [Fits, wlo, whi, if_true]
      constructor
      · rw [Int.le_ediv_iff_mul_le hp]; nlinarith
      · rw [Int.ediv_lt_iff_lt_mul hp]; nlinarith
    have P : Fits true W (a ^ 2 / 2 ^ F) ∧ Fits true W (-(b ^ 2) / 2 ^ F) ∧ Fits true W (a ^ 2 / 2 ^ F - -(b ^ 2) / 2 ^ F) ∧
        Fits true W (-(a * b) / 2 ^ F) ∧ Fits true W (a * b / 2 ^ F) ∧ Fits true W (-(a * b) / 2 ^ F + a * b / 2 ^ F) := by
      refine ⟨?_, ?_, ?_, hab _ (abs_neg _), hab _ rfl, ?_⟩
      · simp only [Fits, wlo, whi, if_true]; omega
      · simp only [Fits, wlo, whi, if_true]; omega
      · simp only [Fits, wlo, whi, if_true]; omega
      · rw [hsum]; simp only [Fits, wlo, whi, if_true]; split_ifs <;> omega
    obtain ⟨c, hc⟩ := hd.1 P
    refine ⟨c, hc, ?_, ?_⟩
    · rw [(he c hc).1, hre]; ring
    · rw [(he c hc).2, hsum, ha, hb]
  · rintro ⟨-, -, h3, -⟩
    simp only [Fits, wlo, whi, if_true] at h3
    omega

/-- A product that returns for some amount of fuel is built from the four products rounded down. -/
theorem mul_ok {a b c : Cartesian (Fixed .checked true W F)} {n : ℕ} (h : a.mul b n = .ok c) :
    c.re.val = a.re.val * b.re.val / 2 ^ F - a.im.val * b.im.val / 2 ^ F ∧
    c.im.val = a.re.val * b.im.val / 2 ^ F + a.im.val * b.re.val / 2 ^ F := by
  have key : ∀ n x r, (fit x : Prog (Fixed .checked true W F)) n = .ok r → r.val = x := by
    intro n x r hr
    by_cases hf : Fits true W x
    · rw [fit_of_fits hf] at hr; simp at hr; rw [← hr]; rfl
    · rw [fit_checked hf] at hr; simp at hr
  simp only [Cartesian.mul, ops.mulCartesian] at h
  obtain ⟨p1, h1, h⟩ := Prog.bind_ok_inv h
  obtain ⟨p2, h2, h⟩ := Prog.bind_ok_inv h
  obtain ⟨p3, h3, h⟩ := Prog.bind_ok_inv h
  obtain ⟨p4, h4, h⟩ := Prog.bind_ok_inv h
  obtain ⟨p5, h5, h⟩ := Prog.bind_ok_inv h
  obtain ⟨p6, h6, h⟩ := Prog.bind_ok_inv h
  simp only [Prog.pure_apply, Out.ok.injEq] at h
  have h1 := key _ _ _ h1; have h2 := key _ _ _ h2; have h3 := key _ _ _ h3
  have h4 := key _ _ _ h4; have h5 := key _ _ _ h5; have h6 := key _ _ _ h6
  rw [← h]; simp only [*, and_self]

/-- **C123**, what does hold for products with overflow checks: where both sides return, `conj (z * w)` and `conj z * conj w` have the
same real part, and the imaginary part of the second is lower by one unit in the last place for each of the two products in it that is not
a whole number of units. Missing compared to C123: equality in that case. -/
theorem C123_mul_partial (z w c d : Cartesian (Fixed .checked true W F)) (hc : Returns (do (← z.mul w).conj) c)
    (hd : Returns (do (← z.conj).mul (← w.conj)) d) :
    c.re = d.re ∧ c.im.val = d.im.val + (if (2:ℤ) ^ F ∣ z.re.val * w.im.val then 0 else 1) +
      (if (2:ℤ) ^ F ∣ z.im.val * w.re.val then 0 else 1) := by
  have key : ∀ (u v : Cartesian (Fixed .checked true W F)) (n : ℕ), u.conj n = .ok v → v.re = u.re ∧ v.im.val = -u.im.val := by
    intro u v n h
    by_cases hu : u.im.val = -(2 ^ (W - 1))
    · rw [(C14_fixed u).2 hu rfl] at h; simp at h
    · obtain ⟨v', h1, h2, h3⟩ := (C14_fixed u).1 hu
      rw [h1] at h; simp at h; subst h; exact ⟨h2, h3⟩
  obtain ⟨N, hN⟩ := hc
  obtain ⟨M, hM⟩ := hd
  obtain ⟨p, hp, h1⟩ := Prog.bind_ok_inv (hN N le_rfl)
  obtain ⟨z', hz, h2⟩ := Prog.bind_ok_inv (hM M le_rfl)
  obtain ⟨w', hw, h3⟩ := Prog.bind_ok_inv h2
  obtain ⟨c1, c2⟩ := key _ _ _ h1
  obtain ⟨z1, z2⟩ := key _ _ _ hz
  obtain ⟨w1, w2⟩ := key _ _ _ hw
  obtain ⟨p1, p2⟩ := mul_ok hp
  obtain ⟨d1, d2⟩ := mul_ok h3
  constructor
  · apply Fixed.ext
    rw [c1, p1, d1, z1, w1, z2, w2, neg_mul_neg]
  · have e1 := neg_floor_neg (F := F) (z.re.val * w.im.val)
    have e2 := neg_floor_neg (F := F) (z.im.val * w.re.val)
    rw [c2, p2, d2, z1, w1, z2, w2, mul_neg, neg_mul]
    split_ifs at e1 e2 ⊢ <;> omega

example := C123_mul_partial (W := 16) (F := 4) ⟨fx .checked true 16 4 5, fx .checked true 16 4 7⟩ ⟨fx .checked true 16 4 3, fx .checked true 16 4 (-9)⟩
  ⟨fx .checked true 16 4 4, fx .checked true 16 4 2⟩ ⟨fx .checked true 16 4 4, fx .checked true 16 4 0⟩ (by run 0) (by run 0)

/-- C123, signed integers with overflow checks: `z * conj z` returns exactly if the sum of the squares is representable; it is that sum and
zero. -/
theorem C123_norm_int (hW : 2 ≤ W) (z : Cartesian (PInt .checked true W)) :
    let re := z.re.val ^ 2 + z.im.val ^ 2
    (re < 2 ^ (W - 1) → ∃ c, Returns (do z.mul (← z.conj)) c ∧ c.re.val = re ∧ c.im.val = 0) ∧
    (2 ^ (W - 1) ≤ re → Panics (do z.mul (← z.conj)) .overflow) := by
  obtain ⟨x, y⟩ := z
  intro re
  obtain ⟨a, ha⟩ : ∃ a, a = x.val := ⟨_, rfl⟩
  obtain ⟨b, hb⟩ : ∃ b, b = y.val := ⟨_, rfl⟩
  have hre : re = a ^ 2 + b ^ 2 := by rw [ha, hb]
  clear_value re
  have fa := x.fits; have fb := y.fits
  rw [← ha] at fa; rw [← hb] at fb
  simp only [Fits, wlo, whi, if_true] at fa fb
  have hT : (2:ℤ) ≤ 2 ^ (W - 1) := by
    calc (2:ℤ) = 2 ^ 1 := by norm_num
      _ ≤ _ := pow_le_pow_right₀ (by norm_num) (by omega)
  have A0 := sq_nonneg a; have B0 := sq_nonneg b
  by_cases hmin : b = -2 ^ (W - 1)
  · have big : 2 ^ (W - 1) ≤ re := by rw [hre, hmin]; nlinarith
    refine ⟨fun h => absurd h (by omega), fun _ => .of_eq ?_⟩
    have hf : ¬ Fits true W (-y.val) := by rw [← hb, hmin]; simp [Fits, whi, wlo]
    show (PInt.fit (-y.val) >>= fun i => _ : Prog _) >>= _ = _
    rw [PInt.fit_checked hf]; rfl
  have fnb : Fits true W (-b) := by simp only [Fits, wlo, whi, if_true]; omega
  have hc : (Cartesian.mk x y).conj = pure ⟨x, PInt.mkv (-b) fnb⟩ := by
    show (PInt.fit (-y.val) >>= fun i => _ : Prog _) = _
    rw [← hb, PInt.fit_of_fits fnb]; rfl
  have hprog : (do (Cartesian.mk x y).mul (← (Cartesian.mk x y).conj)) = (Cartesian.mk x y).mul ⟨x, PInt.mkv (-b) fnb⟩ := by
    rw [hc, pure_bind]
  rw [hprog]
  have hd := C02_checked_returns_iff (Cartesian.mk x y) ⟨x, PInt.mkv (-b) fnb⟩
  have he := C02_checked_exact (Cartesian.mk x y) ⟨x, PInt.mkv (-b) fnb⟩
  have ht := C02_checked_total (Cartesian.mk x y) ⟨x, PInt.mkv (-b) fnb⟩
  simp only [PInt.mkv_val, ← ha, ← hb, inRange_iff] at hd he
  rw [show b * -b = -(b ^ 2) by ring, show a * a = a ^ 2 by ring, show a * -b = -(a * b) by ring, mul_comm b a] at hd he
  refine ⟨fun h => ?_, fun h => ?_⟩
  · have hab : 2 * |a * b| ≤ re := by
      rw [hre, abs_mul, ← sq_abs a, ← sq_abs b]; nlinarith [sq_nonneg (|a| - |b|)]
    have l1 := le_abs_self (a * b); have l2 := neg_abs_le (a * b)
    obtain ⟨c, hc⟩ := hd.mpr ⟨by simp only [Fits, wlo, whi, if_true]; omega, by simp only [Fits, wlo, whi, if_true]; omega,
      by simp only [Fits, wlo, whi, if_true]; omega, by simp only [Fits, wlo, whi, if_true]; omega,
      by simp only [Fits, wlo, whi, if_true]; omega, by simp only [Fits, wlo, whi, if_true]; omega⟩
    refine ⟨c, hc, ?_, ?_⟩
    · rw [(he c hc).1, hre]; ring
    · rw [(he c hc).2]; ring
  · refine ht.resolve_left fun ⟨c, hc⟩ => ?_
    obtain ⟨-, -, h3, -⟩ := hd.mp ⟨c, hc⟩
    simp only [Fits, wlo, whi, if_true] at h3
    omega

-- (3 + 4i)(3 - 4i) = 25 in an i8; (8 + 8i)(8 - 8i) = 128 overflows it
example : let z := Cartesian.mk (i .checked true 8 3) (i .checked true 8 4)
    ∃ c, Returns (do z.mul (← z.conj)) c ∧ c.re.val = 25 ∧ c.im.val = 0 :=
  (C123_norm_int (by norm_num) ⟨i .checked true 8 3, i .checked true 8 4⟩).1 (by decide)
example : let z := Cartesian.mk (i .checked true 8 8) (i .checked true 8 8)
    Panics (do z.mul (← z.conj)) .overflow :=
  (C123_norm_int (by norm_num) ⟨i .checked true 8 8, i .checked true 8 8⟩).2 (by decide)
-- in I8F8, (1.5 + 0.0078125 i) times its conjugate: a b = 1.5 · 2 = 3 units, a whole number
example : let z := Cartesian.mk (fx .checked true 16 8 384) (fx .checked true 16 8 2)
    ∃ c, Returns (do z.mul (← z.conj)) c ∧ c.re.val = 577 ∧ c.im.val = 0 :=
  (C123_norm_partial (by norm_num) ⟨fx .checked true 16 8 384, fx .checked true 16 8 2⟩).1 (by decide)
example : let z := Cartesian.mk (fx .checked true 16 8 0) (fx .checked true 16 8 (-2 ^ 15))
    Panics (do z.mul (← z.conj)) .overflow :=
  (C123_norm_partial (by norm_num) ⟨fx .checked true 16 8 0, fx .checked true 16 8 (-2 ^ 15)⟩).2 (by decide)

end MixedNum
