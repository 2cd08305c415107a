import Verif.Lemmas.Run
import Verif.Props.Ints
import Verif.Model.Target
import Verif.Props.AddSub
/-! # C131, C132: laws of exponents on integers; integer powers on other targets -/

namespace MixedNum
variable {m : Mode} {s : Bool} {W F : ℕ}

theorem PInt.fit_congr (hW : 0 < W) {a b : ℤ} (h : a ≡ b [ZMOD 2 ^ W]) : (PInt.fit a : Prog (PInt .wrapping s W)) = PInt.fit b := by
  rw [PInt.fit_wrapping, PInt.fit_wrapping]
  congr 1; ext
  exact eq_of_modEq_of_fits hW (fits_wrapInt s W a) (fits_wrapInt s W b) ((wrapInt_modEq hW a).trans (h.trans (wrapInt_modEq hW b).symm))

theorem powi_eq_fit (hW : 2 ≤ W) (b : PInt m s W) (n : ℕ) : powi b n = PInt.fit (b.val ^ n) := by
  obtain ⟨h1, h2, h3⟩ := powi_pint_eq hW b n
  by_cases h : Fits s W (b.val ^ n)
  · rw [h1 h, PInt.fit_of_fits h]
  · cases m with
    | checked => rw [h2 h rfl, PInt.fit_checked h]
    | wrapping =>
      obtain ⟨r, hr, e⟩ := h3 rfl
      rw [hr, PInt.fit_wrapping]; congr 1; ext
      exact eq_of_modEq_of_fits (by omega) r.fits (fits_wrapInt _ _ _) (e.trans (wrapInt_modEq (by omega) _).symm)

theorem mixedPowi_eq_fit (hW : 2 ≤ W) (b : PInt m s W) (n : ℕ) (hn : n < 2 ^ 31) : MixedPowi.powi b (n : ℤ) = PInt.fit (b.val ^ n) := by
  show powi b (usizeOfI32 n) = _
  rw [usizeOfI32_nat n hn, powi_eq_fit hW]

/-! ## C131 -/

/-- C131: `x^(j+k)` and `x^j * x^k` have the same outcome, the same panic included, in both modes. -/
theorem C131_add (hW : 2 ≤ W) (x : PInt m s W) (j k : ℕ) (h : j + k < 2 ^ 31) :
    SameOutcome (MixedPowi.powi x ((j + k : ℕ) : ℤ))
      (do let a ← MixedPowi.powi x (j : ℤ); let b ← MixedPowi.powi x (k : ℤ); NumOps.mul a b) := by
  refine ⟨0, fun n _ => congrFun ?_ n⟩
  rw [mixedPowi_eq_fit hW _ _ h, mixedPowi_eq_fit hW _ _ (by omega), mixedPowi_eq_fit hW _ _ (by omega)]
  by_cases h1 : Fits s W (x.val ^ j)
  · by_cases h2 : Fits s W (x.val ^ k)
    · rw [PInt.fit_of_fits h1, PInt.fit_of_fits h2]
      simp only [pure_bind, PInt.mul_def, PInt.mkv_val]
      rw [pow_add]
    · cases m with
      | wrapping =>
        simp only [PInt.fit_wrapping (x.val ^ j), PInt.fit_wrapping (x.val ^ k), pure_bind, PInt.mul_def]
        refine PInt.fit_congr (by omega) ?_
        rw [pow_add]
        exact ((wrapInt_modEq (by omega) _).mul (wrapInt_modEq (by omega) _)).symm
      | checked =>
        rw [PInt.fit_of_fits h1, PInt.fit_checked h2, PInt.fit_checked]
        · rfl
        · intro h3
          rcases Nat.eq_zero_or_pos k with rfl | hk
          · exact h2 (by simpa using fits_one hW)
          · exact h2 (fits_pow_of_le hW x.fits hk (by omega) h3)
  · cases m with
    | wrapping =>
      simp only [PInt.fit_wrapping (x.val ^ j), PInt.fit_wrapping (x.val ^ k), pure_bind, PInt.mul_def]
      refine PInt.fit_congr (by omega) ?_
      rw [pow_add]
      exact ((wrapInt_modEq (by omega) _).mul (wrapInt_modEq (by omega) _)).symm
    | checked =>
      rw [PInt.fit_checked h1, PInt.fit_checked]
      · rfl
      · intro h3
        rcases Nat.eq_zero_or_pos j with rfl | hj
        · exact h1 (by simpa using fits_one hW)
        · exact h1 (fits_pow_of_le hW x.fits hj (by omega) h3)

example := C131_add (by norm_num) (i .checked true 16 (-7)) 2 3 (by norm_num)

/-- C131: `(x^j)^k` and `x^(j*k)` have the same outcome for `k > 0`. -/
theorem C131_mul (hW : 2 ≤ W) (x : PInt m s W) (j k : ℕ) (hk : 0 < k) (hj : j < 2 ^ 31) (hk' : k < 2 ^ 31) (h : j * k < 2 ^ 31) :
    SameOutcome (MixedPowi.powi x ((j * k : ℕ) : ℤ)) (do let a ← MixedPowi.powi x (j : ℤ); MixedPowi.powi a (k : ℤ)) := by
  refine ⟨0, fun n _ => congrFun ?_ n⟩
  rw [mixedPowi_eq_fit hW _ _ h, mixedPowi_eq_fit hW _ _ hj]
  by_cases h1 : Fits s W (x.val ^ j)
  · rw [PInt.fit_of_fits h1, pure_bind, mixedPowi_eq_fit hW _ _ hk', PInt.mkv_val, pow_mul]
  · cases m with
    | wrapping =>
      rw [PInt.fit_wrapping (x.val ^ j), pure_bind, mixedPowi_eq_fit hW _ _ hk']
      refine PInt.fit_congr (by omega) ?_
      rw [pow_mul]
      exact ((wrapInt_modEq (by omega) _).pow k).symm
    | checked =>
      rw [PInt.fit_checked h1, PInt.fit_checked]
      · rfl
      · intro h3
        rcases Nat.eq_zero_or_pos j with rfl | hj
        · exact h1 (by simpa using fits_one hW)
        · exact h1 (fits_pow_of_le hW x.fits hj (Nat.le_mul_of_pos_right j hk) h3)

example := C131_mul (by norm_num) (i .checked true 16 (-7)) 2 3 (by norm_num) (by norm_num) (by norm_num) (by norm_num)

/-- C131: `(x*y)^k` and `x^k * y^k` agree where both return; without overflow checks they always do. -/
theorem C131_base (hW : 2 ≤ W) (x y : PInt m s W) (k : ℕ) (hk : k < 2 ^ 31) {a b : PInt m s W}
    (ha : Returns (do let p ← NumOps.mul x y; MixedPowi.powi p (k : ℤ)) a)
    (hb : Returns (do let p ← MixedPowi.powi x (k : ℤ); let q ← MixedPowi.powi y (k : ℤ); NumOps.mul p q) b) : a = b := by
  simp only [mixedPowi_eq_fit hW _ _ hk, PInt.mul_def] at ha hb
  cases m with
  | wrapping =>
    simp only [PInt.fit_wrapping (x.val ^ k), PInt.fit_wrapping (y.val ^ k), PInt.fit_wrapping (x.val * y.val), pure_bind,
      PInt.mkv_val] at ha hb
    rw [PInt.fit_congr (by omega) (b := (x.val * y.val) ^ k) ((wrapInt_modEq (by omega) _).pow k)] at ha
    rw [PInt.fit_congr (by omega) (b := (x.val * y.val) ^ k)
      (by rw [mul_pow]; exact (wrapInt_modEq (by omega) _).mul (wrapInt_modEq (by omega) _))] at hb
    exact ha.unique hb
  | checked =>
    by_cases h1 : Fits s W (x.val * y.val)
    · by_cases h2 : Fits s W (x.val ^ k)
      · by_cases h3 : Fits s W (y.val ^ k)
        · rw [PInt.fit_of_fits h1] at ha
          rw [PInt.fit_of_fits h2, PInt.fit_of_fits h3] at hb
          simp only [pure_bind, PInt.mkv_val] at ha hb
          rw [mul_pow] at ha
          exact ha.unique hb
        · rw [PInt.fit_of_fits h2, PInt.fit_checked h3] at hb
          exact absurd hb returns_fail
      · rw [PInt.fit_checked h2] at hb
        exact absurd hb returns_fail
    · rw [PInt.fit_checked h1] at ha
      exact absurd ha returns_fail

example := C131_base (by norm_num) (i .checked true 16 (-7)) (i .checked true 16 3) 3 (by norm_num) (a := i .checked true 16 (-9261)) (b := i .checked true 16 (-9261)) (by run 10) (by run 10)

/-- C131: the bases commute with powers without overflow checks, all inputs. -/
theorem C131_base_wrapping (hW : 2 ≤ W) (x y : PInt .wrapping s W) (k : ℕ) (hk : k < 2 ^ 31) :
    SameOutcome (do let p ← NumOps.mul x y; MixedPowi.powi p (k : ℤ))
      (do let p ← MixedPowi.powi x (k : ℤ); let q ← MixedPowi.powi y (k : ℤ); NumOps.mul p q) := by
  refine ⟨0, fun n _ => congrFun ?_ n⟩
  simp only [mixedPowi_eq_fit hW _ _ hk, PInt.mul_def]
  simp only [PInt.fit_wrapping (x.val ^ k), PInt.fit_wrapping (y.val ^ k), PInt.fit_wrapping (x.val * y.val), pure_bind]
  refine PInt.fit_congr (by omega) ?_
  simp only [PInt.mkv_val]
  refine ((wrapInt_modEq (by omega) _).pow k).trans ?_
  rw [mul_pow]
  exact ((wrapInt_modEq (by omega) _).mul (wrapInt_modEq (by omega) _)).symm

example := C131_base_wrapping (by norm_num) (i .wrapping true 8 (-7)) (i .wrapping true 8 3) 3 (by norm_num)

/-- C131: with overflow checks the condition of `C131_base` is needed: `(2 * -1)^7` is -128 on `i8`, but `2^7` overflows. -/
theorem C131_base_needs : Returns (do let p ← NumOps.mul (i .checked true 8 2) (i .checked true 8 (-1)); MixedPowi.powi p 7) (i .checked true 8 (-128)) ∧
    Panics (do let p ← MixedPowi.powi (i .checked true 8 2) 7; let q ← MixedPowi.powi (i .checked true 8 (-1)) 7; NumOps.mul p q) .overflow :=
  ⟨.of_eq rfl, .of_eq rfl⟩

/-! ## C132 -/

/-- C132: the model above is the one for 64 bits. -/
theorem C132_64 {α : Type} [NumOps α] [Lit α] (x : α) (e : ℤ) : mixedPowiAt 64 x e = mixedPowiVia x e := rfl

/-- C132: exponents from 0 on do not depend on the target, if it has at least 32 bits. -/
theorem C132_nonneg {α : Type} [NumOps α] [Lit α] (x : α) (P Q : ℕ) (hP : 32 ≤ P) (hQ : 32 ≤ Q) (n : ℕ) (hn : n < 2 ^ 31) :
    mixedPowiAt P x n = powi x n ∧ mixedPowiAt P x n = mixedPowiAt Q x n := by
  have e : ∀ P, 32 ≤ P → usizeOfI32At P n = n := by
    intro P hP
    have : (n : ℤ) < 2 ^ P := lt_of_lt_of_le (by exact_mod_cast (hn.trans (by norm_num : 2 ^ 31 < 2 ^ 32)))
      (pow_le_pow_right₀ (by norm_num : (1:ℤ) ≤ 2) hP)
    rw [usizeOfI32At, Int.emod_eq_of_lt (by omega) this, Int.toNat_natCast]
  simp [mixedPowiAt, e P hP, e Q hQ]

example := C132_nonneg (i .checked true 16 (-7)) 32 64 (by norm_num) (by norm_num) 3 (by norm_num)

theorem usizeAt_neg {P : ℕ} (hP : 32 ≤ P) {e : ℤ} (h1 : -2 ^ 31 ≤ e) (h2 : e < 0) :
    (usizeOfI32At P e : ℤ) = 2 ^ P + e ∧ 2 ^ 31 ≤ usizeOfI32At P e := by
  have : (2:ℤ) ^ 32 ≤ 2 ^ P := pow_le_pow_right₀ (by norm_num) hP
  have k : e % 2 ^ P = 2 ^ P + e := by
    rw [← Int.add_emod_left, Int.emod_eq_of_lt] <;> omega
  have h3 : (usizeOfI32At P e : ℤ) = 2 ^ P + e := by
    rw [usizeOfI32At, k, Int.toNat_of_nonneg (by omega)]
  exact ⟨h3, by zify; omega⟩

/-- C132: on integers no wider than the pointers no exponent does, in both modes. -/
theorem C132_partial (hW : 2 ≤ W) (P Q : ℕ) (hP : 32 ≤ P) (hQ : 32 ≤ Q) (hPW : W ≤ P) (hQW : W ≤ Q) (hW' : W ≤ 2 ^ 31) (x : PInt m s W)
    (e : ℤ) (h1 : -2 ^ 31 ≤ e) (h2 : e < 2 ^ 31) : mixedPowiAt P x e = mixedPowiAt Q x e := by
  rcases le_or_gt 0 e with h0 | h0
  · obtain ⟨n, rfl⟩ := Int.eq_ofNat_of_zero_le h0
    exact (C132_nonneg x P Q hP hQ n (by exact_mod_cast h2)).2
  obtain ⟨a1, a2⟩ := usizeAt_neg hP h1 h0
  obtain ⟨b1, b2⟩ := usizeAt_neg hQ h1 h0
  show powi x (usizeOfI32At P e) = powi x (usizeOfI32At Q e)
  set p := usizeOfI32At P e
  set q := usizeOfI32At Q e
  rw [powi_eq_fit hW, powi_eq_fit hW]
  have even : ∀ {P}, 32 ≤ P → (2:ℤ) ∣ 2 ^ P := fun h => dvd_pow_self 2 (by omega)
  cases m with
  | wrapping =>
    refine PInt.fit_congr (by omega) ?_
    rcases Int.even_or_odd x.val with ev | od
    · have z : ∀ {k : ℕ}, 2 ^ 31 ≤ k → x.val ^ k ≡ 0 [ZMOD 2 ^ W] := fun hk =>
        Int.modEq_zero_iff_dvd.mpr ((pow_dvd_pow 2 (hW'.trans hk)).trans (pow_dvd_pow_of_dvd ev.two_dvd _))
      exact (z a2).trans (z b2).symm
    · -- both are the inverse of x^|e|
      have key : ∀ {P k : ℕ}, W ≤ P → (k : ℤ) = 2 ^ P + e → x.val ^ k * x.val ^ e.natAbs ≡ 1 [ZMOD 2 ^ W] := by
        intro P k hWP hk
        rw [← pow_add, show k + e.natAbs = 2 ^ P by zify; rw [abs_of_neg h0]; omega]
        refine (Int.modEq_iff_dvd.mpr ?_).symm
        exact (pow_dvd_pow 2 (by omega)).trans (odd_pow_two_pow x.val od P)
      have c1 := (key hPW a1)
      have c2 := (key hQW b1)
      calc x.val ^ p = x.val ^ p * 1 := (mul_one _).symm
        _ ≡ x.val ^ p * (x.val ^ q * x.val ^ e.natAbs) [ZMOD 2 ^ W] := c2.symm.mul_left _
        _ = x.val ^ q * (x.val ^ p * x.val ^ e.natAbs) := by ring
        _ ≡ x.val ^ q * 1 [ZMOD 2 ^ W] := c1.mul_left _
        _ = x.val ^ q := mul_one _
  | checked =>
    rcases le_or_gt 2 |x.val| with hb | hb
    · have big : ∀ {k : ℕ}, 2 ^ 31 ≤ k → ¬ Fits s W (x.val ^ k) := by
        intro k hk hf
        have hp : (2:ℤ) ^ W ≤ |x.val ^ k| := by
          rw [abs_pow]
          calc (2:ℤ) ^ W ≤ 2 ^ k := pow_le_pow_right₀ (by norm_num) (hW'.trans hk)
            _ ≤ |x.val| ^ k := pow_le_pow_left₀ (by norm_num) hb _
        have hw : (2:ℤ) ^ W = 2 * 2 ^ (W - 1) := by rw [← pow_succ']; congr 1; omega
        have hpos : (0:ℤ) < 2 ^ (W - 1) := by positivity
        obtain ⟨f1, f2⟩ := hf
        have : |x.val ^ k| < 2 ^ W := by
          cases s <;> simp only [wlo, whi, if_true, Bool.false_eq_true, if_false] at f1 f2 <;> rw [abs_lt] <;> constructor <;> omega
        omega
      rw [PInt.fit_checked (big a2), PInt.fit_checked (big b2)]
    · congr 1
      rw [abs_lt] at hb
      obtain hx | hx | hx : x.val = -1 ∨ x.val = 0 ∨ x.val = 1 := by omega
      · have par : p % 2 = q % 2 := by
          have := even hP; have := even hQ; omega
        rw [hx, neg_one_pow_eq_pow_mod_two, par, ← neg_one_pow_eq_pow_mod_two]
      · rw [hx, zero_pow (by omega), zero_pow (by omega)]
      · rw [hx, one_pow, one_pow]

example := C132_partial (by decide) 32 64 (by decide) (by decide) (by decide) (by decide) (by decide) (i .checked true 8 (-3)) 4 (by decide) (by decide)

theorem sq_iter (x k : ℕ) : ∀ n, n = 2 ^ k → ((fun t => t * t % 2 ^ 64)^[k] x) % 2 ^ 64 = x ^ n % 2 ^ 64 := by
  induction k with
  | zero => rintro _ rfl; simp
  | succ k ih =>
    rintro n hn
    rw [pow_succ, mul_two] at hn
    have := ih _ rfl
    rw [Function.iterate_succ_apply', Nat.mod_mod, Nat.mul_mod, this, ← Nat.mul_mod, ← pow_add, ← hn]

/-- 3 to the 2^32 is not 1 modulo 2^64. -/
theorem three_pow_ne (n : ℕ) (hn : n = 2 ^ 32) : ¬ (3:ℤ) ^ n ≡ 1 [ZMOD 2 ^ 64] := by
  intro h
  have hn' : 3 ^ n % 2 ^ 64 = 1 := by
    have : ((3 ^ n : ℕ) : ℤ) % ((2 ^ 64 : ℕ) : ℤ) = 1 := by push_cast; exact h
    exact_mod_cast this
  rw [← sq_iter 3 32 n hn] at hn'
  exact absurd hn' (by decide +kernel)

theorem odd_pow_one (x : ℤ) (hx : Odd x) (k : ℕ) : ∀ n, n = 2 ^ k → x ^ n ≡ 1 [ZMOD 2 ^ k] := by
  rintro n rfl
  exact (Int.modEq_iff_dvd.mpr ((pow_dvd_pow 2 (by omega)).trans (odd_pow_two_pow x hx k))).symm

/-- C132 is false of integers wider than the pointers: `3.mixed_powi(-1)` on `i64` without overflow checks is the inverse of 3 modulo 2^64
on a 64-bit target and another number on a 32-bit target; and on a 16-bit target the exponent 65536 is 0. -/
theorem C132_counterexample :
    (∃ a b : PInt .wrapping true 64, Returns (mixedPowiAt 32 (i .wrapping true 64 3) (-1)) a ∧
      Returns (mixedPowiAt 64 (i .wrapping true 64 3) (-1)) b ∧ a ≠ b ∧ b.val = -6148914691236517205) ∧
    Returns (mixedPowiAt 16 (i .checked true 64 2) 65536) (i .checked true 64 1) ∧
    Panics (mixedPowiAt 32 (i .checked true 64 2) 65536) .overflow := by
  refine ⟨?_, .of_eq rfl, ?_⟩
  · have e : ∀ P, mixedPowiAt P (i .wrapping true 64 3) (-1) = pure (PInt.mkv (wrapInt true 64 (3 ^ usizeOfI32At P (-1))) (fits_wrapInt _ _ _)) := by
      intro P
      show powi _ _ = _
      rw [powi_eq_fit (by norm_num), PInt.fit_wrapping]; rfl
    rw [e, e]
    have h1 := (usizeAt_neg (P := 32) le_rfl (e := -1) (by norm_num) (by norm_num)).1
    have h2 := (usizeAt_neg (P := 64) (by norm_num) (e := -1) (by norm_num) (by norm_num)).1
    generalize usizeOfI32At 32 (-1) = p at h1 ⊢
    generalize usizeOfI32At 64 (-1) = q at h2 ⊢
    have inv : (3:ℤ) ^ q * 3 ≡ 1 [ZMOD 2 ^ 64] := by
      rw [← pow_succ]
      exact odd_pow_one 3 (by decide) 64 _ (by omega)
    have w2 := wrapInt_modEq (s := true) (W := 64) (by norm_num) (3 ^ q)
    refine ⟨_, _, .of_eq rfl, .of_eq rfl, ?_, ?_⟩
    · intro h
      have h : wrapInt true 64 (3 ^ p) = wrapInt true 64 (3 ^ q) := congrArg (fun t => t.val) h
      have w1 := wrapInt_modEq (s := true) (W := 64) (by norm_num) (3 ^ p)
      have hh : (3:ℤ) ^ p * 3 ≡ 1 [ZMOD 2 ^ 64] := by
        refine Int.ModEq.trans (Int.ModEq.mul_right 3 ?_) inv
        rw [h] at w1
        exact w1.symm.trans w2
      rw [← pow_succ] at hh
      exact three_pow_ne _ (by omega) hh
    · have k : (-6148914691236517205 : ℤ) ≡ 3 ^ q [ZMOD 2 ^ 64] := by
        have : (-6148914691236517205 : ℤ) * 3 ≡ 1 [ZMOD 2 ^ 64] := by decide
        calc (-6148914691236517205 : ℤ) = -6148914691236517205 * 1 := (mul_one _).symm
          _ ≡ -6148914691236517205 * (3 ^ q * 3) [ZMOD 2 ^ 64] := inv.symm.mul_left _
          _ = 3 ^ q * (-6148914691236517205 * 3) := by ring
          _ ≡ 3 ^ q * 1 [ZMOD 2 ^ 64] := this.mul_left _
          _ = _ := mul_one _
      exact eq_of_modEq_of_fits (s := true) (by norm_num) (fits_wrapInt _ _ _) (by constructor <;> decide) (w2.trans k.symm)
  · refine .of_eq ((powi_pint_eq (by norm_num) _ _).2.1 ?_ rfl)
    rintro ⟨-, h⟩
    have : usizeOfI32At 32 65536 = 65536 := by decide
    rw [this] at h
    have h1 : (2:ℤ) ^ 64 ≤ 2 ^ 65536 := pow_le_pow_right₀ (by norm_num) (by norm_num)
    have h2 : (2:ℤ) ^ 65536 < whi true 64 := h
    have h3 : whi true 64 = 9223372036854775808 := by decide
    norm_num [h3] at h1 h2 ⊢
    omega

/-- C132, complex powers: the exponent of the magnitude goes from `usize` through `i32` to `usize` again. It survives on a 32-bit target, on a
64-bit target only if it is below 2^31. -/
theorem C132_complex (n : ℕ) (hn : n < 2 ^ 32) : usizeOfI32At 32 (i32OfUsize n) = n ∧
    (usizeOfI32At 64 (i32OfUsize n) = n ↔ n < 2 ^ 31) := by
  unfold usizeOfI32At i32OfUsize; omega

example : MixedPowi.powi (i .checked true 32 3) 5 = pure (i .checked true 32 243) := rfl

end MixedNum
