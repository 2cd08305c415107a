import Verif.Spec.ToAndFro
import Verif.Props.RoundTrip
import Verif.Props.Polar
import Verif.Props.Norm
import Verif.Props.Modes
import Verif.Lemmas.ArgNear
/-! # C174: to polar form and back, many times -/

namespace MixedNum
variable {m : Mode} {W F : ℕ} {f : Format}

/-- C174, exact reals: nothing changes. -/
theorem C174_real (z : Cartesian ℝ) (n : ℕ) : Returns (toAndFro z n) z := by
  induction n with
  | zero => exact .of_eq rfl
  | succ n ih => exact ih.bind (C16_round_trip z)

theorem drift_zero (d e N : ℝ) : drift d e N 0 = 0 := by simp [drift]

theorem drift_succ (d e N : ℝ) (n : ℕ) : drift d e N (n + 1) = (1 + d) * drift d e N n + d * N + e := by
  have h : ∑ i ∈ Finset.range (n + 1), (1 + d) ^ i = 1 + (1 + d) * ∑ i ∈ Finset.range n, (1 + d) ^ i := by
    rw [Finset.sum_range_succ', Finset.mul_sum, _root_.add_comm]
    simp [pow_succ, mul_comm]
  rw [drift, h, drift, pow_succ]; ring

theorem drift_mono {d e N : ℝ} (hd : 0 ≤ d) (he : 0 ≤ e) (hN : 0 ≤ N) {k n : ℕ} (h : k ≤ n) : 0 ≤ drift d e N k ∧ drift d e N k ≤ drift d e N n := by
  have h0 : ∀ k, 0 ≤ drift d e N k := by
    intro k
    induction k with
    | zero => rw [drift_zero]
    | succ k ih => rw [drift_succ]; positivity
  refine ⟨h0 k, ?_⟩
  induction n, h using Nat.le_induction with
  | base => exact le_refl _
  | succ n _ ih =>
    refine ih.trans ?_
    rw [drift_succ]
    have := mul_nonneg hd (h0 n)
    have := mul_nonneg hd hN
    linarith

/-- C174, the bound in plain terms: as long as the relative errors of the `n` trips add up to no more than a half, the total is at most twice the
sum of the errors of the trips. -/
theorem C174_bound {d e N : ℝ} (hd : 0 ≤ d) (he : 0 ≤ e) (hN : 0 ≤ N) (n : ℕ) (h : n * d ≤ 1 / 2) : drift d e N n ≤ 2 * n * (d * N + e) := by
  have hp : ∀ k ≤ n, (1 + d) ^ k ≤ 1 + 2 * k * d := by
    intro k
    induction k with
    | zero => intro _; simp
    | succ k ih =>
      intro hk
      have h1 := ih (by omega)
      have h2 : (k:ℝ) * d ≤ 1 / 2 := (mul_le_mul_of_nonneg_right (by exact_mod_cast (by omega : k ≤ n)) hd).trans h
      rw [pow_succ]
      have := mul_le_mul_of_nonneg_right h1 (by linarith : 0 ≤ 1 + d)
      have h3 := mul_le_mul_of_nonneg_right h2 hd
      push_cast
      nlinarith
  have hs : ∑ i ∈ Finset.range n, (1 + d) ^ i ≤ 2 * n := by
    have : ∑ i ∈ Finset.range n, (1 + d) ^ i ≤ ∑ _i ∈ Finset.range n, (2:ℝ) := by
      refine Finset.sum_le_sum fun i hi => ?_
      have hi' := Finset.mem_range.mp hi
      have h2 : (i:ℝ) * d ≤ 1 / 2 := (mul_le_mul_of_nonneg_right (by exact_mod_cast hi'.le) hd).trans h
      linarith [hp i hi'.le]
    rw [Finset.sum_const, Finset.card_range, nsmul_eq_mul] at this
    linarith
  have h1 := mul_le_mul_of_nonneg_right (by linarith [hp n le_rfl] : (1 + d) ^ n - 1 ≤ 2 * n * d) hN
  have h2 := mul_le_mul_of_nonneg_left hs he
  rw [drift]; nlinarith

theorem norm_three_halves {a b B : ℝ} (ha : |a| ≤ B) (hb : |b| ≤ B) : ‖(⟨a, b⟩ : ℂ)‖ ≤ 3 / 2 * B := by
  have hB : 0 ≤ B := (abs_nonneg a).trans ha
  rw [norm_mk, Real.sqrt_le_left (by positivity)]
  nlinarith [sq_le_sq' (abs_le.mp ha).1 (abs_le.mp ha).2, sq_le_sq' (abs_le.mp hb).1 (abs_le.mp hb).2]

/-- Steps that each move a number a little move it a bounded way together. -/
theorem toAndFro_drift {α : Type} [MixedCmp α] [NumOps α] [Lit α] [MixedPi α] [MixedNumSigned α] [MixedSinCos α] [MixedPowi α]
    [MixedSqrt α] [MixedAtan α] (val : Cartesian α → ℂ) (Good : Cartesian α → Prop) {d e : ℝ} (hd : 0 ≤ d) (he : 0 ≤ e) (z : Cartesian α)
    (hz : Good z) (n : ℕ)
    (hstep : ∀ w, Good w → ‖val w‖ ≤ ‖val z‖ + drift d e ‖val z‖ n → ‖val z‖ - drift d e ‖val z‖ n ≤ ‖val w‖ →
      ∃ c, Returns (do let q ← w.toPolar; q.toCartesian) c ∧ Good c ∧ ‖val c - val w‖ ≤ d * ‖val w‖ + e) :
    ∃ c, Returns (toAndFro z n) c ∧ Good c ∧ ‖val c - val z‖ ≤ drift d e ‖val z‖ n := by
  have key : ∀ k ≤ n, ∃ c, Returns (toAndFro z k) c ∧ Good c ∧ ‖val c - val z‖ ≤ drift d e ‖val z‖ k := by
    intro k
    induction k with
    | zero => intro _; exact ⟨z, .of_eq rfl, hz, by simp [drift_zero]⟩
    | succ k ih =>
      intro hk
      obtain ⟨w, w1, w2, w3⟩ := ih (by omega)
      obtain ⟨-, m2⟩ := drift_mono hd he (norm_nonneg (val z)) (by omega : k ≤ n)
      have t1 : ‖val w‖ ≤ ‖val z‖ + ‖val w - val z‖ := by
        calc ‖val w‖ = ‖val z + (val w - val z)‖ := by ring_nf
          _ ≤ _ := norm_add_le _ _
      have t2 : ‖val z‖ ≤ ‖val w‖ + ‖val w - val z‖ := by
        calc ‖val z‖ = ‖val w - (val w - val z)‖ := by ring_nf
          _ ≤ _ := norm_sub_le _ _
      obtain ⟨c, c1, c2, c3⟩ := hstep w w2 (by linarith) (by linarith)
      refine ⟨c, w1.bind c1, c2, ?_⟩
      have t3 : ‖val c - val z‖ ≤ ‖val c - val w‖ + ‖val w - val z‖ := norm_sub_le_norm_sub_add_norm_sub _ _ _
      rw [drift_succ]
      have := mul_le_mul_of_nonneg_left t1 hd
      have := mul_le_mul_of_nonneg_left w3 hd
      nlinarith
  exact key n le_rfl

open Flt in
/-- C174, floats: `n` trips move the number by no more than `n` trips of C89 can, as long as no square on the way leaves the range. -/
theorem C174_float [MixedSqrt (Flt f)] [MixedAtan (Flt f)] [MixedSinCos (Flt f)] {σ δ ε : ℝ} (hf : f.Wide) (h60 : f.p ≤ 60)
    (hs : SqrtWithin f σ) (hσ : 0 ≤ σ) (hσ' : σ ≤ 1 / 100) (ha : AtanWithin f δ) (hδ : 0 ≤ δ) (hδ' : δ ≤ 1 / 100)
    (hc : SinCosWithin f ε) (hε : 0 ≤ ε) (hε' : ε ≤ 1) (z : Cartesian (Flt f)) (hz : (z.re.Valid ∧ z.re.IsFinite) ∧ z.im.Valid ∧ z.im.IsFinite)
    (n : ℕ) {d B : ℝ} (hd : d = 3 / 2 * (δ + 51 / 50 * ε + 101 / 100 * σ + 16 / 2 ^ f.p)) (hB : B = drift d (3 / 2 * 2 ^ f.emin) ‖z.fc‖ n)
    (hBz : B ≤ ‖z.fc‖) (hlo : 2 * (2:ℝ) ^ (f.emin + f.p) ≤ (‖z.fc‖ - B) ^ 2) (hhi : 2 * (‖z.fc‖ + B) ^ 2 ≤ 2 ^ f.emax) :
    ∃ c : Cartesian (Flt f), Returns (toAndFro z n) c ∧ ((c.re.Valid ∧ c.re.IsFinite) ∧ c.im.Valid ∧ c.im.IsFinite) ∧ ‖c.fc - z.fc‖ ≤ B := by
  subst hB
  have d0 : 0 ≤ d := by rw [hd]; positivity
  refine toAndFro_drift Cartesian.fc _ d0 (by positivity) z hz n fun w hw h1 h2 => ?_
  have hn : ‖w.fc‖ ^ 2 = (w.re.val : ℝ) ^ 2 + (w.im.val : ℝ) ^ 2 := by rw [norm_fc, Real.sq_sqrt (by positivity)]
  have l1 := pow_le_pow_left₀ (by linarith) h2 2
  have l2 := pow_le_pow_left₀ (norm_nonneg _) h1 2
  obtain ⟨c, c1, c2, c3, c4, c5⟩ := C89_round_trip hf h60 hs hσ hσ' ha hδ' hc hε hε' w hw.1.2 hw.2.2 hw.1.1 hw.2.1 (by
      have : (2:ℝ) ^ (f.emin + f.p) ≤ max ((w.re.val : ℝ) ^ 2) ((w.im.val : ℝ) ^ 2) := by
        have := le_max_left ((w.re.val : ℝ) ^ 2) ((w.im.val : ℝ) ^ 2)
        have := le_max_right ((w.re.val : ℝ) ^ 2) ((w.im.val : ℝ) ^ 2)
        linarith
      rw [← Rat.cast_le (K := ℝ)]; push_cast; exact this) (by
      have : 2 * ((w.re.val : ℝ) ^ 2 + (w.im.val : ℝ) ^ 2) ≤ 2 ^ f.emax := by linarith
      exact_mod_cast this)
  rw [← norm_fc] at c4 c5
  refine ⟨c, c1, ⟨c2, c3⟩, (norm_three_halves c4 c5).trans (le_of_eq ?_)⟩
  rw [hd]; ring

open Fixed in
theorem squares_fit {K : ℕ} (hK : F + K + 1 ≤ W) (z : Cartesian (Fixed m true W F)) (h : z.re.r ^ 2 + z.im.r ^ 2 < 2 ^ K) :
    InRange true W (z.re.val * z.re.val / 2 ^ F + z.im.val * z.im.val / 2 ^ F) := by
  rw [inRange_iff]
  refine fits_of_abs hK ?_
  have hp : (0:ℤ) < 2 ^ F := by positivity
  have h0 : 0 ≤ z.re.val * z.re.val / 2 ^ F + z.im.val * z.im.val / 2 ^ F :=
    add_nonneg (Int.ediv_nonneg (mul_self_nonneg _) hp.le) (Int.ediv_nonneg (mul_self_nonneg _) hp.le)
  have d1 : ((z.re.val * z.re.val / 2 ^ F : ℤ) : ℝ) * 2 ^ F ≤ z.re.val * z.re.val := by
    exact_mod_cast Int.ediv_mul_le (z.re.val * z.re.val) hp.ne'
  have d2 : ((z.im.val * z.im.val / 2 ^ F : ℤ) : ℝ) * 2 ^ F ≤ z.im.val * z.im.val := by
    exact_mod_cast Int.ediv_mul_le (z.im.val * z.im.val) hp.ne'
  have hu := u_pos F
  have hpu := pow_mul_u F
  rw [abs_of_nonneg (mul_nonneg (by exact_mod_cast h0) hu.le)]
  refine lt_of_le_of_lt ?_ h
  rw [r_eq, r_eq]
  push_cast
  have e1 := mul_le_mul_of_nonneg_right d1 (mul_pos hu hu).le
  have e2 := mul_le_mul_of_nonneg_right d2 (mul_pos hu hu).le
  have e : ∀ x : ℝ, x * 2 ^ F * (u F * u F) = x * u F := fun x => by
    rw [show x * 2 ^ F * (u F * u F) = x * u F * (2 ^ F * u F) by ring, hpu, mul_one]
  rw [e] at e1 e2
  nlinarith

/-- C174, signed fixed point: the same from C90. The root is good to one part in a thousand, so long runs can creep. -/
theorem C174_fixed {K : ℕ} (hF : 2 ≤ F) (hW : 8 ≤ W) (hW' : W ≤ 128) (hK : F + K + 1 ≤ W) (h : F + 4 ≤ W) {δ ε : ℝ}
    (at2 : Fixed m true W F → Fixed m true W F → Prog (Fixed m true W F)) (ha : FixedAtanWithin at2 δ) (hδ : 0 ≤ δ) (hδ' : δ ≤ 1 / 100)
    (sc : Fixed m true W F → Prog (Fixed m true W F × Fixed m true W F)) (hs : FixedSinCosWithin sc ε) (hε : 0 ≤ ε)
    (z : Cartesian (Fixed m true W F)) (n : ℕ) {κ a b d e B : ℝ} (hκ : κ = ε + 13 / 10 * (1 / 2 ^ F + 1 / 2 ^ 51))
    (hA : a = 1 / 1000 + 12 / 2 ^ F) (hb : b = 4 / 2 ^ F + √(2 / 2 ^ F)) (hd : d = 3 / 2 * ((1 + a) * κ + a + δ))
    (he : e = 3 / 2 * (b * κ + 1 / 2 ^ F + b)) (hB : B = drift d e ‖z.c‖ n) (hlo : B < ‖z.c‖) (hhi : (‖z.c‖ + B) ^ 2 < 2 ^ K)
    (hm : ((1 + a) * (‖z.c‖ + B) + b) * (1 + ε) + 1 / 2 ^ F < 2 ^ K) :
    ∃ c : Cartesian (Fixed m true W F), Returns (@toAndFro _ _ _ _ _ _ ⟨sc⟩ _ _ ⟨at2⟩ z n) c ∧ ‖c.c - z.c‖ ≤ B := by
  subst hB
  have κ0 : 0 ≤ κ := by rw [hκ]; positivity
  have a0 : 0 ≤ a := by rw [hA]; positivity
  have b0 : 0 ≤ b := by rw [hb]; positivity
  have d0 : 0 ≤ d := by rw [hd]; positivity
  have e0 : 0 ≤ e := by rw [he]; positivity
  let _ : MixedSinCos (Fixed m true W F) := ⟨sc⟩
  let _ : MixedAtan (Fixed m true W F) := ⟨at2⟩
  obtain ⟨c, c1, -, c3⟩ := toAndFro_drift Cartesian.c (fun _ => True) d0 e0 z trivial n fun w _ h1 h2 => by
    have hn : ‖w.c‖ ^ 2 = w.re.r ^ 2 + w.im.r ^ 2 := by rw [norm_c, Real.sq_sqrt (by positivity)]
    have l2 := pow_le_pow_left₀ (norm_nonneg _) h1 2
    have hw : 0 < ‖w.c‖ := by linarith
    have h0 : w.re.val ≠ 0 ∨ w.im.val ≠ 0 := by
      by_contra hc
      push Not at hc
      have : ‖w.c‖ ^ 2 = 0 := by rw [hn, Fixed.r, Fixed.r, hc.1, hc.2]; simp
      nlinarith
    obtain ⟨c, c1, c2, c3⟩ := C90_round_trip hF hW hW' hK h at2 ha hδ' sc hs hε w h0 ‖w.c‖ (a * ‖w.c‖ + b) (norm_c w)
      (by rw [hA, hb]; ring) (squares_fit hK w (by rw [← hn]; exact l2.trans_lt hhi)) (by
        refine lt_of_le_of_lt ?_ hm
        have := mul_le_mul_of_nonneg_left h1 (by linarith : 0 ≤ 1 + a)
        have := mul_le_mul_of_nonneg_right (by linarith : ‖w.c‖ + (a * ‖w.c‖ + b) ≤ (1 + a) * (‖z.c‖ + drift d e ‖z.c‖ n) + b)
          (by linarith : 0 ≤ 1 + ε)
        linarith)
    rw [← hκ] at c2 c3
    refine ⟨c, c1, trivial, (norm_three_halves c2 c3).trans (le_of_eq ?_)⟩
    rw [hd, he]; ring
  exact ⟨c, c1, c3⟩

/-- C174: what a debug build returns, a release build returns. -/
theorem C174_release [Cordic .checked W F] [Cordic .wrapping W F] [CordicAlike W F] (z : Cartesian (Fixed .checked true W F)) (n : ℕ) :
    Agrees (Cartesian.releaseBy Fixed.release) (toAndFro z n) (toAndFro (z.releaseBy Fixed.release) n) := by
  refine Sim.agrees_cart ?_
  induction n with
  | zero => exact Sim.pure ⟨rfl, rfl⟩
  | succ n ih =>
    exact ih.bind fun _ _ h => (Sim.opsToPolar (R := To Fixed.release) h).bind fun _ _ h' => Sim.opsToCartesian (R := To Fixed.release) h'

/-- Ten trips of `3 + 4i` in 32+32 bits with CORDIC results good to the last place. -/
example (at2 : Fixed .checked true 64 32 → Fixed .checked true 64 32 → Prog (Fixed .checked true 64 32)) (ha : FixedAtanWithin at2 (1 / 2 ^ 32))
    (sc : Fixed .checked true 64 32 → Prog (Fixed .checked true 64 32 × Fixed .checked true 64 32)) (hs : FixedSinCosWithin sc (1 / 2 ^ 32)) :
    let z : Cartesian (Fixed .checked true 64 32) := ⟨fx .checked true 64 32 (3 * 2 ^ 32), fx .checked true 64 32 (4 * 2 ^ 32)⟩
    ∃ c, Returns (@toAndFro _ _ _ _ _ _ ⟨sc⟩ _ _ ⟨at2⟩ z 10) c ∧ ‖c.c - z.c‖ ≤ 1 / 5 := by
  intro z
  have e3 : z.re.r = 3 := by
    rw [Fixed.r, show z.re.val = 3 * 2 ^ 32 by decide]; norm_num
  have e4 : z.im.r = 4 := by
    rw [Fixed.r, show z.im.val = 4 * 2 ^ 32 by decide]; norm_num
  have hz : ‖z.c‖ = 5 := by
    rw [norm_c, e3, e4, show (3:ℝ) ^ 2 + 4 ^ 2 = 5 ^ 2 by norm_num]; exact Real.sqrt_sq (by norm_num)
  obtain ⟨κ, hκ⟩ : ∃ κ : ℝ, κ = 1 / 2 ^ 32 + 13 / 10 * (1 / 2 ^ 32 + 1 / 2 ^ 51) := ⟨_, rfl⟩
  obtain ⟨a, hA⟩ : ∃ a : ℝ, a = 1 / 1000 + 12 / 2 ^ 32 := ⟨_, rfl⟩
  obtain ⟨b, hb⟩ : ∃ b : ℝ, b = 4 / 2 ^ 32 + √(2 / 2 ^ 32) := ⟨_, rfl⟩
  obtain ⟨d, hd⟩ : ∃ d : ℝ, d = 3 / 2 * ((1 + a) * κ + a + 1 / 2 ^ 32) := ⟨_, rfl⟩
  obtain ⟨e, he⟩ : ∃ e : ℝ, e = 3 / 2 * (b * κ + 1 / 2 ^ 32 + b) := ⟨_, rfl⟩
  have hr : √(2 / 2 ^ 32 : ℝ) ≤ 1 / 2 ^ 15 := by rw [Real.sqrt_le_left (by positivity)]; norm_num
  have hr0 := Real.sqrt_nonneg (2 / 2 ^ 32 : ℝ)
  have κ0 : 0 ≤ κ := by rw [hκ]; positivity
  have κ1 : κ ≤ 1 / 10 ^ 8 := by rw [hκ]; norm_num
  have a0 : 0 ≤ a := by rw [hA]; positivity
  have a1 : a ≤ 101 / 100000 := by rw [hA]; norm_num
  have b0 : 0 ≤ b := by rw [hb]; positivity
  have b1 : b ≤ 1 / 10000 := by rw [hb]; norm_num at hr ⊢; linarith
  have d0 : 0 ≤ d := by rw [hd]; positivity
  have d1 : d ≤ 16 / 10000 := by
    have := mul_le_mul (by linarith : 1 + a ≤ 2) κ1 κ0 (by norm_num)
    rw [hd]; norm_num at this ⊢; linarith
  have e0 : 0 ≤ e := by rw [he]; positivity
  have e1 : e ≤ 2 / 10000 := by
    have := mul_le_mul b1 κ1 κ0 (by norm_num)
    rw [he]; norm_num at this ⊢; linarith
  have hB := C174_bound d0 e0 (by norm_num : (0:ℝ) ≤ 5) 10 (by norm_num; linarith)
  have hB' : drift d e 5 10 ≤ 1 / 5 := by norm_num at hB ⊢; linarith
  have hB0 := (drift_mono d0 e0 (by norm_num : (0:ℝ) ≤ 5) (le_refl 10)).1
  obtain ⟨c, c1, c2⟩ := C174_fixed (K := 30) (by norm_num) (by norm_num) (by norm_num) (by norm_num) (by norm_num) at2 ha (by positivity)
    (by norm_num) sc hs (by positivity) z 10 hκ hA hb hd he rfl (by rw [hz]; linarith) (by
      rw [hz]
      have := pow_le_pow_left₀ (by linarith) (by linarith : 5 + drift d e 5 10 ≤ 6) 2
      norm_num at this ⊢; linarith) (by
      rw [hz]
      have := mul_le_mul (by linarith : 1 + a ≤ 2) (by linarith : 5 + drift d e 5 10 ≤ 6) (by linarith) (by norm_num)
      norm_num at this ⊢; linarith)
  rw [hz] at c2
  exact ⟨c, c1, c2.trans hB'⟩

/-- A hundred trips of `3 + 4i` on `f32` with library functions good to `2^-22`. -/
example [MixedSqrt (Flt F32)] [MixedAtan (Flt F32)] [MixedSinCos (Flt F32)] (hs : SqrtWithin F32 (1 / 2 ^ 22)) (ha : AtanWithin F32 (1 / 2 ^ 22))
    (hc : SinCosWithin F32 (1 / 2 ^ 22)) (z : Cartesian (Flt F32)) (hz : (z.re.Valid ∧ z.re.IsFinite) ∧ z.im.Valid ∧ z.im.IsFinite)
    (h3 : z.re.val = 3) (h4 : z.im.val = 4) :
    ∃ c : Cartesian (Flt F32), Returns (toAndFro z 100) c ∧ ‖c.fc - z.fc‖ ≤ 1 / 300 := by
  have hN : ‖z.fc‖ = 5 := by
    rw [norm_fc, h3, h4, show ((3:ℚ):ℝ) ^ 2 + ((4:ℚ):ℝ) ^ 2 = 5 ^ 2 by norm_num]; exact Real.sqrt_sq (by norm_num)
  obtain ⟨d, hd⟩ : ∃ d : ℝ, d = 3 / 2 * (1 / 2 ^ 22 + 51 / 50 * (1 / 2 ^ 22) + 101 / 100 * (1 / 2 ^ 22) + 16 / 2 ^ F32.p) := ⟨_, rfl⟩
  have d0 : 0 ≤ d := by rw [hd]; positivity
  have d1 : d ≤ 26 / 10 ^ 7 := by rw [hd]; norm_num [F32]
  have he0 : (0:ℝ) < 2 ^ F32.emin := by positivity
  have he' : (2:ℝ) ^ F32.emin ≤ 1 / 10 ^ 6 := by
    calc (2:ℝ) ^ F32.emin ≤ 2 ^ (-20 : ℤ) := zpow_le_zpow_right₀ (by norm_num) (by decide)
      _ ≤ _ := by norm_num
  have hB := C174_bound d0 (by positivity : (0:ℝ) ≤ 3 / 2 * 2 ^ F32.emin) (by norm_num : (0:ℝ) ≤ 5) 100 (by norm_num at d1 ⊢; linarith)
  have hB' : drift d (3 / 2 * 2 ^ F32.emin) 5 100 ≤ 1 / 300 := by norm_num at hB d1 he' ⊢; linarith
  have hB0 := (drift_mono d0 (by positivity : (0:ℝ) ≤ 3 / 2 * 2 ^ F32.emin) (by norm_num : (0:ℝ) ≤ 5) (le_refl 100)).1
  obtain ⟨c, c1, -, c2⟩ := C174_float ⟨by decide, by decide, by decide, by decide, by decide⟩ (by decide) hs (by positivity) (by norm_num) ha
    (by positivity) (by norm_num) hc (by positivity) (by norm_num) z hz 100 hd rfl (by rw [hN]; linarith) (by
      rw [hN]
      have h1 : (2:ℝ) ^ (F32.emin + F32.p) ≤ 2 ^ (0 : ℤ) := zpow_le_zpow_right₀ (by norm_num) (by decide)
      have := pow_le_pow_left₀ (by norm_num) (by linarith : 4 ≤ 5 - drift d (3 / 2 * 2 ^ F32.emin) 5 100) 2
      norm_num at this h1 ⊢; linarith) (by
      rw [hN]
      have h1 : (2:ℝ) ^ 20 ≤ 2 ^ F32.emax := pow_le_pow_right₀ (by norm_num) (by decide)
      have := pow_le_pow_left₀ (by linarith) (by linarith : 5 + drift d (3 / 2 * 2 ^ F32.emin) 5 100 ≤ 6) 2
      norm_num at this h1 ⊢; linarith)
  rw [hN] at c2
  exact ⟨c, c1, c2.trans hB'⟩

end MixedNum
