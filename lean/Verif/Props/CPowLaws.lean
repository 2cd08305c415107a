import Verif.Props.CPowFixed
import Verif.Props.ConjMachine
import Verif.Props.PowRound
import Verif.Lemmas.Run
/-! # C155: laws of complex powers on fixed point -/

namespace MixedNum
variable {m : Mode} {W F : ℕ}
open Fixed

theorem SameOutcome.step {α β : Type} {p : Prog α} {g : α → Prog β} {a : α} (h : Returns p a) : SameOutcome (p >>= g) (g a) := by
  obtain ⟨N, hN⟩ := h
  refine ⟨N, fun n hn => ?_⟩
  show Prog.bind p g n = g a n
  unfold Prog.bind
  rw [hN n hn]

/-- The part of a complex power that follows the magnitude and the angle. -/
def powTail (sc : Fixed m true W F → Prog (Fixed m true W F × Fixed m true W F)) (mag a : Fixed m true W F) (n : ℕ) :
    Prog (Cartesian (Fixed m true W F)) := do
  let k ← FromUsize.ofUsize n
  let phi ← NumOps.mul a k
  let p ← sc phi
  let real ← NumOps.mul mag p.2
  let imag ← NumOps.mul mag p.1
  pure ⟨real, imag⟩

theorem cpowi_tail (at2 : Fixed m true W F → Fixed m true W F → Prog (Fixed m true W F))
    (sc : Fixed m true W F → Prog (Fixed m true W F × Fixed m true W F)) (z : Cartesian (Fixed m true W F)) (n : ℕ) :
    @ops.powi _ _ _ _ ⟨at2⟩ ⟨sc⟩ _ z n = (do
      let v ← z.mag
      let mag ← MixedPowi.powi v (i32OfUsize n)
      let a ← at2 z.im z.re
      powTail sc mag a n) := cpowi_eq at2 sc z n

theorem mul_one_fixed (x y : Fixed m true W F) (hx : x.val = 2 ^ F) : NumOps.mul x y = pure y := by
  have e : x.val * y.val / 2 ^ F = y.val := by rw [hx]; exact Int.mul_ediv_cancel_left _ (by positivity)
  rw [mul_def, e]
  exact fit_of_fits y.fits

/-- The angle is multiplied exactly, if the exponent and the multiple are in range. -/
theorem powTail_eq (sc : Fixed m true W F → Prog (Fixed m true W F × Fixed m true W F)) (mag a : Fixed m true W F) (n : ℕ)
    (hn : Fits true W ((n : ℤ) * 2 ^ F)) (ha : Fits true W (a.val * n)) :
    powTail sc mag a n = (do
      let p ← sc (mkv _ ha)
      let real ← NumOps.mul mag p.2
      let imag ← NumOps.mul mag p.1
      pure ⟨real, imag⟩) := by
  have ek : (FromUsize.ofUsize n : Prog (Fixed m true W F)) = pure (mkv _ hn) := fit_of_fits hn
  have ephi : a.val * ((n : ℤ) * 2 ^ F) / 2 ^ F = a.val * n := by
    rw [← mul_assoc]; exact Int.mul_ediv_cancel _ (by positivity)
  unfold powTail
  rw [ek, pure_bind, mul_def, mkv_val, ephi, fit_of_fits ha, pure_bind]

/-- C155, either mode: the power with exponent 0 is the cosine and the sine the external routine gives for the angle 0 — exactly 1 if
those are 1 and 0 — for every number, zero included, whose magnitude and angle exist. -/
theorem C155_zero (h1 : InRange true W (2 ^ F)) (at2 : Fixed m true W F → Fixed m true W F → Prog (Fixed m true W F))
    (sc : Fixed m true W F → Prog (Fixed m true W F × Fixed m true W F)) (z : Cartesian (Fixed m true W F)) (v a : Fixed m true W F)
    (hv : Returns z.mag v) (ha : Returns (at2 z.im z.re) a) (s c o : Fixed m true W F) (ho : o.val = 0) (hs : Returns (sc o) (s, c)) :
    Returns (@ops.powi _ _ _ _ ⟨at2⟩ ⟨sc⟩ _ z 0) ⟨c, s⟩ := by
  rw [cpowi_tail, i32OfUsize_of_lt (by norm_num)]
  obtain ⟨w, w1, w2⟩ := C74_zero (m := m) h1 v
  have w3 : w.val = 2 ^ F := by
    rw [r, div_eq_iff (by positivity), one_mul] at w2
    exact_mod_cast w2
  refine hv.bind (w1.bind (ha.bind ?_))
  have f1 : Fits true W (((0:ℕ) : ℤ) * 2 ^ F) := by simpa using fits_zero true W
  have f2 : Fits true W (a.val * ((0:ℕ) : ℤ)) := by simpa using fits_zero true W
  rw [powTail_eq sc w a 0 f1 f2]
  have e : mkv _ f2 = o := Fixed.ext (by rw [mkv_val, ho]; simp)
  rw [e]
  refine hs.bind (.of_eq ?_)
  simp only []
  rw [mul_one_fixed w c w3, mul_one_fixed w s w3]; rfl

/-- C155, either mode: the power with exponent 1 is the conversion to polar form and back, panics and loops included, if the
magnitude exists and the angle is from minus pi up to but not including pi. -/
theorem C155_one (h : F + 4 ≤ W) (at2 : Fixed m true W F → Fixed m true W F → Prog (Fixed m true W F))
    (sc : Fixed m true W F → Prog (Fixed m true W F × Fixed m true W F)) (z : Cartesian (Fixed m true W F)) (v a p : Fixed m true W F)
    (hv : Returns z.mag v) (ha : Returns (at2 z.im z.re) a) (hp : Returns MixedPi.pi p) (l : -p.val ≤ a.val) (u : a.val < p.val) :
    SameOutcome (@ops.powi _ _ _ _ ⟨at2⟩ ⟨sc⟩ _ z 1)
      (do let q ← @Cartesian.toPolar _ _ _ _ ⟨at2⟩ z; @Polar.toCartesian _ _ _ _ _ _ ⟨sc⟩ q) := by
  have hw := C31_identity_fixed h a p hp l u
  have hpol : Returns (@Cartesian.toPolar _ _ _ _ ⟨at2⟩ z) ⟨v, a⟩ := hv.bind (ha.bind (.of_eq rfl))
  have f1 : Fits true W (((1:ℕ) : ℤ) * 2 ^ F) := fits_of_abs (K := 3) (by omega) (by
    push_cast; rw [one_mul, pow_mul_u, abs_one]; norm_num)
  have f2 : Fits true W (a.val * ((1:ℕ) : ℤ)) := by simpa using a.fits
  have e : mkv _ f2 = a := Fixed.ext (by rw [mkv_val]; simp)
  have hpow : Returns (MixedPowi.powi v (i32OfUsize 1)) v := .of_eq rfl
  refine (SameOutcome.trans ?_ (SameOutcome.symm (SameOutcome.step (g := @Polar.toCartesian _ _ _ _ _ _ ⟨sc⟩) hpol)))
  rw [cpowi_tail]
  refine (SameOutcome.step hv).trans ((SameOutcome.step hpow).trans ((SameOutcome.step ha).trans ?_))
  rw [powTail_eq sc v a 1 f1 f2, e]
  exact (SameOutcome.step (p := wrapPhase a) (g := fun θ => (do
    let p ← sc θ
    let real ← NumOps.mul v p.2
    let imag ← NumOps.mul v p.1
    pure (⟨real, imag⟩ : Cartesian (Fixed m true W F)))) hw).symm

/-- The bound of C108 grows with the exponent. -/
theorem powBound_mono {M E : ℝ} (hM : 1 ≤ M) (hE : 0 ≤ E) {j n : ℕ} (h : j ≤ n) : (j:ℝ) * M ^ (j - 1) * E ≤ n * M ^ (n - 1) * E := by
  have h1 : (j:ℝ) ≤ n := by exact_mod_cast h
  have h2 : M ^ (j - 1) ≤ M ^ (n - 1) := pow_le_pow_right₀ hM (by omega)
  have : 0 ≤ M ^ (j - 1) := by positivity
  gcongr

/-- Parts of a product of approximations. -/
theorem prod_near {a b x y : ℂ} {P Q A B : ℝ} (ha : ‖a‖ ≤ P) (hb : ‖b‖ ≤ Q) (h1 : |x.re - a.re| ≤ A) (h2 : |x.im - a.im| ≤ A)
    (h3 : |y.re - b.re| ≤ B) (h4 : |y.im - b.im| ≤ B) :
    |(x.re * y.re - x.im * y.im) - (a * b).re| ≤ 2 * A * (Q + B) + 2 * P * B ∧
    |(x.re * y.im + x.im * y.re) - (a * b).im| ≤ 2 * A * (Q + B) + 2 * P * B := by
  have r1 := (Complex.abs_re_le_norm a).trans ha; have i1 := (Complex.abs_im_le_norm a).trans ha
  have r2 := (Complex.abs_re_le_norm b).trans hb; have i2 := (Complex.abs_im_le_norm b).trans hb
  have A0 := (abs_nonneg _).trans h1; have B0 := (abs_nonneg _).trans h3
  have P0 := (abs_nonneg _).trans r1; have Q0 := (abs_nonneg _).trans r2
  have y1 : |y.re| ≤ Q + B := by
    have := abs_sub_abs_le_abs_sub y.re b.re; linarith
  have y2 : |y.im| ≤ Q + B := by
    have := abs_sub_abs_le_abs_sub y.im b.im; linarith
  have t : ∀ {p q P' Q' : ℝ}, |p| ≤ P' → |q| ≤ Q' → 0 ≤ P' → |p * q| ≤ P' * Q' := fun hp hq h0 => by
    rw [abs_mul]; exact mul_le_mul hp hq (abs_nonneg _) h0
  have a1 := t h1 y1 A0; have a2 := t h2 y2 A0; have a3 := t h1 y2 A0; have a4 := t h2 y1 A0
  have b1 := t r1 h3 P0; have b2 := t i1 h4 P0; have b3 := t r1 h4 P0; have b4 := t i1 h3 P0
  rw [abs_le] at a1 a2 a3 a4 b1 b2 b3 b4
  rw [Complex.mul_re, Complex.mul_im]
  constructor <;> rw [abs_le] <;> constructor <;> nlinarith

/-- C155, overflow checks on: the product of two powers is a power, up to rounding. `B j` is the bound of C108 for the exponent `j`;
the conditions are those of C108 for the exponent `j + k` alone. -/
theorem C155_add {K : ℕ} (hF : 2 ≤ F) (hW : 8 ≤ W) (hW' : W ≤ 128) (hK : F + K + 1 ≤ W) (h : F + 4 ≤ W) {δ ε R : ℝ}
    (at2 : Fixed .checked true W F → Fixed .checked true W F → Prog (Fixed .checked true W F)) (ha : FixedAtanWithin at2 δ)
    (sc : Fixed .checked true W F → Prog (Fixed .checked true W F × Fixed .checked true W F)) (hs : FixedSinCosOn sc R ε) (hε : 0 ≤ ε)
    (hδ : 0 ≤ δ) (z : Cartesian (Fixed .checked true W F)) (h0 : z.re.val ≠ 0 ∨ z.im.val ≠ 0) (j k : ℕ) (hn : j + k < 2 ^ 31)
    (hnK : j + k < 2 ^ K) (N E M : ℝ) (hN : N = √(z.re.r ^ 2 + z.im.r ^ 2))
    (hE : E = (1 / 1000 + 12 / 2 ^ F) * N + 4 / 2 ^ F + √(2 / 2 ^ F)) (hM : 1 ≤ M) (hM' : N + E ≤ M) (D B : ℕ → ℝ)
    (hD : ∀ i, D i = i * M ^ (i - 1) * (E + 1 / 2 ^ F)) (hB : ∀ i, B i = N ^ i * (ε + i * δ) + D i * (1 + ε) + 1 / 2 ^ F)
    (hr : InRange true W (z.re.val * z.re.val / 2 ^ F + z.im.val * z.im.val / 2 ^ F))
    (hphi : (j + k : ℕ) * (|Complex.arg ⟨z.re.r, z.im.r⟩| + δ) ≤ R) (hR : R < 2 ^ K)
    (hm : (M ^ (j + k) + D (j + k)) * (1 + ε) + 1 / 2 ^ F < 2 ^ K) :
    ∃ a b c : Cartesian (Fixed .checked true W F), Returns (@ops.powi _ _ _ _ ⟨at2⟩ ⟨sc⟩ _ z j) a ∧
      Returns (@ops.powi _ _ _ _ ⟨at2⟩ ⟨sc⟩ _ z k) b ∧ Returns (@ops.powi _ _ _ _ ⟨at2⟩ ⟨sc⟩ _ z (j + k)) c ∧
      ∀ d, Returns (a.mul b) d →
        |d.re.r - c.re.r| ≤ 2 * B j * (N ^ k + B k) + 2 * N ^ j * B k + B (j + k) + 2 / 2 ^ F ∧
        |d.im.r - c.im.r| ≤ 2 * B j * (N ^ k + B k) + 2 * N ^ j * B k + B (j + k) + 2 / 2 ^ F := by
  have hu : (0:ℝ) < 1 / 2 ^ F := by positivity
  have n0 : 0 ≤ N := by rw [hN]; exact Real.sqrt_nonneg _
  have E0 : 0 ≤ E := by rw [hE]; positivity
  have key : ∀ i ≤ j + k, ∃ c : Cartesian (Fixed .checked true W F), Returns (@ops.powi _ _ _ _ ⟨at2⟩ ⟨sc⟩ _ z i) c ∧
      |c.re.r - ((⟨z.re.r, z.im.r⟩ : ℂ) ^ i).re| ≤ B i ∧ |c.im.r - ((⟨z.re.r, z.im.r⟩ : ℂ) ^ i).im| ≤ B i := by
    intro i hi
    have hi' : (i:ℝ) ≤ (j + k : ℕ) := by exact_mod_cast hi
    rw [hB]
    refine C108_accuracy hF hW hW' hK h at2 ha sc hs hε z h0 i (by omega) (by omega) N E M (D i) hN hE hM hM' (hD i) hr ?_ hR ?_
    · refine le_trans (mul_le_mul_of_nonneg_right hi' ?_) hphi
      positivity
    · refine lt_of_le_of_lt ?_ hm
      have g1 : M ^ i ≤ M ^ (j + k) := pow_le_pow_right₀ hM hi
      have g2 : D i ≤ D (j + k) := by rw [hD, hD]; exact powBound_mono hM (by linarith) hi
      have : (M ^ i + D i) * (1 + ε) ≤ (M ^ (j + k) + D (j + k)) * (1 + ε) := mul_le_mul_of_nonneg_right (by linarith) (by linarith)
      linarith
  obtain ⟨a, a1, a2, a3⟩ := key j (by omega)
  obtain ⟨b, b1, b2, b3⟩ := key k (by omega)
  obtain ⟨c, c1, c2, c3⟩ := key (j + k) le_rfl
  have hnorm : ∀ i : ℕ, ‖(⟨z.re.r, z.im.r⟩ : ℂ) ^ i‖ ≤ N ^ i := fun i => by
    rw [norm_pow, Complex.norm_def, Complex.normSq_mk, hN]
    refine le_of_eq ?_
    congr 2; ring
  refine ⟨a, b, c, a1, b1, c1, fun d hd => ?_⟩
  obtain ⟨d1, d2, d3⟩ := C73_accuracy a b d hd
  obtain ⟨p1, p2⟩ := prod_near (x := ⟨a.re.r, a.im.r⟩) (y := ⟨b.re.r, b.im.r⟩) (hnorm j) (hnorm k) a2 a3 b2 b3
  rw [← pow_add] at p1 p2
  simp only [] at p1 p2
  have eu : (2:ℝ) / 2 ^ F = 2 * (1 / 2 ^ F) := by ring
  rw [eu] at d3 ⊢
  rw [abs_le] at p1 p2 c2 c3
  rw [abs_lt] at d1
  constructor <;> rw [abs_le] <;> constructor <;> linarith

/-- C155, overflow checks on: the power of the conjugate has the same real part and the opposite imaginary part, or one unit off
because products round down, wherever both powers return. -/
theorem C155_conj (hW : 0 < W) (at2 : Fixed .checked true W F → Fixed .checked true W F → Prog (Fixed .checked true W F))
    (ha : FixedSymAtan at2) (sc : Fixed .checked true W F → Prog (Fixed .checked true W F × Fixed .checked true W F))
    (hs : FixedSymSinCos sc) (z z' c d : Cartesian (Fixed .checked true W F)) (hz : Returns z.conj z') (h0 : z.im.val ≠ 0) (n : ℕ)
    (v w : Fixed .checked true W F) (hv : Returns z.mag v) (hw : Returns (MixedPowi.powi v (i32OfUsize n)) w)
    (hc : Returns (@ops.powi _ _ _ _ ⟨at2⟩ ⟨sc⟩ _ z n) c) (hd : Returns (@ops.powi _ _ _ _ ⟨at2⟩ ⟨sc⟩ _ z' n) d) :
    d.re = c.re ∧ (d.im.val = -c.im.val ∨ d.im.val = -c.im.val - 1) := by
  obtain ⟨h1, h2⟩ := returns_pair (p := (pure z.re : Prog (Fixed .checked true W F))) (q := Fixed.fit (-z.im.val)) hz
  have e1 : z'.re = z.re := (returns_pure.mp h1).symm
  have e2 := (returns_fit hW h2).2 rfl
  have em : z'.mag = z.mag := C134_conj_fixed hW z z' hz
  rw [cpowi_tail] at hc hd
  rw [em] at hd
  have hc := returns_step hv hc
  have hd := returns_step hv hd
  have hc := returns_step hw hc
  have hd := returns_step hw hd
  rcases ha z.im z'.im z.re h0 e2 with ⟨r, r', r1, r2, r3⟩ | ⟨e, -, he, -⟩
  · have hc := returns_step r1 hc
    rw [e1] at hd
    have hd := returns_step r2 hd
    -- the exponent and the multiple angles
    have tail : ∀ {a : Fixed .checked true W F} {y}, Returns (powTail sc w a n) y → ∃ (fn : Fits true W ((n : ℤ) * 2 ^ F)) (fa : Fits true W (a.val * n)),
        powTail sc w a n = (do
          let p ← sc (mkv _ fa)
          let real ← NumOps.mul w p.2
          let imag ← NumOps.mul w p.1
          pure ⟨real, imag⟩) := by
      intro a y hy
      have fn : Fits true W ((n : ℤ) * 2 ^ F) := by
        by_contra hf
        have ek : (FromUsize.ofUsize n : Prog (Fixed .checked true W F)) = Prog.fail .overflow := fit_checked hf
        refine hy.not_panics (e := .overflow) (.of_eq ?_)
        unfold powTail; rw [ek, Prog.fail_bind]
      have ek : (FromUsize.ofUsize n : Prog (Fixed .checked true W F)) = pure (mkv _ fn) := fit_of_fits fn
      have ephi : a.val * ((n : ℤ) * 2 ^ F) / 2 ^ F = a.val * n := by
        rw [← mul_assoc]; exact Int.mul_ediv_cancel _ (by positivity)
      have fa : Fits true W (a.val * n) := by
        by_contra hf
        refine hy.not_panics (e := .overflow) (.of_eq ?_)
        unfold powTail
        rw [ek, pure_bind, mul_def, mkv_val, ephi, fit_checked hf, Prog.fail_bind]
      exact ⟨fn, fa, powTail_eq sc w a n fn fa⟩
    obtain ⟨fn, fa, t1⟩ := tail hc
    obtain ⟨-, fa', t2⟩ := tail hd
    rw [t1] at hc; rw [t2] at hd
    rcases hs (mkv _ fa) (mkv _ fa') (by rw [mkv_val, mkv_val, r3]; ring) with ⟨s, g, s', s1, s2, s3⟩ | ⟨e, -, he, -⟩
    · have hc := returns_step (p := sc (mkv _ fa)) s1 hc
      have hd := returns_step (p := sc (mkv _ fa')) s2 hd
      obtain ⟨c1, c2⟩ := returns_pair (p := NumOps.mul w g) (q := NumOps.mul w s) hc
      obtain ⟨d1, d2⟩ := returns_pair (p := NumOps.mul w g) (q := NumOps.mul w s') hd
      refine ⟨d1.unique c1, ?_⟩
      have x1 := (returns_fit hW c2).2 rfl
      have x2 := (returns_fit hW d2).2 rfl
      rw [s3, mul_neg] at x2
      rw [x1, x2]
      exact neg_floor _ F
    · exact (hc.not_panics he.bind).elim
  · exact (hc.not_panics he.bind).elim

/-- C155, either mode: a number whose squares round down to zero has power exactly 0 for every positive exponent, whatever the
external routines return. -/
theorem C155_tiny (at2 : Fixed m true W F → Fixed m true W F → Prog (Fixed m true W F))
    (sc : Fixed m true W F → Prog (Fixed m true W F × Fixed m true W F)) (z : Cartesian (Fixed m true W F)) (h1 : z.re.r ^ 2 < 1 / 2 ^ F)
    (h2 : z.im.r ^ 2 < 1 / 2 ^ F) (n : ℕ) (hn : 1 ≤ n) (hn' : n < 2 ^ 31) (a s c : Fixed m true W F) (ha : Returns (at2 z.im z.re) a)
    (f1 : InRange true W (n * 2 ^ F)) (f2 : InRange true W (a.val * n))
    (hs : ∀ x : Fixed m true W F, x.val = a.val * n → Returns (sc x) (s, c)) (o : Fixed m true W F) (ho : o.val = 0) :
    Returns (@ops.powi _ _ _ _ ⟨at2⟩ ⟨sc⟩ _ z n) ⟨o, o⟩ := by
  obtain ⟨v, v1, v2⟩ := C72_underflow z h1 h2
  obtain rfl : v = o := Fixed.ext (by rw [v2, ho])
  have mz : ∀ y : Fixed m true W F, NumOps.mul v y = pure v := fun y => by
    have e : v.val * y.val / 2 ^ F = v.val := by rw [v2]; simp
    rw [mul_def, e]; exact fit_of_fits v.fits
  have pw : ∀ k, 1 ≤ k → k < 2 ^ 31 → MixedPowi.powi v ((k : ℕ) : ℤ) = pure v := by
    intro k hk
    induction k, hk using Nat.le_induction with
    | base => intro _; rfl
    | succ k hk ih =>
      intro hk'
      rw [C148_step_fixed v k hk hk', ih (by omega), pure_bind]; exact mz v
  rw [cpowi_tail, i32OfUsize_of_lt hn']
  refine v1.bind (Returns.bind (.of_eq (pw n hn hn')) (ha.bind ?_))
  rw [powTail_eq sc v a n (inRange_iff.mp f1) (inRange_iff.mp f2)]
  refine (hs _ (mkv_val _ _)).bind (.of_eq ?_)
  simp only []
  rw [mz, mz]; rfl

/-- Cases of C155: 3+4i to the power 0, and a number of one unit in each part to the power 5, with 8 fraction bits. -/
example (at2 : Fixed .checked true 16 8 → Fixed .checked true 16 8 → Prog (Fixed .checked true 16 8)) (ha : FixedAtanWithin at2 (1 / 2 ^ 8)) :
    Returns (@ops.powi _ _ _ _ ⟨at2⟩ ⟨fun x => pure (x, fx .checked true 16 8 256)⟩ _
        ⟨fx .checked true 16 8 768, fx .checked true 16 8 1024⟩ 0) ⟨fx .checked true 16 8 256, fx .checked true 16 8 0⟩ := by
  obtain ⟨v, hv, -⟩ := C72_accuracy (m := .checked) (W := 16) (F := 8) (by norm_num) (by norm_num) (by norm_num) (by norm_num)
    ⟨fx .checked true 16 8 768, fx .checked true 16 8 1024⟩ (by decide)
  obtain ⟨a, h1, -⟩ := ha (fx .checked true 16 8 1024) (fx .checked true 16 8 768) (by left; decide)
  exact C155_zero (by decide) at2 _ _ v a hv h1 _ _ (fx .checked true 16 8 0) (by decide) (.of_eq rfl)

example (z : Cartesian (Fixed .checked true 16 8)) (hz : z = ⟨fx .checked true 16 8 1, fx .checked true 16 8 1⟩) :
    Returns (@ops.powi _ _ _ _ ⟨fun y _ => pure y⟩ ⟨fun x => pure (x, fx .checked true 16 8 256)⟩ _ z 5)
      ⟨fx .checked true 16 8 0, fx .checked true 16 8 0⟩ := by
  have e : (fx .checked true 16 8 1).r = 1 / 256 := by
    rw [r, show (fx .checked true 16 8 1).val = 1 by decide]; norm_num
  subst hz
  exact C155_tiny _ _ _ (by simp only [e]; norm_num) (by simp only [e]; norm_num) 5 (by norm_num) (by norm_num) _ (fx .checked true 16 8 5)
    (fx .checked true 16 8 256) (.of_eq rfl) (by decide) (by decide)
    (fun x hx => .of_eq (by rw [show x = fx .checked true 16 8 5 from Fixed.ext (by rw [hx]; decide)])) _ (by decide)

/-- A case of C155_add: 3+4i times itself is within 1/5 of its square, with 32 fraction bits. -/
example (at2 : Fixed .checked true 64 32 → Fixed .checked true 64 32 → Prog (Fixed .checked true 64 32))
    (ha : FixedAtanWithin at2 (1 / 2 ^ 32))
    (sc : Fixed .checked true 64 32 → Prog (Fixed .checked true 64 32 × Fixed .checked true 64 32))
    (hs : FixedSinCosOn sc 7 (1 / 2 ^ 32)) (z : Cartesian (Fixed .checked true 64 32))
    (hz : z = ⟨fx .checked true 64 32 (3 * 2 ^ 32), fx .checked true 64 32 (4 * 2 ^ 32)⟩) :
    ∃ a c : Cartesian (Fixed .checked true 64 32), Returns (@ops.powi _ _ _ _ ⟨at2⟩ ⟨sc⟩ _ z 1) a ∧
      Returns (@ops.powi _ _ _ _ ⟨at2⟩ ⟨sc⟩ _ z 2) c ∧ ∀ d, Returns (a.mul a) d → |d.re.r - c.re.r| ≤ 1 / 5 ∧ |d.im.r - c.im.r| ≤ 1 / 5 := by
  have e1 : z.re.r = 3 := by
    rw [hz, r, show (fx .checked true 64 32 (3 * 2 ^ 32)).val = 3 * 2 ^ 32 by decide]; norm_num
  have e2 : z.im.r = 4 := by
    rw [hz, r, show (fx .checked true 64 32 (4 * 2 ^ 32)).val = 4 * 2 ^ 32 by decide]; norm_num
  have hq : √((2:ℝ) / 2 ^ 32) ≤ 1 / 10000 := by rw [Real.sqrt_le_left (by norm_num)]; norm_num
  have hq0 : 0 ≤ √((2:ℝ) / 2 ^ 32) := Real.sqrt_nonneg _
  have h5 : √((3:ℝ) ^ 2 + 4 ^ 2) = 5 := by
    rw [show (3:ℝ) ^ 2 + 4 ^ 2 = 5 ^ 2 by norm_num]; exact Real.sqrt_sq (by norm_num)
  have hpi := Real.pi_lt_d4
  have harg := Complex.abs_arg_le_pi ⟨(3:ℝ), 4⟩
  generalize hqq : √((2:ℝ) / 2 ^ 32) = q at *
  obtain ⟨a, b, c, a1, b1, c1, hd⟩ := C155_add (K := 31) (by norm_num) (by norm_num) (by norm_num) (by norm_num) (by norm_num) at2 ha sc hs
    (by norm_num) (by norm_num) z (by left; rw [hz]; decide) 1 1 (by norm_num) (by norm_num)
    5 ((1 / 1000 + 12 / 2 ^ 32) * 5 + 4 / 2 ^ 32 + q) (51 / 10)
    (by rw [e1, e2, h5]) (by rw [hqq]) (by norm_num) (by norm_num; linarith)
    (fun i : ℕ => i * (51 / 10) ^ (i - 1) * (((1 / 1000 + 12 / 2 ^ 32) * 5 + 4 / 2 ^ 32 + q) + 1 / 2 ^ 32)) _ (fun _ => rfl) (fun _ => rfl) (by rw [hz]; decide)
    (by rw [e1, e2]; norm_num at hpi ⊢; linarith) (by norm_num) (by norm_num; linarith)
  obtain rfl := a1.unique b1
  refine ⟨a, c, a1, c1, fun d hd' => ?_⟩
  obtain ⟨d1, d2⟩ := hd d hd'
  refine ⟨d1.trans ?_, d2.trans ?_⟩ <;> norm_num <;> nlinarith

/-- A case of C155_one and of the hypotheses of C155_conj: 2+2i with 8 fraction bits and external functions that are odd and even. -/
example : ∃ v w : Fixed .checked true 16 8,
    let z : Cartesian (Fixed .checked true 16 8) := ⟨fx .checked true 16 8 512, fx .checked true 16 8 512⟩
    let at2 : Fixed .checked true 16 8 → Fixed .checked true 16 8 → Prog (Fixed .checked true 16 8) := fun y _ => pure y
    let sc : Fixed .checked true 16 8 → Prog (Fixed .checked true 16 8 × Fixed .checked true 16 8) := fun x => pure (x, fx .checked true 16 8 256)
    FixedSymAtan at2 ∧ FixedSymSinCos sc ∧ Returns z.mag v ∧ Returns (MixedPowi.powi v (i32OfUsize 1)) w ∧
    SameOutcome (@ops.powi _ _ _ _ ⟨at2⟩ ⟨sc⟩ _ z 1) (do let q ← @Cartesian.toPolar _ _ _ _ ⟨at2⟩ z; @Polar.toCartesian _ _ _ _ _ _ ⟨sc⟩ q) := by
  obtain ⟨v, hv, -⟩ := C72_accuracy (m := .checked) (W := 16) (F := 8) (by norm_num) (by norm_num) (by norm_num) (by norm_num)
    ⟨fx .checked true 16 8 512, fx .checked true 16 8 512⟩ (by decide)
  refine ⟨v, v, fun y y' _ _ h => .inl ⟨y, y', .of_eq rfl, .of_eq rfl, h⟩, fun x y h => .inl ⟨x, _, y, .of_eq rfl, .of_eq rfl, h⟩, hv,
    .of_eq rfl, ?_⟩
  have hp : Returns (MixedPi.pi : Prog (Fixed .checked true 16 8)) (fx .checked true 16 8 804) := by run 0
  exact C155_one (by norm_num) _ _ _ v _ _ hv (.of_eq rfl) hp (by decide) (by decide)

end MixedNum
