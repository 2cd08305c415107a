import Verif.Spec.Phasor
import Verif.Props.Multiply
import Verif.Props.PolarMix
import Verif.Props.PolarFloat
import Verif.Props.Modes
import Verif.Props.AddSub
import Verif.Lemmas.Run
/-! # C171: turning a number step by step -/

namespace MixedNum
variable {m : Mode} {W F : ℕ} {f : Format}

theorem norm_phasor (r t : ℝ) : ‖phasor r t‖ = |r| := by
  rw [phasor, norm_mul, Complex.norm_exp_ofReal_mul_I, mul_one, Complex.norm_real, Real.norm_eq_abs]

/-- C171, exact reals: the loop multiplies by the magnitudes and turns by the sum of the angles. -/
theorem C171_real (z : Cartesian ℝ) (ps : List (Polar ℝ)) :
    ∃ c, Returns (turnBy z ps) c ∧ c.toC = z.toC * phasor (ps.map (·.mag)).prod (ps.map (·.ang)).sum := by
  unfold turnBy
  induction ps generalizing z with
  | nil => exact ⟨z, .of_eq rfl, by simp [phasor]⟩
  | cons p ps ih =>
    obtain ⟨t, -, t1, t2⟩ := C20_cartesian_polar z p
    obtain ⟨c, c1, c2⟩ := ih t
    refine ⟨c, by rw [List.foldlM_cons]; exact t1.bind c1, ?_⟩
    rw [c2, t2, List.map_cons, List.prod_cons, List.map_cons, List.sum_cons]
    simp only [phasor, Polar.toC]; push_cast
    rw [add_mul, Complex.exp_add]; ring

/-- C171, exact reals: a turn and the opposite turn cancel, in any number and any order. -/
theorem C171_real_back (z : Cartesian ℝ) (ps : List (Polar ℝ)) (h1 : ∀ p ∈ ps, p.mag = 1) (h0 : (ps.map (·.ang)).sum = 0) :
    Returns (turnBy z ps) z := by
  obtain ⟨c, c1, c2⟩ := C171_real z ps
  have e : (ps.map (·.mag)).prod = 1 := List.prod_eq_one (by simpa using h1)
  rw [e, h0] at c2
  simp only [phasor, Complex.ofReal_one, Complex.ofReal_zero, zero_mul, Complex.exp_zero, mul_one] at c2
  obtain ⟨a, b⟩ := z; obtain ⟨x, y⟩ := c
  have h := Complex.ext_iff.mp c2
  obtain rfl : x = a := h.1
  obtain rfl : y = b := h.2
  exact c1

/-- C171, every component type: once the polar numbers convert, the loop does what multiplying by the converted numbers does. -/
theorem C171_same {α : Type} [MixedCmp α] [NumOps α] [Lit α] [MixedPi α] [MixedNumSigned α] [MixedSinCos α] (z : Cartesian α)
    (ps : List (Polar α)) (ws : List (Cartesian α)) (h : List.Forall₂ (fun p w => Returns (ops.toCartesian p) w) ps ws) :
    SameOutcome (turnBy z ps) (multiplyUp z ws) := by
  suffices H : ∃ N, ∀ n, N ≤ n → ∀ z, turnBy z ps n = multiplyUp z ws n from H.imp fun N hN n hn => hN n hn z
  induction h with
  | nil => exact ⟨0, fun _ _ _ => rfl⟩
  | @cons p w ps ws hp h ih =>
    obtain ⟨N, hN⟩ := hp
    obtain ⟨M, hM⟩ := ih
    refine ⟨max N M, fun n hn z => ?_⟩
    have step : Cartesian.mulAssignPolar z p n = z.mul w n := by
      unfold Cartesian.mulAssignPolar
      simp only [bind, Prog.bind, hN n (le_trans (le_max_left _ _) hn)]
    unfold turnBy multiplyUp
    rw [List.foldlM_cons, List.foldlM_cons]
    simp only [bind, Prog.bind, step]
    rcases z.mul w n with t | e | _
    · exact hM n (le_trans (le_max_right _ _) hn) t
    · rfl
    · rfl

example := C171_same (⟨3, 4⟩ : Cartesian ℝ) [] [] .nil

/-- Errors along the loop: each step is off by `δ` times the number so far plus `η`, each factor is at most `R`. -/
theorem turn_err {α β : Type} {step : α → β → Prog α} {val : α → ℂ} {v : β → ℂ} {Good : α → Prop} {R δ η T : ℝ} (hR : 0 ≤ R) (hδ : 0 ≤ δ)
    (hη : 0 ≤ η) (ps : List β)
    (hstep : ∀ z, ∀ p ∈ ps, Good z → ‖val z‖ ≤ T → ∃ t, Returns (step z p) t ∧ Good t ∧ ‖val t - val z * v p‖ ≤ δ * ‖val z‖ + η)
    (hv : ∀ p ∈ ps, ‖v p‖ ≤ R) (z : α) (hz : Good z) (hk : ∀ k < ps.length, (R + δ) ^ k * ‖val z‖ + η * geo (R + δ) k ≤ T) :
    ∃ c, Returns (ps.foldlM step z) c ∧ Good c ∧ ‖(ps.map v).prod‖ ≤ R ^ ps.length ∧
      ‖val c - val z * (ps.map v).prod‖ ≤ ((R + δ) ^ ps.length - R ^ ps.length) * ‖val z‖ + η * geo (R + δ) ps.length := by
  induction ps generalizing z with
  | nil => exact ⟨z, .of_eq rfl, hz, by simp, by simp [geo]⟩
  | cons p ps ih =>
    obtain ⟨t, t1, t2, t3⟩ := hstep z p (by simp) hz (by simpa [geo] using hk 0 (by simp))
    have hp := hv p (by simp)
    have nz := norm_nonneg (val z)
    have nt : ‖val t‖ ≤ (R + δ) * ‖val z‖ + η := by
      have h1 := norm_add_le (val t - val z * v p) (val z * v p)
      rw [sub_add_cancel, norm_mul] at h1
      have := mul_le_mul_of_nonneg_left hp nz
      linarith
    have hS : 0 ≤ R + δ := by linarith
    have g1 : ∀ k, geo (R + δ) (k + 1) = (R + δ) ^ k + geo (R + δ) k := fun k => by
      rw [geo, Finset.sum_range_succ, ← geo, add_comm]
    obtain ⟨c, c1, c2, c3, c4⟩ := ih (fun z q hq => hstep z q (by simp [hq])) (fun q hq => hv q (by simp [hq])) t t2 fun k hk' => by
      have := hk (k + 1) (by simpa using hk')
      refine le_trans ?_ this
      have h2 := mul_le_mul_of_nonneg_left nt (pow_nonneg hS k)
      rw [g1, pow_succ]
      nlinarith
    refine ⟨c, by rw [List.foldlM_cons]; exact t1.bind c1, c2, ?_, ?_⟩
    · rw [List.map_cons, List.prod_cons, norm_mul, List.length_cons, pow_succ, mul_comm (R ^ _)]
      exact mul_le_mul hp c3 (norm_nonneg _) hR
    · rw [List.map_cons, List.prod_cons, List.length_cons]
      set P := (ps.map v).prod
      set n := ps.length
      have e : val c - val z * (v p * P) = (val c - val t * P) + (val t - val z * v p) * P := by ring
      have h1 := norm_add_le (val c - val t * P) ((val t - val z * v p) * P)
      rw [← e, norm_mul] at h1
      have h2 := mul_le_mul t3 c3 (norm_nonneg _) (by positivity)
      have h3 : R ^ n ≤ (R + δ) ^ n := pow_le_pow_left₀ hR (by linarith) n
      have h4 := mul_le_mul_of_nonneg_left nt (sub_nonneg.mpr h3)
      rw [g1, pow_succ, pow_succ]
      calc _ ≤ ((R + δ) ^ n - R ^ n) * ((R + δ) * ‖val z‖ + η) + η * geo (R + δ) n + (δ * ‖val z‖ + η) * R ^ n := by linarith
        _ = _ := by ring

/-! ## Fixed point -/

/-- Two parts off by `X + u` and `X + 2u`. -/
theorem norm_parts {a b x y B u : ℝ} (hu : 0 ≤ u) (hB : 0 ≤ B) (ha : |a| ≤ (|x| + |y|) * B + u) (hb : |b| ≤ (|x| + |y|) * B + 2 * u) :
    ‖(⟨a, b⟩ : ℂ)‖ ≤ 2 * B * ‖(⟨x, y⟩ : ℂ)‖ + 9 / 4 * u := by
  have hN := norm_mk x y
  set N := ‖(⟨x, y⟩ : ℂ)‖
  have N0 : 0 ≤ N := by rw [hN]; positivity
  have N2 : N ^ 2 = x ^ 2 + y ^ 2 := by rw [hN, Real.sq_sqrt (by positivity)]
  set s := |x| + |y| with hs
  have s0 : 0 ≤ s := by positivity
  have s2 : s ^ 2 ≤ 2 * N ^ 2 := by
    rw [N2, ← sq_abs x, ← sq_abs y, hs]; nlinarith [sq_nonneg (|x| - |y|)]
  have s3 : 4 / 3 * s ≤ 2 * N := by nlinarith
  rw [norm_mk]
  refine Real.sqrt_le_iff.mpr ⟨by positivity, ?_⟩
  have ha2 : a ^ 2 ≤ (s * B + u) ^ 2 := by rw [← sq_abs]; exact pow_le_pow_left₀ (abs_nonneg _) ha 2
  have hb2 : b ^ 2 ≤ (s * B + 2 * u) ^ 2 := by rw [← sq_abs]; exact pow_le_pow_left₀ (abs_nonneg _) hb 2
  have k1 : (s * B) ^ 2 ≤ 2 * N ^ 2 * B ^ 2 := by rw [mul_pow]; exact mul_le_mul_of_nonneg_right s2 (sq_nonneg _)
  have k2 : 4 / 3 * (s * B * u) ≤ 2 * (N * B * u) := by
    have := mul_le_mul_of_nonneg_right s3 (mul_nonneg hB hu); linarith
  nlinarith [mul_nonneg (mul_nonneg s0 hB) hu, mul_nonneg (mul_nonneg N0 hB) hu, sq_nonneg u]

/-- C171, fixed point: magnitudes at most `R`, angles at most `A`. A step turns by the right amount up to `2B` of the number so far,
`B` the error of one conversion, and nine quarters of a unit; `T` is a bound on the number along the way that leaves room for a step. -/
theorem C171_fixed {K : ℕ} (hK : F + K + 1 ≤ W) (h : F + 4 ≤ W) {ε R A B T : ℝ} (hε : 0 ≤ ε) (hR : 0 ≤ R)
    (sc : Fixed m true W F → Prog (Fixed m true W F × Fixed m true W F)) (hs : FixedSinCosWithin sc ε)
    (z : Cartesian (Fixed m true W F)) (ps : List (Polar (Fixed m true W F))) (hp : ∀ p ∈ ps, |p.mag.r| ≤ R ∧ |p.ang.r| ≤ A)
    (hB : B = R * (ε + (A / 5 + 1 / 2) * (1 / 2 ^ F + 1 / 2 ^ 51)) + 1 / 2 ^ F)
    (hm : R * (1 + ε) + 1 / 2 ^ F < 2 ^ K) (hfit : 3 / 2 * T * (R + B) + 2 / 2 ^ F < 2 ^ K)
    (hk : ∀ k < ps.length, (R + 2 * B) ^ k * ‖z.c‖ + 9 / 4 / 2 ^ F * geo (R + 2 * B) k ≤ T) :
    ∃ c, Returns (@turnBy _ _ _ _ _ _ ⟨sc⟩ z ps) c ∧
      ‖c.c - z.c * (ps.map fun p => phasor p.mag.r p.ang.r).prod‖ ≤
        ((R + 2 * B) ^ ps.length - R ^ ps.length) * ‖z.c‖ + 9 / 4 / 2 ^ F * geo (R + 2 * B) ps.length := by
  rcases ps.eq_nil_or_concat with rfl | hne
  · exact ⟨z, .of_eq rfl, by simp [geo]⟩
  have hu : (0:ℝ) < 1 / 2 ^ F := by positivity
  have hA : 0 ≤ A := by
    obtain ⟨l, b, rfl⟩ := hne
    exact (abs_nonneg _).trans (hp b (by simp)).2
  have hB0 : 0 ≤ B := by rw [hB]; positivity
  have e94 : (9:ℝ) / 4 / 2 ^ F = 9 / 4 * (1 / 2 ^ F) := by ring
  obtain ⟨c, c1, -, -, c4⟩ := turn_err (step := @Cartesian.mulAssignPolar _ _ _ _ _ _ ⟨sc⟩) (val := Cartesian.c)
    (v := fun p : Polar (Fixed m true W F) => phasor p.mag.r p.ang.r) (Good := fun _ => True) (R := R) (δ := 2 * B)
    (η := 9 / 4 / 2 ^ F) (T := T) hR (by positivity) (by positivity) ps (fun z p hp' _ hz => by
      obtain ⟨hp1, hp2⟩ := hp p hp'
      have b1 : |p.mag.r| * (ε + (|p.ang.r| / 5 + 1 / 2) * (1 / 2 ^ F + 1 / 2 ^ 51)) + 1 / 2 ^ F ≤ B := by
        rw [hB]; gcongr
      have sN : |z.re.r| + |z.im.r| ≤ 3 / 2 * ‖z.c‖ := by
        have hN := norm_mk z.re.r z.im.r
        change ‖z.c‖ = _ at hN
        have N0 := norm_nonneg z.c
        have N2 : ‖z.c‖ ^ 2 = z.re.r ^ 2 + z.im.r ^ 2 := by rw [hN, Real.sq_sqrt (by positivity)]
        have : (|z.re.r| + |z.im.r|) ^ 2 ≤ (3 / 2 * ‖z.c‖) ^ 2 := by
          rw [mul_pow, N2, ← sq_abs z.re.r, ← sq_abs z.im.r]; nlinarith [sq_nonneg (|z.re.r| - |z.im.r|), sq_nonneg (|z.re.r| + |z.im.r|)]
        exact abs_le_of_sq_le_sq' this (by positivity) |>.2
      obtain ⟨w, -, w1, w2, w3⟩ := C110_cartesian_polar hK h sc hs z p _ rfl
        (lt_of_le_of_lt (by gcongr) hm) (lt_of_le_of_lt (by
          have : (|z.re.r| + |z.im.r|) * (|p.mag.r| + (|p.mag.r| * (ε + (|p.ang.r| / 5 + 1 / 2) * (1 / 2 ^ F + 1 / 2 ^ 51)) + 1 / 2 ^ F)) ≤
              3 / 2 * T * (R + B) := mul_le_mul (by linarith) (by linarith) (by positivity) (by linarith [norm_nonneg z.c])
          linarith) hfit)
      refine ⟨w, w1, trivial, ?_⟩
      have k := mul_le_mul_of_nonneg_left b1 (by positivity : 0 ≤ |z.re.r| + |z.im.r|)
      have := norm_parts (x := z.re.r) (y := z.im.r) hu.le hB0 (w2.trans (add_le_add_left k _)) (w3.trans (by
        rw [show (2:ℝ) / 2 ^ F = 2 * (1 / 2 ^ F) by ring]; exact add_le_add_left k _))
      rw [e94]
      exact this) (fun p hp' => by rw [norm_phasor]; exact (hp p hp').1) z trivial hk
  exact ⟨c, c1, c4⟩

/-- C171, fixed point: turning by numbers of magnitude one changes the size of the number by no more than that error. -/
theorem C171_fixed_size {K : ℕ} (hK : F + K + 1 ≤ W) (h : F + 4 ≤ W) {ε A B T : ℝ} (hε : 0 ≤ ε)
    (sc : Fixed m true W F → Prog (Fixed m true W F × Fixed m true W F)) (hs : FixedSinCosWithin sc ε)
    (z : Cartesian (Fixed m true W F)) (ps : List (Polar (Fixed m true W F))) (hp : ∀ p ∈ ps, p.mag.r = 1 ∧ |p.ang.r| ≤ A)
    (hB : B = ε + (A / 5 + 1 / 2) * (1 / 2 ^ F + 1 / 2 ^ 51) + 1 / 2 ^ F)
    (hm : 1 + ε + 1 / 2 ^ F < 2 ^ K) (hfit : 3 / 2 * T * (1 + B) + 2 / 2 ^ F < 2 ^ K)
    (hk : ∀ k < ps.length, (1 + 2 * B) ^ k * ‖z.c‖ + 9 / 4 / 2 ^ F * geo (1 + 2 * B) k ≤ T) :
    ∃ c, Returns (@turnBy _ _ _ _ _ _ ⟨sc⟩ z ps) c ∧
      |‖c.c‖ - ‖z.c‖| ≤ ((1 + 2 * B) ^ ps.length - 1) * ‖z.c‖ + 9 / 4 / 2 ^ F * geo (1 + 2 * B) ps.length := by
  obtain ⟨c, c1, c2⟩ := C171_fixed hK h hε zero_le_one sc hs z ps (fun p hp' => ⟨by rw [(hp p hp').1, abs_one], (hp p hp').2⟩)
    (by rw [hB, one_mul]) (by rw [one_mul]; exact hm) hfit hk
  refine ⟨c, c1, ?_⟩
  rw [one_pow] at c2
  refine le_trans ?_ c2
  have n1 : ‖(ps.map fun p => phasor p.mag.r p.ang.r).prod‖ = 1 := by
    clear c2 c1 hk
    induction ps with
    | nil => simp
    | cons p ps ih =>
      rw [List.map_cons, List.prod_cons, norm_mul, norm_phasor, (hp p (by simp)).1, abs_one, one_mul]
      exact ih fun q hq => hp q (by simp [hq])
  have := abs_norm_sub_norm_le c.c (z.c * (ps.map fun p => phasor p.mag.r p.ang.r).prod)
  rwa [norm_mul, n1, mul_one] at this

/-- C171: without overflow checks the loop gives the same number unless the build with checks panics. -/
theorem C171_release [Cordic .checked W F] [Cordic .wrapping W F] [CordicAlike W F] (z : Cartesian (Fixed .checked true W F))
    (ps : List (Polar (Fixed .checked true W F))) :
    Agrees (Cartesian.releaseBy Fixed.release) (turnBy z ps) (turnBy (z.releaseBy Fixed.release) (ps.map (·.releaseBy Fixed.release))) :=
  Sim.agrees_cart (Sim.fold_map (R := Sim.Cart (To Fixed.release)) (Polar.releaseBy Fixed.release)
    (fun _ _ p h => Sim.mulAssignPolar (w := p) (w' := p.releaseBy Fixed.release) h ⟨rfl, rfl⟩) ps ⟨rfl, rfl⟩)

/-! ## Floats -/

/-- C171, floats: magnitudes at most `R`, angles at most `A`. A step turns by the right amount up to `3B/2 + 5 * 2^-p (R + 3B/2)` of the
number so far, `B` the error of one conversion, and four of the smallest float. -/
theorem C171_float [MixedSinCos (Flt f)] {ε R A B D T : ℝ} (hf : f.Wide) (h60 : f.p ≤ 60) (hs : SinCosWithin f ε) (hε : 0 ≤ ε) (hε' : ε ≤ 1)
    (hR : 0 ≤ R) (z : Cartesian (Flt f)) (ps : List (Polar (Flt f)))
    (hz : (z.re.Valid ∧ z.re.IsFinite) ∧ z.im.Valid ∧ z.im.IsFinite)
    (hv : ∀ p ∈ ps, (p.mag.Valid ∧ p.mag.IsFinite) ∧ p.ang.Valid ∧ p.ang.IsFinite)
    (hp : ∀ p ∈ ps, |(p.mag.val : ℝ)| ≤ R ∧ |(p.ang.val : ℝ)| ≤ A) (hA : A ≤ 2 ^ f.p / 10) (hm : 4 * R ≤ 2 ^ f.emax)
    (hB : B = R * (ε + ((A + 4) ^ 2 / 6 + 2) / 2 ^ f.p) + 2 ^ f.emin) (hD : D = 3 / 2 * B + 5 / 2 ^ f.p * (R + 3 / 2 * B))
    (hfit : 2 * T * (R + 3 / 2 * B) ≤ 2 ^ f.emax)
    (hk : ∀ k < ps.length, (R + D) ^ k * ‖z.fc‖ + 4 * 2 ^ f.emin * geo (R + D) k ≤ T) :
    ∃ c, Returns (turnBy z ps) c ∧ (c.re.Valid ∧ c.re.IsFinite) ∧ (c.im.Valid ∧ c.im.IsFinite) ∧
      ‖c.fc - z.fc * (ps.map fun p => phasor p.mag.val p.ang.val).prod‖ ≤
        ((R + D) ^ ps.length - R ^ ps.length) * ‖z.fc‖ + 4 * 2 ^ f.emin * geo (R + D) ps.length := by
  rcases ps.eq_nil_or_concat with rfl | hne
  · exact ⟨z, .of_eq rfl, hz.1, hz.2, by simp [geo]⟩
  have hA0 : 0 ≤ A := by
    obtain ⟨l, b, rfl⟩ := hne
    exact (abs_nonneg _).trans (hp b (by simp)).2
  have hB0 : 0 ≤ B := by rw [hB]; positivity
  have hD0 : 0 ≤ D := by rw [hD]; positivity
  obtain ⟨c, c1, c2, -, c4⟩ := turn_err (step := Cartesian.mulAssignPolar) (val := Cartesian.fc)
    (v := fun p : Polar (Flt f) => phasor p.mag.val p.ang.val)
    (Good := fun z : Cartesian (Flt f) => (z.re.Valid ∧ z.re.IsFinite) ∧ z.im.Valid ∧ z.im.IsFinite) (R := R) (δ := D)
    (η := 4 * 2 ^ f.emin) (T := T) hR hD0 (by positivity) ps (fun z p hp' hz' hzT => by
      obtain ⟨hp1, hp2⟩ := hp p hp'
      obtain ⟨⟨v1, v2⟩, v3, v4⟩ := hv p hp'
      obtain ⟨⟨z1, z2⟩, z3, z4⟩ := hz'
      have hmq : 4 * |p.mag.val| ≤ 2 ^ f.emax := by
        have : ((4 * |p.mag.val| : ℚ) : ℝ) ≤ ((2 ^ f.emax : ℚ) : ℝ) := by push_cast; linarith
        exact (Rat.cast_le (K := ℝ)).mp this
      obtain ⟨w, hw, ⟨w1, w2⟩, ⟨w3, w4⟩, w5, w6⟩ := C86_accuracy hf h60 hs hε' p v2 v4 v1 v3 (hp2.trans hA) hmq
      have b1 : |(p.mag.val : ℝ)| * (ε + ((|(p.ang.val : ℝ)| + 4) ^ 2 / 6 + 2) / 2 ^ f.p) + 2 ^ f.emin ≤ B := by
        rw [hB]; gcongr
      set V := phasor p.mag.val p.ang.val with hV
      have eV : V = ⟨p.mag.val * Real.cos p.ang.val, p.mag.val * Real.sin p.ang.val⟩ := by
        apply Complex.ext
        · simp only [hV, phasor, Complex.re_ofReal_mul, Complex.exp_ofReal_mul_I_re]
        · simp only [hV, phasor, Complex.im_ofReal_mul, Complex.exp_ofReal_mul_I_im]
      have dw : ‖w.fc - V‖ ≤ 3 / 2 * B := by
        have e : w.fc - V = ⟨(w.re.val : ℝ) - p.mag.val * Real.cos p.ang.val, (w.im.val : ℝ) - p.mag.val * Real.sin p.ang.val⟩ := by
          rw [eV]; rfl
        rw [e, norm_mk]
        refine Real.sqrt_le_iff.mpr ⟨by positivity, ?_⟩
        have k1 := pow_le_pow_left₀ (abs_nonneg _) (w5.trans b1) 2
        have k2 := pow_le_pow_left₀ (abs_nonneg _) (w6.trans b1) 2
        rw [sq_abs] at k1 k2
        nlinarith
      have nV : ‖V‖ ≤ R := by rw [hV, norm_phasor]; exact hp1
      have nw : ‖w.fc‖ ≤ R + 3 / 2 * B := by
        have := norm_add_le (w.fc - V) V
        rw [sub_add_cancel] at this; linarith
      have nz := norm_nonneg z.fc
      have hzw : ‖z.fc‖ * ‖w.fc‖ ≤ ‖z.fc‖ * (R + 3 / 2 * B) := mul_le_mul_of_nonneg_left nw nz
      have h0 : 2 * (‖z.fc‖ * ‖w.fc‖) ≤ 2 ^ f.emax := by
        have := mul_le_mul_of_nonneg_right hzT (by positivity : 0 ≤ R + 3 / 2 * B)
        linarith
      have big : ∀ a b c d : ℚ, |(a:ℝ) * b| + |(c:ℝ) * d| ≤ ‖z.fc‖ * ‖w.fc‖ → 2 * (|a * b| + |c * d|) ≤ 2 ^ f.emax := by
        intro a b c d h
        have h3 : 2 * (|(a:ℝ) * b| + |(c:ℝ) * d|) ≤ 2 ^ f.emax := by linarith
        have : ((2 * (|a * b| + |c * d|) : ℚ) : ℝ) ≤ ((2 ^ f.emax : ℚ) : ℝ) := by push_cast; exact h3
        exact (Rat.cast_le (K := ℝ)).mp this
      have hr := big _ _ _ _ (abs_parts_le (z.re.val : ℝ) z.im.val w.re.val w.im.val)
      have hi := big z.re.val w.im.val z.im.val w.re.val (by
        have := abs_parts_le (z.re.val : ℝ) z.im.val w.im.val w.re.val
        refine this.trans (le_of_eq ?_)
        have e : ‖(⟨(w.im.val : ℝ), (w.re.val : ℝ)⟩ : ℂ)‖ = ‖w.fc‖ := by
          rw [norm_mk, norm_fc, _root_.add_comm]
        rw [e]; rfl)
      obtain ⟨t, ht, t1, t2, -, -⟩ := C83_accuracy hf z w z2 z4 w2 w4 z1 z3 w1 w3 hr hi
      have n1 := mul_near hf ht ⟨⟨z2, z1⟩, ⟨z4, z3⟩, ⟨w2, w1⟩, ⟨w4, w3⟩, hr, hi⟩
      refine ⟨t, hw.bind (ht.bind (.of_eq rfl)), ⟨t1, t2⟩, ?_⟩
      have e : t.fc - z.fc * V = (t.fc - z.fc * w.fc) + z.fc * (w.fc - V) := by ring
      have n2 := norm_add_le (t.fc - z.fc * w.fc) (z.fc * (w.fc - V))
      rw [← e, norm_mul] at n2
      have n3 := mul_le_mul_of_nonneg_left dw nz
      have n4 := mul_le_mul_of_nonneg_left hzw (by positivity : (0:ℝ) ≤ 5 / 2 ^ f.p)
      rw [hD]
      linarith) (fun p hp' => by rw [norm_phasor]; exact (hp p hp').1) z hz hk
  exact ⟨c, c1, c2.1, c2.2, c4⟩

/-- Concrete cases of C171. Exact reals: `1` times `2∠1` times `3∠2` is `6∠3`; turning by 1, 2 and -3 gives the number back. -/
example : ∃ c, Returns (turnBy (⟨1, 0⟩ : Cartesian ℝ) [⟨2, 1⟩, ⟨3, 2⟩]) c ∧ c.toC = phasor 6 3 := by
  obtain ⟨c, c1, c2⟩ := C171_real ⟨1, 0⟩ [⟨2, 1⟩, ⟨3, 2⟩]
  refine ⟨c, c1, c2.trans ?_⟩
  have e : (⟨1, 0⟩ : Cartesian ℝ).toC = 1 := rfl
  rw [e, one_mul]; norm_num
example : Returns (turnBy (⟨5, 7⟩ : Cartesian ℝ) [⟨1, 1⟩, ⟨1, 2⟩, ⟨1, -3⟩]) ⟨5, 7⟩ := C171_real_back _ _ (by simp) (by norm_num)

theorem geo_le_two {n : ℕ} (S : ℝ) (h : ∀ k < n, S ^ k ≤ 2) {k : ℕ} (hk : k ≤ n) : geo S k ≤ 2 * k := by
  rw [geo]
  refine (Finset.sum_le_card_nsmul _ _ 2 fun i hi => h i (by have := Finset.mem_range.mp hi; omega)).trans ?_
  rw [Finset.card_range, nsmul_eq_mul, mul_comm]

/-- The hypotheses of `C171_fixed_size` hold on 64 bits with 32 fractional bits of a hundred turns of one radian, started at 1. -/
example (sc : Fixed .checked true 64 32 → Prog (Fixed .checked true 64 32 × Fixed .checked true 64 32)) (hs : FixedSinCosWithin sc (1 / 2 ^ 32)) :=
  C171_fixed_size (K := 31) (A := 1) (T := 2) (by norm_num) (by norm_num) (by positivity) sc hs ⟨fx .checked true 64 32 (2 ^ 32), fx .checked true 64 32 0⟩
    (List.replicate 100 ⟨fx .checked true 64 32 (2 ^ 32), fx .checked true 64 32 (2 ^ 32)⟩) (fun q hq => by
      rw [List.eq_of_mem_replicate hq, show (fx .checked true 64 32 (2 ^ 32)).r = 1 by
        rw [Fixed.r, show (fx .checked true 64 32 (2 ^ 32)).val = 2 ^ 32 by decide]; norm_num, abs_one]; exact ⟨rfl, le_refl _⟩)
    rfl (by norm_num) (by norm_num) (fun k hk => by
      rw [List.length_replicate] at hk
      have ez : (⟨fx .checked true 64 32 (2 ^ 32), fx .checked true 64 32 0⟩ : Cartesian (Fixed .checked true 64 32)).c = 1 := by
        apply Complex.ext <;> simp only [Cartesian.c, Fixed.r, show (fx .checked true 64 32 (2 ^ 32)).val = 2 ^ 32 by decide,
          show (fx .checked true 64 32 0).val = 0 by decide] <;> norm_num
      have pw : ∀ j < 100, ((1:ℝ) + 2 * (1 / 2 ^ 32 + (1 / 5 + 1 / 2) * (1 / 2 ^ 32 + 1 / 2 ^ 51) + 1 / 2 ^ 32)) ^ j ≤ 3 / 2 := fun j hj =>
        (pow_le_pow_right₀ (by norm_num) hj.le).trans ((pow_le_pow_left₀ (by norm_num) (b := 1 + 2 / 10 ^ 9) (by norm_num) 100).trans (by norm_num))
      have h1 := pw k hk
      have h2 := geo_le_two (n := 100) _ (fun j hj => (pw j hj).trans (by norm_num)) hk.le
      have h3 : (k : ℝ) ≤ 100 := by exact_mod_cast hk.le
      rw [ez, norm_one]; norm_num at h1 h2 ⊢; linarith)

/-- An oscillator on 64 bits with 32 fractional bits: a hundred steps of one radian from 1 are right to four ten-millionths. -/
example (sc : Fixed .checked true 64 32 → Prog (Fixed .checked true 64 32 × Fixed .checked true 64 32)) (hs : FixedSinCosWithin sc (1 / 2 ^ 32)) :
    let z : Cartesian (Fixed .checked true 64 32) := ⟨fx .checked true 64 32 (2 ^ 32), fx .checked true 64 32 0⟩
    let p : Polar (Fixed .checked true 64 32) := ⟨fx .checked true 64 32 (2 ^ 32), fx .checked true 64 32 (2 ^ 32)⟩
    ∃ c, Returns (@turnBy _ _ _ _ _ _ ⟨sc⟩ z (List.replicate 100 p)) c ∧ ‖c.c - phasor 1 100‖ ≤ 4 / 10 ^ 7 := by
  intro z p
  have e1 : (fx .checked true 64 32 (2 ^ 32)).r = 1 := by
    rw [Fixed.r, show (fx .checked true 64 32 (2 ^ 32)).val = 2 ^ 32 by decide]; norm_num
  have e0 : (fx .checked true 64 32 0).r = 0 := by
    rw [Fixed.r, show (fx .checked true 64 32 0).val = 0 by decide]; norm_num
  have ez : z.c = 1 := by
    apply Complex.ext
    · exact e1
    · exact e0
  have ep : phasor p.mag.r p.ang.r = phasor 1 1 := by rw [show p.mag.r = 1 from e1]
  set B : ℝ := 1 * (1 / 2 ^ 32 + (1 / 5 + 1 / 2) * (1 / 2 ^ 32 + 1 / 2 ^ 51)) + 1 / 2 ^ 32 with hB
  have b0 : 0 ≤ B := by rw [hB]; positivity
  have b1 : 1 + 2 * B ≤ 1 + 2 / 10 ^ 9 := by rw [hB]; norm_num
  have b2 : 3 / 2 * 2 * (1 + B) + 2 / 2 ^ 32 < 2 ^ 31 := by rw [hB]; norm_num
  clear_value B
  have pw : ∀ k ≤ 100, (1 + 2 * B) ^ k ≤ 1 + 3 / 10 ^ 7 - 1 / 10 ^ 8 := fun k hk =>
    calc (1 + 2 * B) ^ k ≤ (1 + 2 / 10 ^ 9) ^ k := pow_le_pow_left₀ (by positivity) b1 k
      _ ≤ (1 + 2 / 10 ^ 9) ^ 100 := pow_le_pow_right₀ (by norm_num) hk
      _ ≤ _ := by norm_num
  have gl : ∀ k ≤ 100, geo (1 + 2 * B) k ≤ 2 * k := fun k hk =>
    geo_le_two (n := 100) _ (fun j hj => (pw j hj.le).trans (by norm_num)) hk
  obtain ⟨c, c1, c2⟩ := C171_fixed (K := 31) (A := 1) (R := 1) (T := 2) (by norm_num) (by norm_num) (by positivity) zero_le_one sc hs z
    (List.replicate 100 p) (fun q hq => by
      rw [List.eq_of_mem_replicate hq, show p.mag.r = 1 from e1, abs_one]; exact ⟨le_refl _, le_refl _⟩)
    hB (by norm_num) b2 (fun k hk => by
      rw [List.length_replicate] at hk
      have h1 := pw k hk.le; have h2 := gl k hk.le
      have h3 : (k : ℝ) ≤ 100 := by exact_mod_cast hk.le
      rw [ez, norm_one]; norm_num at h1 ⊢; linarith)
  refine ⟨c, c1, ?_⟩
  rw [ez, one_mul, List.map_replicate, List.prod_replicate, ep, List.length_replicate, norm_one, mul_one, one_pow] at c2
  have e : phasor 1 1 ^ 100 = phasor 1 100 := by
    simp only [phasor]; rw [mul_pow, ← Complex.exp_nat_mul]; norm_num
  rw [e] at c2
  have h1 := pw 100 le_rfl; have h2 := gl 100 le_rfl
  refine c2.trans ?_
  norm_num at h1 h2 ⊢; linarith

/-- On `f32`: magnitude one, angles up to four, `sincos` good to `2^-20`, a hundred steps from a number of size one. -/
example : let B : ℝ := 1 * (1 / 2 ^ 20 + ((4 + 4) ^ 2 / 6 + 2) / 2 ^ F32.p) + 2 ^ F32.emin
    (4:ℝ) ≤ 2 ^ F32.p / 10 ∧ (4 * 1 : ℝ) ≤ 2 ^ F32.emax ∧ 2 * 2 * (1 + 3 / 2 * B) ≤ 2 ^ F32.emax := by
  intro B
  have he' : (2:ℝ) ^ F32.emin ≤ 1 := zpow_le_one_of_nonpos₀ (by norm_num) (by decide)
  refine ⟨by norm_num [F32], by norm_num [F32], ?_⟩
  have : B ≤ 3 := by simp only [B]; norm_num [F32] at he' ⊢
  have h2 : (2:ℝ) ^ 10 ≤ 2 ^ F32.emax := pow_le_pow_right₀ (by norm_num) (by decide)
  norm_num at h2; linarith

end MixedNum
