import Verif.Lemmas.Extremes
import Mathlib.Analysis.SpecialFunctions.Complex.Arg
import Verif.Props.Mul
import Verif.Props.Wrap
import Verif.Lemmas.Float
import Verif.Props.AddSub
import Verif.Lemmas.Run
/-! # C15–C24: polar form, complex exponential and integer power -/

namespace MixedNum
variable {m : Mode} {s : Bool} {W F : ℕ}

/-- The value of `to_cartesian` with real components. -/
theorem toCartesian_real (p : Polar ℝ) :
    Returns p.toCartesian ⟨p.mag * Real.cos p.ang, p.mag * Real.sin p.ang⟩ := by
  obtain ⟨r, hr, _⟩ := C33_wrap_real p.ang
  obtain ⟨hs, hc⟩ := C33_same_point _ _ hr
  unfold Polar.toCartesian ops.toCartesian
  refine hr.bind (.of_eq ?_)
  simp [hs, hc]

/-- The polar spec in coordinates. -/
theorem polar_toC (p : Polar ℝ) : p.toC = ⟨p.mag * Real.cos p.ang, p.mag * Real.sin p.ang⟩ := by
  unfold Polar.toC
  rw [Complex.exp_mul_I, ← Complex.ofReal_cos, ← Complex.ofReal_sin]
  apply Complex.ext
  · simp only [Complex.mul_re, Complex.add_re, Complex.add_im, Complex.mul_im, Complex.ofReal_re, Complex.ofReal_im,
      Complex.I_re, Complex.I_im]; ring
  · simp only [Complex.mul_re, Complex.add_re, Complex.add_im, Complex.mul_im, Complex.ofReal_re, Complex.ofReal_im,
      Complex.I_re, Complex.I_im]; ring

theorem norm_toC (z : Cartesian ℝ) : ‖z.toC‖ = Real.sqrt (z.re ^ 2 + z.im ^ 2) := by
  rw [Complex.norm_def, Complex.normSq_apply, Cartesian.toC]; ring_nf

/-- The value of `to_polar` with real components. -/
theorem toPolar_real (z : Cartesian ℝ) : z.toPolar = pure ⟨‖z.toC‖, Complex.arg z.toC⟩ := by
  have h : 0 ≤ z.re ^ 2 + z.im ^ 2 := by positivity
  rw [norm_toC]
  simp [Cartesian.toPolar, ops.toPolar, ops.abs, h, Cartesian.toC]

/-- `to_cartesian` keeps the number. -/
theorem toCartesian_toC (p : Polar ℝ) : ∃ c, Returns p.toCartesian c ∧ c.toC = p.toC :=
  ⟨_, toCartesian_real p, (polar_toC p).symm⟩

/-! ## C15 -/

/-- C15: conjugating in polar form and converting = converting and conjugating = complex conjugation. -/
theorem C15_polar_conj (p : Polar ℝ) :
    ∃ c, Returns (p.toCartesian >>= Cartesian.conj) c ∧ Returns (p.conj >>= Polar.toCartesian) c ∧
      Returns p.conjCartesian c ∧ c.toC = (starRingEnd ℂ) p.toC := by
  have h2 := toCartesian_real ⟨p.mag, -p.ang⟩
  simp only [Real.cos_neg, Real.sin_neg, mul_neg] at h2
  refine ⟨⟨p.mag * Real.cos p.ang, -(p.mag * Real.sin p.ang)⟩, (toCartesian_real p).bind (.of_eq ?_), ?_, ?_, ?_⟩
  · simp [Cartesian.conj, Cartesian.new]
  · simpa [Polar.conj, Polar.new] using h2
  · unfold Polar.conjCartesian; rw [RealI.neg_def, pure_bind]; exact h2
  · rw [polar_toC]; rfl

/-- C15, Cartesian to polar: `conj` into the polar type gives the polar form of the conjugate. -/
theorem C15_cartesian_conj_polar (z : Cartesian ℝ) :
    ∃ q, Returns z.conjPolar q ∧ q.toC = (starRingEnd ℂ) z.toC ∧ 0 ≤ q.mag := by
  refine ⟨⟨‖(⟨z.re, -z.im⟩ : Cartesian ℝ).toC‖, Complex.arg (⟨z.re, -z.im⟩ : Cartesian ℝ).toC⟩, .of_eq ?_, ?_, norm_nonneg _⟩
  · unfold Cartesian.conjPolar
    rw [RealI.neg_def, pure_bind]; exact toPolar_real _
  · unfold Polar.toC; rw [Complex.norm_mul_exp_arg_mul_I]; rfl

/-- C15, every signed component type: polar conjugation keeps the magnitude and negates the angle. -/
theorem C15_generic {α : Type} [MixedNumSigned α] (p : Polar α) (a : α) (h : MixedNumSigned.neg p.ang = pure a) :
    Returns p.conj ⟨p.mag, a⟩ := .of_eq (by simp [Polar.conj, Polar.new, h])

example : Returns (Polar.conj (⟨2, 3⟩ : Polar ℝ)) ⟨2, -3⟩ := C15_generic _ _ rfl

/-! ## C16 -/

/-- C16: to polar and back is the identity. -/
theorem C16_round_trip (z : Cartesian ℝ) : Returns (z.toPolar >>= Polar.toCartesian) z := by
  rw [toPolar_real, pure_bind]
  have h := toCartesian_real ⟨‖z.toC‖, Complex.arg z.toC⟩
  have e := polar_toC ⟨‖z.toC‖, Complex.arg z.toC⟩
  have e' : Polar.toC ⟨‖z.toC‖, Complex.arg z.toC⟩ = z.toC := Complex.norm_mul_exp_arg_mul_I _
  rw [e'] at e
  have h1 : z.re = _ := congrArg Complex.re e
  have h2 : z.im = _ := congrArg Complex.im e
  simp only at h1 h2 h
  rw [← h1, ← h2] at h
  exact h

/-- C16: the polar form is normalised and stands for the same number. -/
theorem C16_to_polar (z : Cartesian ℝ) : ∃ p, Returns z.toPolar p ∧ p.toC = z.toC ∧
    0 ≤ p.mag ∧ -Real.pi < p.ang ∧ p.ang ≤ Real.pi := by
  refine ⟨_, .of_eq (toPolar_real z), Complex.norm_mul_exp_arg_mul_I _, norm_nonneg _, ?_, ?_⟩
  · exact (Complex.arg_mem_Ioc _).1
  · exact (Complex.arg_mem_Ioc _).2

/-- C16: zero has magnitude 0 and angle 0. -/
theorem C16_zero : Returns (Cartesian.toPolar (⟨0, 0⟩ : Cartesian ℝ)) ⟨0, 0⟩ := by
  refine .of_eq ?_
  rw [toPolar_real]
  have : (⟨0, 0⟩ : Cartesian ℝ).toC = 0 := rfl
  simp [this]

/-- C16: the negative real axis has angle +π. -/
theorem C16_negative_axis (x : ℝ) (h : x < 0) : Returns (Cartesian.toPolar (⟨x, 0⟩ : Cartesian ℝ)) ⟨-x, Real.pi⟩ := by
  refine .of_eq ?_
  rw [toPolar_real]
  have e : (⟨x, 0⟩ : Cartesian ℝ).toC = (x : ℂ) := by apply Complex.ext <;> simp [Cartesian.toC]
  rw [e, Complex.arg_ofReal_of_neg h, Complex.norm_real, Real.norm_of_nonpos h.le]

example := C16_negative_axis (-3) (by norm_num)

/-! ## C17 -/

/-- C17: the polar form of the Cartesian form stands for the same number and is normalised. -/
theorem C17_normalises (p : Polar ℝ) : ∃ q, Returns (p.toCartesian >>= Cartesian.toPolar) q ∧ q.toC = p.toC ∧
    0 ≤ q.mag ∧ -Real.pi < q.ang ∧ q.ang ≤ Real.pi := by
  obtain ⟨c, hc, e⟩ := toCartesian_toC p
  obtain ⟨q, hq, e', h⟩ := C16_to_polar c
  exact ⟨q, hc.bind hq, e'.trans e, h⟩

/-- C17: on normalised numbers the round trip is the identity. -/
theorem C17_round_trip (p : Polar ℝ) (hm : 0 < p.mag) (h1 : -Real.pi < p.ang) (h2 : p.ang ≤ Real.pi) :
    Returns (p.toCartesian >>= Cartesian.toPolar) p := by
  obtain ⟨c, hc, e⟩ := toCartesian_toC p
  refine hc.bind (.of_eq ?_)
  rw [toPolar_real, e]
  have e1 : ‖p.toC‖ = p.mag := by
    unfold Polar.toC; rw [norm_mul, Complex.norm_exp_ofReal_mul_I, mul_one, Complex.norm_real, Real.norm_of_nonneg hm.le]
  have e2 : Complex.arg p.toC = p.ang := by
    unfold Polar.toC
    rw [Complex.exp_mul_I]; exact Complex.arg_mul_cos_add_sin_mul_I hm ⟨h1, h2⟩
  rw [e1, e2]

/-- C17: a zero magnitude comes back as canonical zero. -/
theorem C17_zero (a : ℝ) : Returns (Polar.toCartesian ⟨0, a⟩ >>= Cartesian.toPolar) (⟨0, 0⟩ : Polar ℝ) := by
  refine (toCartesian_real ⟨0, a⟩).bind ?_
  simp only [zero_mul]; exact C16_zero

example : Returns (Polar.toCartesian ⟨2, 1⟩ >>= Cartesian.toPolar) (⟨2, 1⟩ : Polar ℝ) :=
  C17_round_trip ⟨2, 1⟩ (by norm_num) (by show -Real.pi < 1; linarith [Real.pi_pos])
    (by show 1 ≤ Real.pi; linarith [Real.two_le_pi])

/-! ## C18 -/

/-- What `to_cartesian` does after wrapping the angle to `r`, for a given sine/cosine routine. -/
def afterWrap {α : Type} [NumOps α] (sc : α → Prog (α × α)) (mag r : α) : Prog (Cartesian α) := do
  let q ← sc r
  let re ← NumOps.mul mag q.2
  let im ← NumOps.mul mag q.1
  pure ⟨re, im⟩

theorem sameOutcome_of_wrap {α : Type} [MixedCmp α] [NumOps α] [Lit α] [MixedPi α] [MixedNumSigned α]
    {sc : α → Prog (α × α)} {mag a r : α} (h : Returns (wrapPhase a) r) :
    SameOutcome (@ops.toCartesian α _ _ _ _ _ ⟨sc⟩ ⟨mag, a⟩) (afterWrap sc mag r) := by
  obtain ⟨N, hN⟩ := h
  exact ⟨N, fun n hn => Prog.bind_apply_ok (hN n hn)⟩

theorem SameOutcome.symm {α : Type} {p q : Prog α} (h : SameOutcome p q) : SameOutcome q p := by
  obtain ⟨N, h⟩ := h; exact ⟨N, fun n hn => (h n hn).symm⟩
theorem SameOutcome.trans {α : Type} {p q r : Prog α} (h : SameOutcome p q) (h' : SameOutcome q r) : SameOutcome p r := by
  obtain ⟨N, h⟩ := h; obtain ⟨M, h'⟩ := h'
  exact ⟨max N M, fun n hn => (h n (by omega)).trans (h' n (by omega))⟩

/-- C18, fixed point: whatever the sine/cosine routine `sc` computes, `to_cartesian` calls it once, at an angle in
[-p, p) on the same angle. -/
theorem C18_sincos_argument (h : F + 4 ≤ W) (sc : Fixed m true W F → Prog (Fixed m true W F × Fixed m true W F))
    (q : Polar (Fixed m true W F)) :
    ∃ p r : Fixed m true W F, Returns MixedPi.pi p ∧ -p.val ≤ r.val ∧ r.val < p.val ∧
      (∃ k : ℤ, r.val = q.ang.val + k * (2 * p.val)) ∧
      SameOutcome (@ops.toCartesian _ _ _ _ _ _ ⟨sc⟩ q)
        (do let t ← sc r; let re ← NumOps.mul q.mag t.2; let im ← NumOps.mul q.mag t.1; pure ⟨re, im⟩) := by
  obtain ⟨p, r, hp, _, hr, h1, h2, hk⟩ := C30_wrap_fixed h q.ang
  exact ⟨p, r, hp, h1, h2, hk, sameOutcome_of_wrap hr⟩

/-- C18, fixed point: the angle matters only modulo a turn. -/
theorem C18_turns (h : F + 4 ≤ W) (sc : Fixed m true W F → Prog (Fixed m true W F × Fixed m true W F))
    (mag a b p : Fixed m true W F) (hp : Returns MixedPi.pi p) (k : ℤ) (hab : b.val = a.val + k * (2 * p.val)) :
    SameOutcome (@ops.toCartesian _ _ _ _ _ _ ⟨sc⟩ ⟨mag, a⟩) (@ops.toCartesian _ _ _ _ _ _ ⟨sc⟩ ⟨mag, b⟩) := by
  obtain ⟨p', r, hp', _, hr, h1, h2, k1, hk1⟩ := C30_wrap_fixed h a
  obtain rfl := hp.unique hp'
  obtain ⟨_, r', _, _, hr', _⟩ := C30_wrap_fixed h b
  obtain rfl := C30_unique h b r' r p hp hr' (k1 - k) h1 h2 (by rw [hk1, hab]; ring)
  exact (sameOutcome_of_wrap hr).trans (sameOutcome_of_wrap hr').symm

example (sc : Fixed .checked true 16 8 → Prog (Fixed .checked true 16 8 × Fixed .checked true 16 8)) := C18_turns (by decide) sc (fx .checked true 16 8 512)
  (fx .checked true 16 8 300) (fx .checked true 16 8 (300 - 2 * 1608)) (fx .checked true 16 8 804) (.of_eq (by kernel_rfl)) (-2) (by decide)

/-- C18, exact reals: the same, for every sine/cosine routine. -/
theorem C18_real (sc : ℝ → Prog (ℝ × ℝ)) (mag a : ℝ) (k : ℤ) :
    SameOutcome (@ops.toCartesian _ _ _ _ _ _ ⟨sc⟩ ⟨mag, a⟩)
      (@ops.toCartesian _ _ _ _ _ _ ⟨sc⟩ ⟨mag, a + k * (2 * Real.pi)⟩) := by
  obtain ⟨r, hr, hr', _⟩ := wrapReal.congr (x := a) (y := a + k * (2 * Real.pi)) k rfl
  exact (sameOutcome_of_wrap hr).trans (sameOutcome_of_wrap hr').symm

/-- A case of C18: π is 50/16, so angle 7.9375 and angle 1.6875 are one turn apart. -/
example : (Fixed.piRaw 4 = 50) ∧ (27:ℤ) = 127 + (-1) * (2 * 50) := by decide +kernel

/-! ## C19 -/

/-- C19: all magnitude entry points have the same outcome, for every component type. -/
theorem C19_entry_points {α : Type} [NumOps α] [MixedPowi α] [MixedSqrt α] [MixedZero α] (z : Cartesian α) :
    z.abs = z.mag ∧ ops.abs z = z.mag ∧ (do let w ← z.mixedAbs; pure w.re) = z.mag := by
  refine ⟨rfl, rfl, ?_⟩
  unfold Cartesian.mixedAbs; simp

/-- C19: `mixed_abs` has imaginary part zero. -/
theorem C19_mixed_abs_im {α : Type} [NumOps α] [MixedPowi α] [MixedSqrt α] [MixedZero α] (z w : Cartesian α)
    (h : Returns z.mixedAbs w) : w.im = MixedZero.zero := by
  obtain ⟨N, hN⟩ := h
  obtain ⟨a, _, ha⟩ := Prog.bind_ok_inv (hN N le_rfl)
  cases ha; rfl

example := C19_mixed_abs_im (⟨fx .checked true 16 8 256, fx .checked true 16 8 512⟩ : Cartesian (Fixed .checked true 16 8)) ⟨fx .checked true 16 8 572, fx .checked true 16 8 0⟩ (by run 50)

/-- C19: the polar magnitude is the magnitude, whenever the angle can be computed. -/
theorem C19_to_polar {α : Type} [NumOps α] [MixedPowi α] [MixedSqrt α] [MixedAtan α] (z : Cartesian α) (p : Polar α)
    (h : Returns z.toPolar p) : Returns z.mag p.mag ∧ Returns z.arg p.ang := by
  obtain ⟨N, hN⟩ := h
  have key : ∀ n, N ≤ n → z.mag n = .ok p.mag ∧ z.arg n = .ok p.ang := by
    intro n hn
    obtain ⟨a, ha, h2⟩ := Prog.bind_ok_inv (hN n hn)
    obtain ⟨b, hb, h3⟩ := Prog.bind_ok_inv h2
    cases h3
    exact ⟨ha, hb⟩
  exact ⟨⟨N, fun n hn => (key n hn).1⟩, ⟨N, fun n hn => (key n hn).2⟩⟩

/-- C19, exact reals: the magnitude is the Euclidean modulus. -/
theorem C19_real (z : Cartesian ℝ) : Returns z.mag ‖z.toC‖ := by
  have h : 0 ≤ z.re ^ 2 + z.im ^ 2 := by positivity
  rw [norm_toC]
  exact .of_eq (by simp [Cartesian.mag, h])

/-! ## C20 -/

/-- C20: polar times polar. -/
theorem C20_polar_polar (p q : Polar ℝ) : ∃ c, Returns (p.mul q) c ∧ c.toC = p.toC * q.toC := by
  by_cases h : p.mag = 0 ∨ q.mag = 0
  · refine ⟨⟨0, 0⟩, .of_eq ?_, ?_⟩
    · simp [Polar.mul, ops.mulPolar, h]
    · rcases h with h | h <;> simp [Polar.toC, h]
  · refine ⟨⟨p.mag * q.mag, p.ang + q.ang⟩, .of_eq ?_, ?_⟩
    · simp [Polar.mul, ops.mulPolar, h]
    · simp only [Polar.toC]; push_cast
      rw [add_mul, Complex.exp_add]; ring

/-- C20: polar times Cartesian. -/
theorem C20_polar_cartesian (p : Polar ℝ) (z : Cartesian ℝ) :
    ∃ c, Returns (p.mulCartesian z) c ∧ c.toC = p.toC * z.toC := by
  obtain ⟨q, hq, e, _⟩ := C16_to_polar z
  obtain ⟨c, hc, e'⟩ := C20_polar_polar p q
  exact ⟨c, hq.bind hc, by rw [e', e]⟩

/-- C20: polar times real. -/
theorem C20_polar_scalar (p : Polar ℝ) (t : ℝ) : ∃ c, Returns (p.mulScalar t) c ∧ c.toC = p.toC * t := by
  refine ⟨⟨p.mag * t, p.ang⟩, .of_eq (by simp [Polar.mulScalar]), ?_⟩
  simp only [Polar.toC]; push_cast; ring

/-- C20: Cartesian times polar, also in assigning form. -/
theorem C20_cartesian_polar (z : Cartesian ℝ) (p : Polar ℝ) :
    ∃ c, Returns (z.mulPolar p) c ∧ Returns (z.mulAssignPolar p) c ∧ c.toC = z.toC * p.toC := by
  obtain ⟨w, hw, e⟩ := toCartesian_toC p
  obtain ⟨c, hc, e'⟩ := C02_real z w
  refine ⟨c, hw.bind hc, hw.bind (hc.bind (.of_eq rfl)), by rw [e', e]⟩

/-! ## C21 -/

/-- C21, every component type whose literal 0 converts without failure: a zero magnitude gives canonical zero. -/
theorem C21_generic {α : Type} [MixedCmp α] [NumOps α] [Lit α] (z : α) (hz : Lit.ofI32 0 = pure z) (p q : Polar α)
    (h : MixedCmp.beq p.mag z = true ∨ MixedCmp.beq q.mag z = true) : Returns (p.mul q) ⟨z, z⟩ := by
  refine .of_eq ?_
  unfold Polar.mul ops.mulPolar
  rw [hz, pure_bind, if_pos (by simpa using h)]

example := C21_generic (fx .checked true 16 8 0) (by rfl) ⟨fx .checked true 16 8 0, fx .checked true 16 8 200⟩ ⟨fx .checked true 16 8 300, fx .checked true 16 8 400⟩ (.inl rfl)

/-- C21, fixed point, all types and both modes. -/
theorem C21_fixed (p q : Polar (Fixed m s W F)) (h : p.mag.val = 0 ∨ q.mag.val = 0) :
    ∃ c, Returns (p.mul q) c ∧ c.mag.val = 0 ∧ c.ang.val = 0 := by
  have hz : (Lit.ofI32 0 : Prog (Fixed m s W F)) = pure (Fixed.mkv 0 (fits_zero s W)) := by
    rw [Fixed.ofI32_def]; simp only [zero_mul]; exact Fixed.fit_of_fits _
  exact ⟨_, C21_generic _ hz p q (h.imp (fun h => decide_eq_true h) (fun h => decide_eq_true h)), rfl, rfl⟩

example := C21_fixed ⟨fx .checked true 16 8 0, fx .checked true 16 8 200⟩ ⟨fx .checked true 16 8 300, fx .checked true 16 8 400⟩ (.inl rfl)

/-- C21, integers. -/
theorem C21_int (p q : Polar (PInt m s W)) (h : p.mag.val = 0 ∨ q.mag.val = 0) :
    ∃ c, Returns (p.mul q) c ∧ c.mag.val = 0 ∧ c.ang.val = 0 := by
  have h0 : wrapInt s W 0 = 0 := wrapInt_of_fits (fits_zero s W)
  exact ⟨_, C21_generic _ (PInt.ofI32_def 0) p q (h.imp (fun h => decide_eq_true (h.trans h0.symm)) (fun h => decide_eq_true (h.trans h0.symm))), h0, h0⟩

example := C21_int ⟨i .checked true 16 0, i .checked true 16 200⟩ ⟨i .checked true 16 300, i .checked true 16 400⟩ (.inl rfl)

/-- C21, floats: also for -0. -/
theorem C21_float {f : Format} (p q : Polar (Flt f)) (h : p.mag.beq (.fin false 0) = true ∨ q.mag.beq (.fin false 0) = true) :
    Returns (p.mul q) ⟨.fin false 0, .fin false 0⟩ :=
  C21_generic _ (by simp [Flt.ofExact]) p q h

example := C21_float (f := F32) ⟨.fin true 0, .fin false 3⟩ ⟨.inf true, .nan⟩ (.inl rfl)

/-- C21, exact reals. -/
theorem C21_real (p q : Polar ℝ) (h : p.mag = 0 ∨ q.mag = 0) : Returns (p.mul q) ⟨0, 0⟩ :=
  C21_generic 0 (by simp) p q (by simpa using h)

example : Returns (Polar.mul ⟨fx .checked true 8 4 0, fx .checked true 8 4 100⟩ ⟨fx .checked true 8 4 100, fx .checked true 8 4 100⟩)
    ⟨fx .checked true 8 4 0, fx .checked true 8 4 0⟩ := .of_eq rfl

/-! ## C22 -/

/-- C22, fixed point: any other divisor divides the magnitude, truncating toward zero, and keeps the angle. -/
theorem C22_fixed_nonzero (hW : 0 < W) (p : Polar (Fixed m s W F)) (t : Fixed m s W F) (h : t.val ≠ 0) :
    Outcome (fun c : Fixed m s W F => c.val) m s W ((p.mag.val * 2 ^ F).tdiv t.val)
      (do let c ← p.divScalar t; pure c.mag) ∧
    (∀ c, Returns (p.divScalar t) c → c.ang = p.ang) := by
  have e : p.divScalar t = (do pure ⟨← Fixed.fit ((p.mag.val * 2 ^ F).tdiv t.val), p.ang⟩) := by
    simp [Polar.divScalar, h, Fixed.div_def]
  rw [e]
  constructor
  · simpa using Fixed.outcome hW _
  · rintro c ⟨N, hN⟩
    obtain ⟨a, _, ha⟩ := Prog.bind_ok_inv (hN N le_rfl)
    cases ha; rfl

example := C22_fixed_nonzero (by decide) ⟨fx .checked true 16 4 30, fx .checked true 16 4 50⟩ (fx .checked true 16 4 7) (by decide)

/-- C22: division by zero never panics, whatever the type, if its `maxValue` exists. -/
theorem C22_generic {α : Type} [MixedCmp α] [NumOps α] [MixedZero α] [MixedReal α] (p : Polar α) (t mx : α)
    (hm : MixedReal.maxValue = pure mx) (h : MixedCmp.beq t MixedZero.zero = true) :
    Returns (p.divScalar t) ⟨mx, p.ang⟩ := .of_eq (by simp [Polar.divScalar, h, hm])

example := C22_generic ⟨fx .checked true 16 4 30, fx .checked true 16 4 50⟩ (fx .checked true 16 4 0) (fx .checked true 16 4 32767) rfl rfl

/-- C22, fixed point: division by zero gives the maximum magnitude and keeps the angle. -/
theorem C22_fixed_zero (p : Polar (Fixed m s W F)) (t : Fixed m s W F) (h : t.val = 0) :
    ∃ c, Returns (p.divScalar t) c ∧ c.mag.val = greatest s W ∧ c.ang = p.ang := by
  simp only [greatest_eq]
  exact ⟨_, C22_generic p t _ rfl (by simp [h]), rfl, rfl⟩

example := C22_fixed_zero ⟨fx .checked true 16 4 30, fx .checked true 16 4 50⟩ (fx .checked true 16 4 0) rfl

/-- C22, integers: never a division by zero. -/
theorem C22_int (p : Polar (PInt m s W)) (t : PInt m s W) : ¬ Panics (p.divScalar t) .divByZero := by
  by_cases h : t.val = 0
  · exact (C22_generic p t _ rfl (by simp [h])).not_panics
  · simp only [Polar.divScalar, PInt.beq_def, PInt.zero_val, h, decide_false, Bool.false_eq_true, if_false, PInt.div_def]
    split
    · simp
    · simp

/-- C22, fixed point: never a division by zero. -/
theorem C22_fixed (p : Polar (Fixed m s W F)) (t : Fixed m s W F) : ¬ Panics (p.divScalar t) .divByZero := by
  by_cases h : t.val = 0
  · exact (C22_generic p t _ rfl (by simp [h])).not_panics
  · simp only [Polar.divScalar, Fixed.beq_def, Fixed.zero_val, h, decide_false, Bool.false_eq_true, if_false, Fixed.div_def]
    by_cases hf : Fits s W ((p.mag.val * 2 ^ F).tdiv t.val)
    · rw [Fixed.fit_of_fits hf]; simp
    · cases m with
      | checked => rw [Fixed.fit_checked hf]; simp
      | wrapping => rw [Fixed.fit_wrapping]; simp

/-- C22, floats: division by ±0 gives the largest finite magnitude. -/
theorem C22_float {f : Format} (p : Polar (Flt f)) (sg : Bool) :
    Returns (p.divScalar (.fin sg 0)) ⟨.fin false (2 ^ f.emax - pow2 (f.emax - f.p)), p.ang⟩ :=
  C22_generic p _ _ rfl (by cases sg <;> simp [Flt.beq, Flt.val])

/-- C22, exact reals: division by a non-zero real is complex division. -/
theorem C22_real (p : Polar ℝ) (t : ℝ) (h : t ≠ 0) : ∃ c, Returns (p.divScalar t) c ∧ c.toC = p.toC / t ∧ c.ang = p.ang := by
  refine ⟨⟨p.mag / t, p.ang⟩, .of_eq (by simp [Polar.divScalar, h]), ?_, rfl⟩
  simp only [Polar.toC]; push_cast; ring

example : Returns (Polar.divScalar ⟨fx .checked true 8 4 100, fx .checked true 8 4 3⟩ (fx .checked true 8 4 0))
    ⟨fx .checked true 8 4 127, fx .checked true 8 4 3⟩ := .of_eq rfl

/-! ## C23 -/

/-- C23: `mixed_exp` is the complex exponential. -/
theorem C23_exp (z : Cartesian ℝ) : ∃ c, Returns z.exp c ∧ c.toC = Complex.exp z.toC := by
  refine ⟨⟨Real.cos z.im * Real.exp z.re, Real.sin z.im * Real.exp z.re⟩, .of_eq ?_, ?_⟩
  · simp [Cartesian.exp, Cartesian.new]
  · apply Complex.ext
    · rw [Complex.exp_re]; simp only [Cartesian.toC]; ring
    · rw [Complex.exp_im]; simp only [Cartesian.toC]; ring

/-- C23: the exponential of a sum is the product of the exponentials. -/
theorem C23_homomorphism (z w : Cartesian ℝ) :
    ∃ c, Returns (z.add w >>= Cartesian.exp) c ∧
      Returns (do let a ← z.exp; let b ← w.exp; a.mul b) c := by
  obtain ⟨a, ha, ea⟩ := C23_exp z
  obtain ⟨b, hb, eb⟩ := C23_exp w
  obtain ⟨c, hc, ec⟩ := C02_real a b
  obtain ⟨d, hd, ed⟩ := C23_exp ⟨z.re + w.re, z.im + w.im⟩
  have e : (⟨z.re + w.re, z.im + w.im⟩ : Cartesian ℝ).toC = z.toC + w.toC := rfl
  have : d = c := by
    have h : d.toC = c.toC := by rw [ed, e, Complex.exp_add, ec, ea, eb]
    have h1 := congrArg Complex.re h; have h2 := congrArg Complex.im h
    cases d; cases c; simp only [Cartesian.toC] at h1 h2; rw [h1, h2]
  refine ⟨c, ?_, ha.bind (hb.bind hc)⟩
  rw [← this]
  exact (Returns.of_eq (by simp [Cartesian.add])).bind hd

/-- C23: exp 0 = 1. -/
theorem C23_zero : Returns (Cartesian.exp (⟨0, 0⟩ : Cartesian ℝ)) ⟨1, 0⟩ :=
  .of_eq (by simp [Cartesian.exp, Cartesian.new])

/-- C23: the modulus of exp z is e^(re z). -/
theorem C23_modulus (z : Cartesian ℝ) : Returns (z.exp >>= Cartesian.mag) (Real.exp z.re) := by
  obtain ⟨c, hc, e⟩ := C23_exp z
  have := C19_real c
  rw [e, Complex.norm_exp] at this
  exact hc.bind this

/-! ## C24 -/

theorem i32OfUsize_of_lt {n : ℕ} (h : n < 2 ^ 31) : i32OfUsize n = n := by
  unfold i32OfUsize; omega

/-- C24: `complex::powi` is the complex power, for every exponent that the `as i32` cast keeps. -/
theorem C24_powi (z : Cartesian ℝ) (n : ℕ) (h : n < 2 ^ 31) : ∃ c, Returns (ops.powi z n) c ∧ c.toC = z.toC ^ n := by
  have h0 : 0 ≤ z.re ^ 2 + z.im ^ 2 := by positivity
  refine ⟨⟨‖z.toC‖ ^ n * Real.cos (Complex.arg z.toC * n), ‖z.toC‖ ^ n * Real.sin (Complex.arg z.toC * n)⟩, .of_eq ?_, ?_⟩
  · rw [norm_toC]
    simp [ops.powi, h0, i32OfUsize_of_lt h, Cartesian.toC]
  · have e := polar_toC ⟨‖z.toC‖ ^ n, Complex.arg z.toC * n⟩
    have e2 : Polar.toC ⟨‖z.toC‖ ^ n, Complex.arg z.toC * n⟩ = z.toC ^ n := by
      conv_rhs => rw [← Complex.norm_mul_exp_arg_mul_I z.toC, mul_pow, ← Complex.exp_nat_mul]
      simp only [Polar.toC]; push_cast
      congr 2; ring
    rw [← e2, e]; rfl

example := C24_powi ⟨3, -4⟩ 1000 (by norm_num)

/-- C24: it is the n-fold product: powi z 0 = 1 and powi z (n+1) = z * powi z n. -/
theorem C24_recursion (z : Cartesian ℝ) (n : ℕ) (h : n + 1 < 2 ^ 31) :
    Returns (ops.powi z 0) ⟨1, 0⟩ ∧
    ∃ c, Returns (ops.powi z (n + 1)) c ∧ Returns (ops.powi z n >>= z.mul) c := by
  have ext : ∀ c d : Cartesian ℝ, c.toC = d.toC → c = d := by
    intro c d h
    have h1 := congrArg Complex.re h; have h2 := congrArg Complex.im h
    cases d; cases c; simp only [Cartesian.toC] at h1 h2; rw [h1, h2]
  constructor
  · obtain ⟨c, hc, e⟩ := C24_powi z 0 (by norm_num)
    obtain rfl : c = ⟨1, 0⟩ := ext _ _ (by rw [e]; simp; apply Complex.ext <;> simp [Cartesian.toC])
    exact hc
  · obtain ⟨c, hc, e⟩ := C24_powi z (n + 1) h
    obtain ⟨d, hd, ed⟩ := C24_powi z n (by omega)
    obtain ⟨c', hc', e'⟩ := C02_real z d
    obtain rfl : c' = c := ext _ _ (by rw [e', ed, e, pow_succ']) 
    exact ⟨c', hc, hd.bind hc'⟩

example := C24_recursion ⟨3, -4⟩ 1000 (by norm_num)

/-- C24: the bound on the exponent is needed: 2^32 is cast to exponent 0 for the magnitude, so a non-zero number
of modulus 2 gets modulus 1. -/
theorem C24_bound_needed : ∃ c, Returns (ops.powi (⟨2, 0⟩ : Cartesian ℝ) (2 ^ 32)) c ∧ ‖c.toC‖ = 1 := by
  have h : i32OfUsize (2 ^ 32) = 0 := by decide
  refine ⟨⟨1, 0⟩, .of_eq ?_, ?_⟩
  · have hp := RealI.powi_nat (2:ℝ) 0
    have ha : Complex.arg (⟨2, 0⟩ : ℂ) = 0 := by
      exact Complex.arg_ofReal_of_nonneg (x := 2) (by norm_num)
    unfold ops.powi
    rw [h]
    have hs : Real.sqrt ((2:ℝ)^2) = 2 := Real.sqrt_sq (by norm_num)
    have h4 : MixedSqrt.sqrt ((2:ℝ)^2) = pure 2 := by rw [RealI.sqrt_nonneg (by positivity), hs]
    simp only [Nat.cast_zero, pow_zero] at hp
    simp [h4, hp, ha]
  · rw [norm_toC]; simp

end MixedNum
