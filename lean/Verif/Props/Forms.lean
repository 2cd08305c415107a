import Verif.Props.Polar
/-! # C101, C102: constructors, conversions between the two forms and readers -/

namespace MixedNum
variable {m : Mode} {s : Bool} {W F : ℕ}

/-! ## C101 -/

/-- C101, every component type: converting a number to the form it already has changes nothing. -/
theorem C101_own_form {α : Type} (z : Cartesian α) (p : Polar α) :
    Returns z.toCartesian z ∧ Returns p.toPolar p := ⟨.of_eq rfl, .of_eq rfl⟩

/-- C101, every component type: the constructors of a form from its own components store the two components. -/
theorem C101_own_constructors {α : Type} (a b : α) :
    Cartesian.new a b = ⟨a, b⟩ ∧ Cartesian.newFromCartesian a b = ⟨a, b⟩ ∧ Polar.new a b = ⟨a, b⟩ ∧
      Polar.newFromPolar a b = ⟨a, b⟩ := ⟨rfl, rfl, rfl, rfl⟩

/-- C101, every component type: building one form from the components of the other is converting. -/
theorem C101_cross_constructors {α : Type} [MixedCmp α] [NumOps α] [Lit α] [MixedPi α] [MixedNumSigned α]
    [MixedSinCos α] [MixedPowi α] [MixedSqrt α] [MixedAtan α] (a b : α) :
    Cartesian.newFromPolar a b = (Polar.new a b).toCartesian ∧
      Polar.newFromCartesian a b = (Cartesian.new a b).toPolar := ⟨rfl, rfl⟩

/-- C101, every component type: reading the angle of a Cartesian number is reading the angle of its polar form,
whenever the polar form exists. -/
theorem C101_readers {α : Type} [NumOps α] [MixedPowi α] [MixedSqrt α] [MixedAtan α] (z : Cartesian α) (p : Polar α)
    (h : Returns z.toPolar p) : Returns z.mag p.getMag ∧ Returns z.abs p.getAbs ∧ Returns z.arg p.getArg ∧
      Returns z.ang p.getAng := by
  obtain ⟨N, hN⟩ := h
  have key : ∀ n ≥ N, z.mag n = .ok p.mag ∧ z.arg n = .ok p.ang := by
    intro n hn
    have hp := hN n hn
    unfold Cartesian.toPolar ops.toPolar at hp
    obtain ⟨a, ha, hp⟩ := Prog.bind_ok_inv hp
    obtain ⟨b, hb, hp⟩ := Prog.bind_ok_inv hp
    have e : (⟨a, b⟩ : Polar α) = p := Out.ok.inj hp
    subst e
    exact ⟨ha, hb⟩
  exact ⟨⟨N, fun n hn => (key n hn).1⟩, ⟨N, fun n hn => (key n hn).1⟩, ⟨N, fun n hn => (key n hn).2⟩,
    ⟨N, fun n hn => (key n hn).2⟩⟩

example : ∃ p : Polar ℝ, Returns (Cartesian.toPolar (⟨3, 4⟩ : Cartesian ℝ)) p := ⟨_, .of_eq (toPolar_real _)⟩

/-- C101, exact reals: on a normalised polar number the readers give absolute value and argument of the number. -/
theorem C101_normalised (p : Polar ℝ) (hm : 0 < p.mag) (h1 : -Real.pi < p.ang) (h2 : p.ang ≤ Real.pi) :
    p.getMag = ‖p.toC‖ ∧ p.getAbs = ‖p.toC‖ ∧ p.getArg = Complex.arg p.toC ∧ p.getAng = Complex.arg p.toC := by
  have hn : ‖p.toC‖ = p.mag := by
    unfold Polar.toC
    rw [norm_mul, Complex.norm_exp_ofReal_mul_I, mul_one, Complex.norm_real, Real.norm_of_nonneg hm.le]
  have ha : Complex.arg p.toC = p.ang := by
    unfold Polar.toC
    rw [Complex.exp_mul_I]
    exact Complex.arg_mul_cos_add_sin_mul_I hm ⟨h1, h2⟩
  exact ⟨hn.symm, hn.symm, ha.symm, ha.symm⟩

example : (0 : ℝ) < (⟨2, 1⟩ : Polar ℝ).mag ∧ -Real.pi < (⟨2, 1⟩ : Polar ℝ).ang ∧ (⟨2, 1⟩ : Polar ℝ).ang ≤ Real.pi := by
  have := Real.two_le_pi
  refine ⟨by norm_num, ?_, ?_⟩ <;> simp only <;> linarith

/-- C101, exact reals: reading magnitude and angle of a Cartesian number gives its absolute value and argument. -/
theorem C101_cartesian (z : Cartesian ℝ) : Returns z.mag ‖z.toC‖ ∧ Returns z.abs ‖z.toC‖ ∧
    Returns z.arg (Complex.arg z.toC) ∧ Returns z.ang (Complex.arg z.toC) :=
  C101_readers z _ (.of_eq (toPolar_real z))

/-! ## C102 -/

/-- C102, exactly when the claim holds: the magnitude readers and `mixed_abs` of a polar number give the absolute value
of the number it denotes if and only if the stored magnitude is not negative. -/
theorem C102_exact (p : Polar ℝ) : (p.getMag = ‖p.toC‖ ↔ 0 ≤ p.mag) ∧ (p.getAbs = ‖p.toC‖ ↔ 0 ≤ p.mag) ∧
    (p.mixedAbs.toC = ‖p.toC‖ ↔ 0 ≤ p.mag) := by
  have hn : ‖p.toC‖ = |p.mag| := by
    unfold Polar.toC
    rw [norm_mul, Complex.norm_exp_ofReal_mul_I, mul_one, Complex.norm_real, Real.norm_eq_abs]
  have hz : p.mixedAbs.toC = (p.mag : ℂ) := by
    show ((p.mag : ℝ) : ℂ) * Complex.exp (((0 : ℝ) : ℂ) * Complex.I) = _
    simp
  have key : p.mag = |p.mag| ↔ 0 ≤ p.mag := by rw [eq_comm]; exact abs_eq_self
  refine ⟨by rw [hn]; exact key, by rw [hn]; exact key, ?_⟩
  rw [hz, hn, Complex.ofReal_inj]; exact key

/-- C102 is false of the code: a negative real turned into a polar number has a negative magnitude, and so has a polar
number multiplied by a negative real. -/
theorem C102_counterexample : ¬ (∀ x : ℝ, (Polar.mixedToComplex x).getMag = ‖(Polar.mixedToComplex x).toC‖) ∧
    ¬ (∀ (p q : Polar ℝ) (t : ℝ), 0 ≤ p.mag → Returns (p.mulScalar t) q → q.getAbs = ‖q.toC‖) := by
  constructor
  · intro h
    have := ((C102_exact (Polar.mixedToComplex (-1 : ℝ))).1.mp (h (-1)))
    have h2 : (Polar.mixedToComplex (-1 : ℝ)).mag = -1 := rfl
    rw [h2] at this; norm_num at this
  · intro h
    have hr : Returns ((⟨1, 0⟩ : Polar ℝ).mulScalar (-1)) ⟨-1, 0⟩ := .of_eq (by simp [Polar.mulScalar])
    have := (C102_exact ⟨-1, 0⟩).2.1.mp (h ⟨1, 0⟩ _ _ (by norm_num) hr)
    simp only at this; norm_num at this

/-- C102: full property `∀ p, p.getMag = ‖p.toC‖`; it holds for the polar numbers the library builds from Cartesian
ones, and is kept by products and by scaling by a non-negative real. Missing: numbers built from a negative
real, multiplied by one, or built directly with a negative magnitude. -/
theorem C102_partial (z : Cartesian ℝ) (p q : Polar ℝ) (hp : 0 ≤ p.mag) (hq : 0 ≤ q.mag) (t : ℝ) (ht : 0 ≤ t) :
    (∀ r, Returns z.toPolar r → r.getMag = ‖z.toC‖) ∧ (∀ r, Returns (p.mul q) r → r.getMag = ‖p.toC‖ * ‖q.toC‖) ∧
      (∀ r, Returns (p.mulScalar t) r → r.getMag = ‖p.toC‖ * t ∧ r.getMag = ‖r.toC‖) := by
  have hp' := (C102_exact p).1.mpr hp
  have hq' := (C102_exact q).1.mpr hq
  refine ⟨fun r hr => ?_, fun r hr => ?_, fun r hr => ?_⟩
  · rw [hr.unique (.of_eq (toPolar_real z))]; rfl
  · obtain ⟨c, hc, e⟩ := C20_polar_polar p q
    have : 0 ≤ c.mag := by
      by_cases h : p.mag = 0 ∨ q.mag = 0
      · have hz : Returns (p.mul q) ⟨0, 0⟩ := by
          refine .of_eq ?_
          rcases h with h | h <;> simp [Polar.mul, ops.mulPolar, h]
        rw [hc.unique hz]
      · have hz : Returns (p.mul q) ⟨p.mag * q.mag, p.ang + q.ang⟩ := by
          refine .of_eq ?_
          rw [not_or] at h
          simp [Polar.mul, ops.mulPolar, h]
        rw [hc.unique hz]; positivity
    rw [hr.unique hc, (C102_exact c).1.mpr this, e, norm_mul]
  · have hz : Returns (p.mulScalar t) ⟨p.mag * t, p.ang⟩ := .of_eq (by simp [Polar.mulScalar])
    rw [hr.unique hz]
    refine ⟨?_, (C102_exact _).1.mpr (mul_nonneg hp ht)⟩
    show p.mag * t = _
    rw [← hp']; rfl

example : (0 : ℝ) ≤ (⟨2, 1⟩ : Polar ℝ).mag ∧ (0 : ℝ) ≤ 3 := by norm_num

/-- C102, the same failure on machine integers: `Polar::mixed_to_complex(-1).mag()` is -1. -/
theorem C102_int (x : PInt m true W) : ((Polar.mixedToComplex x).getMag.val < 0 ↔ x.val < 0) ∧
    ((Polar.mixedToComplex x).mixedAbs.mag.val < 0 ↔ x.val < 0) := ⟨Iff.rfl, Iff.rfl⟩

example : ((i .checked true 8 (-1)).val : ℤ) < 0 := by decide +kernel

end MixedNum
