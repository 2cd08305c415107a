import Verif.Props.AddSub
import Verif.Lemmas.WrapInst
import Verif.Lemmas.Run
import Mathlib.Analysis.Real.Pi.Bounds
/-! # C30–C33: phase wrapping -/

namespace MixedNum
variable {m : Mode} {W F : ℕ}

/-! ## C30 -/

/-- C30: on signed fixed point with at least four integer bits, phase wrapping returns, for every input and in both
overflow modes, a value in [-p, p) that differs from the input by a whole number of turns 2p, where p is the type's π. -/
theorem C30_wrap_fixed (h : F + 4 ≤ W) (x : Fixed m true W F) :
    ∃ p r : Fixed m true W F, Returns MixedPi.pi p ∧ 0 < p.val ∧ Returns (wrapPhase x) r ∧
      -p.val ≤ r.val ∧ r.val < p.val ∧ ∃ k : ℤ, r.val = x.val + k * (2 * p.val) := by
  let E := Fixed.wrapExact (m := m) (show F + 3 ≤ W by omega) (fun _ => h)
  obtain ⟨r, hr, h1, h2, k, hk⟩ := E.spec x
  refine ⟨E.p, r, .of_eq E.pi_eq, ?_, hr, ?_, ?_, k, ?_⟩
  · have := E.pos; simpa [E, Fixed.wrapExact] using this
  · have : (-(E.p.val : ℤ) : ℝ) ≤ r.val := h1
    exact_mod_cast this
  · have : ((r.val : ℤ) : ℝ) < E.p.val := h2
    exact_mod_cast this
  · have : ((r.val : ℤ) : ℝ) = x.val + k * (2 * E.p.val) := hk
    exact_mod_cast this

/-- C30: the wrapped value is the only one in range on the same angle. -/
theorem C30_unique (h : F + 4 ≤ W) (x r y p : Fixed m true W F) (hp : Returns MixedPi.pi p)
    (hr : Returns (wrapPhase x) r) (k : ℤ) (h1 : -p.val ≤ y.val) (h2 : y.val < p.val)
    (h3 : y.val = x.val + k * (2 * p.val)) : r = y := by
  let E := Fixed.wrapExact (m := m) (show F + 3 ≤ W by omega) (fun _ => h)
  have e : E.p = p := (Returns.of_eq E.pi_eq).unique hp
  rw [← e] at h1 h2 h3
  refine E.unique hr k ?_ ?_ ?_
  · show (-(E.p.val : ℤ) : ℝ) ≤ y.val; exact_mod_cast h1
  · show ((y.val : ℤ) : ℝ) < E.p.val; exact_mod_cast h2
  · show ((y.val : ℤ) : ℝ) = x.val + k * (2 * E.p.val); exact_mod_cast h3

/-- A case of C30: 7.9375 as an 8-bit number with four fraction bits; π is 50/16, the result 7.9375 - 6.25. -/
example : ∃ N, wrapPhase (fx .checked true 8 4 127) N = .ok (fx .checked true 8 4 27) := ⟨5, by decide +kernel⟩
example : (4:ℕ) + 4 ≤ 8 := by decide

/-! ## C31 -/

/-- C31: an angle already in range is returned unchanged. -/
theorem C31_identity_fixed (h : F + 4 ≤ W) (x p : Fixed m true W F) (hp : Returns MixedPi.pi p)
    (h1 : -p.val ≤ x.val) (h2 : x.val < p.val) : Returns (wrapPhase x) x := by
  obtain ⟨_, r, _, _, hr, _⟩ := C30_wrap_fixed h x
  obtain rfl := C30_unique h x r x p hp hr 0 h1 h2 (by ring)
  exact hr

example := C31_identity_fixed (by decide) (fx .checked true 16 8 (-804)) (fx .checked true 16 8 804) (.of_eq (by kernel_rfl)) (by decide) (by decide)

/-- C31: wrapping twice is wrapping once. -/
theorem C31_idempotent_fixed (h : F + 4 ≤ W) (x : Fixed m true W F) :
    ∃ r, Returns (wrapPhase x) r ∧ Returns (wrapPhase x >>= wrapPhase) r := by
  obtain ⟨p, r, hp, _, hr, h1, h2, _⟩ := C30_wrap_fixed h x
  exact ⟨r, hr, hr.bind (C31_identity_fixed h r p hp h1 h2)⟩

/-- C31, exact reals. -/
theorem C31_identity_real (x : ℝ) (h1 : -Real.pi ≤ x) (h2 : x < Real.pi) : Returns (wrapPhase x) x := by
  obtain ⟨r, hr, _⟩ := wrapReal.spec x
  obtain rfl := wrapReal.unique hr (y := x) 0 h1 h2 (by simp)
  exact hr

/-- C31, exact reals. -/
theorem C31_idempotent_real (x : ℝ) :
    ∃ r, Returns (wrapPhase x) r ∧ Returns (wrapPhase x >>= wrapPhase) r := by
  obtain ⟨r, hr, h1, h2, _⟩ := wrapReal.spec x
  exact ⟨r, hr, hr.bind (C31_identity_real r h1 h2)⟩

example : Returns (wrapPhase (1:ℝ)) 1 :=
  C31_identity_real 1 (by linarith [Real.pi_pos]) (by linarith [Real.two_le_pi])

/-! ## C32

Full statement (false of the code): for every supported signed type (F + 3 ≤ W) and both modes
`∃ p r, Returns pi p ∧ Returns (wrapPhase x) r ∧ -p.val ≤ r.val ∧ r.val < p.val ∧ ∃ k, r.val = x.val + k * (2 * p.val)`. -/

/-- C32 fails for the types with three integer bits (FixedI8<U5>, FixedI16<U13>, FixedI32<U29>, FixedI64<U61>)
with overflow checks on: every call panics, because 2π does not fit. -/
theorem C32_counterexample (x : Fixed .checked true (F + 3) F) : Panics (wrapPhase x) .overflow := by
  refine .of_eq ?_
  have h : F + 3 ≤ F + 3 := le_refl _
  unfold wrapPhase
  rw [Fixed.pi_def h, pure_bind, Fixed.ofI32_def, Fixed.fit_of_fits (Fixed.fits_two h), pure_bind, Fixed.mul_def,
    Fixed.mkv_val, Fixed.mkv_val, Fixed.two_mul_pi, Fixed.fit_checked (Fixed.not_fits_tau rfl), Prog.fail_bind]

/-- C32 fails on an input that is already in range: zero. -/
example : Panics (wrapPhase (fx .checked true 32 29 0)) .overflow := C32_counterexample _

/-- C32, partial: on every supported signed type the call is right when overflow checks are off.
Missing: checks on with three integer bits, where it is false; checks on with more is C30. -/
theorem C32_partial (h : F + 3 ≤ W) (x : Fixed .wrapping true W F) :
    ∃ p r : Fixed .wrapping true W F, Returns MixedPi.pi p ∧ 0 < p.val ∧ Returns (wrapPhase x) r ∧
      -p.val ≤ r.val ∧ r.val < p.val ∧ ∃ k : ℤ, r.val = x.val + k * (2 * p.val) := by
  let E := Fixed.wrapExact (m := .wrapping) h (by simp)
  obtain ⟨r, hr, h1, h2, k, hk⟩ := E.spec x
  refine ⟨E.p, r, .of_eq E.pi_eq, ?_, hr, ?_, ?_, k, ?_⟩
  · have := E.pos; simpa [E, Fixed.wrapExact] using this
  · have : (-(E.p.val : ℤ) : ℝ) ≤ r.val := h1
    exact_mod_cast this
  · have : ((r.val : ℤ) : ℝ) < E.p.val := h2
    exact_mod_cast this
  · have : ((r.val : ℤ) : ℝ) = x.val + k * (2 * E.p.val) := hk
    exact_mod_cast this

/-- A case of C32_partial: 3.96875 as an 8-bit number with five fraction bits. -/
example : ∃ N, wrapPhase (fx .wrapping true 8 5 127) N = .ok (fx .wrapping true 8 5 (-75)) := ⟨5, by decide +kernel⟩

/-! ## C33 -/

/-- C33: on exact reals wrapping returns the representative in [-π, π) modulo 2π. -/
theorem C33_wrap_real (x : ℝ) : ∃ r, Returns (wrapPhase x) r ∧ -Real.pi ≤ r ∧ r < Real.pi ∧
    ∃ k : ℤ, r = x + k * (2 * Real.pi) := wrapReal.spec x

/-- C33: that representative is unique. -/
theorem C33_unique (x r y : ℝ) (hr : Returns (wrapPhase x) r) (k : ℤ) (h1 : -Real.pi ≤ y) (h2 : y < Real.pi)
    (h3 : y = x + k * (2 * Real.pi)) : r = y := wrapReal.unique hr k h1 h2 h3

example (r : ℝ) (h : Returns (wrapPhase 4) r) := C33_unique 4 r (4 - 2 * Real.pi) h (-1) (by linarith [Real.pi_gt_three, Real.pi_lt_four])
  (by linarith [Real.pi_gt_three, Real.pi_lt_four]) (by push_cast; ring)

/-- C33: wrapping keeps sine and cosine. -/
theorem C33_same_point (x r : ℝ) (hr : Returns (wrapPhase x) r) : Real.sin r = Real.sin x ∧ Real.cos r = Real.cos x := by
  obtain ⟨r', hr', _, _, k, hk⟩ := C33_wrap_real x
  obtain rfl := hr.unique hr'
  rw [hk]; exact ⟨Real.sin_add_int_mul_two_pi x k, Real.cos_add_int_mul_two_pi x k⟩

end MixedNum
