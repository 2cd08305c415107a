import Verif.Props.Polar
import Verif.Props.SinFixed
import Verif.Lemmas.RealParts
import Verif.Lemmas.Run
import Verif.Props.AddSub
/-! # C146: periods, shifts and mirror images of sine and cosine -/

namespace MixedNum
variable {m : Mode} {W F : ℕ}

theorem Fixed.pi_val (h : F + 3 ≤ W) {p : Fixed m true W F} (hp : Returns MixedPi.pi p) : p.val = piRaw F := by
  have e := hp.unique (.of_eq (pi_def h)); rw [e]; rfl

/-- The cosine shifts, wraps and takes the sine. -/
theorem Fixed.cos_run (h : F + 4 ≤ W) (x w t : Fixed m true W F) (ht : t.val = x.val + halfRaw F)
    (hw : Returns (wrapPhase t) w) : SameOutcome (cos x) (sin w) := by
  have e : cos x = wrapPhase t >>= sin := by
    have hfit : Fits true W (x.val + halfRaw F) := ht ▸ t.fits
    unfold cos
    have assoc : ∀ (g : Fixed m true W F → Prog (Fixed m true W F)),
        (do let p ← MixedPi.pi; let two ← Lit.ofI32 2; let ph ← NumOps.div p two; g ph) =
        (do let ph ← (do let p ← MixedPi.pi; let two ← Lit.ofI32 2; NumOps.div p two); g ph) := by
      intro g; simp only [bind_assoc]
    rw [assoc, half_eq (by omega), pure_bind, add_def, mkv_val, fit_of_fits hfit, pure_bind]
    congr 1
    congr 1
    exact Fixed.ext ht.symm
  rw [e]
  obtain ⟨N, hN⟩ := hw
  exact ⟨N, fun n hn => by simp only [bind, Prog.bind, hN n hn]⟩

/-- C146: the cosine of a fixed-point number does not change by whole turns, panics included. -/
theorem C146_cos_period (h : F + 4 ≤ W) (x y p : Fixed m true W F) (hp : Returns MixedPi.pi p) (k : ℤ)
    (hxy : y.val = x.val + k * (2 * p.val)) (hx : x.val + p.val / 2 < 2 ^ (W - 1)) (hy : y.val + p.val / 2 < 2 ^ (W - 1)) :
    SameOutcome (cos x) (cos y) := by
  have hv := Fixed.pi_val (by omega) hp
  have hb := Fixed.halfRaw_bounds F
  have eh : Fixed.halfRaw F = p.val / 2 := by rw [hv]; rfl
  have fit : ∀ z : Fixed m true W F, z.val + p.val / 2 < 2 ^ (W - 1) → Fits true W (z.val + Fixed.halfRaw F) := by
    intro z hz
    have := Fixed.fits_signed.mp z.fits
    rw [Fixed.fits_signed, eh]; omega
  obtain ⟨q, w, hq, -, hw, h1, h2, j, hj⟩ := C30_wrap_fixed h (Fixed.mkv (m := m) _ (fit x hx))
  obtain rfl := hp.unique hq
  obtain ⟨-, w', -, -, hw', -⟩ := C30_wrap_fixed h (Fixed.mkv (m := m) _ (fit y hy))
  rw [Fixed.mkv_val] at hj
  obtain rfl := C30_unique h _ w' w p hp hw' (j - k) h1 h2 (by rw [Fixed.mkv_val, hj, hxy]; ring)
  exact (Fixed.cos_run h x _ _ (Fixed.mkv_val _ _) hw).trans (Fixed.cos_run h y _ _ (Fixed.mkv_val _ _) hw').symm

example := C146_cos_period (by decide) (fx .checked true 16 8 300) (fx .checked true 16 8 (300 - 2 * 1608)) (fx .checked true 16 8 804) (.of_eq (by kernel_rfl)) (-2)
  (by decide) (by decide) (by decide)

/-- C146: the sine of a fixed-point number from -π to π is the cosine of the number less the type's π/2. -/
theorem C146_sin_of_cos (h : F + 4 ≤ W) (x y p : Fixed m true W F) (hp : Returns MixedPi.pi p)
    (hxy : y.val = x.val - p.val / 2) (h1 : -p.val ≤ x.val) (h2 : x.val < p.val) : SameOutcome (cos y) (sin x) := by
  have hv := Fixed.pi_val (by omega) hp
  have eh : Fixed.halfRaw F = p.val / 2 := by rw [hv]; rfl
  exact Fixed.cos_run h y x x (by rw [hxy, eh]; ring) (C31_identity_fixed h x p hp h1 h2)

example := C146_sin_of_cos (by decide) (fx .checked true 16 8 300) (fx .checked true 16 8 (-102)) (fx .checked true 16 8 804) (.of_eq (by kernel_rfl))
  (by decide) (by decide) (by decide)

/-- C146: the sine of a fixed-point number is that of its mirror image about the type's π/2 or -π/2. -/
theorem C146_sin_mirror (h : F + 6 ≤ W) (x y p : Fixed m true W F) (hp : Returns MixedPi.pi p)
    (hxy : (y.val = 2 * (p.val / 2) - x.val ∧ 0 ≤ x.val ∧ 0 ≤ y.val) ∨
      (y.val = -(2 * (p.val / 2)) - x.val ∧ x.val ≤ 0 ∧ y.val ≤ 0)) : sin x = sin y := by
  have hv := Fixed.pi_val (by omega) hp
  have hb := Fixed.halfRaw_bounds F
  have eh : Fixed.halfRaw F = p.val / 2 := by rw [hv]; rfl
  rw [← eh] at hxy
  have bx : |x.val| ≤ Fixed.piRaw F + 1 := abs_le.mpr (by omega)
  have bY : |y.val| ≤ Fixed.piRaw F + 1 := abs_le.mpr (by omega)
  obtain ⟨a, ha, ca⟩ := Fixed.sinFold_eq h x bx
  obtain ⟨b, hb', cb⟩ := Fixed.sinFold_eq h y bY
  have e : a = b := by
    apply Fixed.ext
    simp only [abs_le] at ca cb
    omega
  unfold sin
  rw [ha, hb', e]

example := C146_sin_mirror (by decide) (fx .checked true 16 8 300) (fx .checked true 16 8 504) (fx .checked true 16 8 804) (.of_eq (by kernel_rfl))
  (.inl (by decide))

/-! ### Exact reals -/

theorem cos_real_run (x w : ℝ) (hw : Returns (wrapPhase (x + Real.pi / 2)) w) : SameOutcome (cos x) (sin w) := by
  have e : cos x = wrapPhase (x + Real.pi / 2) >>= sin := by
    unfold cos
    simp only [RealI.pi_def, pure_bind, RealI.ofI32_def]
    rw [RealI.div_ne _ (by norm_num)]
    simp only [pure_bind, RealI.add_def]
    push_cast
    rfl
  rw [e]
  obtain ⟨N, hN⟩ := hw
  exact ⟨N, fun n hn => by simp only [bind, Prog.bind, hN n hn]⟩

/-- C146, exact reals: the period of the cosine. -/
theorem C146_cos_period_real (x : ℝ) (k : ℤ) : SameOutcome (cos x) (cos (x + k * (2 * Real.pi))) := by
  obtain ⟨r, hr, hr', _⟩ := wrapReal.congr (x := x + Real.pi / 2) (y := x + k * (2 * Real.pi) + Real.pi / 2) k
    (by show x + k * (2 * Real.pi) + Real.pi / 2 = x + Real.pi / 2 + k * (2 * Real.pi); ring)
  exact (cos_real_run _ _ hr).trans (cos_real_run _ _ hr').symm

/-- C146, exact reals: the sine as a shifted cosine. -/
theorem C146_sin_of_cos_real (x : ℝ) (h1 : -Real.pi ≤ x) (h2 : x < Real.pi) :
    SameOutcome (cos (x - Real.pi / 2)) (sin x) :=
  cos_real_run _ _ (by rw [sub_add_cancel]; exact C31_identity_real x h1 h2)

/-- Two turns (2π is 100/16), a shift and a mirror image (π/2 is 25/16). -/
example : Returns (cos (fx .checked true 32 4 (-170))) (fx .checked true 32 4 (-5)) ∧
    Returns (cos (fx .checked true 32 4 30)) (fx .checked true 32 4 (-5)) ∧
    Returns (sin (fx .checked true 32 4 31)) (fx .checked true 32 4 15) ∧
    Returns (sin (fx .checked true 32 4 19)) (fx .checked true 32 4 15) ∧
    Returns (cos (fx .checked true 32 4 6)) (fx .checked true 32 4 15) :=
  ⟨by run 9, by run 9, by run 9, by run 9, by run 9⟩

end MixedNum
