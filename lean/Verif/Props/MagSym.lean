import Verif.Props.SymFixed
import Verif.Lemmas.FloatSqrt
import Verif.Props.Mul
import Verif.Props.AddSub
import Verif.Lemmas.Run
/-! # C134: the magnitude has the symmetries of the plane -/

namespace MixedNum
variable {m : Mode} {W F : ℕ} {f : Format}

/-- The sum of squares, of which the magnitude is the square root. -/
private theorem mag_fixed [inst : MixedSqrt (Fixed m true W F)] (z : Cartesian (Fixed m true W F)) :
    @Cartesian.mag _ _ _ inst z = (do
      let a ← (Fixed.fit (z.re.val * z.re.val / 2 ^ F) : Prog (Fixed m true W F))
      let b ← (Fixed.fit (z.im.val * z.im.val / 2 ^ F) : Prog (Fixed m true W F))
      let c ← (Fixed.fit (a.val + b.val) : Prog (Fixed m true W F))
      @MixedSqrt.sqrt _ inst c) := by
  unfold Cartesian.mag
  simp only [Fixed.powi_two, Fixed.add_def]

/-- C134, fixed point: neither the signs of the parts nor their order matter; the outcome is the same program, panics and
wrapped results included, whatever the square root is. -/
theorem C134_fixed [inst : MixedSqrt (Fixed m true W F)] (z w : Cartesian (Fixed m true W F))
    (h : (|w.re.val| = |z.re.val| ∧ |w.im.val| = |z.im.val|) ∨ (|w.re.val| = |z.im.val| ∧ |w.im.val| = |z.re.val|)) :
    @Cartesian.mag _ _ _ inst w = @Cartesian.mag _ _ _ inst z := by
  have sq : ∀ {a b : ℤ}, |a| = |b| → a * a = b * b := fun {a b} e => by
    rw [← abs_mul_abs_self a, e, abs_mul_abs_self]
  rw [mag_fixed, mag_fixed]
  rcases h with ⟨h1, h2⟩ | ⟨h1, h2⟩
  · rw [sq h1, sq h2]
  · rw [sq h1, sq h2]
    cases m with
    | wrapping => simp only [Fixed.fit_wrapping, pure_bind, add_comm]
    | checked =>
      by_cases f1 : Fits true W (z.re.val * z.re.val / 2 ^ F) <;> by_cases f2 : Fits true W (z.im.val * z.im.val / 2 ^ F)
      · simp only [Fixed.fit_of_fits f1, Fixed.fit_of_fits f2, pure_bind, add_comm]
      · simp only [Fixed.fit_of_fits f1, Fixed.fit_checked f2, pure_bind, Prog.fail_bind]
      · simp only [Fixed.fit_checked f1, Fixed.fit_of_fits f2, pure_bind, Prog.fail_bind]
      · simp only [Fixed.fit_checked f1, Fixed.fit_checked f2, Prog.fail_bind]

example := C134_fixed (m := .checked) (W := 16) (F := 4) ⟨fx .checked true 16 4 20, fx .checked true 16 4 30⟩ ⟨fx .checked true 16 4 (-30), fx .checked true 16 4 20⟩
  (by decide)

/-- C134, fixed point: a number and its conjugate have the same magnitude, whenever the conjugate exists. -/
theorem C134_conj_fixed (hW : 0 < W) (z w : Cartesian (Fixed m true W F)) (hw : Returns z.conj w) : w.mag = z.mag := by
  obtain ⟨N, hN⟩ := hw
  have hN := hN N le_rfl
  obtain ⟨b, hb, hN⟩ := Prog.bind_ok_inv (show (MixedNumSigned.neg z.im >>= fun b => pure (⟨z.re, b⟩ : Cartesian _)) N = .ok w from hN)
  obtain rfl : _ = w := by simpa using hN
  refine C134_fixed z _ (.inl ⟨rfl, ?_⟩)
  show |b.val| = |z.im.val|
  rw [Fixed.neg_def] at hb
  by_cases hf : Fits true W (-z.im.val)
  · rw [Fixed.fit_of_fits hf] at hb
    obtain rfl : _ = b := by simpa using hb
    rw [Fixed.mkv_val, abs_neg]
  · cases m with
    | checked => rw [Fixed.fit_checked hf] at hb; simp at hb
    | wrapping =>
      rw [Fixed.fit_wrapping] at hb
      obtain rfl : _ = b := by simpa using hb
      rw [Fixed.mkv_val]
      -- the smallest value is its own negative
      have h1 := z.im.fits
      have hmin : z.im.val = -(2 ^ (W - 1)) := by
        simp only [Fits, wlo, whi, if_true] at h1 hf; omega
      have e : wrapInt true W (-z.im.val) = z.im.val := by
        refine eq_of_modEq_of_fits hW (fits_wrapInt _ _ _) z.im.fits ((wrapInt_modEq hW _).trans ?_)
        rw [hmin, Int.modEq_iff_dvd]
        refine ⟨-1, ?_⟩
        obtain ⟨k, rfl⟩ : ∃ k, W = k + 1 := ⟨W - 1, by omega⟩
        simp only [Nat.add_sub_cancel, pow_succ]; ring
      rw [e]

example := C134_conj_fixed (by decide) ⟨fx .checked true 16 4 20, fx .checked true 16 4 30⟩ ⟨fx .checked true 16 4 20, fx .checked true 16 4 (-30)⟩ (by run 0)

/-- C134, fixed point: a quarter turn keeps the magnitude: i·z, when it can be computed, has the magnitude of z. -/
theorem C134_times_i (z w j : Cartesian (Fixed m true W F)) (hj : j.re.val = 0 ∧ j.im.val = 2 ^ F)
    (hm : |z.im.val| < 2 ^ (W - 1)) (hw : Returns (j.mul z) w) : w.mag = z.mag := by
  have hP : (2:ℤ) ^ F ≠ 0 := by positivity
  have e : j.mul z = pure ⟨Fixed.mkv (-z.im.val) (by
      have := abs_lt.mp hm; simp only [Fits, wlo, whi, if_true]; omega), z.re⟩ := by
    have f0 : Fits true W (0 * z.re.val / 2 ^ F) := by simpa using fits_zero _ _
    have f0' : Fits true W (0 * z.im.val / 2 ^ F) := by simpa using fits_zero _ _
    have f1 : Fits true W (2 ^ F * z.im.val / 2 ^ F) := by rw [Int.mul_ediv_cancel_left _ hP]; exact z.im.fits
    have f2 : Fits true W (2 ^ F * z.re.val / 2 ^ F) := by rw [Int.mul_ediv_cancel_left _ hP]; exact z.re.fits
    have e1 : 0 * z.re.val / 2 ^ F - 2 ^ F * z.im.val / 2 ^ F = -z.im.val := by
      rw [Int.mul_ediv_cancel_left _ hP]; simp
    have e2 : 0 * z.im.val / 2 ^ F + 2 ^ F * z.re.val / 2 ^ F = z.re.val := by
      rw [Int.mul_ediv_cancel_left _ hP]; simp
    have g1 : Fits true W (0 * z.re.val / 2 ^ F - 2 ^ F * z.im.val / 2 ^ F) := by
      rw [e1]; have := abs_lt.mp hm; simp only [Fits, wlo, whi, if_true]; omega
    have g2 : Fits true W (0 * z.im.val / 2 ^ F + 2 ^ F * z.re.val / 2 ^ F) := by rw [e2]; exact z.re.fits
    show ops.mulCartesian j z = _
    unfold ops.mulCartesian
    simp only [Fixed.mul_def, Fixed.sub_def, Fixed.add_def, hj.1, hj.2]
    simp only [Fixed.fit_of_fits f0, Fixed.fit_of_fits f0', Fixed.fit_of_fits f1, Fixed.fit_of_fits f2, pure_bind, Fixed.mkv_val,
      Fixed.fit_of_fits g1, Fixed.fit_of_fits g2]
    congr 2
    · exact Fixed.ext e1
    · exact Fixed.ext e2
  rw [e, returns_pure] at hw
  subst hw
  exact C134_fixed z _ (.inr ⟨by rw [Fixed.mkv_val, abs_neg], rfl⟩)

example := C134_times_i ⟨fx .checked true 16 4 30, fx .checked true 16 4 50⟩ ⟨fx .checked true 16 4 (-50), fx .checked true 16 4 30⟩
  ⟨fx .checked true 16 4 0, fx .checked true 16 4 16⟩ (by decide) (by decide) (by run 0)

/-- C134, floats: neither the signs of the parts nor their order matter, infinities and NaN included, whatever the square
root is. -/
theorem C134_float [MixedSqrt (Flt f)] (a b : Flt f) :
    (⟨a.neg, b⟩ : Cartesian (Flt f)).mag = (⟨a, b⟩ : Cartesian (Flt f)).mag ∧
    (⟨a, b.neg⟩ : Cartesian (Flt f)).mag = (⟨a, b⟩ : Cartesian (Flt f)).mag ∧
    (⟨b, a⟩ : Cartesian (Flt f)).mag = (⟨a, b⟩ : Cartesian (Flt f)).mag := by
  have sq : ∀ x : Flt f, x.neg.mul x.neg = x.mul x := by
    intro x
    cases x with
    | nan => rfl
    | inf s => cases s <;> rfl
    | fin s q => cases s <;> simp [Flt.neg, Flt.mul, Flt.val]
  have run : ∀ x y : Flt f, (⟨x, y⟩ : Cartesian (Flt f)).mag = MixedSqrt.sqrt ((x.mul x).add (y.mul y)) := fun _ _ => rfl
  refine ⟨by rw [run, run, sq], by rw [run, run, sq], by rw [run, run, Flt.add_comm]⟩

/-- C134, floats: the conjugate. -/
theorem C134_conj_float [MixedSqrt (Flt f)] (z : Cartesian (Flt f)) : (do Cartesian.mag (← z.conj)) = z.mag :=
  (C134_float z.re z.im).2.1

example : Returns (Cartesian.conj ⟨fx .checked true 16 8 100, fx .checked true 16 8 77⟩)
    ⟨fx .checked true 16 8 100, fx .checked true 16 8 (-77)⟩ := .of_eq rfl

example : Returns (Cartesian.mul ⟨fx .checked true 16 8 0, fx .checked true 16 8 256⟩ ⟨fx .checked true 16 8 100, fx .checked true 16 8 77⟩)
    ⟨fx .checked true 16 8 (-77), fx .checked true 16 8 100⟩ := .of_eq rfl

end MixedNum
