import Verif.Lemmas.Run
import Verif.Props.MagFloat
import Verif.Props.FixedComplex
import Verif.Props.Polar
import Verif.Props.AddSub
import Verif.Lemmas.Case
/-! # C127: the magnitude is a norm -/

namespace MixedNum
variable {m : Mode} {s : Bool} {W F : ℕ} {f : Format}
open Flt

/-- C127, exact reals: multiplicative, triangle inequality, zero only at zero. -/
theorem C127_real (z w : Cartesian ℝ) :
    ∃ (a b c d : ℝ) (p t : Cartesian ℝ), Returns z.mag a ∧ Returns w.mag b ∧ Returns (z.mul w) p ∧ Returns p.mag c ∧
      Returns (z.add w) t ∧ Returns t.mag d ∧ c = a * b ∧ d ≤ a + b ∧ 0 ≤ a ∧ (a = 0 ↔ z.re = 0 ∧ z.im = 0) := by
  refine ⟨_, _, _, _, ⟨z.re * w.re - z.im * w.im, z.re * w.im + z.im * w.re⟩, ⟨z.re + w.re, z.im + w.im⟩, C19_real z, C19_real w,
    .of_eq (by simp [Cartesian.mul, ops.mulCartesian]), C19_real _, .of_eq (by simp [Cartesian.add]), C19_real _, ?_, ?_,
    norm_nonneg _, ?_⟩
  · rw [← norm_mul]; congr 1
  · have : Cartesian.toC ⟨z.re + w.re, z.im + w.im⟩ = z.toC + w.toC := by apply Complex.ext <;> simp [Cartesian.toC]
    rw [this]; exact norm_add_le _ _
  · rw [norm_eq_zero, Complex.ext_iff]; simp [Cartesian.toC]

/-- C127, fixed point: the magnitude depends on the absolute values of the parts only, and not on their order - with the same panics
and the same endless loops. -/
theorem C127_sym_fixed (z w : Cartesian (Fixed m s W F)) :
    (|z.re.val| = |w.re.val| → |z.im.val| = |w.im.val| → z.mag = w.mag) ∧
    Cartesian.mag ⟨z.im, z.re⟩ = z.mag := by
  have sq : ∀ {a b : ℤ}, |a| = |b| → a * a = b * b := fun {a b} h => by rw [← abs_mul_abs_self a, h, abs_mul_abs_self]
  constructor
  · intro h1 h2
    unfold Cartesian.mag
    rw [Fixed.sq_eq, Fixed.sq_eq, Fixed.sq_eq, Fixed.sq_eq, sq h1, sq h2]
  · unfold Cartesian.mag
    rw [Fixed.sq_eq, Fixed.sq_eq]
    cases m with
    | wrapping =>
      simp only [Fixed.fit_wrapping, pure_bind, Fixed.add_def, Fixed.mkv_val,
        _root_.add_comm (wrapInt s W (z.im.val * z.im.val / 2 ^ F))]
    | checked =>
      by_cases h1 : Fits s W (z.re.val * z.re.val / 2 ^ F) <;> by_cases h2 : Fits s W (z.im.val * z.im.val / 2 ^ F)
      · simp only [Fixed.fit_of_fits h1, Fixed.fit_of_fits h2, pure_bind, Fixed.add_def, Fixed.mkv_val,
          _root_.add_comm (z.im.val * z.im.val / 2 ^ F)]
      · simp only [Fixed.fit_of_fits h1, Fixed.fit_checked h2, pure_bind, Prog.fail_bind]
      · simp only [Fixed.fit_checked h1, Fixed.fit_of_fits h2, pure_bind, Prog.fail_bind]
      · simp only [Fixed.fit_checked h1, Fixed.fit_checked h2, Prog.fail_bind]

/-- C127, floats: the same, for every value including infinities and NaN. -/
theorem C127_sym_float [MixedSqrt (Flt f)] (x y : Flt f) :
    Cartesian.mag ⟨x.neg, y⟩ = Cartesian.mag ⟨x, y⟩ ∧ Cartesian.mag ⟨x, y.neg⟩ = Cartesian.mag ⟨x, y⟩ ∧
    Cartesian.mag ⟨y, x⟩ = Cartesian.mag ⟨x, y⟩ := by
  have e : ∀ x y : Flt f, (Cartesian.mag ⟨x, y⟩ : Prog (Flt f)) = MixedSqrt.sqrt ((x.mul x).add (y.mul y)) := fun _ _ => rfl
  have n : ∀ x : Flt f, x.neg.mul x.neg = x.mul x := by
    intro x
    cases x with
    | nan => rfl
    | inf s => cases s <;> rfl
    | fin s q => cases s <;> simp [Flt.mul, Flt.neg, Flt.val]
  refine ⟨?_, ?_, ?_⟩
  · rw [e, e, n]
  · rw [e, e, n]
  · rw [e, e, Flt.add_comm]

/-! ## Fixed point, with the rounding -/

/-- The error of the fixed-point magnitude (C72) for a number of size `x`. -/
noncomputable def magErr (F : ℕ) (x : ℝ) : ℝ := (1 / 1000 + 12 / 2 ^ F) * x + 4 / 2 ^ F + Real.sqrt (2 / 2 ^ F)

/-- The number a fixed-point pair stands for. -/
noncomputable def Cartesian.c (z : Cartesian (Fixed m s W F)) : ℂ := ⟨z.re.r, z.im.r⟩

theorem norm_c (z : Cartesian (Fixed m s W F)) : ‖z.c‖ = Real.sqrt (z.re.r ^ 2 + z.im.r ^ 2) := by
  rw [Complex.norm_def, Complex.normSq_apply]; congr 1; simp only [Cartesian.c]; ring

/-- The sum of the rounded squares fits: the condition under which the magnitude returns (C72). -/
def SquaresFit (z : Cartesian (Fixed m s W F)) : Prop :=
  InRange s W (z.re.val * z.re.val / 2 ^ F + z.im.val * z.im.val / 2 ^ F)

theorem mag_near (hF : 2 ≤ F) (hW : 8 ≤ W) (hW' : W ≤ 128) (hK : F + 4 ≤ W) {z : Cartesian (Fixed m true W F)}
    (h : SquaresFit z) : ∃ v, Returns z.mag v ∧ |v.r - ‖z.c‖| ≤ magErr F ‖z.c‖ := by
  rw [norm_c]; exact C72_accuracy hF hW hW' hK z h

/-- C127, fixed point: the triangle inequality up to the error of the magnitudes. -/
theorem C127_triangle_fixed (hF : 2 ≤ F) (hW : 8 ≤ W) (hW' : W ≤ 128) (hK : F + 4 ≤ W)
    (z w t : Cartesian (Fixed .checked true W F)) (ht : Returns (z.add w) t) (h1 : SquaresFit z) (h2 : SquaresFit w)
    (h3 : SquaresFit t) :
    ∃ a b d, Returns z.mag a ∧ Returns w.mag b ∧ Returns t.mag d ∧
      d.r ≤ a.r + b.r + magErr F ‖z.c‖ + magErr F ‖w.c‖ + magErr F (‖z.c‖ + ‖w.c‖) := by
  obtain ⟨a, a1, a2⟩ := mag_near hF hW hW' hK h1
  obtain ⟨b, b1, b2⟩ := mag_near hF hW hW' hK h2
  obtain ⟨d, d1, d2⟩ := mag_near hF hW hW' hK h3
  refine ⟨a, b, d, a1, b1, d1, ?_⟩
  have e : t.c = z.c + w.c := by
    obtain ⟨N, hN⟩ := ht
    have hN := hN N le_rfl
    obtain ⟨x, hx, h'⟩ := Prog.bind_ok_inv hN
    obtain ⟨y, hy, h'⟩ := Prog.bind_ok_inv h'
    cases h'
    have key : ∀ n k r, (Fixed.fit k : Prog (Fixed .checked true W F)) n = .ok r → r.val = k := by
      intro n k r hr
      by_cases hf : Fits true W k
      · rw [Fixed.fit_of_fits hf] at hr; simp at hr; rw [← hr]; rfl
      · rw [Fixed.fit_checked hf] at hr; simp at hr
    have e1 := key _ _ _ hx; have e2 := key _ _ _ hy
    apply Complex.ext <;> simp [Cartesian.c, Fixed.r, e1, e2] <;> ring
  have h := norm_add_le z.c w.c
  rw [← e] at h
  have m1 : magErr F ‖t.c‖ ≤ magErr F (‖z.c‖ + ‖w.c‖) := by
    unfold magErr
    have : (1 / 1000 + 12 / 2 ^ F : ℝ) * ‖t.c‖ ≤ (1 / 1000 + 12 / 2 ^ F) * (‖z.c‖ + ‖w.c‖) :=
      mul_le_mul_of_nonneg_left h (by positivity)
    linarith
  have := (abs_le.mp a2).1; have := (abs_le.mp b2).1; have := (abs_le.mp d2).2
  linarith

example := C127_triangle_fixed (W := 32) (F := 16) (by norm_num) (by norm_num) (by norm_num) (by norm_num) ⟨fx .checked true 32 16 (3 * 2 ^ 16), fx .checked true 32 16 (4 * 2 ^ 16)⟩
  ⟨fx .checked true 32 16 (-2 ^ 16), fx .checked true 32 16 (2 ^ 15)⟩ ⟨fx .checked true 32 16 (2 * 2 ^ 16), fx .checked true 32 16 (9 * 2 ^ 15)⟩
  (by run 10) (by constructor <;> decide) (by constructor <;> decide) (by constructor <;> decide)

/-- C127, fixed point: multiplicative up to the errors of the product (C73) and of the magnitudes. -/
theorem C127_mul_fixed (hF : 2 ≤ F) (hW : 8 ≤ W) (hW' : W ≤ 128) (hK : F + 4 ≤ W)
    (z w p : Cartesian (Fixed .checked true W F)) (hp : Returns (z.mul w) p) (h1 : SquaresFit z) (h2 : SquaresFit w)
    (h3 : SquaresFit p) :
    ∃ a b d, Returns z.mag a ∧ Returns w.mag b ∧ Returns p.mag d ∧
      |d.r - a.r * b.r| ≤ magErr F (‖z.c‖ * ‖w.c‖ + 3 / 2 ^ F) + 3 / 2 ^ F + magErr F ‖z.c‖ * ‖w.c‖ + ‖z.c‖ * magErr F ‖w.c‖ +
        magErr F ‖z.c‖ * magErr F ‖w.c‖ := by
  obtain ⟨a, a1, a2⟩ := mag_near hF hW hW' hK h1
  obtain ⟨b, b1, b2⟩ := mag_near hF hW hW' hK h2
  obtain ⟨d, d1, d2⟩ := mag_near hF hW hW' hK h3
  refine ⟨a, b, d, a1, b1, d1, ?_⟩
  obtain ⟨k1, k2, k3⟩ := C73_accuracy z w p hp
  have q : (0:ℝ) < 1 / 2 ^ F := by positivity
  have e2 : (2:ℝ) / 2 ^ F = 2 * (1 / 2 ^ F) := by ring
  have e3 : (3:ℝ) / 2 ^ F = 3 * (1 / 2 ^ F) := by ring
  rw [e2] at k3
  have h : ‖p.c - z.c * w.c‖ ≤ 3 / 2 ^ F := by
    refine (Complex.norm_le_abs_re_add_abs_im _).trans ?_
    have r1 : (p.c - z.c * w.c).re = p.re.r - (z.re.r * w.re.r - z.im.r * w.im.r) := by simp [Cartesian.c]
    have r2 : (p.c - z.c * w.c).im = p.im.r - (z.re.r * w.im.r + z.im.r * w.re.r) := by simp [Cartesian.c]
    rw [r1, r2, e3]
    have : |p.im.r - (z.re.r * w.im.r + z.im.r * w.re.r)| ≤ 2 * (1 / 2 ^ F) := abs_le.mpr ⟨by linarith, by linarith⟩
    linarith
  have hn := abs_norm_sub_norm_le p.c (z.c * w.c)
  rw [norm_mul] at hn
  set A := ‖z.c‖ with hA; set B := ‖w.c‖ with hB; set P := ‖p.c‖
  have nA : 0 ≤ A := norm_nonneg _
  have nB : 0 ≤ B := norm_nonneg _
  have hP := abs_le.mp (hn.trans h)
  have m1 : magErr F P ≤ magErr F (A * B + 3 / 2 ^ F) := by
    unfold magErr
    have : (1 / 1000 + 12 / 2 ^ F : ℝ) * P ≤ (1 / 1000 + 12 / 2 ^ F) * (A * B + 3 / 2 ^ F) :=
      mul_le_mul_of_nonneg_left (by linarith) (by positivity)
    linarith
  have m2 : |a.r * b.r - A * B| ≤ magErr F A * B + A * magErr F B + magErr F A * magErr F B := by
    have e : a.r * b.r - A * B = (a.r - A) * B + A * (b.r - B) + (a.r - A) * (b.r - B) := by ring
    rw [e]
    refine (abs_add_le _ _).trans (add_le_add ((abs_add_le _ _).trans (add_le_add ?_ ?_)) ?_)
    · rw [abs_mul, abs_of_nonneg nB]; exact mul_le_mul_of_nonneg_right a2 nB
    · rw [abs_mul, abs_of_nonneg nA]; exact mul_le_mul_of_nonneg_left b2 nA
    · rw [abs_mul]; exact mul_le_mul a2 b2 (abs_nonneg _) ((abs_nonneg _).trans a2)
  have h5 := abs_sub_le d.r P (a.r * b.r)
  have h6 := abs_sub_le P (A * B) (a.r * b.r)
  rw [abs_sub_comm (A * B)] at h6
  have h7 := hn.trans h
  linarith

example := C127_mul_fixed (W := 16) (F := 8) (by decide) (by decide) (by decide) (by decide) ⟨fx .checked true 16 8 256, fx .checked true 16 8 512⟩
  ⟨fx .checked true 16 8 100, fx .checked true 16 8 200⟩ ⟨fx .checked true 16 8 (-300), fx .checked true 16 8 400⟩ (by run 0)
  (by unfold SquaresFit; decide) (by unfold SquaresFit; decide) (by unfold SquaresFit; decide)

/-! ## Floats, with the rounding -/

/-- The number a pair of finite floats stands for. -/
noncomputable def Cartesian.fc (z : Cartesian (Flt f)) : ℂ := ⟨(z.re.val : ℝ), (z.im.val : ℝ)⟩

theorem norm_fc (z : Cartesian (Flt f)) : ‖z.fc‖ = √((z.re.val : ℝ) ^ 2 + (z.im.val : ℝ) ^ 2) := by
  rw [Complex.norm_def, Complex.normSq_apply]; congr 1; simp only [Cartesian.fc]; ring

/-- Finite parts, whose squares neither overflow nor both leave the normal range: the conditions of C84. -/
structure MagOk (z : Cartesian (Flt f)) : Prop where
  re : z.re.IsFinite ∧ z.re.Valid
  im : z.im.IsFinite ∧ z.im.Valid
  lo : (2:ℚ) ^ (f.emin + f.p) ≤ max (z.re.val ^ 2) (z.im.val ^ 2)
  hi : 2 * (z.re.val ^ 2 + z.im.val ^ 2) ≤ 2 ^ f.emax

theorem mag_near_float [MixedSqrt (Flt f)] {ε : ℝ} (hf : f.Wide) (hs : SqrtWithin f ε) (hε : 0 ≤ ε) {z : Cartesian (Flt f)}
    (h : MagOk z) : ∃ v : Flt f, Returns z.mag v ∧ |(v.val : ℝ) - ‖z.fc‖| ≤ (21 / 10 / 2 ^ f.p + 101 / 100 * ε) * ‖z.fc‖ := by
  obtain ⟨v, a1, -, -, a4⟩ := C84_accuracy hf hs hε z h.re.1 h.im.1 h.re.2 h.im.2 h.lo h.hi
  exact ⟨v, a1, by rw [norm_fc]; exact a4⟩

theorem add_near (hf : f.Wide) {x y : Flt f} (h1 : x.IsFinite) (h2 : y.IsFinite) (h3 : (x.add y).IsFinite) :
    |((x.add y).val : ℝ) - ((x.val : ℝ) + y.val)| ≤ 1 / 2 ^ f.p * |(x.val : ℝ) + y.val| + 2 ^ f.emin / 2 := by
  obtain ⟨s, a, rfl⟩ := h1; obtain ⟨t, b, rfl⟩ := h2
  have e : (Flt.fin s a : Flt f).add (.fin t b) = ofExact (s && t) ((Flt.fin s a : Flt f).val + (Flt.fin t b : Flt f).val) := rfl
  rw [e] at h3 ⊢
  set q := (Flt.fin s a : Flt f).val + (Flt.fin t b : Flt f).val with hq
  rcases ofExact_cases hf.one_le (s && t) q with h | ⟨-, h⟩
  · rw [h.val]
    have h4 := abs_rnd_le (p := f.p) (emin := f.emin) q
    have h5 : |((rnd f.p f.emin q : ℚ) : ℝ) - q| ≤ |(q:ℝ)| * 2 ^ (-(f.p:ℤ)) + 2 ^ f.emin / 2 := by
      have := (Rat.cast_le (K := ℝ)).mpr h4
      push_cast at this; exact this
    rw [zpow_neg, zpow_natCast] at h5
    have h6 : (q:ℝ) = ((Flt.fin s a : Flt f).val : ℝ) + ((Flt.fin t b : Flt f).val : ℝ) := by rw [hq]; push_cast; rfl
    rw [← h6, one_div, _root_.mul_comm]; exact h5
  · rw [h] at h3; obtain ⟨_, _, h3⟩ := h3; cases h3

/-- C127, floats: the triangle inequality up to the relative errors of the magnitudes and of the sum. -/
theorem C127_triangle_float [MixedSqrt (Flt f)] {ε : ℝ} (hf : f.Wide) (hs : SqrtWithin f ε) (hε : 0 ≤ ε)
    (z w t : Cartesian (Flt f)) (ht : Returns (z.add w) t) (h1 : MagOk z) (h2 : MagOk w) (h3 : MagOk t) :
    let δ := 21 / 10 / 2 ^ f.p + 101 / 100 * ε
    ∃ a b d : Flt f, Returns z.mag a ∧ Returns w.mag b ∧ Returns t.mag d ∧
      (d.val : ℝ) ≤ a.val + b.val + δ * (‖z.fc‖ + ‖w.fc‖) + δ * ‖t.fc‖ + ‖t.fc - (z.fc + w.fc)‖ ∧
      ‖t.fc - (z.fc + w.fc)‖ ≤ 2 / 2 ^ f.p * ‖z.fc + w.fc‖ + 2 ^ f.emin := by
  intro δ
  obtain ⟨a, a1, a2⟩ := mag_near_float hf hs hε h1
  obtain ⟨b, b1, b2⟩ := mag_near_float hf hs hε h2
  obtain ⟨d, d1, d2⟩ := mag_near_float hf hs hε h3
  refine ⟨a, b, d, a1, b1, d1, ?_, ?_⟩
  · have e1 := norm_add_le z.fc w.fc
    have e2 := norm_sub_norm_le t.fc (z.fc + w.fc)
    have := (abs_le.mp a2).1; have := (abs_le.mp b2).1; have := (abs_le.mp d2).2
    simp only [δ]
    linarith
  · obtain ⟨x, y⟩ := z; obtain ⟨x', y'⟩ := w
    have e : t = ⟨x.add x', y.add y'⟩ := (returns_pure.mp ht).symm
    subst e
    have k1 := add_near hf h1.re.1 h2.re.1 h3.re.1
    have k2 := add_near hf h1.im.1 h2.im.1 h3.im.1
    refine (Complex.norm_le_abs_re_add_abs_im _).trans ?_
    have n1 := Complex.abs_re_le_norm (Cartesian.fc ⟨x, y⟩ + Cartesian.fc ⟨x', y'⟩)
    have n2 := Complex.abs_im_le_norm (Cartesian.fc ⟨x, y⟩ + Cartesian.fc ⟨x', y'⟩)
    simp only [Cartesian.fc, Complex.add_re, Complex.add_im, Complex.sub_re, Complex.sub_im] at n1 n2 k1 k2 ⊢
    have u : (0:ℝ) ≤ 1 / 2 ^ f.p := by positivity
    have m1 := mul_le_mul_of_nonneg_left n1 u
    have m2 := mul_le_mul_of_nonneg_left n2 u
    have e2 : (2:ℝ) / 2 ^ f.p = 1 / 2 ^ f.p + 1 / 2 ^ f.p := by ring
    rw [e2, add_mul]
    linarith

example [MixedSqrt (Flt F32)] (hs : SqrtWithin F32 (1 / 2 ^ 23)) (t : Cartesian (Flt F32)) (ht : Returns (Cartesian.add ⟨.fin false 3, .fin true 1⟩ ⟨.fin false 2, .fin false 2⟩) t) (h3 : MagOk t) :=
  C127_triangle_float Flt.wide_F32 hs (by norm_num) _ _ t ht
  ⟨⟨⟨_, _, rfl⟩, by is_float 3 0⟩, ⟨⟨_, _, rfl⟩, by is_float 1 0⟩, by norm_num [Flt.val, F32], by norm_num [Flt.val, F32]⟩
  ⟨⟨⟨_, _, rfl⟩, by is_float 2 0⟩, ⟨⟨_, _, rfl⟩, by is_float 2 0⟩, by norm_num [Flt.val, F32], by norm_num [Flt.val, F32]⟩ h3

/-- Finite factors for which no product, and no sum of two, overflows: the conditions of C83. -/
structure ProdOk (z w : Cartesian (Flt f)) : Prop where
  re : z.re.IsFinite ∧ z.re.Valid
  im : z.im.IsFinite ∧ z.im.Valid
  re' : w.re.IsFinite ∧ w.re.Valid
  im' : w.im.IsFinite ∧ w.im.Valid
  hr : 2 * (|z.re.val * w.re.val| + |z.im.val * w.im.val|) ≤ 2 ^ f.emax
  hi : 2 * (|z.re.val * w.im.val| + |z.im.val * w.re.val|) ≤ 2 ^ f.emax

/-- The error of a product, relative to the sizes of the factors. -/
theorem mul_near (hf : f.Wide) {z w p : Cartesian (Flt f)} (hp : Returns (z.mul w) p) (h : ProdOk z w) :
    ‖p.fc - z.fc * w.fc‖ ≤ 5 / 2 ^ f.p * (‖z.fc‖ * ‖w.fc‖) + 4 * 2 ^ f.emin := by
  obtain ⟨c, hc, -, -, k1, k2⟩ := C83_accuracy hf z w h.re.1 h.im.1 h.re'.1 h.im'.1 h.re.2 h.im.2 h.re'.2 h.im'.2 h.hr h.hi
  have := hc.unique hp
  subst this
  refine (Complex.norm_le_abs_re_add_abs_im _).trans ?_
  have c1 : |(c.re.val : ℝ) - (z.re.val * w.re.val - z.im.val * w.im.val)| ≤
      (2 / 2 ^ f.p + 1 / 2 ^ (2 * f.p)) * (|(z.re.val:ℝ) * w.re.val| + |(z.im.val:ℝ) * w.im.val|) + 2 * 2 ^ f.emin := by
    have := (Rat.cast_le (K := ℝ)).mpr k1
    push_cast at this; exact this
  have c2 : |(c.im.val : ℝ) - (z.re.val * w.im.val + z.im.val * w.re.val)| ≤
      (2 / 2 ^ f.p + 1 / 2 ^ (2 * f.p)) * (|(z.re.val:ℝ) * w.im.val| + |(z.im.val:ℝ) * w.re.val|) + 2 * 2 ^ f.emin := by
    have := (Rat.cast_le (K := ℝ)).mpr k2
    push_cast at this; exact this
  have q1 : ‖z.fc‖ ^ 2 = (z.re.val:ℝ) ^ 2 + (z.im.val:ℝ) ^ 2 := by rw [norm_fc, Real.sq_sqrt (by positivity)]
  have q2 : ‖w.fc‖ ^ 2 = (w.re.val:ℝ) ^ 2 + (w.im.val:ℝ) ^ 2 := by rw [norm_fc, Real.sq_sqrt (by positivity)]
  have r1 : (c.fc - z.fc * w.fc).re = (c.re.val : ℝ) - (z.re.val * w.re.val - z.im.val * w.im.val) := by simp [Cartesian.fc]
  have r2 : (c.fc - z.fc * w.fc).im = (c.im.val : ℝ) - (z.re.val * w.im.val + z.im.val * w.re.val) := by simp [Cartesian.fc]
  rw [r1, r2]
  have nA : 0 ≤ ‖z.fc‖ := norm_nonneg _
  have nB : 0 ≤ ‖w.fc‖ := norm_nonneg _
  generalize ‖z.fc‖ = A at *
  generalize ‖w.fc‖ = B at *
  generalize (z.re.val : ℝ) = x at *; generalize (z.im.val : ℝ) = y at *
  generalize (w.re.val : ℝ) = x' at *; generalize (w.im.val : ℝ) = y' at *
  -- Cauchy-Schwarz, twice
  have cs : ∀ p q r t : ℝ, A ^ 2 = p ^ 2 + q ^ 2 → B ^ 2 = r ^ 2 + t ^ 2 → |p * r| + |q * t| ≤ A * B := by
    intro p q r t e1 e2
    rw [abs_mul, abs_mul]
    refine abs_le_of_sq_le_sq' ?_ (by positivity) |>.2
    have s1 := sq_abs p; have s2 := sq_abs q; have s3 := sq_abs r; have s4 := sq_abs t
    rw [mul_pow, e1, e2, ← s1, ← s2, ← s3, ← s4]
    nlinarith [sq_nonneg (|p| * |t| - |q| * |r|)]
  have g1 := cs x y x' y' q1 q2
  have g2 := cs x y y' x' q1 (by rw [q2]; ring)
  have u0 : (0:ℝ) < 1 / 2 ^ f.p := by positivity
  have u1 : (1:ℝ) / 2 ^ f.p ≤ 1 / 2 := one_div_le_one_div_of_le (by norm_num) (by
    calc (2:ℝ) = 2 ^ 1 := by norm_num
      _ ≤ 2 ^ f.p := pow_le_pow_right₀ (by norm_num) hf.one_le)
  have e5 : (2:ℝ) / 2 ^ f.p + 1 / 2 ^ (2 * f.p) = 2 * (1 / 2 ^ f.p) + (1 / 2 ^ f.p) ^ 2 := by
    rw [_root_.mul_comm 2 f.p, pow_mul, div_pow, one_pow]; ring
  have e6 : (5:ℝ) / 2 ^ f.p = 5 * (1 / 2 ^ f.p) := by ring
  rw [e5] at c1 c2; rw [e6]
  generalize (1:ℝ) / 2 ^ f.p = u at *
  have hk : 0 ≤ 2 * u + u ^ 2 := by positivity
  have j1 := mul_le_mul_of_nonneg_left g1 hk
  have j2 := mul_le_mul_of_nonneg_left g2 hk
  have j3 : (2 * u + u ^ 2) * (A * B) ≤ 5 / 2 * u * (A * B) := mul_le_mul_of_nonneg_right (by nlinarith) (by positivity)
  linarith

/-- C127, floats: multiplicative up to the relative errors of the magnitudes and the error of the product (C83). -/
theorem C127_mul_float [MixedSqrt (Flt f)] {ε : ℝ} (hf : f.Wide) (hs : SqrtWithin f ε) (hε : 0 ≤ ε)
    (z w p : Cartesian (Flt f)) (hp : Returns (z.mul w) p) (h1 : MagOk z) (h2 : MagOk w) (h3 : MagOk p)
    (hr : 2 * (|z.re.val * w.re.val| + |z.im.val * w.im.val|) ≤ 2 ^ f.emax)
    (hi : 2 * (|z.re.val * w.im.val| + |z.im.val * w.re.val|) ≤ 2 ^ f.emax) :
    let δ := 21 / 10 / 2 ^ f.p + 101 / 100 * ε
    ∃ a b d : Flt f, Returns z.mag a ∧ Returns w.mag b ∧ Returns p.mag d ∧
      |(d.val : ℝ) - a.val * b.val| ≤ (2 * δ + δ ^ 2) * (‖z.fc‖ * ‖w.fc‖) + δ * ‖p.fc‖ + ‖p.fc - z.fc * w.fc‖ ∧
      ‖p.fc - z.fc * w.fc‖ ≤ 5 / 2 ^ f.p * (‖z.fc‖ * ‖w.fc‖) + 4 * 2 ^ f.emin := by
  intro δ
  obtain ⟨a, a1, a2⟩ := mag_near_float hf hs hε h1
  obtain ⟨b, b1, b2⟩ := mag_near_float hf hs hε h2
  obtain ⟨d, d1, d2⟩ := mag_near_float hf hs hε h3
  refine ⟨a, b, d, a1, b1, d1, ?_, ?_⟩
  · have e1 := abs_norm_sub_norm_le p.fc (z.fc * w.fc)
    rw [norm_mul] at e1
    change |(a.val : ℝ) - ‖z.fc‖| ≤ δ * _ at a2
    change |(b.val : ℝ) - ‖w.fc‖| ≤ δ * _ at b2
    change |(d.val : ℝ) - ‖p.fc‖| ≤ δ * _ at d2
    set A := ‖z.fc‖; set B := ‖w.fc‖
    have nA : 0 ≤ A := norm_nonneg _
    have nB : 0 ≤ B := norm_nonneg _
    have m2 : |(a.val : ℝ) * b.val - A * B| ≤ δ * A * B + A * (δ * B) + δ * A * (δ * B) := by
      have e : (a.val : ℝ) * b.val - A * B = (a.val - A) * B + A * (b.val - B) + (a.val - A) * (b.val - B) := by ring
      rw [e]
      refine (abs_add_le _ _).trans (add_le_add ((abs_add_le _ _).trans (add_le_add ?_ ?_)) ?_)
      · rw [abs_mul, abs_of_nonneg nB]; exact mul_le_mul_of_nonneg_right a2 nB
      · rw [abs_mul, abs_of_nonneg nA]; exact mul_le_mul_of_nonneg_left b2 nA
      · rw [abs_mul]; exact mul_le_mul a2 b2 (abs_nonneg _) ((abs_nonneg _).trans a2)
    have h5 := abs_sub_le (d.val:ℝ) ‖p.fc‖ (a.val * b.val)
    have h6 := abs_sub_le ‖p.fc‖ (A * B) (a.val * b.val)
    rw [abs_sub_comm (A * B)] at h6
    have h7 : (2 * δ + δ ^ 2) * (A * B) = δ * A * B + A * (δ * B) + δ * A * (δ * B) := by ring
    rw [h7]
    linarith
  · exact mul_near hf hp ⟨h1.re, h1.im, h2.re, h2.im, hr, hi⟩

/-- The hypotheses hold of `3+4i` and `1+2i`, their sum and their product, on I16F16 and on `f32`. -/
example : (SquaresFit (⟨fx .checked true 32 16 0x30000, fx .checked true 32 16 0x40000⟩ : Cartesian (Fixed .checked true 32 16)) ∧
    SquaresFit (⟨fx .checked true 32 16 0x10000, fx .checked true 32 16 0x20000⟩ : Cartesian (Fixed .checked true 32 16)) ∧
    SquaresFit (⟨fx .checked true 32 16 0x40000, fx .checked true 32 16 0x60000⟩ : Cartesian (Fixed .checked true 32 16)) ∧
    SquaresFit (⟨fx .checked true 32 16 (-0x50000), fx .checked true 32 16 0xa0000⟩ : Cartesian (Fixed .checked true 32 16))) ∧
    MagOk (⟨.fin false 3, .fin false 4⟩ : Cartesian (Flt F32)) ∧ MagOk (⟨.fin false 1, .fin false 2⟩ : Cartesian (Flt F32)) ∧
    MagOk (⟨.fin false 4, .fin false 6⟩ : Cartesian (Flt F32)) ∧ MagOk (⟨.fin true 5, .fin false 10⟩ : Cartesian (Flt F32)) ∧
    (2:ℚ) * (|3 * 1| + |4 * 2|) ≤ 2 ^ F32.emax := by
  have v : ∀ (s : Bool) (n : ℕ), n < 2 ^ 24 → (Flt.fin s (n : ℚ) : Flt F32).IsFinite ∧ (Flt.fin s (n : ℚ) : Flt F32).Valid := by
    intro s n h
    refine ⟨⟨_, _, rfl⟩, n, 0, h, by norm_num [F32], by norm_num [pow2], ?_⟩
    calc (n:ℚ) < 2 ^ 24 := by exact_mod_cast h
      _ ≤ 2 ^ F32.emax := by norm_num [F32]
  refine ⟨?_, ⟨v _ 3 (by norm_num), v _ 4 (by norm_num), ?_, ?_⟩, ⟨?_, v _ 2 (by norm_num), ?_, ?_⟩,
    ⟨v _ 4 (by norm_num), v _ 6 (by norm_num), ?_, ?_⟩, ⟨v _ 5 (by norm_num), v _ 10 (by norm_num), ?_, ?_⟩, ?_⟩
  · refine ⟨?_, ?_, ?_, ?_⟩ <;> constructor <;> decide
  all_goals first | exact_mod_cast v false 1 (by norm_num) | norm_num [Flt.val, F32]

end MixedNum
