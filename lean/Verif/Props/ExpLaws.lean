import Verif.Props.ExpFloat
import Verif.Props.PolarHom
import Verif.Props.CPowLaws
import Verif.Props.ExactFloat
import Mathlib.Analysis.SpecialFunctions.Exponential
import Verif.Props.AddSub
import Verif.Lemmas.Run
import Verif.Lemmas.Case
/-! # C158: laws of the complex exponential on machine numbers -/

namespace MixedNum
variable {m : Mode} {W F : ℕ} {f : Format}

/-- How the errors of two complex factors carry over to the two parts of their product. -/
theorem cprod_err {a b c d x y z w A B P Q : ℝ} (hx : |x| ≤ A) (hy : |y| ≤ A) (hz : |z| ≤ B) (hw : |w| ≤ B)
    (ha : |a - x| ≤ P) (hb : |b - y| ≤ P) (hc : |c - z| ≤ Q) (hd : |d - w| ≤ Q) :
    |a * c - b * d - (x * z - y * w)| ≤ 2 * (A * Q + P * B + P * Q) ∧
      |a * d + b * c - (x * w + y * z)| ≤ 2 * (A * Q + P * B + P * Q) := by
  have key : ∀ {a c x z : ℝ}, |x| ≤ A → |z| ≤ B → |a - x| ≤ P → |c - z| ≤ Q →
      |a * c - x * z| ≤ A * Q + P * B + P * Q := by
    intro a c x z hx hz ha hc
    have e : a * c - x * z = x * (c - z) + (a - x) * z + (a - x) * (c - z) := by ring
    rw [e]
    have t1 := abs_add_le (x * (c - z) + (a - x) * z) ((a - x) * (c - z))
    have t2 := abs_add_le (x * (c - z)) ((a - x) * z)
    rw [abs_mul] at t1 t2; rw [abs_mul (a - x) z] at t2
    have p1 := mul_le_mul hx hc (abs_nonneg _) ((abs_nonneg _).trans hx)
    have p2 := mul_le_mul ha hz (abs_nonneg _) ((abs_nonneg _).trans ha)
    have p3 := mul_le_mul ha hc (abs_nonneg _) ((abs_nonneg _).trans ha)
    linarith
  have k1 := key hx hz ha hc
  have k2 := key hy hw hb hd
  have k3 := key hx hw ha hd
  have k4 := key hy hz hb hc
  constructor
  · rw [show a * c - b * d - (x * z - y * w) = a * c - x * z - (b * d - y * w) by ring]
    exact (abs_sub _ _).trans (by linarith)
  · rw [show a * d + b * c - (x * w + y * z) = a * d - x * w + (b * c - y * z) by ring]
    exact (abs_add_le _ _).trans (by linarith)

/-- Neither part of `e^(a+bi)` exceeds `e^a`. -/
theorem exp_parts_le (a b : ℝ) : |(Complex.exp ⟨a, b⟩).re| ≤ Real.exp a ∧ |(Complex.exp ⟨a, b⟩).im| ≤ Real.exp a := by
  have : ‖Complex.exp ⟨a, b⟩‖ = Real.exp a := Complex.norm_exp _
  exact ⟨this ▸ Complex.abs_re_le_norm _, this ▸ Complex.abs_im_le_norm _⟩

theorem exp_mk_add (a b c d : ℝ) :
    (Complex.exp ⟨a + c, b + d⟩).re = (Complex.exp ⟨a, b⟩).re * (Complex.exp ⟨c, d⟩).re
        - (Complex.exp ⟨a, b⟩).im * (Complex.exp ⟨c, d⟩).im ∧
      (Complex.exp ⟨a + c, b + d⟩).im = (Complex.exp ⟨a, b⟩).re * (Complex.exp ⟨c, d⟩).im
        + (Complex.exp ⟨a, b⟩).im * (Complex.exp ⟨c, d⟩).re := by
  have : Complex.exp ⟨a + c, b + d⟩ = Complex.exp ⟨a, b⟩ * Complex.exp ⟨c, d⟩ := by
    rw [← Complex.exp_add]; rfl
  rw [this]; exact ⟨Complex.mul_re _ _, Complex.mul_im _ _⟩

section Fixed
open Fixed

/-- A sum that returns with overflow checks on is exact. -/
theorem fixed_add_vals {z w t : Cartesian (Fixed .checked true W F)} (ht : Returns (z.add w) t) :
    t.re.val = z.re.val + w.re.val ∧ t.im.val = z.im.val + w.im.val := by
  obtain ⟨N, hN⟩ := ht
  have hN := hN N le_rfl
  obtain ⟨x, hx, h'⟩ := Prog.bind_ok_inv hN
  obtain ⟨y, hy, h'⟩ := Prog.bind_ok_inv h'
  cases h'
  have key : ∀ n k r, (Fixed.fit k : Prog (Fixed .checked true W F)) n = .ok r → r.val = k := by
    intro n k r hr
    by_cases hf : Fits true W k
    · rw [Fixed.fit_of_fits hf] at hr; simp at hr; rw [← hr]; rfl
    · rw [Fixed.fit_checked hf] at hr; simp at hr
  exact ⟨key _ _ _ hx, key _ _ _ hy⟩

/-- C158, fixed point: the product of two computed exponentials does not panic and is near the exponential of the sum. `A`, `B`
are the magnitudes of the two exponentials, `P`, `Q` their errors by C100. -/
theorem C158_product_fixed [Cordic m W F] {δ : ℝ} {K : ℕ} (hK : F + K + 1 ≤ W) (hK1 : 1 ≤ K) (hF : 1 ≤ F)
    (h : CordicWithin m W F δ) (z w : Cartesian (Fixed m true W F)) (hz : |z.im.r| ≤ 4) (hw : |w.im.r| ≤ 4) (A B P Q : ℝ)
    (hA : A = Real.exp z.re.r) (hB : B = Real.exp w.re.r) (hP : P = δ * (A + 1 + δ) + 1 / 2 ^ F)
    (hQ : Q = δ * (B + 1 + δ) + 1 / 2 ^ F) (hzo : (1 + δ) * (A + δ) + 1 / 2 ^ F < 2 ^ K)
    (hwo : (1 + δ) * (B + δ) + 1 / 2 ^ F < 2 ^ K) (hfit : 2 * (A + P) * (B + Q) + 2 / 2 ^ F < 2 ^ K) :
    ∃ a b p : Cartesian (Fixed m true W F), Returns z.exp a ∧ Returns w.exp b ∧ Returns (a.mul b) p ∧
      |p.re.r - (Complex.exp ⟨z.re.r + w.re.r, z.im.r + w.im.r⟩).re| ≤ 2 * (A * Q + P * B + P * Q) + 1 / 2 ^ F ∧
      |p.im.r - (Complex.exp ⟨z.re.r + w.re.r, z.im.r + w.im.r⟩).im| ≤ 2 * (A * Q + P * B + P * Q) + 2 / 2 ^ F := by
  subst hA hB
  obtain ⟨a, a1, a2, a3⟩ := C100_fixed hK hK1 hF h z hz hzo
  obtain ⟨b, b1, b2, b3⟩ := C100_fixed hK hK1 hF h w hw hwo
  change |a.re.r - (Complex.exp ⟨z.re.r, z.im.r⟩).re| ≤ δ * (Real.exp z.re.r + 1 + δ) + 1 / 2 ^ F at a2
  change |a.im.r - (Complex.exp ⟨z.re.r, z.im.r⟩).im| ≤ δ * (Real.exp z.re.r + 1 + δ) + 1 / 2 ^ F at a3
  change |b.re.r - (Complex.exp ⟨w.re.r, w.im.r⟩).re| ≤ δ * (Real.exp w.re.r + 1 + δ) + 1 / 2 ^ F at b2
  change |b.im.r - (Complex.exp ⟨w.re.r, w.im.r⟩).im| ≤ δ * (Real.exp w.re.r + 1 + δ) + 1 / 2 ^ F at b3
  rw [← hP] at a2 a3
  rw [← hQ] at b2 b3
  obtain ⟨u1, u2⟩ := exp_parts_le z.re.r z.im.r
  obtain ⟨u3, u4⟩ := exp_parts_le w.re.r w.im.r
  obtain ⟨e1, e2⟩ := exp_mk_add z.re.r z.im.r w.re.r w.im.r
  obtain ⟨k1, k2⟩ := cprod_err u1 u2 u3 u4 a2 a3 b2 b3
  have hP0 : 0 ≤ P := (abs_nonneg _).trans a2
  have hQ0 : 0 ≤ Q := (abs_nonneg _).trans b2
  have hB0 := Real.exp_pos w.re.r
  generalize Complex.exp ⟨z.re.r, z.im.r⟩ = X at *
  generalize Complex.exp ⟨w.re.r, w.im.r⟩ = Y at *
  have n1 := abs_sub_abs_le_abs_sub a.re.r X.re
  have n2 := abs_sub_abs_le_abs_sub a.im.r X.im
  have n3 := abs_sub_abs_le_abs_sub b.re.r Y.re
  have n4 := abs_sub_abs_le_abs_sub b.im.r Y.im
  obtain ⟨p, p1, p2, p3⟩ := cmul_close hK a b (B := Real.exp w.re.r + Q) (by linarith) (by linarith) (by
    have : (|a.re.r| + |a.im.r|) * (Real.exp w.re.r + Q) ≤ 2 * (Real.exp z.re.r + P) * (Real.exp w.re.r + Q) :=
      mul_le_mul_of_nonneg_right (by linarith) (by linarith)
    linarith)
  refine ⟨a, b, p, a1, b1, p1, ?_, ?_⟩
  · rw [e1]; exact (abs_sub_le _ (a.re.r * b.re.r - a.im.r * b.im.r) _).trans (by linarith)
  · rw [e2]; exact (abs_sub_le _ (a.re.r * b.im.r + a.im.r * b.re.r) _).trans (by linarith)

/-- C158, fixed point with overflow checks: the exponential of the computed sum and the product of the exponentials. -/
theorem C158_sum_fixed [Cordic .checked W F] {δ : ℝ} {K : ℕ} (hK : F + K + 1 ≤ W) (hK1 : 1 ≤ K) (hF : 1 ≤ F)
    (h : CordicWithin .checked W F δ) (z w t : Cartesian (Fixed .checked true W F)) (ht : Returns (z.add w) t)
    (hz : |z.im.r| ≤ 4) (hw : |w.im.r| ≤ 4) (hti : |t.im.r| ≤ 4) (A B P Q : ℝ)
    (hA : A = Real.exp z.re.r) (hB : B = Real.exp w.re.r) (hP : P = δ * (A + 1 + δ) + 1 / 2 ^ F)
    (hQ : Q = δ * (B + 1 + δ) + 1 / 2 ^ F) (hzo : (1 + δ) * (A + δ) + 1 / 2 ^ F < 2 ^ K)
    (hwo : (1 + δ) * (B + δ) + 1 / 2 ^ F < 2 ^ K) (hto : (1 + δ) * (A * B + δ) + 1 / 2 ^ F < 2 ^ K)
    (hfit : 2 * (A + P) * (B + Q) + 2 / 2 ^ F < 2 ^ K) :
    ∃ a b p e : Cartesian (Fixed .checked true W F), Returns z.exp a ∧ Returns w.exp b ∧ Returns (a.mul b) p ∧
      Returns t.exp e ∧
      |p.re.r - e.re.r| ≤ 2 * (A * Q + P * B + P * Q) + δ * (A * B + 1 + δ) + 2 / 2 ^ F ∧
      |p.im.r - e.im.r| ≤ 2 * (A * Q + P * B + P * Q) + δ * (A * B + 1 + δ) + 3 / 2 ^ F := by
  obtain ⟨a, b, p, a1, b1, p1, p2, p3⟩ := C158_product_fixed hK hK1 hF h z w hz hw A B P Q hA hB hP hQ hzo hwo hfit
  have hv : t.re.r = z.re.r + w.re.r ∧ t.im.r = z.im.r + w.im.r := by
    obtain ⟨g1, g2⟩ := fixed_add_vals ht
    constructor <;> simp only [r, g1, g2] <;> push_cast <;> ring
  have hAB : A * B = Real.exp t.re.r := by rw [hA, hB, hv.1, Real.exp_add]
  rw [hAB] at hto
  obtain ⟨e, e1, e2, e3⟩ := C100_fixed hK hK1 hF h t hti hto
  change |e.re.r - (Complex.exp ⟨t.re.r, t.im.r⟩).re| ≤ δ * (Real.exp t.re.r + 1 + δ) + 1 / 2 ^ F at e2
  change |e.im.r - (Complex.exp ⟨t.re.r, t.im.r⟩).im| ≤ δ * (Real.exp t.re.r + 1 + δ) + 1 / 2 ^ F at e3
  rw [← hAB, abs_sub_comm] at e2 e3
  rw [← hv.1, ← hv.2] at p2 p3
  refine ⟨a, b, p, e, a1, b1, p1, e1, (abs_sub_le _ _ _).trans ((add_le_add p2 e2).trans (le_of_eq (by ring))),
    (abs_sub_le _ _ _).trans ((add_le_add p3 e3).trans (le_of_eq (by ring)))⟩

example [Cordic .checked 16 8] (h : CordicWithin .checked 16 8 (1 / 2 ^ 8)) := C158_sum_fixed (K := 3) (by decide) (by decide) (by decide) h
  ⟨fx .checked true 16 8 0, fx .checked true 16 8 256⟩ ⟨fx .checked true 16 8 0, fx .checked true 16 8 512⟩ ⟨fx .checked true 16 8 0, fx .checked true 16 8 768⟩
  (by run 0) (by simp [Fixed.r, fx]; norm_num) (by simp [Fixed.r, fx]; norm_num) (by simp [Fixed.r, fx]; norm_num) 1 1 _ _ (by simp [Fixed.r, fx]) (by simp [Fixed.r, fx]) rfl rfl
  (by norm_num) (by norm_num) (by norm_num) (by norm_num)

/-- C158, fixed point: the computed exponentials of opposite numbers have a product near 1. -/
theorem C158_inverse_fixed [Cordic m W F] {δ : ℝ} {K : ℕ} (hK : F + K + 1 ≤ W) (hK1 : 1 ≤ K) (hF : 1 ≤ F)
    (h : CordicWithin m W F δ) (z w : Cartesian (Fixed m true W F)) (hr : w.re.val = -z.re.val) (hi : w.im.val = -z.im.val)
    (hz : |z.im.r| ≤ 4) (A B P Q : ℝ)
    (hA : A = Real.exp z.re.r) (hB : B = Real.exp (-z.re.r)) (hP : P = δ * (A + 1 + δ) + 1 / 2 ^ F)
    (hQ : Q = δ * (B + 1 + δ) + 1 / 2 ^ F) (hzo : (1 + δ) * (A + δ) + 1 / 2 ^ F < 2 ^ K)
    (hwo : (1 + δ) * (B + δ) + 1 / 2 ^ F < 2 ^ K) (hfit : 2 * (A + P) * (B + Q) + 2 / 2 ^ F < 2 ^ K) :
    ∃ a b p : Cartesian (Fixed m true W F), Returns z.exp a ∧ Returns w.exp b ∧ Returns (a.mul b) p ∧
      |p.re.r - 1| ≤ 2 * (A * Q + P * B + P * Q) + 1 / 2 ^ F ∧ |p.im.r| ≤ 2 * (A * Q + P * B + P * Q) + 2 / 2 ^ F := by
  have er : w.re.r = -z.re.r := by simp only [r, hr]; push_cast; ring
  have ei : w.im.r = -z.im.r := by simp only [r, hi]; push_cast; ring
  obtain ⟨a, b, p, a1, b1, p1, p2, p3⟩ := C158_product_fixed hK hK1 hF h z w hz (by rw [ei, abs_neg]; exact hz) A B P Q hA
    (by rw [er]; exact hB) hP hQ hzo hwo hfit
  have e : Complex.exp ⟨z.re.r + w.re.r, z.im.r + w.im.r⟩ = 1 := by
    rw [er, ei, add_neg_cancel, add_neg_cancel]; exact Complex.exp_zero
  rw [e] at p2 p3
  simp only [Complex.one_re, Complex.one_im, sub_zero] at p2 p3
  exact ⟨a, b, p, a1, b1, p1, p2, p3⟩

example [Cordic .checked 16 8] (h : CordicWithin .checked 16 8 (1 / 2 ^ 8)) := C158_inverse_fixed (K := 3) (by decide) (by decide) (by decide) h
  ⟨fx .checked true 16 8 0, fx .checked true 16 8 256⟩ ⟨fx .checked true 16 8 0, fx .checked true 16 8 (-256)⟩ (by decide) (by decide)
  (by simp [Fixed.r, fx]; norm_num) 1 1 _ _ (by simp [Fixed.r, fx]) (by simp [Fixed.r, fx]) rfl rfl (by norm_num) (by norm_num) (by norm_num)

/-- C158, fixed point: the exponential of a real number is exactly the real exponential, if the sine and cosine of 0 are exact. -/
theorem C158_real_fixed [Cordic m W F] (x o s c g : Fixed m true W F) (ho : o.val = 0) (hs : s.val = 0) (hc : c.val = 2 ^ F)
    (hsc : Returns (Cordic.sinCos o) (s, c)) (hg : Returns (Cordic.exp x) g) :
    Returns (Cartesian.exp ⟨x, o⟩) ⟨g, o⟩ := by
  have e : s = o := Fixed.ext (by rw [hs, ho])
  refine hsc.bind (hg.bind (.of_eq ?_))
  show (do let re' ← NumOps.mul c g; let im' ← NumOps.mul s g; pure (⟨re', im'⟩ : Cartesian _)) = _
  rw [mul_one_fixed c g hc, pure_bind]
  have : NumOps.mul s g = (pure s : Prog (Fixed m true W F)) := by
    show fit (s.val * g.val / 2 ^ F) = _
    rw [hs, zero_mul, Int.zero_ediv]
    have f0 : Fits true W 0 := ⟨Fixed.zero_fits.1, Fixed.zero_fits.2⟩
    rw [fit_of_fits f0]
    congr 1; exact Fixed.ext hs.symm
  rw [this, e]; rfl

/-- A case of C158: e^i e^i with 32 fraction bits is within 10^-8 of e^(2i). -/
example [Cordic .checked 64 32] (h : CordicWithin .checked 64 32 (1 / 2 ^ 32)) :
    let z : Cartesian (Fixed .checked true 64 32) := ⟨fx .checked true 64 32 0, fx .checked true 64 32 (2 ^ 32)⟩
    ∃ a b p : Cartesian (Fixed .checked true 64 32), Returns z.exp a ∧ Returns z.exp b ∧ Returns (a.mul b) p ∧
      |p.re.r - Real.cos 2| ≤ 1 / 10 ^ 8 := by
  intro z
  have e1 : z.re.r = 0 := by
    show (fx .checked true 64 32 0).r = 0
    rw [r, show (fx .checked true 64 32 0).val = 0 by decide]; norm_num
  have e2 : z.im.r = 1 := by
    show (fx .checked true 64 32 (2 ^ 32)).r = 1
    rw [r, show (fx .checked true 64 32 (2 ^ 32)).val = 2 ^ 32 by decide]; norm_num
  obtain ⟨a, b, p, h1, h2, h3, h4, -⟩ := C158_product_fixed (K := 31) (by norm_num) (by norm_num) (by norm_num) h z z
    (by rw [e2]; norm_num) (by rw [e2]; norm_num) 1 1 _ _ (by rw [e1, Real.exp_zero]) (by rw [e1, Real.exp_zero]) rfl rfl
    (by norm_num) (by norm_num) (by norm_num)
  refine ⟨a, b, p, h1, h2, h3, ?_⟩
  rw [e1, e2, Complex.exp_re] at h4
  norm_num at h4 ⊢; linarith

/-- The hypotheses of C158_real_fixed can be met: a routine with exact sine and cosine of 0. -/
example : ∃ inst : Cordic .checked 32 16, Returns (@Cartesian.exp _ _ ⟨inst.sinCos⟩ ⟨inst.exp⟩ ⟨fx .checked true 32 16 65536,
    fx .checked true 32 16 0⟩) ⟨fx .checked true 32 16 178145, fx .checked true 32 16 0⟩ :=
  ⟨⟨pure, pure, fun _ => pure (fx .checked true 32 16 0, fx .checked true 32 16 65536), pure, pure, pure, fun x _ => pure x,
    fun _ => pure (fx .checked true 32 16 178145)⟩,
    @C158_real_fixed .checked 32 16 ⟨pure, pure, fun _ => pure (fx .checked true 32 16 0, fx .checked true 32 16 65536), pure, pure, pure,
      fun x _ => pure x, fun _ => pure (fx .checked true 32 16 178145)⟩ _ _ (fx .checked true 32 16 0) (fx .checked true 32 16 65536) _
      (by decide) (by decide) (by decide) (.of_eq rfl) (.of_eq rfl)⟩

end Fixed

section Float
open Flt

/-- C158, floats: the product of two computed exponentials is near the exponential of the sum. `A`, `B` are the magnitudes of the
two exponentials, `P`, `Q` their errors by C100. -/
theorem C158_product_float [Libm f] {δ : ℝ} (hf : f.Wide) (h : LibmWithin f δ) (hδ : 0 ≤ δ) (hδ' : δ ≤ 1 / 100)
    (z w : Cartesian (Flt f)) (h1 : z.re.IsFinite) (h2 : z.im.IsFinite) (h3 : w.re.IsFinite) (h4 : w.im.IsFinite)
    (v1 : z.re.Valid) (v2 : z.im.Valid) (v3 : w.re.Valid) (v4 : w.im.Valid) (A B P Q : ℝ)
    (hA : A = Real.exp z.re.val) (hB : B = Real.exp w.re.val) (hP : P = (5 / 2 * δ + 2 / 2 ^ f.p) * A + 2 * 2 ^ f.emin)
    (hQ : Q = (5 / 2 * δ + 2 / 2 ^ f.p) * B + 2 * 2 ^ f.emin) (hzo : 4 * A ≤ 2 ^ f.emax) (hwo : 4 * B ≤ 2 ^ f.emax)
    (ho : 4 * ((A + P) * (B + Q)) ≤ 2 ^ f.emax) :
    ∃ a b p : Cartesian (Flt f), Returns z.exp a ∧ Returns w.exp b ∧ Returns (a.mul b) p ∧
      (p.re.Valid ∧ p.re.IsFinite) ∧ (p.im.Valid ∧ p.im.IsFinite) ∧
      ∀ D : ℝ, D = 2 * (A * Q + P * B + P * Q) + (2 / 2 ^ f.p + 1 / 2 ^ (2 * f.p)) * (2 * ((A + P) * (B + Q))) + 2 * 2 ^ f.emin →
        |(p.re.val : ℝ) - (Complex.exp ⟨z.re.val + w.re.val, z.im.val + w.im.val⟩).re| ≤ D ∧
        |(p.im.val : ℝ) - (Complex.exp ⟨z.re.val + w.re.val, z.im.val + w.im.val⟩).im| ≤ D := by
  subst hA hB
  obtain ⟨a, a1, ⟨a2, a3⟩, ⟨a4, a5⟩, a6, a7⟩ := C100_float hf h hδ hδ' z h1 h2 v1 v2 hzo
  obtain ⟨b, b1, ⟨b2, b3⟩, ⟨b4, b5⟩, b6, b7⟩ := C100_float hf h hδ hδ' w h3 h4 v3 v4 hwo
  rw [← hP] at a6 a7
  rw [← hQ] at b6 b7
  obtain ⟨u1, u2⟩ := exp_parts_le (z.re.val : ℝ) z.im.val
  obtain ⟨u3, u4⟩ := exp_parts_le (w.re.val : ℝ) w.im.val
  obtain ⟨e1, e2⟩ := exp_mk_add (z.re.val : ℝ) z.im.val w.re.val w.im.val
  obtain ⟨k1, k2⟩ := cprod_err u1 u2 u3 u4 a6 a7 b6 b7
  have hP0 : 0 ≤ P := (abs_nonneg _).trans a6
  have hQ0 : 0 ≤ Q := (abs_nonneg _).trans b6
  have hA0 := Real.exp_pos (z.re.val : ℝ)
  have hB0 := Real.exp_pos (w.re.val : ℝ)
  generalize Complex.exp ⟨(z.re.val : ℝ), z.im.val⟩ = X at *
  generalize Complex.exp ⟨(w.re.val : ℝ), w.im.val⟩ = Y at *
  generalize Real.exp (z.re.val : ℝ) = A at *
  generalize Real.exp (w.re.val : ℝ) = B at *
  have n1 : |(a.re.val : ℝ)| ≤ A + P := by have := abs_sub_abs_le_abs_sub (a.re.val : ℝ) X.re; linarith
  have n2 : |(a.im.val : ℝ)| ≤ A + P := by have := abs_sub_abs_le_abs_sub (a.im.val : ℝ) X.im; linarith
  have n3 : |(b.re.val : ℝ)| ≤ B + Q := by have := abs_sub_abs_le_abs_sub (b.re.val : ℝ) Y.re; linarith
  have n4 : |(b.im.val : ℝ)| ≤ B + Q := by have := abs_sub_abs_le_abs_sub (b.im.val : ℝ) Y.im; linarith
  have pr : ∀ {x y : ℝ}, |x| ≤ A + P → |y| ≤ B + Q → |x * y| ≤ (A + P) * (B + Q) := by
    intro x y hx hy
    rw [abs_mul]; exact mul_le_mul hx hy (abs_nonneg _) (by linarith)
  have q1 := pr n1 n3; have q2 := pr n2 n4; have q3 := pr n1 n4; have q4 := pr n2 n3
  have hr : 2 * (|a.re.val * b.re.val| + |a.im.val * b.im.val|) ≤ 2 ^ f.emax := by
    have : 2 * (|(a.re.val : ℝ) * b.re.val| + |(a.im.val : ℝ) * b.im.val|) ≤ 2 ^ f.emax := by linarith
    exact_mod_cast this
  have hi : 2 * (|a.re.val * b.im.val| + |a.im.val * b.re.val|) ≤ 2 ^ f.emax := by
    have : 2 * (|(a.re.val : ℝ) * b.im.val| + |(a.im.val : ℝ) * b.re.val|) ≤ 2 ^ f.emax := by linarith
    exact_mod_cast this
  obtain ⟨p, p1, p2, p3, p4, p5⟩ := C83_accuracy hf a b a3 a5 b3 b5 a2 a4 b2 b4 hr hi
  refine ⟨a, b, p, a1, b1, p1, p2, p3, ?_⟩
  rintro D rfl
  have p4 := Rat.cast_le (K := ℝ).mpr p4
  have p5 := Rat.cast_le (K := ℝ).mpr p5
  push_cast at p4 p5
  have hc : (0:ℝ) ≤ 2 / 2 ^ f.p + 1 / 2 ^ (2 * f.p) := by positivity
  have m1 := mul_le_mul_of_nonneg_left (add_le_add q1 q2) hc
  have m2 := mul_le_mul_of_nonneg_left (add_le_add q3 q4) hc
  rw [← two_mul] at m1 m2
  constructor
  · rw [e1]; exact (abs_sub_le _ ((a.re.val : ℝ) * b.re.val - a.im.val * b.im.val) _).trans (by linarith)
  · rw [e2]; exact (abs_sub_le _ ((a.re.val : ℝ) * b.im.val + a.im.val * b.re.val) _).trans (by linarith)

/-- C158, floats: the computed exponentials of opposite numbers have a product near 1. -/
theorem C158_inverse_float [Libm f] {δ : ℝ} (hf : f.Wide) (h : LibmWithin f δ) (hδ : 0 ≤ δ) (hδ' : δ ≤ 1 / 100)
    (z : Cartesian (Flt f)) (h1 : z.re.IsFinite) (h2 : z.im.IsFinite) (v1 : z.re.Valid) (v2 : z.im.Valid) (A B P Q : ℝ)
    (hA : A = Real.exp z.re.val) (hB : B = Real.exp (-z.re.val)) (hP : P = (5 / 2 * δ + 2 / 2 ^ f.p) * A + 2 * 2 ^ f.emin)
    (hQ : Q = (5 / 2 * δ + 2 / 2 ^ f.p) * B + 2 * 2 ^ f.emin) (hzo : 4 * A ≤ 2 ^ f.emax) (hwo : 4 * B ≤ 2 ^ f.emax)
    (ho : 4 * ((A + P) * (B + Q)) ≤ 2 ^ f.emax) :
    ∃ a b p : Cartesian (Flt f), Returns z.exp a ∧ Returns (Cartesian.exp ⟨z.re.neg, z.im.neg⟩) b ∧ Returns (a.mul b) p ∧
      ∀ D : ℝ, D = 2 * (A * Q + P * B + P * Q) + (2 / 2 ^ f.p + 1 / 2 ^ (2 * f.p)) * (2 * ((A + P) * (B + Q))) + 2 * 2 ^ f.emin →
        |(p.re.val : ℝ) - 1| ≤ D ∧ |(p.im.val : ℝ)| ≤ D := by
  have i1 := (is_of_finite h1 v1).neg
  have i2 := (is_of_finite h2 v2).neg
  obtain ⟨a, b, p, a1, b1, p1, -, -, p2⟩ := C158_product_float hf h hδ hδ' z ⟨z.re.neg, z.im.neg⟩ h1 h2 i1.fin i2.fin v1 v2
    i1.valid i2.valid A B P Q hA (by rw [hB]; show _ = Real.exp ((z.re.neg.val : ℚ) : ℝ); rw [i1.val]; push_cast; rfl) hP hQ hzo hwo ho
  refine ⟨a, b, p, a1, b1, p1, fun D hD => ?_⟩
  have e : Complex.exp ⟨(z.re.val : ℝ) + ((z.re.neg.val : ℚ) : ℝ), (z.im.val : ℝ) + ((z.im.neg.val : ℚ) : ℝ)⟩ = 1 := by
    rw [i1.val, i2.val]; push_cast
    rw [add_neg_cancel, add_neg_cancel]; exact Complex.exp_zero
  have := p2 D hD
  simp only [e] at this
  simpa using this

example [Libm F32] (h : LibmWithin F32 (2 / 2 ^ 24)) := C158_inverse_float Flt.wide_F32 h (by norm_num) (by norm_num) ⟨.fin false 0, .fin false 3⟩ ⟨_, _, rfl⟩ ⟨_, _, rfl⟩
  (by is_float 0 0) (by is_float 3 0) 1 1 _ _ (by simp [Flt.val]) (by simp [Flt.val]) rfl rfl (by norm_num [F32]) (by norm_num [F32]) (by norm_num [F32])

/-- The exponential of a slightly moved argument. -/
theorem exp_moved {a b a' b' S : ℝ} (ha : |a' - a| + |b' - b| ≤ S) (hS : S ≤ 1) :
    Real.exp a' ≤ Real.exp a * (1 + 2 * S) ∧
      |(Complex.exp ⟨a', b'⟩).re - (Complex.exp ⟨a, b⟩).re| ≤ Real.exp a * (2 * S) ∧
      |(Complex.exp ⟨a', b'⟩).im - (Complex.exp ⟨a, b⟩).im| ≤ Real.exp a * (2 * S) := by
  set d : ℂ := ⟨a' - a, b' - b⟩ with hd
  have hn : ‖d‖ ≤ S := (Complex.norm_le_abs_re_add_abs_im d).trans ha
  have h1 : ‖Complex.exp d - 1‖ ≤ 2 * S :=
    (Complex.norm_exp_sub_one_le (hn.trans hS)).trans (mul_le_mul_of_nonneg_left hn (by norm_num))
  have e : Complex.exp ⟨a', b'⟩ = Complex.exp ⟨a, b⟩ * Complex.exp d := by
    rw [← Complex.exp_add]; congr 1; apply Complex.ext <;> simp [hd]
  have h2 : ‖Complex.exp ⟨a', b'⟩ - Complex.exp ⟨a, b⟩‖ ≤ Real.exp a * (2 * S) := by
    rw [e, show Complex.exp ⟨a, b⟩ * Complex.exp d - Complex.exp ⟨a, b⟩ = Complex.exp ⟨a, b⟩ * (Complex.exp d - 1) by ring,
      norm_mul, Complex.norm_exp]
    exact mul_le_mul_of_nonneg_left h1 (Real.exp_pos _).le
  refine ⟨?_, ?_, ?_⟩
  · have h3 := norm_sub_norm_le (Complex.exp ⟨a', b'⟩) (Complex.exp ⟨a, b⟩)
    rw [Complex.norm_exp, Complex.norm_exp] at h3
    change Real.exp a' - Real.exp a ≤ _ at h3
    linarith
  · rw [← Complex.sub_re]; exact (Complex.abs_re_le_norm _).trans h2
  · rw [← Complex.sub_im]; exact (Complex.abs_im_le_norm _).trans h2

/-- C158, floats: the exponential of the computed sum is near the exponential of the sum; `S` bounds how far rounding the sum moves
the argument. -/
theorem C158_sum_float [Libm f] {δ : ℝ} (hf : f.Wide) (h : LibmWithin f δ) (hδ : 0 ≤ δ) (hδ' : δ ≤ 1 / 100)
    (z w t : Cartesian (Flt f)) (ht : Returns (z.add w) t) (h1 : z.re.IsFinite) (h2 : z.im.IsFinite) (h3 : w.re.IsFinite)
    (h4 : w.im.IsFinite) (h5 : t.re.IsFinite) (h6 : t.im.IsFinite)
    (v1 : z.re.Valid) (v2 : z.im.Valid) (v3 : w.re.Valid) (v4 : w.im.Valid) (A B S : ℝ)
    (hA : A = Real.exp z.re.val) (hB : B = Real.exp w.re.val)
    (hS : S = (|(z.re.val : ℝ) + w.re.val| + |(z.im.val : ℝ) + w.im.val|) / 2 ^ f.p) (hS1 : S ≤ 1)
    (ho : 4 * (A * B * (1 + 2 * S)) ≤ 2 ^ f.emax) :
    ∃ e : Cartesian (Flt f), Returns t.exp e ∧ (e.re.Valid ∧ e.re.IsFinite) ∧ (e.im.Valid ∧ e.im.IsFinite) ∧
      ∀ D : ℝ, D = A * B * (2 * S) + (5 / 2 * δ + 2 / 2 ^ f.p) * (A * B * (1 + 2 * S)) + 2 * 2 ^ f.emin →
        |(e.re.val : ℝ) - (Complex.exp ⟨z.re.val + w.re.val, z.im.val + w.im.val⟩).re| ≤ D ∧
        |(e.im.val : ℝ) - (Complex.exp ⟨z.re.val + w.re.val, z.im.val + w.im.val⟩).im| ≤ D := by
  have et : t = ⟨z.re.add w.re, z.im.add w.im⟩ := ht.unique (.of_eq rfl)
  subst et
  obtain ⟨x, x1, -, x3⟩ := (is_of_finite h1 v1).add_err hf (is_of_finite h3 v3) h5
  obtain ⟨y, y1, -, y3⟩ := (is_of_finite h2 v2).add_err hf (is_of_finite h4 v4) h6
  have x3 := Rat.cast_le (K := ℝ).mpr x3
  have y3 := Rat.cast_le (K := ℝ).mpr y3
  push_cast at x3 y3
  rw [zpow_neg, zpow_natCast] at x3 y3
  have hAB : A * B = Real.exp ((z.re.val : ℝ) + w.re.val) := by rw [hA, hB, Real.exp_add]
  obtain ⟨m1, m2, m3⟩ := exp_moved (a := (z.re.val : ℝ) + w.re.val) (b := (z.im.val : ℝ) + w.im.val) (a' := x) (b' := y) (S := S)
    (by rw [hS, add_div, div_eq_inv_mul, div_eq_inv_mul]; linarith) hS1
  rw [← hAB] at m1 m2 m3
  obtain ⟨e, e1, e2, e3, e4, e5⟩ := C100_float hf h hδ hδ' (⟨z.re.add w.re, z.im.add w.im⟩ : Cartesian (Flt f)) h5 h6 x1.valid y1.valid
    (by show 4 * Real.exp ((z.re.add w.re).val : ℝ) ≤ _
        rw [x1.val]; linarith)
  refine ⟨e, e1, e2, e3, ?_⟩
  rintro D rfl
  change |(e.re.val : ℝ) - (Complex.exp ⟨((z.re.add w.re).val : ℝ), ((z.im.add w.im).val : ℝ)⟩).re| ≤
    (5 / 2 * δ + 2 / 2 ^ f.p) * Real.exp ((z.re.add w.re).val : ℝ) + 2 * 2 ^ f.emin at e4
  change |(e.im.val : ℝ) - (Complex.exp ⟨((z.re.add w.re).val : ℝ), ((z.im.add w.im).val : ℝ)⟩).im| ≤
    (5 / 2 * δ + 2 / 2 ^ f.p) * Real.exp ((z.re.add w.re).val : ℝ) + 2 * 2 ^ f.emin at e5
  rw [x1.val, y1.val] at e4 e5
  have m4 := mul_le_mul_of_nonneg_left m1 (show 0 ≤ 5 / 2 * δ + 2 / 2 ^ f.p by positivity)
  exact ⟨(abs_sub_le _ (Complex.exp ⟨(x : ℝ), y⟩).re _).trans (by linarith),
    (abs_sub_le _ (Complex.exp ⟨(x : ℝ), y⟩).im _).trans (by linarith)⟩

/-- The hypotheses hold of `i` and `2i` on `f32`. -/
example [Libm F32] (h : LibmWithin F32 (2 / 2 ^ 24)) := C158_sum_float Flt.wide_F32 h (by norm_num) (by norm_num)
  ⟨.fin false 0, .fin false 1⟩ ⟨.fin false 0, .fin false 2⟩ ⟨.fin false 0, .fin false 3⟩ (by run 0)
  ⟨_, _, rfl⟩ ⟨_, _, rfl⟩ ⟨_, _, rfl⟩ ⟨_, _, rfl⟩ ⟨_, _, rfl⟩ ⟨_, _, rfl⟩ (by is_float 0 0) (by is_float 1 0) (by is_float 0 0) (by is_float 2 0)
  1 1 _ (by simp [Flt.val]) (by simp [Flt.val]) rfl (by norm_num [Flt.val, F32]) (by norm_num [Flt.val, F32])

/-- C158, floats: the exponential of a real number is the real exponential, bit for bit but for the sign of a zero, if the sine and
cosine of 0 are exact; the imaginary part is zero. -/
theorem C158_real_float [Libm f] (hf : f.Wide) (x : Flt f) (s t : Bool) (hsc : Libm.sincos (.fin s 0 : Flt f) = (.fin t 0, .fin false 1))
    (hv : (Libm.exp x).Valid) (hx : (Libm.exp x).IsFinite) :
    ∃ c : Cartesian (Flt f), Returns (Cartesian.exp ⟨x, .fin s 0⟩) c ∧ c.re.Same (Libm.exp x) ∧ ∃ b, c.im = .fin b 0 := by
  refine ⟨⟨(Flt.fin false 1).mul (Libm.exp x), (Flt.fin t 0).mul (Libm.exp x)⟩, .of_eq ?_, mul_one_same hf false hv, ?_⟩
  · show (pure ⟨(Libm.sincos (.fin s 0 : Flt f)).2.mul (Libm.exp x), (Libm.sincos (.fin s 0 : Flt f)).1.mul (Libm.exp x)⟩ :
      Prog (Cartesian (Flt f))) = _
    rw [hsc]
  · obtain ⟨b, q, e⟩ := hx
    refine ⟨xor t b, ?_⟩
    show (Flt.fin t 0).mul (Libm.exp x) = _
    rw [e]
    have e0 : (Flt.fin t 0 : Flt f).val = 0 := by cases t <;> simp [Flt.val]
    simp [Flt.mul, e0, ofExact]

/-- A case of C158: e^i e^i in f64 is within 10^-14 of e^(2i). -/
example [Libm F64] (h : LibmWithin F64 (2 / 2 ^ 53)) :
    let z : Cartesian (Flt F64) := ⟨.fin false 0, .fin false 1⟩
    ∃ a b p : Cartesian (Flt F64), Returns z.exp a ∧ Returns z.exp b ∧ Returns (a.mul b) p ∧
      |(p.re.val : ℝ) - Real.cos 2| ≤ 1 / 10 ^ 14 := by
  intro z
  have e1 : (z.re.val : ℝ) = 0 := by simp [z, Flt.val]
  have e2 : (z.im.val : ℝ) = 1 := by simp [z, Flt.val]
  have v0 : (Flt.fin false 0 : Flt F64).Valid := ⟨0, 0, by positivity, by norm_num [F64], by simp, by positivity⟩
  have v1 : (Flt.fin false 1 : Flt F64).Valid := ⟨1, 0, by norm_num [F64], by norm_num [F64], by norm_num [pow2],
    one_lt_pow₀ (by norm_num) (by norm_num [F64])⟩
  have hmin : (2:ℝ) ^ F64.emin ≤ 1 / 2 ^ 60 := by
    show (2:ℝ) ^ (-1074 : ℤ) ≤ _
    rw [one_div, ← zpow_natCast, ← zpow_neg]
    exact zpow_le_zpow_right₀ (by norm_num) (by norm_num)
  have hmin0 : (0:ℝ) < 2 ^ F64.emin := by positivity
  have hmax : (1024:ℝ) ≤ 2 ^ F64.emax := by
    calc (1024:ℝ) = 2 ^ 10 := by norm_num
      _ ≤ _ := pow_le_pow_right₀ (by norm_num) (by norm_num [F64])
  have hP : (5 / 2 * (2 / 2 ^ 53) + 2 / 2 ^ F64.p) * 1 + 2 * (2:ℝ) ^ F64.emin ≤ 8 / 2 ^ 53 := by
    show (5 / 2 * (2 / 2 ^ 53) + 2 / 2 ^ 53) * 1 + 2 * (2:ℝ) ^ F64.emin ≤ _
    generalize (2:ℝ) ^ F64.emin = H at *
    norm_num at hmin ⊢; linarith
  have hP0 : 0 ≤ (5 / 2 * (2 / 2 ^ 53) + 2 / 2 ^ F64.p) * 1 + 2 * (2:ℝ) ^ F64.emin := by positivity
  obtain ⟨a, b, p, h1, h2, h3, -, -, h4⟩ := C158_product_float wide_F64 h (by norm_num) (by norm_num) z z ⟨_, _, rfl⟩ ⟨_, _, rfl⟩
    ⟨_, _, rfl⟩ ⟨_, _, rfl⟩ v0 v1 v0 v1 1 1 _ _ (by rw [e1, Real.exp_zero]) (by rw [e1, Real.exp_zero]) rfl rfl
    (le_trans (by norm_num) hmax) (le_trans (by norm_num) hmax) (by
      refine le_trans ?_ hmax
      generalize (5 / 2 * (2 / 2 ^ 53) + 2 / 2 ^ F64.p) * 1 + 2 * (2:ℝ) ^ F64.emin = P at *
      nlinarith)
  refine ⟨a, b, p, h1, h2, h3, ?_⟩
  have h5 := (h4 _ rfl).1
  rw [e1, e2, Complex.exp_re] at h5
  rw [show (2 / 2 ^ F64.p + 1 / 2 ^ (2 * F64.p) : ℝ) = 2 / 2 ^ 53 + 1 / 2 ^ 106 from rfl] at h5
  generalize (5 / 2 * (2 / 2 ^ 53) + 2 / 2 ^ F64.p) * 1 + 2 * (2:ℝ) ^ F64.emin = P at *
  generalize (2:ℝ) ^ F64.emin = H at *
  norm_num at h5 hmin hP ⊢
  nlinarith

end Float
end MixedNum
