import Verif.Props.Norm
import Verif.Lemmas.Run
/-! # C129: associativity and distributivity on floats -/

namespace MixedNum
variable {f : Format}
open Flt

/-- C129 is false: on `f32`, `3 (2^24 + 1)` is `3·2^24`, but `3·2^24 + 3·1` is `3·2^24 + 4`; `(3 · 2^-149) / 2` rounds first:
`(3 · 2^-149) · (1/2 · 2)` is `3 · 2^-149`, but `((3 · 2^-149) · 1/2) · 2` is `4 · 2^-149`. -/
theorem C129_counterexample :
    let c : ℚ → Cartesian (Flt F32) := fun q => ⟨.fin false q, .fin false 0⟩
    Returns (do (c 3).mul (← (c (2 ^ 24)).add (c 1))) (c (3 * 2 ^ 24)) ∧
    Returns (do (← (c 3).mul (c (2 ^ 24))).add (← (c 3).mul (c 1))) (c (3 * 2 ^ 24 + 4)) ∧
    Returns (do (c (3 / 2 ^ 149)).mul (← (c (1 / 2)).mul (c 2))) (c (3 / 2 ^ 149)) ∧
    Returns (do (← (c (3 / 2 ^ 149)).mul (c (1 / 2))).mul (c 2)) (c (4 / 2 ^ 149)) := by
  intro c
  refine ⟨.of_eq ?_, .of_eq ?_, .of_eq ?_, .of_eq ?_⟩ <;> kernel_rfl

/-- The error of a sum. -/
theorem sum_near (hf : f.Wide) {z w t : Cartesian (Flt f)} (ht : Returns (z.add w) t) (h1 : z.re.IsFinite ∧ z.im.IsFinite)
    (h2 : w.re.IsFinite ∧ w.im.IsFinite) (h3 : t.re.IsFinite ∧ t.im.IsFinite) :
    ‖t.fc - (z.fc + w.fc)‖ ≤ 2 / 2 ^ f.p * ‖z.fc + w.fc‖ + 2 ^ f.emin := by
  obtain ⟨x, y⟩ := z; obtain ⟨x', y'⟩ := w
  have e : t = ⟨x.add x', y.add y'⟩ := (returns_pure.mp ht).symm
  subst e
  have k1 := add_near hf h1.1 h2.1 h3.1
  have k2 := add_near hf h1.2 h2.2 h3.2
  refine (Complex.norm_le_abs_re_add_abs_im _).trans ?_
  have n1 := Complex.abs_re_le_norm (Cartesian.fc ⟨x, y⟩ + Cartesian.fc ⟨x', y'⟩)
  have n2 := Complex.abs_im_le_norm (Cartesian.fc ⟨x, y⟩ + Cartesian.fc ⟨x', y'⟩)
  simp only [Cartesian.fc, Complex.add_re, Complex.add_im, Complex.sub_re, Complex.sub_im] at n1 n2 k1 k2 ⊢
  have u : (0:ℝ) ≤ 1 / 2 ^ f.p := by positivity
  have m1 := mul_le_mul_of_nonneg_left n1 u
  have m2 := mul_le_mul_of_nonneg_left n2 u
  have e2 : (2:ℝ) / 2 ^ f.p = 1 / 2 ^ f.p + 1 / 2 ^ f.p := by ring
  rw [e2, add_mul]
  linarith

theorem unit_small (hf : f.Wide) : (1:ℝ) / 2 ^ f.p ≤ 1 / 100 := by
  refine one_div_le_one_div_of_le (by norm_num) ?_
  calc (100:ℝ) ≤ 2 ^ 24 := by norm_num
    _ ≤ 2 ^ f.p := pow_le_pow_right₀ (by norm_num) hf.p

/-- **C129**, what holds of associativity: if no product overflows, `(z w) v` and `z (w v)` differ by at most `21/2^p` of the product of
the sizes and `8 · 2^emin` times the sum of the outer sizes and one. Missing compared to C129: equality, which is false. -/
theorem C129_assoc_partial (hf : f.Wide) (z w v p l q r : Cartesian (Flt f)) (hp : Returns (z.mul w) p) (hl : Returns (p.mul v) l)
    (hq : Returns (w.mul v) q) (hr : Returns (z.mul q) r) (h1 : ProdOk z w) (h2 : ProdOk p v) (h3 : ProdOk w v) (h4 : ProdOk z q) :
    ‖l.fc - r.fc‖ ≤ 21 / 2 ^ f.p * (‖z.fc‖ * ‖w.fc‖ * ‖v.fc‖) + 8 * 2 ^ f.emin * (‖z.fc‖ + ‖v.fc‖ + 1) := by
  have k1 := mul_near hf hp h1
  have k2 := mul_near hf hl h2
  have k3 := mul_near hf hq h3
  have k4 := mul_near hf hr h4
  have e5 : (5:ℝ) / 2 ^ f.p = 5 * (1 / 2 ^ f.p) := by ring
  have e21 : (21:ℝ) / 2 ^ f.p = 21 * (1 / 2 ^ f.p) := by ring
  have u0 : (0:ℝ) < 1 / 2 ^ f.p := by positivity
  have u1 := unit_small hf
  have t0 : (0:ℝ) < 2 ^ f.emin := by positivity
  rw [e5] at k1 k2 k3 k4; rw [e21]
  generalize (1:ℝ) / 2 ^ f.p = u at *
  generalize (2:ℝ) ^ f.emin = e at *
  have s1 : ‖p.fc‖ ≤ ‖z.fc‖ * ‖w.fc‖ + (5 * u * (‖z.fc‖ * ‖w.fc‖) + 4 * e) := by
    have := norm_sub_norm_le p.fc (z.fc * w.fc)
    rw [norm_mul] at this; linarith
  have s2 : ‖q.fc‖ ≤ ‖w.fc‖ * ‖v.fc‖ + (5 * u * (‖w.fc‖ * ‖v.fc‖) + 4 * e) := by
    have := norm_sub_norm_le q.fc (w.fc * v.fc)
    rw [norm_mul] at this; linarith
  have t1 : ‖l.fc - r.fc‖ ≤ ‖l.fc - p.fc * v.fc‖ + ‖p.fc - z.fc * w.fc‖ * ‖v.fc‖ + ‖z.fc‖ * ‖q.fc - w.fc * v.fc‖ +
      ‖r.fc - z.fc * q.fc‖ := by
    have e : l.fc - r.fc = (l.fc - p.fc * v.fc) + (p.fc - z.fc * w.fc) * v.fc - z.fc * (q.fc - w.fc * v.fc) - (r.fc - z.fc * q.fc) := by
      ring
    rw [e]
    refine (norm_sub_le _ _).trans (add_le_add ((norm_sub_le _ _).trans (add_le_add ((norm_add_le _ _).trans ?_) ?_)) le_rfl)
    · rw [norm_mul]
    · rw [norm_mul]
  have nA : 0 ≤ ‖z.fc‖ := norm_nonneg _
  have nB : 0 ≤ ‖w.fc‖ := norm_nonneg _
  have nC : 0 ≤ ‖v.fc‖ := norm_nonneg _
  have j1 := mul_le_mul_of_nonneg_right k1 nC
  have j2 := mul_le_mul_of_nonneg_left k3 nA
  have j3 := mul_le_mul_of_nonneg_left (mul_le_mul_of_nonneg_right s1 nC) (by positivity : 0 ≤ 5 * u)
  have j4 := mul_le_mul_of_nonneg_left (mul_le_mul_of_nonneg_left s2 nA) (by positivity : 0 ≤ 5 * u)
  have hP : 0 ≤ ‖z.fc‖ * ‖w.fc‖ * ‖v.fc‖ := by positivity
  have m1 : 50 * u ^ 2 * (‖z.fc‖ * ‖w.fc‖ * ‖v.fc‖) ≤ u * (‖z.fc‖ * ‖w.fc‖ * ‖v.fc‖) :=
    mul_le_mul_of_nonneg_right (by nlinarith) hP
  have m2 : 20 * u * e * ‖v.fc‖ ≤ 4 * e * ‖v.fc‖ := mul_le_mul_of_nonneg_right (by nlinarith) nC
  have m3 : 20 * u * e * ‖z.fc‖ ≤ 4 * e * ‖z.fc‖ := mul_le_mul_of_nonneg_right (by nlinarith) nA
  nlinarith

/-- `3 · i · 2` on `f32`. -/
example := C129_assoc_partial wide_F32 ⟨.fin false 3, .fin false 0⟩ ⟨.fin false 0, .fin false 1⟩ ⟨.fin false 2, .fin false 0⟩
  ⟨.fin false 0, .fin false 3⟩ ⟨.fin false 0, .fin false 6⟩ ⟨.fin false 0, .fin false 2⟩ ⟨.fin false 0, .fin false 6⟩
  (by run 0) (by run 0) (by run 0) (by run 0)
  ⟨⟨⟨_, _, rfl⟩, by is_float 3 0⟩, ⟨⟨_, _, rfl⟩, by is_float 0 0⟩, ⟨⟨_, _, rfl⟩, by is_float 0 0⟩, ⟨⟨_, _, rfl⟩, by is_float 1 0⟩, by norm_num [Flt.val, F32], by norm_num [Flt.val, F32]⟩
  ⟨⟨⟨_, _, rfl⟩, by is_float 0 0⟩, ⟨⟨_, _, rfl⟩, by is_float 3 0⟩, ⟨⟨_, _, rfl⟩, by is_float 2 0⟩, ⟨⟨_, _, rfl⟩, by is_float 0 0⟩, by norm_num [Flt.val, F32], by norm_num [Flt.val, F32]⟩
  ⟨⟨⟨_, _, rfl⟩, by is_float 0 0⟩, ⟨⟨_, _, rfl⟩, by is_float 1 0⟩, ⟨⟨_, _, rfl⟩, by is_float 2 0⟩, ⟨⟨_, _, rfl⟩, by is_float 0 0⟩, by norm_num [Flt.val, F32], by norm_num [Flt.val, F32]⟩
  ⟨⟨⟨_, _, rfl⟩, by is_float 3 0⟩, ⟨⟨_, _, rfl⟩, by is_float 0 0⟩, ⟨⟨_, _, rfl⟩, by is_float 0 0⟩, ⟨⟨_, _, rfl⟩, by is_float 2 0⟩, by norm_num [Flt.val, F32], by norm_num [Flt.val, F32]⟩

/-- **C129**, what holds of distributivity: if nothing overflows, `z (w + v)` and `z w + z v` differ by at most `15/2^p` of the product
of the size of `z` with the sum of the others, and `2^emin` times twice the size of `z` and 14. Missing: equality, which is false. -/
theorem C129_distrib_partial (hf : f.Wide) (z w v a c p q d : Cartesian (Flt f)) (ha : Returns (w.add v) a) (hc : Returns (z.mul a) c)
    (hp : Returns (z.mul w) p) (hq : Returns (z.mul v) q) (hd : Returns (p.add q) d) (h1 : ProdOk z w) (h2 : ProdOk z v)
    (h3 : ProdOk z a) (h4 : p.re.IsFinite ∧ p.im.IsFinite) (h5 : q.re.IsFinite ∧ q.im.IsFinite)
    (h6 : d.re.IsFinite ∧ d.im.IsFinite) :
    ‖c.fc - d.fc‖ ≤ 15 / 2 ^ f.p * (‖z.fc‖ * (‖w.fc‖ + ‖v.fc‖)) + 2 ^ f.emin * (2 * ‖z.fc‖ + 14) := by
  have k1 := mul_near hf hp h1
  have k2 := mul_near hf hq h2
  have k3 := mul_near hf hc h3
  have k4 := sum_near hf ha ⟨h1.re'.1, h1.im'.1⟩ ⟨h2.re'.1, h2.im'.1⟩ ⟨h3.re'.1, h3.im'.1⟩
  have k5 := sum_near hf hd h4 h5 h6
  have e5 : (5:ℝ) / 2 ^ f.p = 5 * (1 / 2 ^ f.p) := by ring
  have e2 : (2:ℝ) / 2 ^ f.p = 2 * (1 / 2 ^ f.p) := by ring
  have e15 : (15:ℝ) / 2 ^ f.p = 15 * (1 / 2 ^ f.p) := by ring
  have u0 : (0:ℝ) < 1 / 2 ^ f.p := by positivity
  have u1 := unit_small hf
  have t0 : (0:ℝ) < 2 ^ f.emin := by positivity
  rw [e5] at k1 k2 k3; rw [e2] at k4 k5; rw [e15]
  generalize (1:ℝ) / 2 ^ f.p = u at *
  generalize (2:ℝ) ^ f.emin = e at *
  have s0 := norm_add_le w.fc v.fc
  have s1 : ‖a.fc‖ ≤ ‖w.fc + v.fc‖ + (2 * u * ‖w.fc + v.fc‖ + e) := by
    have := norm_sub_norm_le a.fc (w.fc + v.fc); linarith
  have s2 : ‖p.fc + q.fc‖ ≤ ‖p.fc‖ + ‖q.fc‖ := norm_add_le _ _
  have s3 : ‖p.fc‖ ≤ ‖z.fc‖ * ‖w.fc‖ + (5 * u * (‖z.fc‖ * ‖w.fc‖) + 4 * e) := by
    have := norm_sub_norm_le p.fc (z.fc * w.fc)
    rw [norm_mul] at this; linarith
  have s4 : ‖q.fc‖ ≤ ‖z.fc‖ * ‖v.fc‖ + (5 * u * (‖z.fc‖ * ‖v.fc‖) + 4 * e) := by
    have := norm_sub_norm_le q.fc (z.fc * v.fc)
    rw [norm_mul] at this; linarith
  have t1 : ‖c.fc - d.fc‖ ≤ ‖c.fc - z.fc * a.fc‖ + ‖z.fc‖ * ‖a.fc - (w.fc + v.fc)‖ + ‖p.fc - z.fc * w.fc‖ +
      ‖q.fc - z.fc * v.fc‖ + ‖d.fc - (p.fc + q.fc)‖ := by
    have e : c.fc - d.fc = (c.fc - z.fc * a.fc) + z.fc * (a.fc - (w.fc + v.fc)) - (p.fc - z.fc * w.fc) - (q.fc - z.fc * v.fc) -
        (d.fc - (p.fc + q.fc)) := by ring
    rw [e]
    refine (norm_sub_le _ _).trans (add_le_add ((norm_sub_le _ _).trans (add_le_add ((norm_sub_le _ _).trans
      (add_le_add ((norm_add_le _ _).trans ?_) le_rfl)) le_rfl)) le_rfl)
    rw [norm_mul]
  have nA : 0 ≤ ‖z.fc‖ := norm_nonneg _
  have nB : 0 ≤ ‖w.fc‖ := norm_nonneg _
  have nC : 0 ≤ ‖v.fc‖ := norm_nonneg _
  generalize ‖z.fc‖ = A at *
  generalize ‖w.fc‖ = B at *
  generalize ‖v.fc‖ = C at *
  generalize ‖w.fc + v.fc‖ = S at *
  have r1 : ‖a.fc - (w.fc + v.fc)‖ ≤ 2 * u * (B + C) + e := k4.trans (by
    have := mul_le_mul_of_nonneg_left s0 (by positivity : 0 ≤ 2 * u); linarith)
  have r2 : ‖a.fc‖ ≤ (B + C) + (2 * u * (B + C) + e) := s1.trans (by
    have := mul_le_mul_of_nonneg_left s0 (by positivity : 0 ≤ 2 * u); linarith)
  have j1 := mul_le_mul_of_nonneg_left r1 nA
  have j2 := mul_le_mul_of_nonneg_left (mul_le_mul_of_nonneg_left r2 nA) (by positivity : 0 ≤ 5 * u)
  have j3 : 2 * u * ‖p.fc + q.fc‖ ≤ 2 * u * (A * (B + C) + 5 * u * (A * (B + C)) + 8 * e) :=
    mul_le_mul_of_nonneg_left (by linarith) (by positivity)
  have hP : 0 ≤ A * (B + C) := by positivity
  have m1 : 20 * u ^ 2 * (A * (B + C)) ≤ u * (A * (B + C)) := mul_le_mul_of_nonneg_right (by nlinarith) hP
  have m2 : 5 * u * e * A ≤ e * A := mul_le_mul_of_nonneg_right (by nlinarith) nA
  have m3 : 16 * u * e ≤ e := by nlinarith
  nlinarith

/-- `3 · (i + 2)` on `f32`. -/
example := C129_distrib_partial wide_F32 ⟨.fin false 3, .fin false 0⟩ ⟨.fin false 0, .fin false 1⟩ ⟨.fin false 2, .fin false 0⟩
  ⟨.fin false 2, .fin false 1⟩ ⟨.fin false 6, .fin false 3⟩ ⟨.fin false 0, .fin false 3⟩ ⟨.fin false 6, .fin false 0⟩ ⟨.fin false 6, .fin false 3⟩
  (by run 0) (by run 0) (by run 0) (by run 0) (by run 0)
  ⟨⟨⟨_, _, rfl⟩, by is_float 3 0⟩, ⟨⟨_, _, rfl⟩, by is_float 0 0⟩, ⟨⟨_, _, rfl⟩, by is_float 0 0⟩, ⟨⟨_, _, rfl⟩, by is_float 1 0⟩, by norm_num [Flt.val, F32], by norm_num [Flt.val, F32]⟩
  ⟨⟨⟨_, _, rfl⟩, by is_float 3 0⟩, ⟨⟨_, _, rfl⟩, by is_float 0 0⟩, ⟨⟨_, _, rfl⟩, by is_float 2 0⟩, ⟨⟨_, _, rfl⟩, by is_float 0 0⟩, by norm_num [Flt.val, F32], by norm_num [Flt.val, F32]⟩
  ⟨⟨⟨_, _, rfl⟩, by is_float 3 0⟩, ⟨⟨_, _, rfl⟩, by is_float 0 0⟩, ⟨⟨_, _, rfl⟩, by is_float 2 0⟩, ⟨⟨_, _, rfl⟩, by is_float 1 0⟩, by norm_num [Flt.val, F32], by norm_num [Flt.val, F32]⟩
  ⟨⟨_, _, rfl⟩, ⟨_, _, rfl⟩⟩ ⟨⟨_, _, rfl⟩, ⟨_, _, rfl⟩⟩ ⟨⟨_, _, rfl⟩, ⟨_, _, rfl⟩⟩

/-- Both parts are finite floats with these whole values. -/
def Whole (z : Cartesian (Flt f)) (a b : ℤ) : Prop :=
  (z.re.IsFinite ∧ z.re.Valid ∧ z.re.val = a) ∧ (z.im.IsFinite ∧ z.im.Valid ∧ z.im.val = b)

theorem mul_whole (hf : f.Wide) {z w : Cartesian (Flt f)} {a b c d M N : ℤ} (hz : Whole z a b) (hw : Whole w c d)
    (ha : |a| ≤ M) (hb : |b| ≤ M) (hc : |c| ≤ N) (hd : |d| ≤ N) (h : 2 * (M * N) < 2 ^ f.p) :
    ∃ r, Returns (z.mul w) r ∧ Whole r (a * c - b * d) (a * d + b * c) ∧ |a * c - b * d| ≤ 2 * (M * N) ∧ |a * d + b * c| ≤ 2 * (M * N) := by
  have m : ∀ {x y : ℤ}, |x| ≤ M → |y| ≤ N → |x * y| ≤ M * N := by
    intro x y hx hy
    rw [abs_mul]; exact mul_le_mul hx hy (abs_nonneg _) ((abs_nonneg _).trans hx)
  have m1 := m ha hc; have m2 := m hb hd; have m3 := m ha hd; have m4 := m hb hc
  obtain ⟨⟨z1, z2, z3⟩, z4, z5, z6⟩ := hz
  obtain ⟨⟨w1, w2, w3⟩, w4, w5, w6⟩ := hw
  obtain ⟨r, r1, r2, r3⟩ := C83_whole hf z w z1 z4 w1 w4 z2 z5 w2 w5 a b c d z3 z6 w3 w6 (by linarith) (by linarith)
  have big : ∀ k : ℤ, k ≤ 2 * (M * N) → 2 * (k:ℚ) ≤ 2 ^ f.emax := by
    intro k hk
    have he := hf.emax
    have h1 : (k:ℚ) ≤ 2 ^ f.p := by exact_mod_cast (hk.trans h.le)
    have h2 : (2:ℚ) ^ (f.p + 1) ≤ 2 ^ f.emax := pow_le_pow_right₀ (by norm_num) (by omega)
    rw [pow_succ] at h2; linarith
  obtain ⟨c', c1, c2, c3, -⟩ := C83_accuracy hf z w z1 z4 w1 w4 z2 z5 w2 w5
    (by rw [z3, z6, w3, w6]; exact_mod_cast big (|a * c| + |b * d|) (by linarith))
    (by rw [z3, z6, w3, w6]; exact_mod_cast big (|a * d| + |b * c|) (by linarith))
  obtain rfl := c1.unique r1
  exact ⟨c', r1, ⟨⟨c2.2, c2.1, r2⟩, c3.2, c3.1, r3⟩, (abs_sub _ _).trans (by linarith), (abs_add_le _ _).trans (by linarith)⟩

theorem add_whole (hf : f.Wide) {z w : Cartesian (Flt f)} {a b c d N : ℤ} (hz : Whole z a b) (hw : Whole w c d)
    (h1 : |a + c| ≤ N) (h2 : |b + d| ≤ N) (h : N < 2 ^ f.p) : ∃ r, Returns (z.add w) r ∧ Whole r (a + c) (b + d) := by
  obtain ⟨x, y⟩ := z; obtain ⟨x', y'⟩ := w
  obtain ⟨⟨z1, z2, z3⟩, z4, z5, z6⟩ := hz
  obtain ⟨⟨w1, w2, w3⟩, w4, w5, w6⟩ := hw
  have key : ∀ {x y : Flt f} {a b : ℤ}, x.IsFinite → y.IsFinite → x.val = a → y.val = b → |a + b| ≤ N →
      (x.add y).IsFinite ∧ (x.add y).Valid ∧ (x.add y).val = ((a + b : ℤ) : ℚ) := by
    rintro _ _ a b ⟨s, p, rfl⟩ ⟨t, q, rfl⟩ e1 e2 hN
    have e : (Flt.fin s p : Flt f).add (.fin t q) = ofExact (s && t) ((a + b : ℤ) : ℚ) := by
      show ofExact (s && t) ((Flt.fin s p : Flt f).val + (Flt.fin t q : Flt f).val) = _
      rw [e1, e2]; push_cast; rfl
    have k := is_int hf.ok (s && t) (n := a + b) (hN.trans h.le)
    rw [e]; exact ⟨k.fin, k.valid, k.val⟩
  exact ⟨_, .of_eq rfl, key z1 w1 z3 w3 h1, key z4 w4 z6 w6 h2⟩

/-- C129: on whole numbers both laws hold exactly while nothing exceeds the precision: with parts of at most `N`, multiplication is
associative if `4 N^3 < 2^p` (for `f32`: `N ≤ 161`) and distributive if `4 N^2 < 2^p`. -/
theorem C129_whole (hf : f.Wide) {z w v : Cartesian (Flt f)} {a b c d g h N : ℤ} (hz : Whole z a b) (hw : Whole w c d)
    (hv : Whole v g h) (ha : |a| ≤ N) (hb : |b| ≤ N) (hc : |c| ≤ N) (hd : |d| ≤ N) (hg : |g| ≤ N) (hh : |h| ≤ N) :
    (4 * N ^ 3 < 2 ^ f.p → ∃ l r : Cartesian (Flt f), Returns (do (← z.mul w).mul v) l ∧ Returns (do z.mul (← w.mul v)) r ∧
      l.re.val = r.re.val ∧ l.im.val = r.im.val ∧
      l.fc = (⟨a, b⟩ * ⟨c, d⟩ * ⟨g, h⟩ : ℂ)) ∧
    (4 * N ^ 2 < 2 ^ f.p → ∃ l r : Cartesian (Flt f), Returns (do z.mul (← w.add v)) l ∧
      Returns (do (← z.mul w).add (← z.mul v)) r ∧ l.re.val = r.re.val ∧ l.im.val = r.im.val ∧
      l.fc = (⟨a, b⟩ * (⟨c, d⟩ + ⟨g, h⟩) : ℂ)) := by
  have hN : 0 ≤ N := (abs_nonneg a).trans ha
  constructor
  · intro H
    have H2 : 2 * (N * N) < 2 ^ f.p := by
      rcases eq_or_lt_of_le hN with e | e
      · rw [← e]; positivity
      · have : 2 * (N * N) ≤ 4 * N ^ 3 := by nlinarith [mul_pos e e, mul_pos (mul_pos e e) e]
        linarith
    obtain ⟨p, p1, p2, p3, p4⟩ := mul_whole hf hz hw ha hb hc hd H2
    obtain ⟨l, l1, ⟨⟨-, -, l2⟩, -, -, l3⟩, -⟩ := mul_whole hf p2 hv p3 p4 hg hh (by nlinarith)
    obtain ⟨q, q1, q2, q3, q4⟩ := mul_whole hf hw hv hc hd hg hh H2
    obtain ⟨r, r1, ⟨⟨-, -, r2⟩, -, -, r3⟩, -⟩ := mul_whole hf hz q2 ha hb q3 q4 (by nlinarith)
    refine ⟨l, r, p1.bind l1, q1.bind r1, ?_, ?_, ?_⟩
    · rw [l2, r2]; congr 1; ring
    · rw [l3, r3]; congr 1; ring
    · apply Complex.ext <;> simp [Cartesian.fc, l2, l3]
  · intro H
    have H2 : 2 * (N * N) < 2 ^ f.p := by nlinarith
    have b1 : |c + g| ≤ 2 * N := (abs_add_le _ _).trans (by linarith)
    have b2 : |d + h| ≤ 2 * N := (abs_add_le _ _).trans (by linarith)
    have H3 : 2 * N < 2 ^ f.p := by
      rcases eq_or_lt_of_le hN with e | e
      · rw [← e]; positivity
      · nlinarith
    obtain ⟨t, t1, t2⟩ := add_whole hf hw hv b1 b2 H3
    obtain ⟨l, l1, ⟨⟨-, -, l2⟩, -, -, l3⟩, -⟩ := mul_whole hf hz t2 ha hb b1 b2 (by nlinarith)
    obtain ⟨p, p1, p2, p3, p4⟩ := mul_whole hf hz hw ha hb hc hd H2
    obtain ⟨q, q1, q2, q3, q4⟩ := mul_whole hf hz hv ha hb hg hh H2
    obtain ⟨r, r1, ⟨-, -, r2⟩, -, -, r3⟩ := add_whole hf p2 q2 (N := 4 * N ^ 2) ((abs_add_le _ _).trans (by linarith))
      ((abs_add_le _ _).trans (by linarith)) H
    refine ⟨l, r, t1.bind l1, p1.bind (q1.bind r1), ?_, ?_, ?_⟩
    · rw [l2, r2]; congr 1; ring
    · rw [l3, r3]; congr 1; ring
    · apply Complex.ext <;> simp [Cartesian.fc, l2, l3]

/-- The hypotheses hold of `3+4i`, `-5i` and `100` on `f32`; and of the products in `C129_assoc_partial`. -/
example : Whole (⟨.fin false 3, .fin false 4⟩ : Cartesian (Flt F32)) 3 4 ∧ Whole (⟨.fin false 0, .fin true 5⟩ : Cartesian (Flt F32)) 0 (-5) ∧
    Whole (⟨.fin false 100, .fin true 0⟩ : Cartesian (Flt F32)) 100 0 ∧ (4 * 100 ^ 3 : ℤ) < 2 ^ F32.p ∧
    ProdOk (⟨.fin false 3, .fin false 4⟩ : Cartesian (Flt F32)) ⟨.fin false 0, .fin true 5⟩ := by
  have v : ∀ (s : Bool) (n : ℕ), n < 2 ^ 24 → (Flt.fin s (n : ℚ) : Flt F32).IsFinite ∧ (Flt.fin s (n : ℚ) : Flt F32).Valid := by
    intro s n h
    refine ⟨⟨_, _, rfl⟩, n, 0, h, by norm_num [F32], by norm_num [pow2], ?_⟩
    calc (n:ℚ) < 2 ^ 24 := by exact_mod_cast h
      _ ≤ 2 ^ F32.emax := by norm_num [F32]
  have v3 := v false 3 (by norm_num); have v4 := v false 4 (by norm_num); have v5 := v true 5 (by norm_num)
  have v0 := v false 0 (by norm_num); have v0' := v true 0 (by norm_num); have v100 := v false 100 (by norm_num)
  norm_num at v3 v4 v5 v0 v0' v100
  refine ⟨⟨⟨v3.1, v3.2, ?_⟩, v4.1, v4.2, ?_⟩, ⟨⟨v0.1, v0.2, ?_⟩, v5.1, v5.2, ?_⟩, ⟨⟨v100.1, v100.2, ?_⟩, v0'.1, v0'.2, ?_⟩, ?_,
    ⟨v3, v4, v0, v5, ?_, ?_⟩⟩ <;> norm_num [Flt.val, F32]

end MixedNum
