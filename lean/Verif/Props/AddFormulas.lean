import Verif.Props.Pythagoras
import Verif.Lemmas.SumExact
import Verif.Props.AddSub
import Verif.Lemmas.Run
import Verif.Lemmas.Case
/-! # C156: the addition formulas of sine and cosine -/

namespace MixedNum

theorem cs_bound {a b d g e : ℝ} (q : a ^ 2 + b ^ 2 = 1) (hd : |d| ≤ e) (hg : |g| ≤ e) : |a * d + b * g| ≤ 1.415 * e := by
  have he : 0 ≤ e := (abs_nonneg _).trans hd
  have d2 : d ^ 2 ≤ e ^ 2 := by rw [← sq_abs]; exact pow_le_pow_left₀ (abs_nonneg _) hd 2
  have g2 : g ^ 2 ≤ e ^ 2 := by rw [← sq_abs]; exact pow_le_pow_left₀ (abs_nonneg _) hg 2
  refine abs_le_of_sq_le_sq ?_ (by positivity)
  have : (a * d + b * g) ^ 2 + (a * g - b * d) ^ 2 = d ^ 2 + g ^ 2 := by
    have : (a * d + b * g) ^ 2 + (a * g - b * d) ^ 2 = (a ^ 2 + b ^ 2) * (d ^ 2 + g ^ 2) := by ring
    rw [this, q, one_mul]
  have := sq_nonneg (a * g - b * d)
  have := sq_nonneg e
  rw [mul_pow]; norm_num; linarith

/-- Numbers within `e` of sine and cosine of two angles satisfy the addition formulas within `2.83 e + 2 e²`. -/
theorem addition {s c s' c' x y e : ℝ} (hs : |s - Real.sin x| ≤ e) (hc : |c - Real.cos x| ≤ e) (hs' : |s' - Real.sin y| ≤ e)
    (hc' : |c' - Real.cos y| ≤ e) :
    |s * c' + c * s' - Real.sin (x + y)| ≤ 2.83 * e + 2 * e ^ 2 ∧ |c * c' - s * s' - Real.cos (x + y)| ≤ 2.83 * e + 2 * e ^ 2 := by
  have he : 0 ≤ e := (abs_nonneg _).trans hs
  rw [Real.sin_add, Real.cos_add]
  have q := Real.sin_sq_add_cos_sq x; have q' := Real.sin_sq_add_cos_sq y
  obtain ⟨d, hd⟩ : ∃ d, d = s - Real.sin x := ⟨_, rfl⟩
  obtain ⟨g, hg⟩ : ∃ g, g = c - Real.cos x := ⟨_, rfl⟩
  obtain ⟨d', hd'⟩ : ∃ d, d = s' - Real.sin y := ⟨_, rfl⟩
  obtain ⟨g', hg'⟩ : ∃ g, g = c' - Real.cos y := ⟨_, rfl⟩
  rw [← hd] at hs; rw [← hg] at hc; rw [← hd'] at hs'; rw [← hg'] at hc'
  generalize Real.sin x = a at *
  generalize Real.cos x = b at *
  generalize Real.sin y = a' at *
  generalize Real.cos y = b' at *
  have m1 : ∀ {u v : ℝ}, |u| ≤ e → |v| ≤ e → |u * v| ≤ e ^ 2 := fun hu hv => by
    rw [abs_mul, sq]; exact mul_le_mul hu hv (abs_nonneg _) he
  have hn : |-d'| ≤ e := by rwa [abs_neg]
  have hn' : |-d| ≤ e := by rwa [abs_neg]
  have k1 := cs_bound q hc' hs'
  have k2 := cs_bound (show a' ^ 2 + b' ^ 2 = 1 from q') hc hs
  have k3 := cs_bound (show a ^ 2 + b ^ 2 = 1 from q) hn hc'
  have k4 := cs_bound (show a' ^ 2 + b' ^ 2 = 1 from q') hn' hc
  have p1 := m1 hs hc'; have p2 := m1 hc hs'; have p3 := m1 hc hc'; have p4 := m1 hs hs'
  rw [show s = a + d by linarith, show c = b + g by linarith, show s' = a' + d' by linarith, show c' = b' + g' by linarith]
  norm_num at k1 k2 k3 k4 ⊢
  rw [abs_le] at k1 k2 k3 k4 p1 p2 p3 p4
  constructor <;> rw [abs_le] <;> constructor <;> linarith

/-- C156, exact reals: the polynomial sine and cosine satisfy the addition formulas within 1.54e-5, on a whole turn. -/
theorem C156_real (x y : ℝ) (hx : |x| ≤ Real.pi) (hy : |y| ≤ Real.pi) (hz : |x + y| ≤ Real.pi) :
    ∃ s c s' c' t k, Returns (sin x) s ∧ Returns (cos x) c ∧ Returns (sin y) s' ∧ Returns (cos y) c' ∧
      Returns (sin (x + y)) t ∧ Returns (cos (x + y)) k ∧
      |t - (s * c' + c * s')| < 1.54e-5 ∧ |k - (c * c' - s * s')| < 1.54e-5 := by
  rw [abs_le] at hx hy hz
  obtain ⟨s, hs, es⟩ := C35_sin x hx.1 hx.2
  obtain ⟨c, hc, ec⟩ := C36_cos x
  obtain ⟨s', hs', es'⟩ := C35_sin y hy.1 hy.2
  obtain ⟨c', hc', ec'⟩ := C36_cos y
  obtain ⟨t, ht, et⟩ := C35_sin (x + y) hz.1 hz.2
  obtain ⟨k, hk, ek⟩ := C36_cos (x + y)
  obtain ⟨a1, a2⟩ := addition es.le ec.le es'.le ec'.le
  refine ⟨s, c, s', c', t, k, hs, hc, hs', hc', ht, hk, ?_, ?_⟩ <;> norm_num at * <;> rw [abs_lt] at * <;> rw [abs_le] at * <;>
    constructor <;> linarith

/-- C156, signed fixed point with at least 20 integer bits, both overflow modes: within 1.54e-5 and 35 units in the last place. -/
theorem C156_fixed {m : Mode} {W F : ℕ} (h : F + 20 ≤ W) (hF : 5 ≤ F) (x y z p : Fixed m true W F)
    (hp : (MixedPi.pi : Prog (Fixed m true W F)) = pure p) (hx : |x.val| ≤ p.val) (hy : |y.val| ≤ p.val)
    (hz : |x.val + y.val| ≤ p.val) (hxy : Returns (NumOps.add x y) z) :
    ∃ s c s' c' t k : Fixed m true W F, Returns (sin x) s ∧ Returns (cos x) c ∧ Returns (sin y) s' ∧ Returns (cos y) c' ∧
      Returns (sin z) t ∧ Returns (cos z) k ∧
      |t.r - (s.r * c'.r + c.r * s'.r)| ≤ 1.54e-5 + 35 / 2 ^ F + 163 / (2 ^ F) ^ 2 ∧
      |k.r - (c.r * c'.r - s.r * s'.r)| ≤ 1.54e-5 + 35 / 2 ^ F + 163 / (2 ^ F) ^ 2 := by
  have ez : z.val = x.val + y.val := by
    have hf : Fits true W (x.val + y.val) := by
      have hb := p.fits
      rw [Fixed.fits_signed] at hb ⊢
      rw [abs_le] at hz
      constructor <;> linarith [hb.1, hb.2]
    have e : (NumOps.add x y : Prog (Fixed m true W F)) = Fixed.fit (x.val + y.val) := rfl
    rw [e, Fixed.fit_of_fits hf] at hxy
    rw [← returns_pure.mp hxy]; rfl
  obtain ⟨s, hs, es⟩ := C39_sin h x p hp (by omega)
  obtain ⟨c, hc, ec⟩ := C39_cos h x p hp hx
  obtain ⟨s', hs', es'⟩ := C39_sin h y p hp (by omega)
  obtain ⟨c', hc', ec'⟩ := C39_cos h y p hp hy
  obtain ⟨t, ht, et⟩ := C39_sin h z p hp (by rw [ez]; omega)
  obtain ⟨k, hk, ek⟩ := C39_cos h z p hp (by rw [ez]; omega)
  refine ⟨s, c, s', c', t, k, hs, hc, hs', hc', ht, hk, ?_⟩
  have h2 : (0:ℝ) < 2 ^ F := by positivity
  have up : (4:ℝ) / 1000000 + 7 / 2 ^ F ≤ 4 / 1000000 + 9 / 2 ^ F := by
    have : (7:ℝ) / 2 ^ F ≤ 9 / 2 ^ F := by gcongr; norm_num
    linarith
  obtain ⟨a1, a2⟩ := addition (es.trans up) ec (es'.trans up) ec'
  have er : (z.val : ℝ) / 2 ^ F = x.val / 2 ^ F + y.val / 2 ^ F := by rw [ez]; push_cast; ring
  rw [er] at et ek
  have et := et.trans up
  have hu : (1:ℝ) / 2 ^ F ≤ 1 / 2 ^ 5 := by
    apply one_div_le_one_div_of_le (by positivity)
    exact pow_le_pow_right₀ (by norm_num) hF
  have hu0 : (0:ℝ) < 1 / 2 ^ F := by positivity
  simp only [Fixed.r]
  generalize Real.sin (x.val / 2 ^ F + y.val / 2 ^ F) = S at *
  generalize Real.cos (x.val / 2 ^ F + y.val / 2 ^ F) = C at *
  generalize (s.val : ℝ) / 2 ^ F * (c'.val / 2 ^ F) + c.val / 2 ^ F * (s'.val / 2 ^ F) = P at *
  generalize (c.val : ℝ) / 2 ^ F * (c'.val / 2 ^ F) - s.val / 2 ^ F * (s'.val / 2 ^ F) = Q at *
  have key : ∀ {v A B : ℝ}, |v - A| ≤ 4 / 1000000 + 9 / 2 ^ F →
      |B - A| ≤ 2.83 * (4 / 1000000 + 9 / 2 ^ F) + 2 * (4 / 1000000 + 9 / 2 ^ F) ^ 2 →
      |v - B| ≤ 1.54e-5 + 35 / 2 ^ F + 163 / (2 ^ F) ^ 2 := by
    intro v A B h1 h2
    have := abs_sub_le v A B
    rw [abs_sub_comm A B] at this
    refine this.trans ((add_le_add h1 h2).trans ?_)
    rw [show (9:ℝ) / 2 ^ F = 9 * (1 / 2 ^ F) by ring, show (35:ℝ) / 2 ^ F = 35 * (1 / 2 ^ F) by ring,
      show (163:ℝ) / (2 ^ F) ^ 2 = 163 * (1 / 2 ^ F) ^ 2 by ring]
    generalize (1:ℝ) / 2 ^ F = u at *
    have : 0 ≤ u ^ 2 := by positivity
    norm_num at hu ⊢
    nlinarith
  exact ⟨key et a1, key ek a2⟩

example := C156_fixed (m := .checked) (W := 32) (F := 8) (by decide) (by decide) (fx .checked true 32 8 100) (fx .checked true 32 8 (-300))
  (fx .checked true 32 8 (-200)) (fx .checked true 32 8 804) (by kernel_rfl) (by decide) (by decide) (by decide) (by run 0)

section Float
open Flt

/-- The sum of two angles of at most a turn. -/
theorem add_angle {f : Format} (hf : f.Wide) (x y : Flt f) (vx : x.Valid) (vy : y.Valid) (fx : IsFinite x) (fy : IsFinite y)
    (hz : |((x.val + y.val : ℚ) : ℝ)| ≤ 3.14) : (x.add y).Valid ∧ IsFinite (x.add y) ∧
      |((x.add y).val : ℝ) - (x.val + y.val)| ≤ 3.15 / 2 ^ f.p := by
  obtain ⟨_, _, rfl⟩ := fx; obtain ⟨_, _, rfl⟩ := fy
  obtain ⟨q, h1, h2⟩ := Near.add hf (is_of_valid vx).near (is_of_valid vy).near (U := 3.14) (M := 3.15) (by exact_mod_cast hz)
    (by norm_num) (by norm_num)
  refine ⟨h1.valid, h1.fin, ?_⟩
  rw [h1.val]
  refine h2.trans (le_of_eq ?_)
  rw [eta, zpow_neg, zpow_natCast]; ring

/-- C156, single precision: within 2.3e-5, for angles and sums of magnitude up to 3.14. The sum is the rounded one. -/
theorem C156_f32 (x y : Flt F32) (vx : x.Valid) (vy : y.Valid) (fx : IsFinite x) (fy : IsFinite y) (hx : |(x.val : ℝ)| ≤ 3.14)
    (hy : |(y.val : ℝ)| ≤ 3.14) (hz : |((x.val + y.val : ℚ) : ℝ)| ≤ 3.14) :
    ∃ z s c s' c' t k : Flt F32, Returns (NumOps.add x y) z ∧ Returns (sin x) s ∧ Returns (cos x) c ∧ Returns (sin y) s' ∧
      Returns (cos y) c' ∧ Returns (sin z) t ∧ Returns (cos z) k ∧
      |(t.val : ℝ) - (s.val * c'.val + c.val * s'.val)| ≤ 2.3e-5 ∧ |(k.val : ℝ) - (c.val * c'.val - s.val * s'.val)| ≤ 2.3e-5 := by
  obtain ⟨vz, fz, ez⟩ := add_angle wide_F32 x y vx vy fx fy hz
  obtain ⟨_, _, e1⟩ := id fx; obtain ⟨_, _, e2⟩ := id fy; obtain ⟨_, _, e3⟩ := id fz
  have ez : |((x.add y).val : ℝ) - (x.val + y.val)| ≤ 1.9e-7 := ez.trans (by norm_num [F32])
  have hz' : |((x.add y).val : ℝ)| ≤ 3.15 := by
    have := abs_sub_abs_le_abs_sub ((x.add y).val : ℝ) (x.val + y.val)
    push_cast at hz
    norm_num at ez hz ⊢; linarith
  have w : ∀ {t : ℝ}, |t| ≤ 3.14 → |t| ≤ 3.15 := fun h => h.trans (by norm_num)
  have w' : ∀ {t : ℝ}, |t| ≤ 3.15 → |t| ≤ 4.712 := fun h => h.trans (by norm_num)
  obtain ⟨s, hs, -, es⟩ := C76_f32 x vx _ _ e1 (w' (w hx))
  obtain ⟨c, hc, -, ec⟩ := C77_f32 x vx _ _ e1 (w hx)
  obtain ⟨s', hs', -, es'⟩ := C76_f32 y vy _ _ e2 (w' (w hy))
  obtain ⟨c', hc', -, ec'⟩ := C77_f32 y vy _ _ e2 (w hy)
  obtain ⟨t, ht, -, et⟩ := C76_f32 _ vz _ _ e3 (w' hz')
  obtain ⟨k, hk, -, ek⟩ := C77_f32 _ vz _ _ e3 hz'
  have up : (4.41:ℝ) / 10 ^ 6 ≤ 5.9 / 10 ^ 6 := by norm_num
  obtain ⟨a1, a2⟩ := addition (es.trans up) ec (es'.trans up) ec'
  refine ⟨_, s, c, s', c', t, k, .of_eq rfl, hs, hc, hs', hc', ht, hk, ?_, ?_⟩
  · have g := (Real.abs_sin_sub_sin_le ((x.add y).val : ℝ) (x.val + y.val)).trans ez
    norm_num at et a1 g ⊢
    rw [abs_le] at *; constructor <;> linarith
  · have g := (Real.abs_cos_sub_cos_le ((x.add y).val : ℝ) (x.val + y.val)).trans ez
    norm_num at ek a2 g ⊢
    rw [abs_le] at *; constructor <;> linarith

example := C156_f32 (.fin false (1 / 2)) (.fin true 2) (by is_float 1 (-1)) (by is_float 2 0) ⟨_, _, rfl⟩ ⟨_, _, rfl⟩
  (by norm_num [Flt.val]) (by norm_num [Flt.val]) (by norm_num [Flt.val])

/-- C156, double precision: within 1.4e-5. -/
theorem C156_f64 (x y : Flt F64) (vx : x.Valid) (vy : y.Valid) (fx : IsFinite x) (fy : IsFinite y) (hx : |(x.val : ℝ)| ≤ 3.14)
    (hy : |(y.val : ℝ)| ≤ 3.14) (hz : |((x.val + y.val : ℚ) : ℝ)| ≤ 3.14) :
    ∃ z s c s' c' t k : Flt F64, Returns (NumOps.add x y) z ∧ Returns (sin x) s ∧ Returns (cos x) c ∧ Returns (sin y) s' ∧
      Returns (cos y) c' ∧ Returns (sin z) t ∧ Returns (cos z) k ∧
      |(t.val : ℝ) - (s.val * c'.val + c.val * s'.val)| ≤ 1.4e-5 ∧ |(k.val : ℝ) - (c.val * c'.val - s.val * s'.val)| ≤ 1.4e-5 := by
  obtain ⟨vz, fz, ez⟩ := add_angle wide_F64 x y vx vy fx fy hz
  obtain ⟨_, _, e1⟩ := id fx; obtain ⟨_, _, e2⟩ := id fy; obtain ⟨_, _, e3⟩ := id fz
  have ez : |((x.add y).val : ℝ) - (x.val + y.val)| ≤ 1e-9 := ez.trans (by norm_num [F64])
  have hz' : |((x.add y).val : ℝ)| ≤ 3.15 := by
    have := abs_sub_abs_le_abs_sub ((x.add y).val : ℝ) (x.val + y.val)
    push_cast at hz
    norm_num at ez hz ⊢; linarith
  have w : ∀ {t : ℝ}, |t| ≤ 3.14 → |t| ≤ 3.15 := fun h => h.trans (by norm_num)
  have w' : ∀ {t : ℝ}, |t| ≤ 3.15 → |t| ≤ 4.712 := fun h => h.trans (by norm_num)
  have w'' : ∀ {t : ℝ}, |t| ≤ 3.15 → |t| ≤ 1000 := fun h => h.trans (by norm_num)
  obtain ⟨s, hs, -, es⟩ := C76_f64 x vx _ _ e1 (w' (w hx))
  obtain ⟨c, hc, -, ec⟩ := C77_f64 x vx _ _ e1 (w'' (w hx))
  obtain ⟨s', hs', -, es'⟩ := C76_f64 y vy _ _ e2 (w' (w hy))
  obtain ⟨c', hc', -, ec'⟩ := C77_f64 y vy _ _ e2 (w'' (w hy))
  obtain ⟨t, ht, -, et⟩ := C76_f64 _ vz _ _ e3 (w' hz')
  obtain ⟨k, hk, -, ek⟩ := C77_f64 _ vz _ _ e3 (w'' hz')
  have up : (3.611:ℝ) / 10 ^ 6 ≤ 3.62 / 10 ^ 6 := by norm_num
  obtain ⟨a1, a2⟩ := addition (es.trans up) ec (es'.trans up) ec'
  refine ⟨_, s, c, s', c', t, k, .of_eq rfl, hs, hc, hs', hc', ht, hk, ?_, ?_⟩
  · have g := (Real.abs_sin_sub_sin_le ((x.add y).val : ℝ) (x.val + y.val)).trans ez
    norm_num at et a1 g ⊢
    rw [abs_le] at *; constructor <;> linarith
  · have g := (Real.abs_cos_sub_cos_le ((x.add y).val : ℝ) (x.val + y.val)).trans ez
    norm_num at ek a2 g ⊢
    rw [abs_le] at *; constructor <;> linarith

end Float

/-- Double angles: a case of C156 with equal angles. -/
example (x : ℝ) (h : |x| ≤ 1) : ∃ s c t, Returns (sin x) s ∧ Returns (cos x) c ∧ Returns (sin (x + x)) t ∧ |t - 2 * (s * c)| < 1.54e-5 := by
  have hpi := Real.pi_gt_three
  have h2 : |x + x| ≤ Real.pi := (abs_add_le _ _).trans (by linarith)
  obtain ⟨s, c, s', c', t, k, h1, h2, h3, h4, h5, h6, h7, -⟩ := C156_real x x (by linarith) (by linarith) h2
  obtain rfl := h1.unique h3
  obtain rfl := h2.unique h4
  exact ⟨s, c, t, h1, h2, h5, by rw [show 2 * (s * c) = s * c + c * s by ring]; exact h7⟩

example : ∃ z : Flt F32, Returns (NumOps.add (.fin true (5/2) : Flt F32) (.fin false (1/2))) z ∧
    |((-5/2 + 1/2 : ℚ) : ℝ)| ≤ 3.14 ∧ (Flt.fin true (5/2) : Flt F32).Valid ∧ (Flt.fin false (1/2) : Flt F32).Valid :=
  ⟨_, .of_eq rfl, by norm_num, ⟨5, -1, by decide, by decide, by norm_num [pow2_eq], by norm_num⟩,
    ⟨1, -1, by decide, by decide, by norm_num [pow2_eq], by norm_num⟩⟩

end MixedNum
