import Verif.Props.RoundTrip
import Verif.Props.FloatConv
import Verif.Props.AddSub
import Verif.Lemmas.Run
import Verif.Lemmas.Case
/-! # C98: arithmetic with polar numbers on floats -/

namespace MixedNum
variable {f : Format}
open Flt

/-! ## C98 -/

theorem mul_rounds (hf : f.Wide) {x y : Flt f} (h1 : x.IsFinite) (h2 : y.IsFinite) : RoundsTo (x.mul y) (x.val * y.val) := by
  obtain ⟨_, _, rfl⟩ := h1; obtain ⟨_, _, rfl⟩ := h2; exact ofExact_rounds hf _ _

theorem add_rounds (hf : f.Wide) {x y : Flt f} (h1 : x.IsFinite) (h2 : y.IsFinite) : RoundsTo (x.add y) (x.val + y.val) := by
  obtain ⟨_, _, rfl⟩ := h1; obtain ⟨_, _, rfl⟩ := h2; exact ofExact_rounds hf _ _

theorem div_rounds (hf : f.Wide) {x y : Flt f} (h1 : x.IsFinite) (h2 : y.IsFinite) (h : y.val ≠ 0) :
    RoundsTo (x.div y) (x.val / y.val) := by
  obtain ⟨_, _, rfl⟩ := h1; obtain ⟨b, n, rfl⟩ := h2
  have hn : n ≠ 0 := by rintro rfl; apply h; cases b <;> simp [Flt.val]
  show RoundsTo (if n = 0 then _ else _) _
  rw [if_neg hn]; exact ofExact_rounds hf _ _

theorem lit_zero_flt : (Lit.ofI32 0 : Prog (Flt f)) = pure (.fin false 0) := by
  show (pure (ofExact false ((0:ℤ):ℚ)) : Prog (Flt f)) = _
  unfold ofExact; simp

theorem beq_zero_flt {x : Flt f} (h : x.IsFinite) : x.beq (.fin false 0) = decide (x.val = 0) := by
  obtain ⟨_, _, rfl⟩ := h; rfl

/-- C98: a product of polar numbers with non-zero magnitudes has the correctly rounded product of the magnitudes and the correctly
rounded sum of the angles (no wrapping). -/
theorem C98_mul (hf : f.Wide) (p q : Polar (Flt f)) (h1 : p.mag.IsFinite) (h2 : q.mag.IsFinite) (h3 : p.ang.IsFinite)
    (h4 : q.ang.IsFinite) (n1 : p.mag.val ≠ 0) (n2 : q.mag.val ≠ 0) :
    ∃ c, Returns (p.mul q) c ∧ RoundsTo c.mag (p.mag.val * q.mag.val) ∧ RoundsTo c.ang (p.ang.val + q.ang.val) := by
  refine ⟨⟨p.mag.mul q.mag, p.ang.add q.ang⟩, .of_eq ?_, mul_rounds hf h1 h2, add_rounds hf h3 h4⟩
  show ops.mulPolar p q = _
  unfold ops.mulPolar
  rw [lit_zero_flt, pure_bind]
  have e1 : MixedCmp.beq p.mag (.fin false 0 : Flt f) = false := by
    show p.mag.beq _ = _; rw [beq_zero_flt h1, decide_eq_false n1]
  have e2 : MixedCmp.beq q.mag (.fin false 0 : Flt f) = false := by
    show q.mag.beq _ = _; rw [beq_zero_flt h2, decide_eq_false n2]
  rw [e1, e2]; rfl

example := C98_mul wide_F32 ⟨.fin false 3, .fin true (1 / 2)⟩ ⟨.fin true 5, .fin false 7⟩ ⟨_, _, rfl⟩ ⟨_, _, rfl⟩ ⟨_, _, rfl⟩ ⟨_, _, rfl⟩
  (by norm_num [Flt.val]) (by norm_num [Flt.val])

/-- C98: when either magnitude is zero (of either sign) the product is `(0, 0)`, whatever the rest is: even a NaN or infinite
magnitude or angle. -/
theorem C98_mul_zero (p q : Polar (Flt f)) (h : (∃ s, p.mag = .fin s 0) ∨ ∃ s, q.mag = .fin s 0) :
    Returns (p.mul q) ⟨.fin false 0, .fin false 0⟩ := by
  refine .of_eq ?_
  show ops.mulPolar p q = _
  unfold ops.mulPolar
  rw [lit_zero_flt, pure_bind]
  have e : (MixedCmp.beq p.mag (.fin false 0 : Flt f) || MixedCmp.beq q.mag (.fin false 0 : Flt f)) = true := by
    have key : ∀ s, (Flt.fin s 0 : Flt f).beq (.fin false 0) = true := by
      intro s; rw [beq_zero_flt ⟨_, _, rfl⟩]; cases s <;> simp [Flt.val]
    rcases h with ⟨s, h⟩ | ⟨s, h⟩
    · rw [h, Bool.or_eq_true]; exact .inl (key s)
    · rw [h, Bool.or_eq_true]; exact .inr (key s)
  rw [e]; rfl

example := C98_mul_zero (f := F32) ⟨.fin true 0, .fin true (1 / 2)⟩ ⟨.inf true, .nan⟩ (.inl ⟨_, rfl⟩)

/-- C98: scaling by a real number rounds the magnitude once and keeps the angle; dividing by zero of either sign gives the largest
finite magnitude. -/
theorem C98_scalar (hf : f.Wide) (p : Polar (Flt f)) (t : Flt f) (h1 : p.mag.IsFinite) (ht : t.IsFinite) :
    (∃ c, Returns (p.mulScalar t) c ∧ RoundsTo c.mag (p.mag.val * t.val) ∧ c.ang = p.ang) ∧
    (t.val ≠ 0 → ∃ c, Returns (p.divScalar t) c ∧ RoundsTo c.mag (p.mag.val / t.val) ∧ c.ang = p.ang) ∧
    (t.val = 0 → ∃ c, Returns (p.divScalar t) c ∧ c.ang = p.ang ∧ c.mag.IsFinite ∧ Representable f c.mag.val ∧
      ∀ b, Representable f b → b ≤ c.mag.val) := by
  refine ⟨⟨_, .of_eq rfl, mul_rounds hf h1 ht, rfl⟩, fun hn => ⟨⟨p.mag.div t, p.ang⟩, .of_eq ?_, div_rounds hf h1 ht hn, rfl⟩,
    fun hz => ⟨⟨.fin false (2 ^ f.emax - pow2 (f.emax - f.p)), p.ang⟩, .of_eq ?_, rfl, ⟨_, _, rfl⟩, ?_, ?_⟩⟩
  · unfold Polar.divScalar
    have e : MixedCmp.beq t (MixedZero.zero : Flt f) = false := by
      show t.beq (.fin false 0) = _; rw [beq_zero_flt ht, decide_eq_false hn]
    rw [e]; rfl
  · unfold Polar.divScalar
    have e : MixedCmp.beq t (MixedZero.zero : Flt f) = true := by
      show t.beq (.fin false 0) = _; rw [beq_zero_flt ht, decide_eq_true hz]
    rw [e]; rfl
  · obtain ⟨n, e, a, b, c⟩ := maxFin_rep hf
    show Representable f (2 ^ f.emax - pow2 (f.emax - f.p))
    rw [pow2_eq]
    refine ⟨n, e, b, a, c, ?_⟩
    have h1 := two_zpow_pos ((f.emax : ℤ) - f.p)
    have h2 : (2:ℚ) ^ ((f.emax : ℤ) - f.p) ≤ 2 ^ (f.emax : ℤ) := two_zpow_le (by omega)
    rw [zpow_natCast] at h2
    rw [abs_lt]; constructor <;> linarith [show (0:ℚ) < 2 ^ f.emax by positivity]
  · intro b hb
    obtain ⟨_, _, _, _, _, h⟩ := id hb
    exact Flt.mag_le_max hb.rep (lt_of_abs_lt h)

example := C98_scalar wide_F32 ⟨.fin false 3, .inf true⟩ (.fin true 5) ⟨_, _, rfl⟩ ⟨_, _, rfl⟩

/-- C98: conjugation negates the angle exactly and keeps the magnitude. -/
theorem C98_conj (p : Polar (Flt f)) : Returns p.conj ⟨p.mag, p.ang.neg⟩ := .of_eq rfl

theorem product_error {x y a b A B S R U H M E : ℝ} (hU : 0 ≤ U) (hU' : U ≤ 1 / 2 ^ 24) (hH : 0 ≤ H) (hM : 0 ≤ M)
    (ha : |a - A| ≤ M * E + H) (hb : |b - B| ≤ M * E + H) (hS : S ≤ (|x| + |y|) * (2 * M + H))
    (hR : R ≤ (2 * U + U ^ 2) * S + 2 * H) :
    R + (|x * (a - A)| + |y * (b - B)|) ≤ (|x| + |y|) * (M * (E + 5 * U) + 2 * H) + 2 * H := by
  rw [abs_mul, abs_mul]
  have h1 := mul_le_mul_of_nonneg_left ha (abs_nonneg x)
  have h2 := mul_le_mul_of_nonneg_left hb (abs_nonneg y)
  have hx := abs_nonneg x; have hy := abs_nonneg y
  generalize |x| = X at *
  generalize |y| = Y at *
  have h3 : (2 * U + U ^ 2) * S ≤ (2 * U + U ^ 2) * ((X + Y) * (2 * M + H)) := mul_le_mul_of_nonneg_left hS (by positivity)
  have h4 : (2 * U + U ^ 2) * (2 * M + H) ≤ 5 * U * M + H := by
    have hUM := mul_nonneg hU hM
    have a1 : U * M * U ≤ U * M * (1 / 2 ^ 24) := mul_le_mul_of_nonneg_left hU' hUM
    have a3 : U ^ 2 ≤ U * (1 / 2 ^ 24) := by rw [pow_two]; exact mul_le_mul_of_nonneg_left hU' hU
    have a2 : (2 * U + U ^ 2) * H ≤ 1 * H := mul_le_mul_of_nonneg_right (by linarith) hH
    have e : (2 * U + U ^ 2) * (2 * M + H) = 4 * (U * M) + 2 * (U * M * U) + (2 * U + U ^ 2) * H := by ring
    rw [e]; norm_num at a1 ⊢; linarith
  have h5 := mul_le_mul_of_nonneg_left h4 (add_nonneg hx hy)
  have e : (X + Y) * (M * (E + 5 * U) + 2 * H) = X * (M * E + H) + Y * (M * E + H) + (X + Y) * (5 * U * M + H) := by ring
  have e' : (2 * U + U ^ 2) * ((X + Y) * (2 * M + H)) = (X + Y) * ((2 * U + U ^ 2) * (2 * M + H)) := by ring
  rw [e]; linarith

/-- C98: a Cartesian number times a polar one. `E` is the relative error of `to_cartesian` by C86. -/
theorem C98_mul_polar [MixedSinCos (Flt f)] {ε : ℝ} (hf : f.Wide) (h60 : f.p ≤ 60) (hs : SinCosWithin f ε) (hε : 0 ≤ ε)
    (z : Cartesian (Flt f)) (q : Polar (Flt f)) (f1 : z.re.IsFinite) (f2 : z.im.IsFinite) (f3 : q.mag.IsFinite)
    (f4 : q.ang.IsFinite) (v1 : z.re.Valid) (v2 : z.im.Valid) (v3 : q.mag.Valid) (v4 : q.ang.Valid) (E : ℝ)
    (hE : E = ε + ((|(q.ang.val : ℝ)| + 4) ^ 2 / 6 + 2) / 2 ^ f.p) (hE1 : E ≤ 1)
    (ha : |(q.ang.val : ℝ)| ≤ 2 ^ f.p / 10) (hm : 4 * |q.mag.val| ≤ 2 ^ f.emax)
    (hp : 4 * ((|z.re.val| + |z.im.val|) * (|q.mag.val| + 2 ^ f.emin)) ≤ 2 ^ f.emax) :
    ∃ c : Cartesian (Flt f), Returns (z.mulPolar q) c ∧ Returns (z.mulAssignPolar q) c ∧
      (c.re.Valid ∧ c.re.IsFinite) ∧ (c.im.Valid ∧ c.im.IsFinite) ∧
      |(c.re.val : ℝ) - (z.re.val * (q.mag.val * Real.cos q.ang.val) - z.im.val * (q.mag.val * Real.sin q.ang.val))| ≤
        (|(z.re.val : ℝ)| + |(z.im.val : ℝ)|) * (|(q.mag.val : ℝ)| * (E + 5 / 2 ^ f.p) + 2 * 2 ^ f.emin) + 2 * 2 ^ f.emin ∧
      |(c.im.val : ℝ) - (z.re.val * (q.mag.val * Real.sin q.ang.val) + z.im.val * (q.mag.val * Real.cos q.ang.val))| ≤
        (|(z.re.val : ℝ)| + |(z.im.val : ℝ)|) * (|(q.mag.val : ℝ)| * (E + 5 / 2 ^ f.p) + 2 * 2 ^ f.emin) + 2 * 2 ^ f.emin := by
  have hp24 := hf.p
  obtain ⟨w, w1, ⟨w2, w3⟩, ⟨w4, w5⟩, w6, w7⟩ := C86_accuracy hf h60 hs
    (le_trans (by rw [hE]; have : (0:ℝ) ≤ ((|(q.ang.val : ℝ)| + 4) ^ 2 / 6 + 2) / 2 ^ f.p := by positivity
                  linarith) hE1) q f3 f4 v3 v4 ha hm
  rw [← hE] at w6 w7
  have hE0 : 0 ≤ E := by rw [hE]; positivity
  have i1 : Is z.re z.re.val := by obtain ⟨_, _, e⟩ := f1; rw [e]; rw [e] at v1; exact is_of_valid v1
  have i2 : Is z.im z.im.val := by obtain ⟨_, _, e⟩ := f2; rw [e]; rw [e] at v2; exact is_of_valid v2
  have i3 : Is w.re w.re.val := by obtain ⟨_, _, e⟩ := w3; rw [e]; rw [e] at w2; exact is_of_valid w2
  have i4 : Is w.im w.im.val := by obtain ⟨_, _, e⟩ := w5; rw [e]; rw [e] at w4; exact is_of_valid w4
  have hη : (0:ℝ) < 2 ^ f.emin := zpow_pos (by norm_num) _
  have hU : (0:ℝ) < 1 / 2 ^ f.p := by positivity
  have hU' : (1:ℝ) / 2 ^ f.p ≤ 1 / 2 ^ 24 := by
    apply one_div_le_one_div_of_le (by norm_num); exact pow_le_pow_right₀ (by norm_num) hp24
  have hc1 := Real.abs_cos_le_one (q.ang.val : ℝ); have hs1 := Real.abs_sin_le_one (q.ang.val : ℝ)
  have hpR : 4 * ((|(z.re.val : ℝ)| + |(z.im.val : ℝ)|) * (|(q.mag.val : ℝ)| + 2 ^ f.emin)) ≤ 2 ^ f.emax := by
    have h8 : ((4 * ((|z.re.val| + |z.im.val|) * (|q.mag.val| + 2 ^ f.emin)) : ℚ) : ℝ) ≤ ((2 ^ f.emax : ℚ) : ℝ) := Rat.cast_le.mpr hp
    push_cast at h8; exact h8
  have e5 : (5:ℝ) / 2 ^ f.p = 5 * (1 / 2 ^ f.p) := by ring
  have ecoef : (2:ℝ) / 2 ^ f.p + 1 / 2 ^ (2 * f.p) = 2 * (1 / 2 ^ f.p) + (1 / 2 ^ f.p) ^ 2 := by
    rw [div_pow, one_pow, ← pow_mul, mul_comm f.p 2]; ring
  rw [e5]
  -- sizes of the parts of `w`
  have size : ∀ a T : ℝ, |T| ≤ 1 → |a - q.mag.val * T| ≤ |(q.mag.val : ℝ)| * E + 2 ^ f.emin →
      |a| ≤ 2 * |(q.mag.val : ℝ)| + 2 ^ f.emin := by
    intro a T hT h
    have h1 := abs_sub_abs_le_abs_sub a (q.mag.val * T)
    rw [abs_mul] at h1
    have h2 : |(q.mag.val : ℝ)| * |T| ≤ |(q.mag.val : ℝ)| * 1 := mul_le_mul_of_nonneg_left hT (abs_nonneg _)
    have h3 : |(q.mag.val : ℝ)| * E ≤ |(q.mag.val : ℝ)| * 1 := mul_le_mul_of_nonneg_left hE1 (abs_nonneg _)
    linarith
  have s1 := size _ _ hc1 w6
  have s2 := size _ _ hs1 w7
  -- one part of the product
  have key : ∀ (X Y A B : ℝ), |X| ≤ 2 * |(q.mag.val : ℝ)| + 2 ^ f.emin → |Y| ≤ 2 * |(q.mag.val : ℝ)| + 2 ^ f.emin →
      |z.re.val * X| + |z.im.val * Y| ≤ (|(z.re.val : ℝ)| + |(z.im.val : ℝ)|) * (2 * |(q.mag.val : ℝ)| + 2 ^ f.emin) := by
    intro X Y _ _ hX hY
    rw [abs_mul, abs_mul, add_mul]
    exact add_le_add (mul_le_mul_of_nonneg_left hX (abs_nonneg _)) (mul_le_mul_of_nonneg_left hY (abs_nonneg _))
  have k1 := key _ _ 0 0 s1 s2
  have k2 := key _ _ 0 0 s2 s1
  have n0 : 0 ≤ |(z.re.val : ℝ)| + |(z.im.val : ℝ)| := by positivity
  have m0 := abs_nonneg (q.mag.val : ℝ)
  have over : ∀ S : ℝ, S ≤ (|(z.re.val : ℝ)| + |(z.im.val : ℝ)|) * (2 * |(q.mag.val : ℝ)| + 2 ^ f.emin) → 2 * S ≤ 2 ^ f.emax := by
    intro S hS; nlinarith
  have o1 : 2 * (|z.re.val * w.re.val| + |z.im.val * w.im.val|) ≤ 2 ^ f.emax := by
    have := over _ k1; exact_mod_cast this
  have o2 : 2 * (|z.re.val * w.im.val| + |z.im.val * w.re.val|) ≤ 2 ^ f.emax := by
    have := over _ k2; exact_mod_cast this
  obtain ⟨-, r, r1, r2⟩ := two_products hf i1 i3 i2 i4 o1
  obtain ⟨⟨r', r3, r4⟩, -⟩ := two_products hf i1 i4 i2 i3 o2
  have r2' : |(r:ℝ) - (z.re.val * w.re.val - z.im.val * w.im.val)| ≤
      (2 * (1 / 2 ^ f.p) + (1 / 2 ^ f.p) ^ 2) * (|(z.re.val : ℝ) * w.re.val| + |(z.im.val : ℝ) * w.im.val|) + 2 * 2 ^ f.emin := by
    have h8 := Rat.cast_le (K := ℝ).mpr r2
    push_cast at h8; rw [ecoef] at h8; exact h8
  have r4' : |(r':ℝ) - (z.re.val * w.im.val + z.im.val * w.re.val)| ≤
      (2 * (1 / 2 ^ f.p) + (1 / 2 ^ f.p) ^ 2) * (|(z.re.val : ℝ) * w.im.val| + |(z.im.val : ℝ) * w.re.val|) + 2 * 2 ^ f.emin := by
    have h8 := Rat.cast_le (K := ℝ).mpr r4
    push_cast at h8; rw [ecoef] at h8; exact h8
  have hret : Returns (z.mulPolar q) ⟨(z.re.mul w.re).sub (z.im.mul w.im), (z.re.mul w.im).add (z.im.mul w.re)⟩ :=
    w1.bind (.of_eq rfl)
  have hret' : Returns (z.mulAssignPolar q) ⟨(z.re.mul w.re).sub (z.im.mul w.im), (z.re.mul w.im).add (z.im.mul w.re)⟩ :=
    w1.bind (.of_eq rfl)
  refine ⟨_, hret, hret', ⟨r1.valid, r1.fin⟩, ⟨r3.valid, r3.fin⟩, ?_, ?_⟩
  · show |((((z.re.mul w.re).sub (z.im.mul w.im)).val : ℚ) : ℝ) - _| ≤ _
    rw [r1.val]
    refine le_trans ?_ (product_error hU.le hU' hη.le (abs_nonneg _) w6 w7 k1 r2')
    refine le_trans (le_of_eq ?_) ((abs_add_le _ _).trans (add_le_add le_rfl (abs_sub _ _)))
    congr 1; ring
  · show |((((z.re.mul w.im).add (z.im.mul w.re)).val : ℚ) : ℝ) - _| ≤ _
    rw [r3.val]
    refine le_trans ?_ (product_error hU.le hU' hη.le (abs_nonneg _) w7 w6 k2 r4')
    refine le_trans (le_of_eq ?_) ((abs_add_le _ _).trans (add_le_add le_rfl (abs_add_le _ _)))
    congr 1; ring

example [MixedSinCos (Flt F32)] (hs : SinCosWithin F32 (1 / 2 ^ 23)) := C98_mul_polar Flt.wide_F32 (by decide) hs (by norm_num) ⟨.fin false 3, .fin true 1⟩
  ⟨.fin false 2, .fin true 10⟩ ⟨_, _, rfl⟩ ⟨_, _, rfl⟩ ⟨_, _, rfl⟩ ⟨_, _, rfl⟩ (by is_float 3 0) (by is_float 1 0) (by is_float 2 0) (by is_float 10 0) _ rfl
  (by norm_num [Flt.val, F32]) (by norm_num [Flt.val, F32]) (by norm_num [Flt.val, F32]) (by norm_num [Flt.val, F32])

/-- C98: a polar number times a Cartesian one: magnitudes multiply and angles add, up to the errors of the external root and
arctangent and a few roundings. -/
theorem C98_mul_cartesian [MixedSqrt (Flt f)] [MixedAtan (Flt f)] {σ δ : ℝ} (hf : f.Wide) (hs : SqrtWithin f σ) (hσ : 0 ≤ σ)
    (hσ' : σ ≤ 1 / 100) (ha : AtanWithin f δ) (hδ' : δ ≤ 1 / 100) (q : Polar (Flt f)) (z : Cartesian (Flt f))
    (f1 : z.re.IsFinite) (f2 : z.im.IsFinite) (f3 : q.mag.IsFinite) (f4 : q.ang.IsFinite) (v1 : z.re.Valid) (v2 : z.im.Valid)
    (v3 : q.mag.Valid) (v4 : q.ang.Valid) (hq : q.mag.val ≠ 0)
    (hlo : (2:ℚ) ^ (f.emin + f.p) ≤ max (z.re.val ^ 2) (z.im.val ^ 2)) (hhi : 2 * (z.re.val ^ 2 + z.im.val ^ 2) ≤ 2 ^ f.emax)
    (hm : 2 * (|(q.mag.val : ℝ)| * √((z.re.val : ℝ) ^ 2 + (z.im.val : ℝ) ^ 2)) ≤ 2 ^ f.emax)
    (hang : 2 * |q.ang.val| ≤ 2 ^ f.emax) :
    ∃ c : Polar (Flt f), Returns (q.mulCartesian z) c ∧ (c.mag.Valid ∧ c.mag.IsFinite) ∧ (c.ang.Valid ∧ c.ang.IsFinite) ∧
      |(c.mag.val : ℝ) - q.mag.val * √((z.re.val : ℝ) ^ 2 + (z.im.val : ℝ) ^ 2)| ≤
        (4 / 2 ^ f.p + 51 / 50 * σ) * (|(q.mag.val : ℝ)| * √((z.re.val : ℝ) ^ 2 + (z.im.val : ℝ) ^ 2)) + 2 ^ f.emin ∧
      |(c.ang.val : ℝ) - (q.ang.val + Complex.arg ⟨z.re.val, z.im.val⟩)| ≤
        δ + (|(q.ang.val : ℝ)| + 4) / 2 ^ f.p + 2 ^ f.emin := by
  have hp := hf.p; have hmin := hf.emin; have hmax := hf.emax
  obtain ⟨v, m1, m2, m3, m4⟩ := C84_accuracy hf hs hσ z f1 f2 v1 v2 hlo hhi
  have hS : (0:ℚ) < z.re.val ^ 2 + z.im.val ^ 2 := by
    have := two_zpow_pos (f.emin + f.p)
    have hm : max (z.re.val ^ 2) (z.im.val ^ 2) ≤ z.re.val ^ 2 + z.im.val ^ 2 :=
      max_le (by nlinarith [sq_nonneg z.im.val]) (by nlinarith [sq_nonneg z.re.val])
    linarith
  have hN : 0 < √((z.re.val : ℝ) ^ 2 + (z.im.val : ℝ) ^ 2) := Real.sqrt_pos.mpr (by exact_mod_cast hS)
  have hz : z.re.val ≠ 0 ∨ z.im.val ≠ 0 := by
    by_contra h
    rw [not_or, not_not, not_not] at h
    rw [h.1, h.2] at hS; norm_num at hS
  obtain ⟨a, a1, a2, a3, a4⟩ := ha _ _ v2 v1 f2 f1 hz
  set N := √((z.re.val : ℝ) ^ 2 + (z.im.val : ℝ) ^ 2)
  have hη : (0:ℝ) < 2 ^ f.emin := zpow_pos (by norm_num) _
  have hη1 : (2:ℝ) ^ f.emin ≤ 1 := zpow_le_one_of_nonpos₀ (by norm_num) (by omega)
  have hU : (0:ℝ) < 1 / 2 ^ f.p := by positivity
  have hU' : (1:ℝ) / 2 ^ f.p ≤ 1 / 2 ^ 24 := by
    apply one_div_le_one_div_of_le (by norm_num); exact pow_le_pow_right₀ (by norm_num) hp
  have hbig : (1024:ℝ) ≤ 2 ^ f.emax := by
    calc (1024:ℝ) = 2 ^ 10 := by norm_num
      _ ≤ _ := pow_le_pow_right₀ (by norm_num) (by omega)
  have e21 : (21:ℝ) / 10 / 2 ^ f.p = 21 / 10 * (1 / 2 ^ f.p) := by ring
  have e4 : (4:ℝ) / 2 ^ f.p = 4 * (1 / 2 ^ f.p) := by ring
  have eA : (|(q.ang.val : ℝ)| + 4) / 2 ^ f.p = (|(q.ang.val : ℝ)| + 4) * (1 / 2 ^ f.p) := by ring
  rw [e21] at m4
  rw [e4, eA]
  have hr : ∀ t : ℚ, |((rnd f.p f.emin t : ℚ) : ℝ) - t| ≤ |(t:ℝ)| * (1 / 2 ^ f.p) + 2 ^ f.emin / 2 := by
    intro t
    have h8 := Rat.cast_le (K := ℝ).mpr (abs_rnd_le (p := f.p) (emin := f.emin) t)
    push_cast at h8; rw [zpow_neg, zpow_natCast, ← one_div] at h8; exact h8
  generalize (1:ℝ) / 2 ^ f.p = U at *
  generalize (2:ℝ) ^ f.emin = H at *
  have hc : 21 / 10 * U + 101 / 100 * σ ≤ 1 / 50 := by norm_num at *; linarith
  have m5 : |(v.val : ℝ) - N| ≤ 1 / 50 * N := m4.trans (mul_le_mul_of_nonneg_right hc hN.le)
  have hv0 : v.val ≠ 0 := by
    intro h; rw [h] at m5; norm_num at m5; rw [abs_of_pos hN] at m5; linarith
  have iv : Is v v.val := by obtain ⟨_, _, e⟩ := m3; rw [e]; rw [e] at m2; exact is_of_valid m2
  have ia : Is a a.val := by obtain ⟨_, _, e⟩ := a3; rw [e]; rw [e] at a2; exact is_of_valid a2
  have iq : Is q.mag q.mag.val := by obtain ⟨_, _, e⟩ := f3; rw [e]; rw [e] at v3; exact is_of_valid v3
  have ix : Is q.ang q.ang.val := by obtain ⟨_, _, e⟩ := f4; rw [e]; rw [e] at v4; exact is_of_valid v4
  have hpol : Returns (ops.toPolar z) ⟨v, a⟩ := by
    have m1' : Returns (ops.abs z) v := m1
    exact m1'.bind (a1.bind (.of_eq rfl))
  have hmul : ops.mulPolar q ⟨v, a⟩ = pure ⟨q.mag.mul v, q.ang.add a⟩ := by
    unfold ops.mulPolar
    rw [lit_zero_flt, pure_bind]
    have e1 : MixedCmp.beq q.mag (.fin false 0 : Flt f) = false := by
      show q.mag.beq _ = _; rw [beq_zero_flt f3, decide_eq_false hq]
    have e2 : MixedCmp.beq v (.fin false 0 : Flt f) = false := by
      show v.beq _ = _; rw [beq_zero_flt m3, decide_eq_false hv0]
    show (if (MixedCmp.beq q.mag (.fin false 0 : Flt f) || MixedCmp.beq v (.fin false 0 : Flt f)) = true then _ else _) = _
    rw [e1, e2]; rfl
  -- the magnitude
  have q0 := abs_nonneg (q.mag.val : ℝ)
  have hMN : 0 ≤ |(q.mag.val : ℝ)| * N := mul_nonneg q0 hN.le
  have p1 : |(q.mag.val : ℝ) * v.val - q.mag.val * N| ≤ (21 / 10 * U + 101 / 100 * σ) * (|(q.mag.val : ℝ)| * N) := by
    rw [← mul_sub, abs_mul]
    have := mul_le_mul_of_nonneg_left m4 q0
    linarith
  have p2 : |(q.mag.val : ℝ) * v.val| ≤ 51 / 50 * (|(q.mag.val : ℝ)| * N) := by
    have h1 := abs_sub_abs_le_abs_sub ((q.mag.val : ℝ) * v.val) (q.mag.val * N)
    have h2 := mul_le_mul_of_nonneg_right hc hMN
    have e : |(q.mag.val : ℝ) * N| = |(q.mag.val : ℝ)| * N := by rw [abs_mul, abs_of_pos hN]
    linarith
  have p3 := hr (q.mag.val * v.val)
  rw [Rat.cast_mul] at p3
  have p4 : |(q.mag.val : ℝ) * v.val| * U ≤ 51 / 50 * (|(q.mag.val : ℝ)| * N) * U := mul_le_mul_of_nonneg_right p2 hU.le
  have p5 : |(q.mag.val : ℝ)| * N * U ≤ |(q.mag.val : ℝ)| * N * (1 / 2 ^ 24) := mul_le_mul_of_nonneg_left hU' hMN
  have p6 := abs_sub_le ((rnd f.p f.emin (q.mag.val * v.val) : ℚ) : ℝ) (q.mag.val * v.val) (q.mag.val * N)
  have hlt1 : |rnd f.p f.emin (q.mag.val * v.val)| < 2 ^ f.emax := by
    have h1 := abs_sub_abs_le_abs_sub ((rnd f.p f.emin (q.mag.val * v.val) : ℚ) : ℝ) (q.mag.val * v.val)
    have : |((rnd f.p f.emin (q.mag.val * v.val) : ℚ) : ℝ)| < 2 ^ f.emax := by norm_num at p5; linarith
    exact_mod_cast this
  have im := iq.mul hf.one_le iv hlt1
  -- the angle
  have g1 := Complex.abs_arg_le_pi ⟨z.re.val, z.im.val⟩
  have g2 := Real.pi_lt_d2
  have g3 : |(a.val : ℝ)| ≤ 16 / 5 := by
    have := abs_sub_abs_le_abs_sub (a.val : ℝ) (Complex.arg ⟨z.re.val, z.im.val⟩)
    norm_num at g2; linarith
  have g4 := hr (q.ang.val + a.val)
  rw [Rat.cast_add] at g4
  have g5 := abs_add_le (q.ang.val : ℝ) a.val
  have g6 : |(q.ang.val : ℝ) + a.val| * U ≤ (|(q.ang.val : ℝ)| + 4) * U := mul_le_mul_of_nonneg_right (by linarith) hU.le
  have g7 : (|(q.ang.val : ℝ)| + 4) * U ≤ (|(q.ang.val : ℝ)| + 4) * (1 / 2 ^ 24) :=
    mul_le_mul_of_nonneg_left hU' (by positivity)
  have hangR : 2 * |(q.ang.val : ℝ)| ≤ 2 ^ f.emax := by exact_mod_cast hang
  have hlt2 : |rnd f.p f.emin (q.ang.val + a.val)| < 2 ^ f.emax := by
    have h1 := abs_sub_abs_le_abs_sub ((rnd f.p f.emin (q.ang.val + a.val) : ℚ) : ℝ) (q.ang.val + a.val)
    have : |((rnd f.p f.emin (q.ang.val + a.val) : ℚ) : ℝ)| < 2 ^ f.emax := by norm_num at g7; linarith
    exact_mod_cast this
  have iA := ix.add hf.one_le ia hlt2
  refine ⟨_, hpol.bind (.of_eq hmul), ⟨im.valid, im.fin⟩, ⟨iA.valid, iA.fin⟩, ?_, ?_⟩
  · show |(((q.mag.mul v).val : ℚ) : ℝ) - _| ≤ _
    rw [im.val]
    have hs0 := mul_nonneg hσ hMN
    have hu0 := mul_nonneg hU.le hMN
    have e1 : (4 * U + 51 / 50 * σ) * (|(q.mag.val : ℝ)| * N) = 4 * (U * (|(q.mag.val : ℝ)| * N)) +
      51 / 50 * (σ * (|(q.mag.val : ℝ)| * N)) := by ring
    have e2 : (21 / 10 * U + 101 / 100 * σ) * (|(q.mag.val : ℝ)| * N) = 21 / 10 * (U * (|(q.mag.val : ℝ)| * N)) +
      101 / 100 * (σ * (|(q.mag.val : ℝ)| * N)) := by ring
    rw [e1]; rw [e2] at p1
    linarith
  · show |(((q.ang.add a).val : ℚ) : ℝ) - _| ≤ _
    rw [iA.val]
    have h1 := abs_sub_le ((rnd f.p f.emin (q.ang.val + a.val) : ℚ) : ℝ) (q.ang.val + a.val)
      (q.ang.val + Complex.arg ⟨z.re.val, z.im.val⟩)
    rw [add_sub_add_left_eq_sub] at h1
    linarith

/-- The product of 2 at angle 1/2 and 1 + i meets the hypotheses of C98 that do not concern the external functions. -/
example : ∃ (q : Polar (Flt F32)) (z : Cartesian (Flt F32)), q.mag.val ≠ 0 ∧ q.mag.Valid ∧ z.re.Valid ∧
    (2:ℚ) ^ (F32.emin + F32.p) ≤ max (z.re.val ^ 2) (z.im.val ^ 2) ∧ 2 * (z.re.val ^ 2 + z.im.val ^ 2) ≤ 2 ^ F32.emax := by
  refine ⟨⟨.fin false 2, .fin false (1 / 2)⟩, ⟨.fin false 1, .fin false 1⟩, by norm_num [Flt.val],
    ⟨2, 0, by decide, by decide, by norm_num [pow2], by norm_num [F32]⟩,
    ⟨1, 0, by decide, by decide, by norm_num [pow2], by norm_num [F32]⟩, ?_, by norm_num [Flt.val, F32]⟩
  norm_num [Flt.val]

end MixedNum
