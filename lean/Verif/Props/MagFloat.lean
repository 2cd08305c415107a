import Verif.Props.ComplexFloat
import Verif.Props.AtanFloat
import Verif.Props.SqrtFloat
import Verif.Props.AddSub
import Verif.Lemmas.Run
import Verif.Lemmas.Case
/-! # C84, C85: magnitude of a complex number on floats -/

namespace MixedNum
variable {f : Format}
open Flt

/-! ## C84 -/

theorem uq_real : ((uq f : ℚ) : ℝ) = 1 / 2 ^ f.p := by unfold uq; push_cast; rw [zpow_neg, zpow_natCast, one_div]

/-- The sum of the two squares as computed. -/
theorem sq_sum_flt (hf : f.Wide) {x y : Flt f} {a b : ℚ} (hx : Is x a) (hy : Is y b)
    (hlo : (2:ℚ) ^ (f.emin + f.p) ≤ max (a ^ 2) (b ^ 2)) (hhi : 2 * (a ^ 2 + b ^ 2) ≤ 2 ^ f.emax) :
    ∃ q, Is ((x.mul x).add (y.mul y)) q ∧ |q - (a ^ 2 + b ^ 2)| ≤ (4 * uq f + uq f ^ 2) * (a ^ 2 + b ^ 2) ∧ 0 < a ^ 2 + b ^ 2 := by
  have e1 : uq f = 1 / 2 ^ f.p := by unfold uq; rw [zpow_neg, zpow_natCast, one_div]
  have e2 : (2:ℚ) / 2 ^ f.p + 1 / 2 ^ (2 * f.p) = 2 * uq f + uq f ^ 2 := by
    rw [e1, div_pow, one_pow, ← pow_mul, mul_comm f.p 2]; ring
  have na := abs_of_nonneg (mul_self_nonneg a); have nb := abs_of_nonneg (mul_self_nonneg b)
  obtain ⟨⟨q, h1, h2⟩, -⟩ := two_products hf hx hx hy hy (by rw [na, nb]; nlinarith)
  rw [e2, na, nb] at h2
  have hm : max (a ^ 2) (b ^ 2) ≤ a ^ 2 + b ^ 2 := max_le (by nlinarith [sq_nonneg b]) (by nlinarith [sq_nonneg a])
  have h3 : (2:ℚ) ^ f.emin ≤ uq f * (a ^ 2 + b ^ 2) := by
    have : (2:ℚ) ^ f.emin = uq f * 2 ^ (f.emin + f.p) := by
      unfold uq; rw [← zpow_add₀ (by norm_num)]; congr 1; ring
    rw [this]; exact mul_le_mul_of_nonneg_left (hlo.trans hm) uq_pos.le
  have h0 := two_zpow_pos (f.emin + f.p)
  refine ⟨q, h1, ?_, by linarith⟩
  rw [← sq, ← sq] at h2
  linarith

/-- The root moves by half the relative error of its argument. -/
theorem sqrt_rel {q S u : ℝ} (hq : 0 ≤ q) (hS : 0 < S) (hu : 0 < u) (hu' : u ≤ 1 / 10 ^ 6) (h : |q - S| ≤ (4 * u + u ^ 2) * S) :
    |√q - √S| ≤ 21 / 10 * u * √S := by
  have hs := Real.sqrt_pos.mpr hS
  have ht := Real.sqrt_nonneg q
  have es := Real.sq_sqrt hS.le; have et := Real.sq_sqrt hq
  set s := √S; set t := √q
  have h1 : |t - s| * (t + s) ≤ (4 * u + u ^ 2) * s ^ 2 := by
    rw [← abs_of_nonneg (by linarith : 0 ≤ t + s), ← abs_mul]
    calc |(t - s) * (t + s)| = |q - S| := by rw [← es, ← et]; ring_nf
      _ ≤ _ := by rw [es]; exact h
  have n := abs_nonneg (t - s)
  have h2 : |t - s| ≤ 5 * u * s := by
    by_contra hc
    push Not at hc
    have : 5 * u * s * s < |t - s| * (t + s) := by nlinarith
    nlinarith [mul_pos hu hu, mul_pos hu (mul_pos hs hs)]
  have h3 : (2 - 5 * u) * s ≤ t + s := by have := (abs_le.mp h2).1; linarith
  by_contra hc
  push Not at hc
  have h4 : 21 / 10 * u * s * ((2 - 5 * u) * s) < |t - s| * (t + s) :=
    mul_lt_mul hc h3 (by nlinarith) n
  have h5 : 0 < u * (s * s) := by positivity
  nlinarith [mul_pos h5 hu]

/-- C84: for finite parts whose squares stay in range, the larger in the normal range, the magnitude is accurate. -/
theorem C84_accuracy [MixedSqrt (Flt f)] {ε : ℝ} (hf : f.Wide) (hs : SqrtWithin f ε) (hε : 0 ≤ ε) (z : Cartesian (Flt f))
    (h1 : z.re.IsFinite) (h2 : z.im.IsFinite) (v1 : z.re.Valid) (v2 : z.im.Valid)
    (hlo : (2:ℚ) ^ (f.emin + f.p) ≤ max (z.re.val ^ 2) (z.im.val ^ 2)) (hhi : 2 * (z.re.val ^ 2 + z.im.val ^ 2) ≤ 2 ^ f.emax) :
    ∃ v : Flt f, Returns z.mag v ∧ v.Valid ∧ v.IsFinite ∧
      |(v.val : ℝ) - √((z.re.val : ℝ) ^ 2 + (z.im.val : ℝ) ^ 2)| ≤
        (21 / 10 / 2 ^ f.p + 101 / 100 * ε) * √((z.re.val : ℝ) ^ 2 + (z.im.val : ℝ) ^ 2) := by
  obtain ⟨x, y⟩ := z
  obtain ⟨_, _, rfl⟩ := h1; obtain ⟨_, _, rfl⟩ := h2
  have hu := uq_pos (f := f); have hu' := uq_le hf
  obtain ⟨q, hq, he, hp⟩ := sq_sum_flt hf (is_of_valid v1) (is_of_valid v2) hlo hhi
  have q0 : 0 ≤ q := by
    have h5 : 4 * uq f + uq f ^ 2 ≤ 1 := by nlinarith
    have := (abs_le.mp he).1
    have := mul_le_mul_of_nonneg_right h5 hp.le
    linarith
  obtain ⟨v, g1, g2, g3, g4⟩ := hs _ hq.valid hq.fin (by rw [hq.val]; exact q0)
  rw [hq.val] at g4
  refine ⟨v, g1, g2, g3, ?_⟩
  generalize (Flt.fin _ _ : Flt f).val = a at *
  generalize (Flt.fin _ _ : Flt f).val = b at *
  have he' : |(q:ℝ) - ((a:ℝ) ^ 2 + (b:ℝ) ^ 2)| ≤ (4 * (uq f : ℝ) + (uq f : ℝ) ^ 2) * ((a:ℝ) ^ 2 + (b:ℝ) ^ 2) := by exact_mod_cast he
  have u0 : (0:ℝ) < (uq f : ℝ) := by exact_mod_cast hu
  have u1 : ((uq f : ℚ) : ℝ) ≤ 1 / 10 ^ 6 := by
    have : ((uq f : ℚ) : ℝ) ≤ ((1 / 10 ^ 7 : ℚ) : ℝ) := by exact_mod_cast hu'
    push_cast at this; norm_num at this ⊢; linarith
  have key := sqrt_rel (by exact_mod_cast q0) (by exact_mod_cast hp) u0 u1 he'
  have hS := Real.sqrt_nonneg ((a:ℝ) ^ 2 + (b:ℝ) ^ 2)
  rw [show (21:ℝ) / 10 / 2 ^ f.p = 21 / 10 * (uq f : ℝ) by rw [uq_real]; ring]
  set s := √((a:ℝ) ^ 2 + (b:ℝ) ^ 2)
  have k2 := (abs_le.mp key).2
  have h5 : √(q:ℝ) ≤ 101 / 100 * s := by nlinarith
  have h6 : ε * √(q:ℝ) ≤ ε * (101 / 100 * s) := mul_le_mul_of_nonneg_left h5 hε
  have h7 := abs_sub_le (v.val:ℝ) (√(q:ℝ)) s
  linarith

/-- The crate's own root meets the hypothesis of C84. -/
theorem sqrtWithin_niirf (hf : f.Wide) (md : Mode) : @SqrtWithin f ⟨fun x => niirf (.i32 md) x 2⟩ (996 / 1000000) := by
  intro x hx hfin h0
  obtain ⟨s, m, e⟩ := hfin
  by_cases hz : x.val = 0
  · have : x = .fin s 0 := by
      subst e
      have : m = 0 := by cases s <;> simpa [Flt.val] using hz
      rw [this]
    subst this
    refine ⟨.fin false 0, C70_zero md s 2, (is_zero (f := f)).valid, ⟨_, _, rfl⟩, ?_⟩
    rw [hz]; simp [Flt.val]
  · obtain ⟨r, a1, a2, a3, -, a5⟩ := C70_accuracy hf md x hx s m e hz 2 le_rfl
    refine ⟨r, a1, a2, a3, ?_⟩
    rw [abs_of_nonneg (by exact_mod_cast h0 : (0:ℝ) ≤ x.val)] at a5
    norm_num at a5 ⊢; exact a5

example : @SqrtWithin F32 ⟨fun x => niirf (.i32 .checked) x 2⟩ (996 / 1000000) ∧
    (2:ℚ) ^ (F32.emin + F32.p) ≤ max (((Flt.fin false 3 : Flt F32).val) ^ 2) (((Flt.fin false 4 : Flt F32).val) ^ 2) ∧
    2 * (((Flt.fin false 3 : Flt F32).val) ^ 2 + ((Flt.fin false 4 : Flt F32).val) ^ 2) ≤ 2 ^ F32.emax :=
  ⟨sqrtWithin_niirf wide_F32 _, by norm_num [Flt.val, F32], by norm_num [Flt.val, F32]⟩

/-! ## C85 -/

/-- C85: with a part of at least `2^(emax/2)` the root of `+∞` is taken. -/
theorem C85_overflow [MixedSqrt (Flt f)] (hf : f.Wide) (z : Cartesian (Flt f)) (h1 : z.re.IsFinite) (h2 : z.im.IsFinite)
    (h : 2 ^ f.emax ≤ z.re.val ^ 2 ∨ 2 ^ f.emax ≤ z.im.val ^ 2) : z.mag = MixedSqrt.sqrt (.inf false) := by
  obtain ⟨x, y⟩ := z
  obtain ⟨s, a, rfl⟩ := h1; obtain ⟨t, b, rfl⟩ := h2
  have key : ∀ (s : Bool) (a : ℚ), (∃ w m, (Flt.fin s a : Flt f).mul (.fin s a) = .fin w m) ∨
      (Flt.fin s a : Flt f).mul (.fin s a) = .inf false := by
    intro s a
    rcases ofExact_cases hf.one_le (xor s s) ((Flt.fin s a : Flt f).val * (Flt.fin s a : Flt f).val) with h | ⟨-, h⟩
    · exact .inl h.fin
    · refine .inr ?_
      rw [decide_eq_false (not_lt.mpr (mul_self_nonneg _))] at h
      exact h
  have over : ∀ (s : Bool) (a : ℚ), 2 ^ f.emax ≤ (Flt.fin s a : Flt f).val ^ 2 →
      (Flt.fin s a : Flt f).mul (.fin s a) = .inf false := by
    intro s a h
    rw [sq] at h
    exact ofExact_over hf _ h
  show MixedSqrt.sqrt (((Flt.fin s a : Flt f).mul (.fin s a)).add ((Flt.fin t b : Flt f).mul (.fin t b))) = _
  congr 1
  rcases h with h | h
  · rw [over s a h]
    rcases key t b with ⟨w, m, h'⟩ | h' <;> rw [h'] <;> rfl
  · rw [over t b h]
    rcases key s a with ⟨w, m, h'⟩ | h' <;> rw [h'] <;> rfl

example [MixedSqrt (Flt F32)] := C85_overflow wide_F32 ⟨.fin false (2 ^ 64), .fin true 4⟩ ⟨_, _, rfl⟩ ⟨_, _, rfl⟩ (by norm_num [Flt.val, F32])

/-- C85: with both parts below `2^(emin/2)/√2` the root of a zero is taken. -/
theorem C85_underflow [MixedSqrt (Flt f)] (hf : f.Wide) (z : Cartesian (Flt f)) (h1 : z.re.IsFinite) (h2 : z.im.IsFinite)
    (h3 : 2 * z.re.val ^ 2 < 2 ^ f.emin) (h4 : 2 * z.im.val ^ 2 < 2 ^ f.emin) :
    ∃ t, z.mag = MixedSqrt.sqrt (.fin t 0) := by
  obtain ⟨x, y⟩ := z
  obtain ⟨s, a, rfl⟩ := h1; obtain ⟨t, b, rfl⟩ := h2
  have under : ∀ (s : Bool) (a : ℚ), 2 * (Flt.fin s a : Flt f).val ^ 2 < 2 ^ f.emin →
      ∃ w, (Flt.fin s a : Flt f).mul (.fin s a) = .fin w 0 := by
    intro s a h
    rw [sq] at h
    exact ofExact_under hf _ (mul_self_nonneg _) h
  obtain ⟨w1, e1⟩ := under s a h3
  obtain ⟨w2, e2⟩ := under t b h4
  refine ⟨w1 && w2, ?_⟩
  show MixedSqrt.sqrt (((Flt.fin s a : Flt f).mul (.fin s a)).add ((Flt.fin t b : Flt f).mul (.fin t b))) = _
  congr 1
  rw [e1, e2]
  cases w1 <;> cases w2 <;> simp [Flt.add, Flt.val, ofExact]

example : ∃ t, @Cartesian.mag (Flt F32) _ _ ⟨fun x => niirf (.i32 .checked) x 2⟩ ⟨.fin false (1 / 2 ^ 80), .fin true (1 / 2 ^ 80)⟩ =
    niirf (.i32 .checked) (.fin t 0) 2 :=
  @C85_underflow F32 ⟨fun x => niirf (.i32 .checked) x 2⟩ wide_F32 _ ⟨_, _, rfl⟩ ⟨_, _, rfl⟩ (by norm_num [Flt.val, F32]) (by norm_num [Flt.val, F32])

/-- C85 is false of the code: the magnitude of `3·2^64 + 4·2^64 i` in single precision is the root of `+∞`, and that of
`3·2^-80 + 4·2^-80 i` the root of 0, although the true magnitudes, `5·2^64` and `5·2^-80`, are floats. -/
theorem C85_counterexample [MixedSqrt (Flt F32)] (hi : Returns (MixedSqrt.sqrt (.inf false : Flt F32)) (.inf false))
    (h0 : ∀ t, Returns (MixedSqrt.sqrt (.fin t 0 : Flt F32)) (.fin t 0)) :
    (Returns (Cartesian.mag ⟨(.fin false (3 * 2 ^ 64) : Flt F32), .fin false (4 * 2 ^ 64)⟩) (.inf false) ∧
      (3 * 2 ^ 64 : ℚ) ^ 2 + (4 * 2 ^ 64) ^ 2 = (5 * 2 ^ 64) ^ 2 ∧ (Flt.fin false (5 * 2 ^ 64) : Flt F32).Valid) ∧
    ((∃ t, Returns (Cartesian.mag ⟨(.fin false (3 / 2 ^ 80) : Flt F32), .fin false (4 / 2 ^ 80)⟩) (.fin t 0)) ∧
      (3 / 2 ^ 80 : ℚ) ^ 2 + (4 / 2 ^ 80) ^ 2 = (5 / 2 ^ 80) ^ 2 ∧ (Flt.fin false (5 / 2 ^ 80) : Flt F32).Valid) := by
  refine ⟨⟨?_, by norm_num, ⟨5, 64, by decide, by decide, by norm_num [pow2_eq], by norm_num [F32]⟩⟩,
    ⟨?_, by norm_num, ⟨5, -80, by decide, by decide, by norm_num [pow2_eq], by norm_num [F32]⟩⟩⟩
  · rw [C85_overflow wide_F32 _ ⟨_, _, rfl⟩ ⟨_, _, rfl⟩ (.inl (by norm_num [Flt.val, F32]))]
    exact hi
  · obtain ⟨t, ht⟩ := C85_underflow (f := F32) wide_F32 ⟨.fin false (3 / 2 ^ 80), .fin false (4 / 2 ^ 80)⟩ ⟨_, _, rfl⟩ ⟨_, _, rfl⟩
      (by norm_num [Flt.val, F32]) (by norm_num [Flt.val, F32])
    exact ⟨t, by rw [ht]; exact h0 t⟩

end MixedNum
