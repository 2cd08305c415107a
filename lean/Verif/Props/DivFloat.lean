import Verif.Lemmas.FloatSqrt
import Verif.Props.ComplexFloat
import Verif.Props.AddSub
import Verif.Lemmas.Run
import Verif.Lemmas.Case
/-! # C114: complex division on floats -/

namespace MixedNum
variable {f : Format}
open Flt

/-- The quotient of two rounded numbers near `x K` and `K`. -/
theorem quotient_close (hf : f.Wide) {n d : Flt f} {N D x S K : ℚ} (hn : Is n N) (hd : Is d D) (hK : 0 < K)
    (hη : 2 * 2 ^ f.emin ≤ uq f * K) (hS : |x| ≤ S) (hN : |N - x * K| ≤ (2 * uq f + uq f ^ 2) * (S * K) + 2 * 2 ^ f.emin)
    (hD : |D - K| ≤ (2 * uq f + uq f ^ 2) * K + 2 * 2 ^ f.emin) (hmax : 2 * (S + 1) ≤ 2 ^ f.emax) :
    ∃ q, Is (n.div d) q ∧ |q - x| ≤ 13 / 2 * uq f * S + 11 / 5 * 2 ^ f.emin / K + 2 ^ f.emin := by
  have hu := uq_pos (f := f); have hu' := uq_le hf
  have hη0 := two_zpow_pos f.emin
  have hmin := hf.emin; have hp := hf.p
  have hη1 : (2:ℚ) ^ f.emin ≤ 1 / 100 := by
    calc (2:ℚ) ^ f.emin ≤ 2 ^ (-7:ℤ) := two_zpow_le (by omega)
      _ ≤ _ := by norm_num
  have hS0 : 0 ≤ S := (abs_nonneg x).trans hS
  set u := uq f
  set η : ℚ := 2 ^ f.emin with hηd
  have u2 : u ^ 2 ≤ u * (1 / 10 ^ 7) := by rw [sq]; exact mul_le_mul_of_nonneg_left hu' hu.le
  have hD' : |D - K| ≤ 31 / 10 * u * K := by
    have : u ^ 2 * K ≤ u * (1 / 10 ^ 7) * K := mul_le_mul_of_nonneg_right u2 hK.le
    have : 0 < u * K := by positivity
    nlinarith
  have hDl : 999 / 1000 * K ≤ D := by
    have := (abs_le.mp hD').1
    have : u * K ≤ 1 / 10 ^ 7 * K := mul_le_mul_of_nonneg_right hu' hK.le
    linarith
  have hD0 : 0 < D := by linarith
  have hy : |N / D - x| ≤ 53 / 10 * u * S + 21 / 10 * (η / K) := by
    have e : N / D - x = ((N - x * K) + x * (K - D)) / D := by field_simp; ring
    have h1 : |(N - x * K) + x * (K - D)| ≤ (2 * u + u ^ 2) * (S * K) + 2 * η + S * (31 / 10 * u * K) := by
      refine (abs_add_le _ _).trans (add_le_add hN ?_)
      rw [abs_mul, abs_sub_comm K D]
      exact mul_le_mul hS hD' (abs_nonneg _) hS0
    rw [e, abs_div, abs_of_pos hD0, div_le_iff₀ hD0]
    have h2 : (53 / 10 * u * S + 21 / 10 * (η / K)) * (999 / 1000 * K) ≤ (53 / 10 * u * S + 21 / 10 * (η / K)) * D :=
      mul_le_mul_of_nonneg_left hDl (by positivity)
    have h3 : η / K * K = η := by field_simp
    have h4 : u ^ 2 * (S * K) ≤ u * (1 / 10 ^ 7) * (S * K) := mul_le_mul_of_nonneg_right u2 (by positivity)
    have h5 : 0 ≤ u * (S * K) := by positivity
    have h6 : (53 / 10 * u * S + 21 / 10 * (η / K)) * (999 / 1000 * K) =
      53 / 10 * (999 / 1000) * (u * (S * K)) + 21 / 10 * (999 / 1000) * η := by
      linear_combination 21 / 10 * (999 / 1000) * h3
    rw [h6] at h2
    nlinarith
  have hr : |rnd f.p f.emin (N / D) - N / D| ≤ |N / D| * u + η / 2 := abs_rnd_le _
  have hq : η / K ≤ u / 2 := by
    rw [div_le_iff₀ hK]; linarith
  have hq0 : 0 < η / K := by positivity
  have hND : |N / D| ≤ S + (53 / 10 * u * S + 21 / 10 * (η / K)) := by
    have := abs_sub_abs_le_abs_sub (N / D) x
    linarith
  have h7 : |N / D| * u ≤ (S + (53 / 10 * u * S + 21 / 10 * (η / K))) * u := mul_le_mul_of_nonneg_right hND hu.le
  have h8 : u * S * u ≤ u * S * (1 / 10 ^ 7) := mul_le_mul_of_nonneg_left hu' (by positivity)
  have h9 : η / K * u ≤ η / K * (1 / 10 ^ 7) := mul_le_mul_of_nonneg_left hu' hq0.le
  have huS : 0 ≤ u * S := by positivity
  have tot : |rnd f.p f.emin (N / D) - x| ≤ 13 / 2 * u * S + 11 / 5 * (η / K) + η := by
    have := abs_sub_le (rnd f.p f.emin (N / D)) (N / D) x
    nlinarith
  have hb : u * S ≤ 1 / 10 ^ 7 * S := mul_le_mul_of_nonneg_right hu' hS0
  refine ⟨_, hn.div hf.one_le hd hD0.ne' ?_, by rw [mul_div_assoc]; exact tot⟩
  have := abs_sub_abs_le_abs_sub (rnd f.p f.emin (N / D)) x
  linarith

/-- C114: on floats each part of `z / w` is close to that of the quotient by `c + ci`, `c` the real part of `w`, unless
something overflows or the square of `c` loses precision. -/
theorem C114_accuracy (hf : f.Wide) (z w : Cartesian (Flt f)) (h1 : z.re.IsFinite) (h2 : z.im.IsFinite) (h3 : w.re.IsFinite)
    (v1 : z.re.Valid) (v2 : z.im.Valid) (v3 : w.re.Valid) (S : ℚ) (hS : S = (|z.re.val| + |z.im.val|) / (2 * |w.re.val|))
    (hc : (2:ℚ) ^ (f.emin + f.p) ≤ w.re.val ^ 2) (hn : 2 * ((|z.re.val| + |z.im.val|) * |w.re.val|) ≤ 2 ^ f.emax)
    (hd : 4 * w.re.val ^ 2 ≤ 2 ^ f.emax) (hq : 2 * (S + 1) ≤ 2 ^ f.emax) :
    ∃ q, Returns (z.div w) q ∧ (q.re.Valid ∧ q.re.IsFinite) ∧ (q.im.Valid ∧ q.im.IsFinite) ∧
      |q.re.val - (z.re.val + z.im.val) / (2 * w.re.val)| ≤
        13 / 2 / 2 ^ f.p * S + 11 / 10 * 2 ^ f.emin / w.re.val ^ 2 + 2 ^ f.emin ∧
      |q.im.val - (z.im.val - z.re.val) / (2 * w.re.val)| ≤
        13 / 2 / 2 ^ f.p * S + 11 / 10 * 2 ^ f.emin / w.re.val ^ 2 + 2 ^ f.emin := by
  obtain ⟨zr, zi⟩ := z; obtain ⟨wr, wi⟩ := w
  simp only at h1 h2 h3 v1 v2 v3 hS hc hn hd ⊢
  obtain ⟨_, _, rfl⟩ := h1; obtain ⟨_, _, rfl⟩ := h2; obtain ⟨_, _, rfl⟩ := h3
  have i1 := is_of_valid v1; have i2 := is_of_valid v2; have i3 := is_of_valid v3
  generalize Flt.val _ = a at i1 hS hn ⊢
  generalize Flt.val _ = b at i2 hS hn ⊢
  generalize Flt.val _ = c at i3 hS hc hn hd ⊢
  have e1 : uq f = 1 / 2 ^ f.p := by unfold uq; rw [zpow_neg, zpow_natCast, one_div]
  have e2 : (2:ℚ) / 2 ^ f.p + 1 / 2 ^ (2 * f.p) = 2 * uq f + uq f ^ 2 := by
    rw [e1, div_pow, one_pow, ← pow_mul, mul_comm f.p 2]; ring
  have hc2 : 0 < c ^ 2 := (two_zpow_pos _).trans_le hc
  have hc0 : c ≠ 0 := by rintro rfl; norm_num at hc2
  have hca : 0 < |c| := abs_pos.mpr hc0
  have hK : 0 < 2 * c ^ 2 := by positivity
  have hη : 2 * 2 ^ f.emin ≤ uq f * (2 * c ^ 2) := by
    have : uq f * 2 ^ (f.emin + f.p) = 2 ^ f.emin := by
      unfold uq; rw [← zpow_add₀ (by norm_num)]; congr 1; ring
    have := mul_le_mul_of_nonneg_left hc (uq_pos (f := f)).le
    linarith
  have eS : |a * c| + |b * c| = S * (2 * c ^ 2) := by
    rw [hS, abs_mul, abs_mul, ← sq_abs c]; field_simp
  have sw : |b * c| + |a * c| = S * (2 * c ^ 2) := by rw [add_comm]; exact eS
  have hx : |(a + b) / (2 * c)| ≤ S := by
    rw [hS, abs_div, abs_mul, abs_two]
    gcongr; exact abs_add_le _ _
  have hx' : |(b - a) / (2 * c)| ≤ S := by
    rw [hS, abs_div, abs_mul, abs_two, add_comm |a|]
    gcongr; exact abs_sub _ _
  obtain ⟨⟨n, n1, n2⟩, -⟩ := two_products hf i1 i3 i2 i3 (by rw [abs_mul, abs_mul, ← add_mul]; exact hn)
  obtain ⟨-, ⟨n', n1', n2'⟩⟩ := two_products hf i2 i3 i1 i3 (by rw [abs_mul, abs_mul, ← add_mul, add_comm |b|]; exact hn)
  have ecc : |c * c| + |c * c| = 2 * c ^ 2 := by rw [← sq, abs_of_pos hc2]; ring
  obtain ⟨⟨d, d1, d2⟩, -⟩ := two_products hf i3 i3 i3 i3 (by rw [ecc]; linarith)
  rw [e2, eS, show a * c + b * c = (a + b) / (2 * c) * (2 * c ^ 2) by field_simp] at n2
  rw [e2, sw, show b * c - a * c = (b - a) / (2 * c) * (2 * c ^ 2) by field_simp] at n2'
  rw [e2, ecc, show c * c + c * c = 2 * c ^ 2 by ring] at d2
  obtain ⟨q, q1, q2⟩ := quotient_close hf n1 d1 hK hη hx n2 d2 hq
  obtain ⟨q', q1', q2'⟩ := quotient_close hf n1' d1 hK hη hx' n2' d2 hq
  have eb : 13 / 2 * uq f * S + 11 / 5 * 2 ^ f.emin / (2 * c ^ 2) + 2 ^ f.emin =
      13 / 2 / 2 ^ f.p * S + 11 / 10 * 2 ^ f.emin / c ^ 2 + 2 ^ f.emin := by
    rw [e1]; field_simp; ring
  rw [eb] at q2 q2'
  refine ⟨_, .of_eq rfl, ⟨q1.valid, q1.fin⟩, ⟨q1'.valid, q1'.fin⟩, ?_, ?_⟩
  · rw [← q1.val] at q2; exact q2
  · rw [← q1'.val] at q2'; exact q2'

example := C114_accuracy wide_F32 ⟨.fin false 3, .fin true (1 / 2)⟩ ⟨.fin true 5, .nan⟩ ⟨_, _, rfl⟩ ⟨_, _, rfl⟩ ⟨_, _, rfl⟩
  (by is_float 3 0) (by is_float 1 (-1)) (by is_float 5 0) _ rfl (by norm_num [Flt.val, F32]) (by norm_num [Flt.val, F32]) (by norm_num [Flt.val, F32])
  (by norm_num [Flt.val, F32])

theorem div_run (z w : Cartesian (Flt f)) : z.div w = pure
    ⟨((z.re.mul w.re).add (z.im.mul w.re)).div ((w.re.mul w.re).add (w.re.mul w.re)),
     ((z.im.mul w.re).sub (z.re.mul w.re)).div ((w.re.mul w.re).add (w.re.mul w.re))⟩ := rfl

theorem div_zero_not_finite (x : Flt f) (t : Bool) : ¬ (x.div (.fin t 0)).IsFinite := by
  rintro ⟨s, m, h⟩
  cases x with
  | nan => cases h
  | inf s => cases h
  | fin s n =>
    simp only [Flt.div, if_true] at h
    split at h <;> cases h

theorem mul_self_zero (hf : f.Wide) {x : Flt f} {v : ℚ} (hx : Is x v) (h : v ^ 2 < 2 ^ (f.emin - 1)) :
    ∃ s, x.mul x = .fin s 0 := by
  have hp := hf.p
  have h2 : (2:ℚ) ^ f.emin = 2 * 2 ^ (f.emin - 1) := by
    rw [show f.emin = 1 + (f.emin - 1) by ring, two_zpow_add]; norm_num
  have hvv : |v * v| = v ^ 2 := by rw [← sq, abs_of_nonneg (sq_nonneg v)]
  have h0 : rnd f.p f.emin (v * v) = 0 := by
    by_contra hne
    have hr : Rep f.p f.emin |rnd f.p f.emin (v * v)| := (rep_rnd hf.one_le _).abs
    have hge := hr.ge_emin (abs_pos.mpr hne)
    have hle := abs_rnd_sub_le (p := f.p) (emin := f.emin) (q := v * v) (e := f.emin) (by
      rw [hvv]; exact h.trans (two_zpow_lt (by omega))) (le_refl _)
    have := abs_sub_abs_le_abs_sub (rnd f.p f.emin (v * v)) (v * v)
    rw [hvv] at this
    linarith
  have := hx.mul hf.one_le hx (by rw [h0, abs_zero]; positivity)
  rw [h0] at this
  obtain ⟨s, m, e⟩ := this.fin
  have hv := this.val
  rw [e] at hv
  refine ⟨s, ?_⟩
  rw [e]
  cases s <;> simp [Flt.val] at hv <;> rw [hv]

/-- C114: a divisor whose real part squares to less than half the least positive number is treated as zero: no part of
the result is finite, whatever the dividend. -/
theorem C114_underflow (hf : f.Wide) (z w : Cartesian (Flt f)) (h : w.re.IsFinite) (v : w.re.Valid)
    (hc : w.re.val ^ 2 < 2 ^ (f.emin - 1)) :
    ∃ q, Returns (z.div w) q ∧ ¬ q.re.IsFinite ∧ ¬ q.im.IsFinite := by
  obtain ⟨wr, wi⟩ := w
  obtain ⟨_, _, rfl⟩ := h
  obtain ⟨s, hs⟩ := mul_self_zero hf (is_of_valid v) hc
  have hd : ∃ t, ((Flt.fin s 0 : Flt f).add (.fin s 0)) = .fin t 0 := by
    refine ⟨s && s, ?_⟩
    cases s <;> simp [Flt.add, Flt.val, ofExact]
  obtain ⟨t, ht⟩ := hd
  refine ⟨_, .of_eq (div_run _ _), ?_, ?_⟩
  all_goals
    simp only [hs, ht]
    exact div_zero_not_finite _ _

/-- On `f32` the hypotheses hold of a divisor with real part `-2^-90`. -/
example := C114_underflow wide_F32 ⟨.fin false 3, .fin true 5⟩ ⟨.fin true (1 / 2 ^ 90), .fin false 7⟩ ⟨_, _, rfl⟩ (by is_float 1 (-90)) (by norm_num [Flt.val, F32])

/-- C114: division by a number with real part zero gives NaN in both parts. -/
theorem C114_zero (z w : Cartesian (Flt f)) (t : Bool) (hc : w.re = .fin t 0) : Returns (z.div w) ⟨.nan, .nan⟩ := by
  have hm : ∀ x : Flt f, (x.mul (.fin t 0)) = .nan ∨ ∃ s, x.mul (.fin t 0) = .fin s 0 := by
    intro x
    cases x with
    | nan => exact .inl rfl
    | inf s => exact .inl (by simp [Flt.mul])
    | fin s n => exact .inr ⟨xor s t, by cases t <;> simp [Flt.mul, Flt.val, ofExact]⟩
  have z0 : ∀ s s' : Bool, ((Flt.fin s 0 : Flt f).add (.fin s' 0)) = .fin (s && s') 0 := by
    intro s s'; cases s <;> cases s' <;> simp [Flt.add, Flt.val, ofExact]
  have hn : ∀ x y : Flt f, (x = .nan ∨ ∃ s, x = .fin s 0) → (y = .nan ∨ ∃ s, y = .fin s 0) →
      ∀ s, ((x.add y).div (.fin s 0) : Flt f) = .nan := by
    rintro x y (rfl | ⟨s, rfl⟩) (rfl | ⟨s', rfl⟩) t <;> first | rfl | (rw [z0]; simp [Flt.div])
  have hneg : ∀ y : Flt f, (y = .nan ∨ ∃ s, y = .fin s 0) → (y.neg = .nan ∨ ∃ s, y.neg = .fin s 0) := by
    rintro y (rfl | ⟨s, rfl⟩)
    · exact .inl rfl
    · exact .inr ⟨!s, rfl⟩
  have hd : ∃ s, (((Flt.fin t 0 : Flt f).mul (.fin t 0)).add ((Flt.fin t 0 : Flt f).mul (.fin t 0))) = .fin s 0 :=
    ⟨_, by rw [show ((Flt.fin t 0 : Flt f).mul (.fin t 0)) = .fin (xor t t) 0 by
      cases t <;> simp [Flt.mul, Flt.val, ofExact], z0]⟩
  obtain ⟨s, hs⟩ := hd
  refine .of_eq ?_
  rw [div_run, hc, hs, hn _ _ (hm _) (hm _), Flt.sub, hn _ _ (hm _) (hneg _ (hm _))]

example := C114_zero (f := F32) ⟨.fin false 3, .fin true (1 / 2)⟩ ⟨.fin true 0, .fin false 7⟩ true rfl

/-- C114: a divisor whose real part squares beyond the largest number gives zero or NaN. -/
theorem C114_overflow (hf : f.Wide) (z w : Cartesian (Flt f)) (h : w.re.IsFinite) (v : w.re.Valid)
    (hc : (2:ℚ) ^ f.emax ≤ w.re.val ^ 2) :
    ∃ q, Returns (z.div w) q ∧ (q.re = .nan ∨ ∃ s, q.re = .fin s 0) ∧ (q.im = .nan ∨ ∃ s, q.im = .fin s 0) := by
  obtain ⟨wr, wi⟩ := w
  obtain ⟨a, m, rfl⟩ := h
  have hm : (Flt.fin a m : Flt f).mul (.fin a m) = .inf false := by
    have hpos : (0:ℚ) < 2 ^ f.emax := by positivity
    simp only [Flt.mul, ofExact]
    set q := (Flt.fin a m : Flt f).val
    have hq : 0 < q * q := by rw [← sq]; exact hpos.trans_le hc
    have hmin := hf.emin; have hmax := hf.emax
    have hge : (2:ℚ) ^ f.emax ≤ roundTo f.p f.emin |q * q| := by
      have hr : Rep f.p f.emin ((2:ℚ) ^ f.emax) := by
        rw [← zpow_natCast]; exact Rep.zpow hf.one_le (by omega)
      refine rep_le_roundTo hf.one_le hpos.le ?_ hr
      rw [abs_of_pos hq, ← sq]; exact hc
    rw [if_neg hq.ne', if_neg (not_lt.mpr hge)]
    simp [hq.le]
  have hd : ∀ x : Flt f, x.div (.inf false) = .nan ∨ ∃ s, x.div (.inf false) = .fin s 0 := by
    intro x
    cases x with
    | nan => exact .inl rfl
    | inf s => exact .inl rfl
    | fin s n => exact .inr ⟨xor s false, rfl⟩
  refine ⟨_, .of_eq (div_run _ _), ?_, ?_⟩
  all_goals
    simp only [hm]
    exact hd _

/-- A case of `C114_accuracy`: `(1 + 2i) / (2 + ·i)` on `f32`. -/
example : (Flt.fin false 1 : Flt F32).Valid ∧ (Flt.fin false 2 : Flt F32).Valid ∧
    (2:ℚ) ^ (F32.emin + F32.p) ≤ (Flt.fin false 2 : Flt F32).val ^ 2 ∧
    2 * ((|(Flt.fin false 1 : Flt F32).val| + |(Flt.fin false 2 : Flt F32).val|) * |(Flt.fin false 2 : Flt F32).val|) ≤
      2 ^ F32.emax :=
  ⟨⟨1, 0, by decide, by decide, by norm_num [pow2_eq], by norm_num⟩,
    ⟨2, 0, by decide, by decide, by norm_num [pow2_eq], by norm_num⟩, by norm_num [Flt.val, F32], by norm_num [Flt.val, F32]⟩

/-- A case of `C114_underflow`: the real part `2^-80` of an `f32` divisor. -/
example : (Flt.fin false (2 ^ (-80:ℤ)) : Flt F32).Valid ∧
    (Flt.fin false (2 ^ (-80:ℤ)) : Flt F32).val ^ 2 < 2 ^ (F32.emin - 1) :=
  ⟨⟨1, -80, by decide, by decide, by norm_num [pow2_eq], by norm_num⟩, by norm_num [Flt.val, F32]⟩

/-- A case of `C114_overflow`: the real part `2^64` of an `f32` divisor. -/
example : (Flt.fin false (2 ^ 64) : Flt F32).Valid ∧ (2:ℚ) ^ F32.emax ≤ (Flt.fin false (2 ^ 64) : Flt F32).val ^ 2 :=
  ⟨⟨1, 64, by decide, by decide, by norm_num [pow2_eq], by norm_num⟩, by norm_num [Flt.val, F32]⟩

end MixedNum
