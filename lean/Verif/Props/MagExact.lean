import Verif.Lemmas.SqrtNearest
import Verif.Props.MagFloatExact
import Verif.Props.Norm
import Verif.Lemmas.Run
import Verif.Props.AddSub
import Verif.Lemmas.Case
/-! # C162, C163: the magnitude of a real number, and the magnitude against its parts -/

namespace MixedNum
variable {m : Mode} {s : Bool} {W F : ℕ} {f : Format}
open Flt

/-- The argument of the root is finite when the exact sum is at most half of the range. -/
theorem mag_arg_fin (hf : f.Wide) {x y : Flt f} (h1 : x.IsFinite) (h2 : y.IsFinite) (h : 2 * (x.val ^ 2 + y.val ^ 2) ≤ 2 ^ f.emax) :
    Is ((x.mul x).add (y.mul y)) (rnd f.p f.emin (rnd f.p f.emin (x.val ^ 2) + rnd f.p f.emin (y.val ^ 2))) := by
  have hu := uq_pos (f := f); have hu' := uq_le hf
  have hm : (0:ℚ) < 2 ^ f.emax := by positivity
  have ht := threshold_eq f
  have na := sq_nonneg x.val; have nb := sq_nonneg y.val
  rcases mag_arg hf h1 h2 with ⟨-, -, -, h3⟩ | ⟨h3, -⟩
  · exact h3
  · exfalso
    have hr := (abs_le.mp (rnd_sum_le hf x.val y.val)).2
    have k : uq f * 2 ^ f.emax ≤ 1 / 10 ^ 7 * 2 ^ f.emax := mul_le_mul_of_nonneg_right hu' hm.le
    have k2 : uq f * (x.val ^ 2 + y.val ^ 2) ≤ 1 / 10 ^ 7 * (x.val ^ 2 + y.val ^ 2) := mul_le_mul_of_nonneg_right hu' (by positivity)
    rw [ht] at h3
    rcases h3 with h3 | h3 | h3 <;> linarith

/-- A correctly rounded root does not decrease. -/
theorem root_mono [MixedSqrt (Flt f)] (hs : SqrtNearest f) {x y : Flt f} {p q : ℚ} (hx : Is x p) (hy : Is y q) (h0 : 0 ≤ p) (h : p ≤ q) :
    ∃ a b : Flt f, Returns (MixedSqrt.sqrt x) a ∧ Returns (MixedSqrt.sqrt y) b ∧ (a.Valid ∧ a.IsFinite) ∧ (b.Valid ∧ b.IsFinite) ∧
      a.val ≤ b.val := by
  obtain ⟨a, a1, a2, a3, a4⟩ := hs x hx.valid hx.fin (by rw [hx.val]; exact h0)
  obtain ⟨b, b1, b2, b3, b4⟩ := hs y hy.valid hy.fin (by rw [hy.val]; exact h0.trans h)
  rw [hx.val] at a4; rw [hy.val] at b4
  rcases h0.eq_or_lt with rfl | h0
  · -- the root of zero is zero
    have z := a4 _ (is_zero (f := f)).valid ⟨_, _, rfl⟩
    have zb := b4 _ (is_zero (f := f)).valid ⟨_, _, rfl⟩
    rw [(is_zero (f := f)).val] at z zb
    simp only [Rat.cast_zero, Real.sqrt_zero, sub_self, abs_zero, sub_zero] at z
    have az : (a.val : ℝ) = 0 := abs_nonpos_iff.mp z
    rw [Rat.cast_zero, zero_sub, abs_neg, abs_of_nonneg (Real.sqrt_nonneg _)] at zb
    have := (abs_le.mp zb).1
    exact ⟨a, b, a1, b1, ⟨a2, a3⟩, ⟨b2, b3⟩, by
      have : (a.val : ℝ) ≤ b.val := by rw [az]; linarith
      exact_mod_cast this⟩
  rcases h.eq_or_lt with rfl | h
  · obtain rfl := hx.unique hy h0.ne'
    exact ⟨a, a, a1, a1, ⟨a2, a3⟩, ⟨a2, a3⟩, le_rfl⟩
  · refine ⟨a, b, a1, b1, ⟨a2, a3⟩, ⟨b2, b3⟩, ?_⟩
    have hlt : √(p:ℝ) < √(q:ℝ) := Real.sqrt_lt_sqrt (by exact_mod_cast h0.le) (by exact_mod_cast h)
    have k1 := a4 b b2 b3; have k2 := b4 a a2 a3
    by_contra hc
    have hc : (b.val : ℝ) < a.val := by exact_mod_cast not_le.mp hc
    -- `a` is above `b`, so the midpoint is at most `√p` and at least `√q`
    have m1 : ((a.val : ℝ) + b.val) / 2 ≤ √(p:ℝ) := by
      by_contra hm
      have hm := not_le.mp hm
      have : |(b.val : ℝ) - √(p:ℝ)| < |(a.val : ℝ) - √(p:ℝ)| := by
        rw [abs_of_pos (show 0 < (a.val : ℝ) - √(p:ℝ) by linarith), abs_lt]; constructor <;> linarith
      linarith
    have m2 : √(q:ℝ) ≤ ((a.val : ℝ) + b.val) / 2 := by
      by_contra hm
      have hm := not_le.mp hm
      have : |(a.val : ℝ) - √(q:ℝ)| < |(b.val : ℝ) - √(q:ℝ)| := by
        rw [abs_sub_comm (b.val : ℝ), abs_of_pos (show 0 < √(q:ℝ) - (b.val : ℝ) by linarith), abs_lt]; constructor <;> linarith
      linarith
    linarith

theorem mag_flt [MixedSqrt (Flt f)] (x y : Flt f) :
    (Cartesian.mag ⟨x, y⟩ : Prog (Flt f)) = MixedSqrt.sqrt ((x.mul x).add (y.mul y)) := rfl

/-! ## C162 -/

/-- C162, exact reals: the magnitude of a number on an axis is its absolute value, and `mixed_abs` does nothing the second time. -/
theorem C162_real (x : ℝ) (z : Cartesian ℝ) :
    Returns (Cartesian.mag ⟨x, 0⟩) |x| ∧ Returns (Cartesian.mag ⟨0, x⟩) |x| ∧
      ∃ w : Cartesian ℝ, Returns z.mixedAbs w ∧ Returns w.mixedAbs w := by
  have h1 : ‖Cartesian.toC (⟨x, 0⟩ : Cartesian ℝ)‖ = |x| := by
    rw [← Real.norm_eq_abs, ← Complex.norm_real]; rfl
  have h2 : ‖Cartesian.toC (⟨0, x⟩ : Cartesian ℝ)‖ = |x| := by
    rw [Complex.norm_def, Complex.normSq_apply]
    show √(0 * 0 + x * x) = _
    rw [zero_mul, zero_add, Real.sqrt_mul_self_eq_abs]
  have h3 : ∀ v : ℝ, 0 ≤ v → Returns (Cartesian.mag (⟨v, 0⟩ : Cartesian ℝ)) v := fun v hv => by
    have := C19_real (⟨v, 0⟩ : Cartesian ℝ)
    rwa [show ‖Cartesian.toC (⟨v, 0⟩ : Cartesian ℝ)‖ = v by
      rw [show Cartesian.toC (⟨v, 0⟩ : Cartesian ℝ) = (v : ℂ) from rfl, Complex.norm_real, Real.norm_eq_abs, abs_of_nonneg hv]] at this
  refine ⟨h1 ▸ C19_real _, h2 ▸ C19_real _, ⟨‖z.toC‖, 0⟩, ?_, ?_⟩
  · exact (C19_real z).bind (.of_eq rfl)
  · exact (h3 _ (norm_nonneg _)).bind (.of_eq rfl)

/-- **C162 is false of the code** on fixed point, where the root is the NIIRF estimate: on I16F16 the magnitude of 3 is 2.9973, and
`mixed_abs` of that is another number again. -/
theorem C162_counterexample_fixed :
    Returns (Cartesian.mag ⟨fx m true 32 16 (3 * 2 ^ 16), fx m true 32 16 0⟩) (fx m true 32 16 196432) ∧
    Returns (Cartesian.mag ⟨fx m true 32 16 0, fx m true 32 16 (3 * 2 ^ 16)⟩) (fx m true 32 16 196432) ∧
    Returns (Cartesian.mixedAbs ⟨fx m true 32 16 196432, fx m true 32 16 0⟩) ⟨fx m true 32 16 196552, fx m true 32 16 0⟩ := by
  cases m
  · exact ⟨by run 3, by run 3, by run 3⟩
  · exact ⟨by run 3, by run 3, by run 3⟩

/-- C162, floats, with a correctly rounded root: the magnitude of a number on an axis is its absolute value, to the last bit, as
long as the square is in the normal range (outside it is lost, C85). -/
theorem C162_float_partial [MixedSqrt (Flt f)] (hf : f.Wide) (hs : SqrtNearest f) (x o : Flt f) (vx : x.Valid) (fx : x.IsFinite)
    (fo : o.IsFinite) (ho : o.val = 0) (hlo : (2:ℚ) ^ (f.emin + f.p) ≤ x.val ^ 2) (hhi : 2 * x.val ^ 2 ≤ 2 ^ f.emax) :
    ∃ v : Flt f, Returns (Cartesian.mag ⟨x, o⟩) v ∧ Returns (Cartesian.mag ⟨o, x⟩) v ∧ v = x.abs := by
  have hA := mag_arg_fin hf fx fo (by rw [ho]; linarith)
  obtain ⟨t, b, rfl⟩ := fx
  have ix := is_of_valid vx
  set x : Flt f := .fin t b
  have e0 : rnd f.p f.emin (rnd f.p f.emin (x.val ^ 2) + rnd f.p f.emin (o.val ^ 2)) = rnd f.p f.emin (x.val ^ 2) := by
    rw [ho, show (0:ℚ) ^ 2 = 0 by norm_num, rnd_rep Rep.zero, add_zero, rnd_rep (rep_rnd hf.one_le _)]
  rw [e0] at hA
  have hx0 : 0 < |x.val| := by
    rw [abs_pos]; intro h
    rw [h] at hlo
    have := two_zpow_pos (f.emin + f.p)
    norm_num at hlo; linarith
  obtain ⟨v, v1, v2, ⟨t', b', rfl⟩, v4⟩ := hs _ hA.valid hA.fin (by rw [hA.val]; exact rnd_nonneg hf (sq_nonneg _))
  have iv := is_of_valid v2
  set v : Flt f := .fin t' b'
  have ia := ix.abs
  have key := v4 _ ia.valid ia.fin
  rw [hA.val, ia.val, show x.val ^ 2 = |x.val| ^ 2 by rw [sq_abs]] at key
  have ev := root_of_square hf hx0 ia.rep iv.rep (by rwa [sq_abs]) key
  have ev' : v = x.abs := by
    refine iv.unique ?_ (by rw [ev]; exact hx0.ne')
    rw [ev]; exact ia
  refine ⟨v, v1, ?_, ev'⟩
  rw [(C127_sym_float x o).2.2]; exact v1

/-! ## C163 -/

/-- C163, exact reals: the magnitude is at least each part, at most their sum, and grows with both. -/
theorem C163_real (z : Cartesian ℝ) :
    ∃ v, Returns z.mag v ∧ |z.re| ≤ v ∧ |z.im| ≤ v ∧ v ≤ |z.re| + |z.im| ∧
      ∀ w : Cartesian ℝ, |w.re| ≤ |z.re| → |w.im| ≤ |z.im| → ∃ u, Returns w.mag u ∧ u ≤ v := by
  refine ⟨_, C19_real z, Complex.abs_re_le_norm z.toC, Complex.abs_im_le_norm z.toC, Complex.norm_le_abs_re_add_abs_im z.toC,
    fun w h1 h2 => ⟨_, C19_real w, ?_⟩⟩
  rw [Complex.norm_def, Complex.norm_def, Complex.normSq_apply, Complex.normSq_apply]
  refine Real.sqrt_le_sqrt ?_
  have := mul_self_le_mul_self (abs_nonneg _) h1
  have := mul_self_le_mul_self (abs_nonneg _) h2
  rw [abs_mul_abs_self, abs_mul_abs_self] at *
  exact add_le_add ‹_› ‹_›

/-- **C163 is false of the code** on fixed point: on I16F16 the magnitude of 3 is less than 3, and the magnitude of the smaller
number 86680/65536 is larger than the magnitude of 86720/65536. -/
theorem C163_counterexample_fixed :
    Returns (Cartesian.mag ⟨fx m true 32 16 (3 * 2 ^ 16), fx m true 32 16 0⟩) (fx m true 32 16 196432) ∧
    Returns (Cartesian.mag ⟨fx m true 32 16 86680, fx m true 32 16 0⟩) (fx m true 32 16 86726) ∧
    Returns (Cartesian.mag ⟨fx m true 32 16 86720, fx m true 32 16 0⟩) (fx m true 32 16 86638) := by
  cases m
  · exact ⟨by run 3, by run 3, by run 3⟩
  · exact ⟨by run 3, by run 3, by run 3⟩

theorem magErr_mono {x y : ℝ} (h : x ≤ y) : magErr F x ≤ magErr F y := by
  unfold magErr
  have : (0:ℝ) ≤ 1 / 1000 + 12 / 2 ^ F := by positivity
  have := mul_le_mul_of_nonneg_left h this
  linarith

/-- C163, fixed point: the bounds hold up to the error of the magnitude. -/
theorem C163_fixed_partial (hF : 2 ≤ F) (hW : 8 ≤ W) (hW' : W ≤ 128) (hK : F + 4 ≤ W) (z : Cartesian (Fixed m true W F))
    (h : SquaresFit z) :
    ∃ v, Returns z.mag v ∧ |z.re.r| ≤ v.r + magErr F (|z.re.r| + |z.im.r|) ∧ |z.im.r| ≤ v.r + magErr F (|z.re.r| + |z.im.r|) ∧
      v.r ≤ |z.re.r| + |z.im.r| + magErr F (|z.re.r| + |z.im.r|) ∧
      ∀ w : Cartesian (Fixed m true W F), SquaresFit w → |w.re.r| ≤ |z.re.r| → |w.im.r| ≤ |z.im.r| →
        ∃ u, Returns w.mag u ∧ u.r ≤ v.r + 2 * magErr F (|z.re.r| + |z.im.r|) := by
  obtain ⟨v, v1, v2⟩ := mag_near hF hW hW' hK h
  have b1 : |z.re.r| ≤ ‖z.c‖ := Complex.abs_re_le_norm z.c
  have b2 : |z.im.r| ≤ ‖z.c‖ := Complex.abs_im_le_norm z.c
  have b3 : ‖z.c‖ ≤ |z.re.r| + |z.im.r| := Complex.norm_le_abs_re_add_abs_im z.c
  have e := magErr_mono (F := F) b3
  obtain ⟨l, u⟩ := abs_le.mp v2
  refine ⟨v, v1, by linarith, by linarith, by linarith, fun w hw h1 h2 => ?_⟩
  obtain ⟨t, t1, t2⟩ := mag_near hF hW hW' hK hw
  have hn : ‖w.c‖ ≤ ‖z.c‖ := by
    rw [Complex.norm_def, Complex.norm_def, Complex.normSq_apply, Complex.normSq_apply]
    refine Real.sqrt_le_sqrt ?_
    have k1 := mul_self_le_mul_self (abs_nonneg _) h1
    have k2 := mul_self_le_mul_self (abs_nonneg _) h2
    rw [abs_mul_abs_self, abs_mul_abs_self] at k1 k2
    exact add_le_add k1 k2
  have e' := magErr_mono (F := F) hn
  exact ⟨t, t1, by linarith [(abs_le.mp t2).2]⟩

/-- C163, floats, with a correctly rounded root: the magnitude never decreases when the parts grow in absolute value, as long as
the squares do not overflow. -/
theorem C163_mono_float_partial [MixedSqrt (Flt f)] (hf : f.Wide) (hs : SqrtNearest f) (z w : Cartesian (Flt f)) (h1 : z.re.IsFinite)
    (h2 : z.im.IsFinite) (h3 : w.re.IsFinite) (h4 : w.im.IsFinite) (hr : |w.re.val| ≤ |z.re.val|) (hi : |w.im.val| ≤ |z.im.val|)
    (hhi : 2 * (z.re.val ^ 2 + z.im.val ^ 2) ≤ 2 ^ f.emax) :
    ∃ u v : Flt f, Returns w.mag u ∧ Returns z.mag v ∧ (u.Valid ∧ u.IsFinite) ∧ (v.Valid ∧ v.IsFinite) ∧ u.val ≤ v.val := by
  have k1 := sq_le_sq.mpr hr; have k2 := sq_le_sq.mpr hi
  have hz := mag_arg_fin hf h1 h2 hhi
  have hw := mag_arg_fin hf h3 h4 (by linarith)
  refine root_mono hs hw hz (rnd_nonneg hf (add_nonneg (rnd_nonneg hf (sq_nonneg _)) (rnd_nonneg hf (sq_nonneg _)))) ?_
  exact rnd_mono hf.one_le (add_le_add (rnd_mono hf.one_le k1) (rnd_mono hf.one_le k2))

example [MixedSqrt (Flt F32)] (h : SqrtNearest F32) := C163_mono_float_partial wide_F32 h ⟨.fin false 3, .fin true 4⟩ ⟨.fin true 2, .fin true 4⟩
  ⟨_, _, rfl⟩ ⟨_, _, rfl⟩ ⟨_, _, rfl⟩ ⟨_, _, rfl⟩ (by norm_num [Flt.val]) (by norm_num [Flt.val]) (by norm_num [Flt.val, F32])

/-- C163, floats, with a correctly rounded root: the magnitude is at least each part, to the last bit, when the square of that
part is in the normal range and the sum of the squares does not overflow. -/
theorem C163_ge_float_partial [MixedSqrt (Flt f)] (hf : f.Wide) (hs : SqrtNearest f) (z : Cartesian (Flt f)) (v1 : z.re.Valid)
    (v2 : z.im.Valid) (h1 : z.re.IsFinite) (h2 : z.im.IsFinite) (hhi : 2 * (z.re.val ^ 2 + z.im.val ^ 2) ≤ 2 ^ f.emax) :
    ∃ v : Flt f, Returns z.mag v ∧ ((2:ℚ) ^ (f.emin + f.p) ≤ z.re.val ^ 2 → |z.re.val| ≤ v.val) ∧
      ((2:ℚ) ^ (f.emin + f.p) ≤ z.im.val ^ 2 → |z.im.val| ≤ v.val) := by
  have n1 := sq_nonneg z.re.val; have n2 := sq_nonneg z.im.val
  have h0 : (.fin false 0 : Flt f).IsFinite := ⟨_, _, rfl⟩
  have e0 : (.fin false 0 : Flt f).val = 0 := (is_zero (f := f)).val
  have eabs : ∀ x : Flt f, x.Valid → x.IsFinite → x.abs.val = |x.val| := by
    rintro _ v ⟨t, b, rfl⟩; exact (is_of_valid v).abs.val
  obtain ⟨-, v, -, r, -⟩ := C163_mono_float_partial hf hs z z h1 h2 h1 h2 le_rfl le_rfl hhi
  refine ⟨v, r, fun hlo => ?_, fun hlo => ?_⟩
  · obtain ⟨u, v', r1, r2, -, -, hle⟩ := C163_mono_float_partial hf hs z ⟨z.re, .fin false 0⟩ h1 h2 h1 h0 le_rfl
      (by rw [e0, abs_zero]; exact abs_nonneg _) hhi
    obtain ⟨t, t1, -, rfl⟩ := C162_float_partial hf hs z.re (.fin false 0) v1 h1 h0 e0 hlo (by linarith)
    obtain rfl := r.unique r2
    rw [← eabs _ v1 h1, t1.unique r1]; exact hle
  · obtain ⟨u, v', r1, r2, -, -, hle⟩ := C163_mono_float_partial hf hs z ⟨.fin false 0, z.im⟩ h1 h2 h0 h2
      (by rw [e0, abs_zero]; exact abs_nonneg _) le_rfl hhi
    obtain ⟨t, -, t1, rfl⟩ := C162_float_partial hf hs z.im (.fin false 0) v2 h2 h0 e0 hlo (by linarith)
    obtain rfl := r.unique r2
    rw [← eabs _ v2 h2, t1.unique r1]; exact hle

/-- C162, floats, with a correctly rounded root: `mixed_abs` does nothing the second time. -/
theorem C162_idempotent_partial [MixedSqrt (Flt f)] (hf : f.Wide) (hs : SqrtNearest f) (z : Cartesian (Flt f)) (v1 : z.re.Valid)
    (v2 : z.im.Valid) (h1 : z.re.IsFinite) (h2 : z.im.IsFinite)
    (hlo : (2:ℚ) ^ (f.emin + f.p) ≤ z.re.val ^ 2 ∨ (2:ℚ) ^ (f.emin + f.p) ≤ z.im.val ^ 2)
    (hhi : 16 * (z.re.val ^ 2 + z.im.val ^ 2) ≤ 2 ^ f.emax) :
    ∃ w : Cartesian (Flt f), Returns z.mixedAbs w ∧ Returns w.mixedAbs w := by
  have n1 := sq_nonneg z.re.val; have n2 := sq_nonneg z.im.val
  have hu := uq_pos (f := f); have hu' := uq_le hf
  have hm : (0:ℚ) < 2 ^ f.emax := by positivity
  have hA := mag_arg_fin hf h1 h2 (by linarith)
  set q := rnd f.p f.emin (rnd f.p f.emin (z.re.val ^ 2) + rnd f.p f.emin (z.im.val ^ 2)) with hq
  have q0 : 0 ≤ q := rnd_nonneg hf (add_nonneg (rnd_nonneg hf n1) (rnd_nonneg hf n2))
  -- the argument of the root is at most an eighth of the range
  have q1 : 8 * q ≤ 2 ^ f.emax := by
    have hr := (abs_le.mp (rnd_sum_le hf z.re.val z.im.val)).2
    have k : uq f * 2 ^ f.emax ≤ 1 / 10 ^ 7 * 2 ^ f.emax := mul_le_mul_of_nonneg_right hu' hm.le
    have k2 : uq f * (z.re.val ^ 2 + z.im.val ^ 2) ≤ 1 / 10 ^ 7 * (z.re.val ^ 2 + z.im.val ^ 2) :=
      mul_le_mul_of_nonneg_right hu' (by positivity)
    have e3 : (2:ℚ) ^ f.emax = 2 ^ (f.emax - 3) * 8 := by
      obtain ⟨k, hk⟩ : ∃ k, f.emax = k + 3 := ⟨f.emax - 3, by have := hf.emax; have := hf.p; omega⟩
      rw [hk, Nat.add_sub_cancel, pow_add]; norm_num
    have hrep : Rep f.p f.emin ((2:ℚ) ^ (f.emax - 3)) := by
      have := Rep.zpow (emin := f.emin) (e := ((f.emax - 3 : ℕ) : ℤ)) hf.one_le (by have := hf.emin; omega)
      rwa [zpow_natCast] at this
    have : q ≤ 2 ^ (f.emax - 3) := by
      rw [← rnd_rep hrep]; exact rnd_mono hf.one_le (by linarith)
    linarith
  obtain ⟨v, r, g1, g2⟩ := C163_ge_float_partial hf hs z v1 v2 h1 h2 (by linarith)
  obtain ⟨v', r', w1, w2, w3⟩ := hs _ hA.valid hA.fin (by rw [hA.val]; exact q0)
  have r' : Returns z.mag v' := r'
  obtain rfl := r.unique r'
  have hv0 : 0 ≤ v.val := by rcases hlo with h | h; exacts [(abs_nonneg _).trans (g1 h), (abs_nonneg _).trans (g2 h)]
  have hv1 : (2:ℚ) ^ (f.emin + f.p) ≤ v.val ^ 2 := by
    rcases hlo with h | h
    · exact h.trans (by rw [← sq_abs z.re.val]; exact pow_le_pow_left₀ (abs_nonneg _) (g1 h) 2)
    · exact h.trans (by rw [← sq_abs z.im.val]; exact pow_le_pow_left₀ (abs_nonneg _) (g2 h) 2)
  have hv2 : v.val ^ 2 ≤ 4 * q := by
    have k := w3 _ (is_zero (f := f)).valid ⟨_, _, rfl⟩
    rw [hA.val, (is_zero (f := f)).val, Rat.cast_zero, zero_sub, abs_neg, abs_of_nonneg (Real.sqrt_nonneg _)] at k
    have hk : (v.val : ℝ) ≤ 2 * √(q:ℝ) := by linarith [(abs_le.mp k).2]
    have hk' := pow_le_pow_left₀ (show (0:ℝ) ≤ v.val by exact_mod_cast hv0) hk 2
    rw [mul_pow, Real.sq_sqrt (by exact_mod_cast q0)] at hk'
    have : ((v.val ^ 2 : ℚ) : ℝ) ≤ ((4 * q : ℚ) : ℝ) := by push_cast; linarith
    exact_mod_cast this
  obtain ⟨t, t1, -, rfl⟩ := C162_float_partial hf hs v (.fin false 0) w1 w2 ⟨_, _, rfl⟩ (is_zero (f := f)).val hv1 (by linarith)
  have ea : v.abs = v := by
    obtain ⟨t, b, rfl⟩ := w2
    have iv := is_of_valid w1
    have := iv.abs
    rw [abs_of_nonneg hv0] at this
    refine this.unique iv ?_
    intro h
    rw [h] at hv1
    have := two_zpow_pos (f.emin + f.p)
    norm_num at hv1; linarith
  rw [ea] at t1
  exact ⟨⟨v, .fin false 0⟩, r.bind (.of_eq rfl), t1.bind (.of_eq rfl)⟩

/-- Concrete case of C162 and C163: with a correctly rounded root on binary32 the magnitude of -3 is exactly 3, and the magnitude
of -3 + 4i is at least 4 and is left alone by a second `mixed_abs`. -/
example : ∃ i : MixedSqrt (Flt F32), @SqrtNearest F32 i ∧ Returns (@Cartesian.mag _ _ _ i ⟨.fin true 3, .fin false 0⟩) (.fin false 3) ∧
    (∃ v : Flt F32, Returns (@Cartesian.mag _ _ _ i ⟨.fin true 3, .fin false 4⟩) v ∧ 4 ≤ v.val) ∧
    ∃ w : Cartesian (Flt F32), Returns (@Cartesian.mixedAbs _ _ _ i _ ⟨.fin true 3, .fin false 4⟩) w ∧
      Returns (@Cartesian.mixedAbs _ _ _ i _ w) w := by
  have hf : F32.Wide := ⟨by decide, by decide, by decide, by decide, by decide⟩
  obtain ⟨i, hs⟩ := sqrtNearest_exists hf
  have v3 : (.fin true 3 : Flt F32).Valid := ⟨3, 0, by decide, by decide, by norm_num [pow2_eq], by norm_num⟩
  have v4 : (.fin false 4 : Flt F32).Valid := ⟨4, 0, by decide, by decide, by norm_num [pow2_eq], by norm_num⟩
  have e3 : (.fin true 3 : Flt F32).val = -3 := by norm_num [Flt.val]
  have e4 : (.fin false 4 : Flt F32).val = 4 := by norm_num [Flt.val]
  have lo : (2:ℚ) ^ (F32.emin + F32.p) ≤ 1 := zpow_le_one_of_nonpos₀ (by norm_num) (by decide)
  have hi : (1000:ℚ) ≤ 2 ^ F32.emax := by norm_num [F32]
  refine ⟨i, hs, ?_, ?_, ?_⟩
  · obtain ⟨v, h, -, rfl⟩ := C162_float_partial hf hs (.fin true 3) (.fin false 0) v3 ⟨_, _, rfl⟩ ⟨_, _, rfl⟩ (by norm_num [Flt.val])
      (by rw [e3]; linarith) (by rw [e3]; linarith)
    exact h
  · obtain ⟨v, h, -, h4⟩ := C163_ge_float_partial hf hs ⟨.fin true 3, .fin false 4⟩ v3 v4 ⟨_, _, rfl⟩ ⟨_, _, rfl⟩
      (by rw [e3, e4]; linarith)
    refine ⟨v, h, ?_⟩
    have := h4 (by rw [e4]; linarith)
    rwa [e4, abs_of_pos (by norm_num)] at this
  · exact C162_idempotent_partial hf hs ⟨.fin true 3, .fin false 4⟩ v3 v4 ⟨_, _, rfl⟩ ⟨_, _, rfl⟩ (.inl (by rw [e3]; linarith))
      (by rw [e3, e4]; linarith)

/-- Concrete case of `C163_fixed_partial`: 3 - 4i on I16F16. -/
example : SquaresFit (⟨fx m true 32 16 (3 * 2 ^ 16), fx m true 32 16 (-4 * 2 ^ 16)⟩ : Cartesian (Fixed m true 32 16)) := by
  cases m <;> exact ⟨by decide +kernel, by decide +kernel⟩

end MixedNum
