import Verif.Lemmas.Rounds
import Verif.Lemmas.PowFloat
import Verif.Props.AddSub
import Verif.Lemmas.Run
import Verif.Lemmas.Case
/-! C82, C83: complex addition, subtraction, scalar operations and multiplication on floats. -/

namespace MixedNum
variable {f g : Format}
open Flt

/-! ## C82 -/

/-- C82: the requirement "rounded to nearest, ties to even" leaves no choice of the value: two floats that meet it for the same
exact result are equal, except that the sign of a zero is left open. -/
theorem C82_determined {z z' : Flt f} {v : ℚ} (h : RoundsTo z v) (h' : RoundsTo z' v) :
    z.val = z'.val ∧ (z.IsFinite ↔ z'.IsFinite) := by
  rcases h with ⟨h1, h2, h3, h4⟩ | ⟨h1, h2⟩ <;> rcases h' with ⟨k1, k2, k3, k4⟩ | ⟨k1, k2⟩
  · refine ⟨?_, fun _ => k2, fun _ => h2⟩
    by_contra hne
    have e := le_antisymm (h4 _ k3).1 (k4 _ h3).1
    obtain ⟨a, ha⟩ := (h4 _ k3).2 (Ne.symm hne) e
    obtain ⟨b, hb⟩ := (k4 _ h3).2 hne e.symm
    rw [abs_sub_comm] at hb
    have hg : 0 < |z.val - z'.val| := abs_pos.mpr (sub_ne_zero.mpr hne)
    have : z.val - z'.val = 2 * (a - b) * |z.val - z'.val| := by linarith
    have h5 : |(2 * (a - b : ℚ))| = 1 := by
      have := congrArg (|·|) this
      simp only [abs_mul _ |z.val - z'.val|, abs_abs] at this
      exact mul_right_cancel₀ hg.ne' (by linarith)
    have h6 : |2 * (a - b)| = 1 := by exact_mod_cast h5
    rcases abs_eq (zero_le_one' ℤ) |>.mp h6 with h | h <;> omega
  · exact absurd h1 (not_lt.mpr k1)
  · exact absurd k1 (not_lt.mpr h1)
  · rw [h2, k2]; exact ⟨rfl, Iff.rfl⟩

/-- `1 + 2^-24` is halfway between the `f32` neighbours `1` and `1 + 2^-23`; the even one is `1`. -/
example : (.fin false 1 : Flt F32).add (.fin false (1 / 2 ^ 24)) = .fin false 1 ∧
    RoundsTo (.fin false 1 : Flt F32) (1 + 1 / 2 ^ 24) := by
  have e : (.fin false 1 : Flt F32).add (.fin false (1 / 2 ^ 24)) = .fin false 1 := by decide +kernel
  refine ⟨e, ?_⟩
  have := ofExact_rounds wide_F32 false (1 + 1 / 2 ^ 24)
  rwa [show (ofExact false (1 + 1 / 2 ^ 24) : Flt F32) = .fin false 1 by decide +kernel] at this

/-- C82: both parts of a sum are the correctly rounded exact sums. -/
theorem C82_add (hf : f.Wide) (z w : Cartesian (Flt f)) (h1 : z.re.IsFinite) (h2 : z.im.IsFinite) (h3 : w.re.IsFinite)
    (h4 : w.im.IsFinite) :
    ∃ c, Returns (z.add w) c ∧ RoundsTo c.re (z.re.val + w.re.val) ∧ RoundsTo c.im (z.im.val + w.im.val) := by
  obtain ⟨zr, zi⟩ := z; obtain ⟨wr, wi⟩ := w
  obtain ⟨_, _, rfl⟩ := h1; obtain ⟨_, _, rfl⟩ := h2; obtain ⟨_, _, rfl⟩ := h3; obtain ⟨_, _, rfl⟩ := h4
  exact ⟨_, .of_eq rfl, ofExact_rounds hf _ _, ofExact_rounds hf _ _⟩

example := C82_add wide_F32 ⟨.fin false 3, .fin true (1 / 2)⟩ ⟨.fin false 5, .fin false 7⟩ ⟨_, _, rfl⟩ ⟨_, _, rfl⟩ ⟨_, _, rfl⟩ ⟨_, _, rfl⟩

/-- C82: both parts of a difference are the correctly rounded exact differences. -/
theorem C82_sub (hf : f.Wide) (z w : Cartesian (Flt f)) (h1 : z.re.IsFinite) (h2 : z.im.IsFinite) (h3 : w.re.IsFinite)
    (h4 : w.im.IsFinite) :
    ∃ c, Returns (z.sub w) c ∧ RoundsTo c.re (z.re.val - w.re.val) ∧ RoundsTo c.im (z.im.val - w.im.val) := by
  have key : ∀ x y : Flt f, x.IsFinite → y.IsFinite → RoundsTo (x.sub y) (x.val - y.val) := by
    rintro x y ⟨s, m, rfl⟩ ⟨t, n, rfl⟩
    have e : (Flt.fin t n : Flt f).neg.val = -(Flt.fin t n : Flt f).val := by cases t <;> simp [Flt.neg, Flt.val]
    rw [sub_eq_add_neg, ← e]
    exact ofExact_rounds hf _ _
  exact ⟨_, .of_eq rfl, key _ _ h1 h3, key _ _ h2 h4⟩

example := C82_sub wide_F32 ⟨.fin false 3, .fin true (1 / 2)⟩ ⟨.fin false 5, .fin false 7⟩ ⟨_, _, rfl⟩ ⟨_, _, rfl⟩ ⟨_, _, rfl⟩ ⟨_, _, rfl⟩

/-- C82: scalars of either float type are converted by correct rounding; `+ - * /` with a (non-zero) scalar whose conversion is
finite then round correctly, and `+ -` leave the imaginary part alone. -/
theorem C82_scalar (hf : f.Wide) (z : Cartesian (Flt f)) (h1 : z.re.IsFinite) (h2 : z.im.IsFinite) (t : Flt g) (ht : t.IsFinite) :
    ∃ r : Flt f, RoundsTo r t.val ∧
      (r.IsFinite →
        (∃ c, Returns (z.addScalar t) c ∧ RoundsTo c.re (z.re.val + r.val) ∧ c.im = z.im) ∧
        (∃ c, Returns (z.subScalar t) c ∧ RoundsTo c.re (z.re.val - r.val) ∧ c.im = z.im) ∧
        (∃ c, Returns (z.mulScalar t) c ∧ RoundsTo c.re (z.re.val * r.val) ∧ RoundsTo c.im (z.im.val * r.val)) ∧
        (t.val ≠ 0 → r.val ≠ 0 →
          ∃ c, Returns (z.divScalar t) c ∧ RoundsTo c.re (z.re.val / r.val) ∧ RoundsTo c.im (z.im.val / r.val))) := by
  obtain ⟨zr, zi⟩ := z
  obtain ⟨b, n, rfl⟩ := ht
  refine ⟨cast (.fin b n), ofExact_rounds hf _ _, ?_⟩
  generalize hr : (cast (.fin b n : Flt g) : Flt f) = r
  have hc : (Conv.fromNum (.fin b n : Flt g) : Prog (Flt f)) = pure r := by rw [← hr]; rfl
  rintro ⟨b', n', rfl⟩
  obtain ⟨s1, m1, rfl⟩ := h1; obtain ⟨s2, m2, rfl⟩ := h2
  have e : (Flt.fin b' n' : Flt f).neg.val = -(Flt.fin b' n' : Flt f).val := by cases b' <;> simp [Flt.neg, Flt.val]
  refine ⟨⟨⟨(Flt.fin s1 m1).add (.fin b' n'), .fin s2 m2⟩, .of_eq ?_, ofExact_rounds hf _ _, rfl⟩,
    ⟨⟨(Flt.fin s1 m1).sub (.fin b' n'), .fin s2 m2⟩, .of_eq ?_, ?_, rfl⟩,
    ⟨⟨(Flt.fin s1 m1).mul (.fin b' n'), (Flt.fin s2 m2).mul (.fin b' n')⟩, .of_eq ?_, ofExact_rounds hf _ _,
      ofExact_rounds hf _ _⟩, ?_⟩
  · unfold Cartesian.addScalar; rw [hc]; rfl
  · unfold Cartesian.subScalar; rw [hc]; rfl
  · rw [sub_eq_add_neg, ← e]; exact ofExact_rounds hf _ _
  · unfold Cartesian.mulScalar; rw [hc]; rfl
  · intro h0 h0'
    have hb : MixedCmp.beq (.fin b n : Flt g) MixedZero.zero = false := by
      show decide (_ = _) = false
      exact decide_eq_false h0
    have hd : ∀ x : Flt f, x.IsFinite → RoundsTo (x.div (.fin b' n')) (x.val / (Flt.fin b' n' : Flt f).val) := by
      rintro x ⟨s, m, rfl⟩
      have hn : n' ≠ 0 := by rintro rfl; apply h0'; cases b' <;> simp [Flt.val]
      show RoundsTo (if n' = 0 then _ else _) _
      rw [if_neg hn]; exact ofExact_rounds hf _ _
    refine ⟨⟨_, _⟩, .of_eq ?_, hd _ ⟨_, _, rfl⟩, hd _ ⟨_, _, rfl⟩⟩
    unfold Cartesian.divScalar
    rw [hb, hc]; rfl

example : ∃ z w : Cartesian (Flt F32), z.re.IsFinite ∧ z.im.IsFinite ∧ w.re.IsFinite ∧ w.im.IsFinite :=
  ⟨⟨.fin false 1, .fin true 2⟩, ⟨.fin false (1/2), .fin true 3⟩, ⟨_, _, rfl⟩, ⟨_, _, rfl⟩, ⟨_, _, rfl⟩, ⟨_, _, rfl⟩⟩

/-! ## C83 -/

/-- Two products and a sum, each rounded. -/
theorem two_products (hf : f.Wide) {x y x' y' : Flt f} {a b a' b' : ℚ} (hx : Is x a) (hy : Is y b) (hx' : Is x' a') (hy' : Is y' b')
    (h : 2 * (|a * b| + |a' * b'|) ≤ 2 ^ f.emax) :
    (∃ q, Is ((x.mul y).add (x'.mul y')) q ∧
      |q - (a * b + a' * b')| ≤ (2 / 2 ^ f.p + 1 / 2 ^ (2 * f.p)) * (|a * b| + |a' * b'|) + 2 * 2 ^ f.emin) ∧
    (∃ q, Is ((x.mul y).sub (x'.mul y')) q ∧
      |q - (a * b - a' * b')| ≤ (2 / 2 ^ f.p + 1 / 2 ^ (2 * f.p)) * (|a * b| + |a' * b'|) + 2 * 2 ^ f.emin) := by
  have hp := hf.p; have hmin := hf.emin; have hmax := hf.emax
  have hu := uq_pos (f := f); have hu' := uq_le hf
  have hη := two_zpow_pos f.emin
  have hη' : (2:ℚ) ^ f.emin ≤ 1 := zpow_le_one_of_nonpos₀ (by norm_num) (by omega)
  have hbig : (1024:ℚ) ≤ 2 ^ f.emax := by
    calc (1024:ℚ) = 2 ^ 10 := by norm_num
      _ ≤ _ := pow_le_pow_right₀ (by norm_num) (by omega)
  have e1 : uq f = 1 / 2 ^ f.p := by unfold uq; rw [zpow_neg, zpow_natCast, one_div]
  have e2 : (2:ℚ) / 2 ^ f.p + 1 / 2 ^ (2 * f.p) = 2 * uq f + uq f ^ 2 := by
    rw [e1, div_pow, one_pow, ← pow_mul, mul_comm f.p 2]; ring
  have r : ∀ q : ℚ, |rnd f.p f.emin q - q| ≤ |q| * uq f + 2 ^ f.emin / 2 := fun q => abs_rnd_le q
  have n1 := abs_nonneg (a * b); have n2 := abs_nonneg (a' * b')
  set A := |a * b|; set B := |a' * b'|
  have lt1 : ∀ q : ℚ, |q| ≤ A + B → |rnd f.p f.emin q| < 2 ^ f.emax := by
    intro q hq
    have h1 := r q
    have h2 := abs_sub_abs_le_abs_sub (rnd f.p f.emin q) q
    have h3 : |q| * uq f ≤ (A + B) * (1 / 10 ^ 7) := mul_le_mul hq hu' hu.le (by linarith)
    linarith
  have b1 := r (a * b); have b2 := r (a' * b')
  have c1 := abs_sub_abs_le_abs_sub (rnd f.p f.emin (a * b)) (a * b)
  have c2 := abs_sub_abs_le_abs_sub (rnd f.p f.emin (a' * b')) (a' * b')
  have m1 := hx.mul hf.one_le hy (lt1 _ (by show A ≤ _; linarith))
  have m2 := hx'.mul hf.one_le hy' (lt1 _ (by show B ≤ _; linarith))
  have uu : A * uq f ≤ A * (1 / 10 ^ 7) := mul_le_mul_of_nonneg_left hu' n1
  have uv : B * uq f ≤ B * (1 / 10 ^ 7) := mul_le_mul_of_nonneg_left hu' n2
  change |rnd f.p f.emin (a * b) - a * b| ≤ A * uq f + 2 ^ f.emin / 2 at b1
  change |rnd f.p f.emin (a' * b') - a' * b'| ≤ B * uq f + 2 ^ f.emin / 2 at b2
  change |rnd f.p f.emin (a * b)| - A ≤ _ at c1
  change |rnd f.p f.emin (a' * b')| - B ≤ _ at c2
  have fin : ∀ s t : ℚ, |s| ≤ |rnd f.p f.emin (a * b)| + |rnd f.p f.emin (a' * b')| →
      |s - t| ≤ |rnd f.p f.emin (a * b) - a * b| + |rnd f.p f.emin (a' * b') - a' * b'| →
      |rnd f.p f.emin s| < 2 ^ f.emax ∧ |rnd f.p f.emin s - t| ≤ (2 * uq f + uq f ^ 2) * (A + B) + 2 * 2 ^ f.emin := by
    intro s t hs hst
    have h1 := r s
    have h2 := abs_sub_abs_le_abs_sub (rnd f.p f.emin s) s
    have hs' : |s| ≤ (A + B) * (1 + uq f) + 2 ^ f.emin := by linarith
    have h3 : |s| * uq f ≤ ((A + B) * (1 + uq f) + 2 ^ f.emin) * uq f := mul_le_mul_of_nonneg_right hs' hu.le
    have h4 : 2 ^ f.emin * uq f ≤ 2 ^ f.emin * (1 / 10 ^ 7) := mul_le_mul_of_nonneg_left hu' hη.le
    have h5 : |s| * uq f ≤ ((A + B) * (1 + uq f) + 2 ^ f.emin) * (1 / 10 ^ 7) :=
      h3.trans (mul_le_mul_of_nonneg_left hu' (by positivity))
    have h6 := abs_sub_le (rnd f.p f.emin s) s t
    constructor
    · linarith
    · nlinarith
  rw [e2]
  have f1 := fin _ (a * b + a' * b') (abs_add_le _ _) (by
    rw [add_sub_add_comm]; exact abs_add_le _ _)
  have f2 := fin _ (a * b - a' * b') (abs_sub _ _) (by
    rw [sub_sub_sub_comm]; exact abs_sub _ _)
  exact ⟨⟨_, m1.add hf.one_le m2 f1.1, f1.2⟩, ⟨_, m1.sub hf.one_le m2 f2.1, f2.2⟩⟩

/-- C83: multiplication of floats whose partial products do not overflow. -/
theorem C83_accuracy (hf : f.Wide) (z w : Cartesian (Flt f)) (h1 : z.re.IsFinite) (h2 : z.im.IsFinite) (h3 : w.re.IsFinite)
    (h4 : w.im.IsFinite) (v1 : z.re.Valid) (v2 : z.im.Valid) (v3 : w.re.Valid) (v4 : w.im.Valid)
    (hr : 2 * (|z.re.val * w.re.val| + |z.im.val * w.im.val|) ≤ 2 ^ f.emax)
    (hi : 2 * (|z.re.val * w.im.val| + |z.im.val * w.re.val|) ≤ 2 ^ f.emax) :
    ∃ c, Returns (z.mul w) c ∧ (c.re.Valid ∧ c.re.IsFinite) ∧ (c.im.Valid ∧ c.im.IsFinite) ∧
      |c.re.val - (z.re.val * w.re.val - z.im.val * w.im.val)| ≤
        (2 / 2 ^ f.p + 1 / 2 ^ (2 * f.p)) * (|z.re.val * w.re.val| + |z.im.val * w.im.val|) + 2 * 2 ^ f.emin ∧
      |c.im.val - (z.re.val * w.im.val + z.im.val * w.re.val)| ≤
        (2 / 2 ^ f.p + 1 / 2 ^ (2 * f.p)) * (|z.re.val * w.im.val| + |z.im.val * w.re.val|) + 2 * 2 ^ f.emin := by
  obtain ⟨zr, zi⟩ := z; obtain ⟨wr, wi⟩ := w
  obtain ⟨_, _, rfl⟩ := h1; obtain ⟨_, _, rfl⟩ := h2; obtain ⟨_, _, rfl⟩ := h3; obtain ⟨_, _, rfl⟩ := h4
  have i1 := is_of_valid v1; have i2 := is_of_valid v2; have i3 := is_of_valid v3; have i4 := is_of_valid v4
  obtain ⟨-, q, a1, a2⟩ := two_products hf i1 i3 i2 i4 hr
  obtain ⟨⟨q', b1, b2⟩, -⟩ := two_products hf i1 i4 i2 i3 hi
  refine ⟨_, .of_eq rfl, ⟨a1.valid, a1.fin⟩, ⟨b1.valid, b1.fin⟩, ?_, ?_⟩
  · rw [a1.val]; exact a2
  · rw [b1.val]; exact b2

example := C83_accuracy wide_F32 ⟨.fin false 3, .fin true (1 / 2)⟩ ⟨.fin false 5, .fin false 7⟩ ⟨_, _, rfl⟩ ⟨_, _, rfl⟩ ⟨_, _, rfl⟩ ⟨_, _, rfl⟩
  (by is_float 3 0) (by is_float 1 (-1)) (by is_float 5 0) (by is_float 7 0) (by norm_num [Flt.val, F32]) (by norm_num [Flt.val, F32])

/-- C83: on whole numbers with partial products below `2^p` the product is exact. -/
theorem C83_whole (hf : f.Wide) (z w : Cartesian (Flt f)) (h1 : z.re.IsFinite) (h2 : z.im.IsFinite) (h3 : w.re.IsFinite)
    (h4 : w.im.IsFinite) (v1 : z.re.Valid) (v2 : z.im.Valid) (v3 : w.re.Valid) (v4 : w.im.Valid) (a b c d : ℤ)
    (e1 : z.re.val = a) (e2 : z.im.val = b) (e3 : w.re.val = c) (e4 : w.im.val = d)
    (hr : |a * c| + |b * d| < 2 ^ f.p) (hi : |a * d| + |b * c| < 2 ^ f.p) :
    ∃ r, Returns (z.mul w) r ∧ r.re.val = ((a * c - b * d : ℤ) : ℚ) ∧ r.im.val = ((a * d + b * c : ℤ) : ℚ) := by
  have hp := hf.p; have hmin := hf.emin; have hmax := hf.emax
  obtain ⟨zr, zi⟩ := z; obtain ⟨wr, wi⟩ := w
  obtain ⟨_, _, rfl⟩ := h1; obtain ⟨_, _, rfl⟩ := h2; obtain ⟨_, _, rfl⟩ := h3; obtain ⟨_, _, rfl⟩ := h4
  have i1 := is_of_valid v1; have i2 := is_of_valid v2; have i3 := is_of_valid v3; have i4 := is_of_valid v4
  rw [e1] at i1; rw [e2] at i2; rw [e3] at i3; rw [e4] at i4
  have key : ∀ k : ℤ, |k| < 2 ^ f.p → rnd f.p f.emin (k:ℚ) = k ∧ |rnd f.p f.emin (k:ℚ)| < 2 ^ f.emax := by
    intro k hk
    have hr : rnd f.p f.emin (k:ℚ) = k := rnd_rep ⟨k, 0, by omega, hk, by simp⟩
    refine ⟨hr, ?_⟩
    rw [hr]
    have : |(k:ℚ)| < 2 ^ f.p := by exact_mod_cast hk
    exact this.trans_le (pow_le_pow_right₀ (by norm_num) (by omega))
  have mul : ∀ (x y : Flt f) (k l : ℤ), Is x k → Is y l → |k * l| < 2 ^ f.p → Is (x.mul y) ((k * l : ℤ) : ℚ) := by
    intro x y k l hx hy h
    have h5 := key _ h
    have := hx.mul hf.one_le hy (by rw [← Int.cast_mul]; exact h5.2)
    rwa [← Int.cast_mul, h5.1] at this
  have n := fun k : ℤ => abs_nonneg k
  have p1 := mul _ _ a c i1 i3 (by linarith [n (b * d)])
  have p2 := mul _ _ b d i2 i4 (by linarith [n (a * c)])
  have p3 := mul _ _ a d i1 i4 (by linarith [n (b * c)])
  have p4 := mul _ _ b c i2 i3 (by linarith [n (a * d)])
  have k1 := key _ ((abs_sub (a * c) (b * d)).trans_lt hr)
  have k2 := key _ ((abs_add_le (a * d) (b * c)).trans_lt hi)
  have q1 := p1.sub hf.one_le p2 (by rw [← Int.cast_sub]; exact k1.2)
  have q2 := p3.add hf.one_le p4 (by rw [← Int.cast_add]; exact k2.2)
  rw [← Int.cast_sub, k1.1] at q1
  rw [← Int.cast_add, k2.1] at q2
  exact ⟨_, .of_eq rfl, q1.val, q2.val⟩

example : (Flt.fin false 1 : Flt F32).Valid ∧ (Flt.fin false 2 : Flt F32).Valid ∧
    |(1 * 1 : ℤ)| + |(2 * 2 : ℤ)| < 2 ^ F32.p ∧
    2 * (|(Flt.fin false 1 : Flt F32).val * (Flt.fin false 1 : Flt F32).val| +
      |(Flt.fin false 2 : Flt F32).val * (Flt.fin false 2 : Flt F32).val|) ≤ 2 ^ F32.emax :=
  ⟨⟨1, 0, by decide, by decide, by norm_num [pow2_eq], by norm_num⟩,
    ⟨2, 0, by decide, by decide, by norm_num [pow2_eq], by norm_num⟩, by norm_num [F32], by norm_num [Flt.val, F32]⟩

end MixedNum
