import Verif.Props.NearMonotone
import Verif.Props.TrigFloat
import Verif.Props.SqrtScale
import Verif.Props.AddSub
import Verif.Lemmas.Run
import Verif.Lemmas.Case
/-! # C160: sine and cosine never change by more than their argument -/

namespace MixedNum
variable {f : Format} {m : Mode} {W F : ℕ}

/-! ## Exact reals -/

theorem cosT_five_le {w : ℝ} (hw : |w| ≤ 2) : cosT 5 w ≤ 1 := by
  have := cosT_five_ge (x := 0) (c := |w|) (by simp) hw
  have e : cosT 5 |w| = cosT 5 w := by
    rw [cosT_five, cosT_five, Even.pow_abs (by decide), Even.pow_abs (by decide), Even.pow_abs (by decide), Even.pow_abs (by decide)]
  have e0 : cosT 5 0 = 1 := by rw [cosT_five]; norm_num
  linarith

theorem sinT_lip {p q : ℝ} (hp : |p| ≤ 2) (hq : |q| ≤ 2) : |sinT 5 q - sinT 5 p| ≤ |q - p| := by
  have key : ∀ p q : ℝ, |p| ≤ 2 → |q| ≤ 2 → p ≤ q → |sinT 5 q - sinT 5 p| ≤ |q - p| := by
    intro p q hp hq h
    have h1 := sinT_fall hp hq h
    have h2 := (convex_Icc (-2:ℝ) 2).image_sub_le_mul_sub_of_deriv_le
      (fun z _ => (hasDerivAt_sinT 5 z).continuousAt.continuousWithinAt)
      (fun z _ => (hasDerivAt_sinT 5 z).differentiableAt.differentiableWithinAt) (C := 1) (fun w hw => by
        rw [interior_Icc, Set.mem_Ioo] at hw
        rw [(hasDerivAt_sinT 5 w).deriv]
        exact cosT_five_le (abs_le.mpr ⟨hw.1.le, hw.2.le⟩)) p (abs_le.mp hp) q (abs_le.mp hq) h
    rw [abs_of_nonneg (sub_nonneg.mpr h), abs_le]
    constructor <;> linarith
  rcases le_total p q with h | h
  · exact key p q hp hq h
  · rw [abs_sub_comm (sinT 5 q), abs_sub_comm q]; exact key q p hq hp h

theorem fold_lip (x y : ℝ) : |fold x - fold y| ≤ |x - y| := by
  have hp := Real.pi_pos
  have a1 := le_abs_self (x - y); have a2 := neg_le_abs (x - y)
  rw [abs_le]
  unfold fold
  split_ifs <;> constructor <;> linarith

/-- The polynomial sine stays in the range of the lemma up to three quarters of a turn, and a little further. -/
theorem fold_two {x : ℝ} (h : |x| ≤ 5) : |fold x| ≤ 2 := by
  have h1 := Real.pi_gt_d2; have h2 := Real.pi_lt_d2
  have h' := abs_le.mp h
  rw [abs_le]
  unfold fold
  norm_num at h1 h2
  split_ifs <;> constructor <;> linarith

/-- **C160**: on the reals, up to three quarters of a turn, two polynomial sines differ by no more than their arguments. -/
theorem C160_sin_real (x y u v : ℝ) (hx : |x| ≤ 5) (hy : |y| ≤ 5) (hu : Returns (sin x) u) (hv : Returns (sin y) v) :
    |u - v| ≤ |x - y| := by
  rw [hu.unique (.of_eq (sin_real x)), hv.unique (.of_eq (sin_real y))]
  exact (sinT_lip (fold_two hy) (fold_two hx)).trans (fold_lip x y)

example (u v : ℝ) := C160_sin_real (-2) 3 u v (by norm_num) (by norm_num)

/-- The cosine of `b - π/2` is the sine of `b`, up to three quarters of a turn. -/
theorem cos_of_sin {b : ℝ} (h : |b| ≤ 3 / 2 * Real.pi) : Returns (cos (b - Real.pi / 2)) (sinT 5 (fold b)) := by
  have hp := Real.pi_pos
  have h' := abs_le.mp h
  have run : ∀ w : ℝ, -Real.pi ≤ w → w < Real.pi → ∀ k : ℤ, w = b + k * (2 * Real.pi) → fold w = fold b →
      Returns (cos (b - Real.pi / 2)) (sinT 5 (fold b)) := by
    intro w h1 h2 k hk e
    obtain ⟨r, hr, -⟩ := C33_wrap_real (b - Real.pi / 2 + Real.pi / 2)
    have hr' := C33_unique _ r w hr k h1 h2 (by rw [hk]; ring)
    rw [hr'] at hr
    rw [← e]
    exact (cos_real_run _ _ hr).symm.ret (.of_eq (sin_real w))
  by_cases c1 : b < -Real.pi
  · refine run (b + 2 * Real.pi) (by linarith) (by linarith) 1 (by push_cast; ring) ?_
    rw [fold_high (by linarith), fold_low (by linarith)]; ring
  by_cases c2 : b < Real.pi
  · exact run b (by linarith) c2 0 (by push_cast; ring) rfl
  · refine run (b - 2 * Real.pi) (by linarith) (by linarith) (-1) (by push_cast; ring) ?_
    rw [fold_low (by linarith), fold_high (by linarith)]; ring

/-- **C160**: on all of the reals, two polynomial cosines differ by no more than their arguments. -/
theorem C160_cos_real (x y u v : ℝ) (hu : Returns (cos x) u) (hv : Returns (cos y) v) : |u - v| ≤ |x - y| := by
  have hp := Real.pi_pos
  have g := Real.pi_lt_d2
  obtain ⟨a, ha, a1, a2, j, hj⟩ := C33_wrap_real (x + Real.pi / 2)
  obtain ⟨b, hb, b1, b2, k, hk⟩ := C33_wrap_real (y + Real.pi / 2)
  rw [hu.unique ((cos_real_run _ _ ha).symm.ret (.of_eq (sin_real a))), hv.unique ((cos_real_run _ _ hb).symm.ret (.of_eq (sin_real b)))]
  have near : ∀ p q : ℝ, -Real.pi ≤ p → p ≤ Real.pi → -Real.pi ≤ q → q ≤ Real.pi → |sinT 5 (fold p) - sinT 5 (fold q)| ≤ |p - q| :=
    fun p q p1 p2 q1 q2 => (sinT_lip (fold_two (abs_le.mpr ⟨by norm_num at g; linarith, by norm_num at g; linarith⟩))
      (fold_two (abs_le.mpr ⟨by norm_num at g; linarith, by norm_num at g; linarith⟩))).trans (fold_lip p q)
  have e1 : fold Real.pi = 0 := by rw [fold_high (by linarith)]; ring
  have e2 : fold (-Real.pi) = 0 := by rw [fold_low (by linarith)]; ring
  have exy : x - y = a - b + (k - j : ℤ) * (2 * Real.pi) := by push_cast; linarith
  -- the two angles on different turns: through the seam
  have seam : ∀ p q : ℝ, -Real.pi ≤ p → p ≤ Real.pi → -Real.pi ≤ q → q ≤ Real.pi →
      |sinT 5 (fold p) - sinT 5 (fold q)| ≤ (p + Real.pi) + (Real.pi - q) := by
    intro p q p1 p2 q1 q2
    have n1 := near p (-Real.pi) p1 p2 le_rfl (by linarith)
    have n2 := near Real.pi q (by linarith) le_rfl q1 q2
    rw [e2, abs_of_nonneg (by linarith : 0 ≤ p - -Real.pi)] at n1
    rw [e1, abs_of_nonneg (by linarith : 0 ≤ Real.pi - q)] at n2
    have := abs_sub_le (sinT 5 (fold p)) (sinT 5 0) (sinT 5 (fold q))
    linarith
  rw [exy]
  rcases lt_trichotomy (k - j) 0 with h | h | h
  · have h1 : ((k - j : ℤ) : ℝ) ≤ -1 := by exact_mod_cast (by omega : k - j ≤ -1)
    have h2 := mul_le_mul_of_nonneg_right h1 (by linarith : 0 ≤ 2 * Real.pi)
    have := seam b a b1 b2.le a1 a2.le
    rw [abs_sub_comm] at this
    refine this.trans (le_trans ?_ (neg_le_abs _))
    linarith
  · rw [h]; simpa using near a b a1 a2.le b1 b2.le
  · have h1 : (1:ℝ) ≤ ((k - j : ℤ) : ℝ) := by exact_mod_cast (by omega : 1 ≤ k - j)
    have h2 := mul_le_mul_of_nonneg_right h1 (by linarith : 0 ≤ 2 * Real.pi)
    refine (seam a b a1 a2.le b1 b2.le).trans (le_trans ?_ (le_abs_self _))
    linarith

/-- Three turns apart, and a bit. -/
example (u v : ℝ) (hu : Returns (cos (20:ℝ)) u) (hv : Returns (cos (201 / 10:ℝ)) v) : |u - v| ≤ 1 / 10 :=
  (C160_cos_real _ _ _ _ hu hv).trans (by norm_num)

/-! ## Fixed point -/

namespace Fixed

/-- The stored argument after folding. -/
def foldRaw (F : ℕ) (n : ℤ) : ℤ :=
  if n < -halfRaw F then -(2 * halfRaw F) - n else if halfRaw F < n then 2 * halfRaw F - n else n

theorem foldRaw_lip (F : ℕ) (a b : ℤ) : |foldRaw F a - foldRaw F b| ≤ |a - b| := by
  have h := (halfRaw_bounds F)
  have hb := piRaw_bounds F
  have : (1:ℤ) ≤ 2 ^ F := one_le_pow₀ (by norm_num)
  have a1 := le_abs_self (a - b); have a2 := neg_le_abs (a - b)
  rw [abs_le]
  unfold foldRaw
  split_ifs <;> constructor <;> omega

/-- Folding of two numbers on different turns. -/
theorem foldRaw_turn (F : ℕ) {a b k : ℤ} (a1 : -piRaw F ≤ a) (a2 : a ≤ piRaw F) (b1 : -piRaw F ≤ b) (b2 : b ≤ piRaw F) :
    |foldRaw F a - foldRaw F b| ≤ |a - b + k * (2 * piRaw F)| + 2 := by
  have hh := halfRaw_bounds F
  have hpb := piRaw_bounds F
  have hP : (1:ℤ) ≤ 2 ^ F := one_le_pow₀ (by norm_num)
  have e1 : foldRaw F (piRaw F) = 2 * halfRaw F - piRaw F := by
    unfold foldRaw; rw [if_neg (by omega), if_pos (by omega)]
  have e2 : foldRaw F (-piRaw F) = piRaw F - 2 * halfRaw F := by
    unfold foldRaw; rw [if_pos (by omega)]; ring
  have seam : ∀ c d : ℤ, -piRaw F ≤ c → d ≤ piRaw F →
      |foldRaw F c - foldRaw F d| ≤ (c + piRaw F) + (piRaw F - d) + 2 := by
    intro c d hc hd
    have n1 := foldRaw_lip F c (-piRaw F)
    have n2 := foldRaw_lip F (piRaw F) d
    rw [e2, abs_of_nonneg (by omega : 0 ≤ c - -piRaw F)] at n1
    rw [e1, abs_of_nonneg (by omega : 0 ≤ piRaw F - d)] at n2
    have m1 := abs_le.mp n1; have m2 := abs_le.mp n2
    rw [abs_le]
    generalize foldRaw F c = P at *
    generalize foldRaw F d = Q at *
    constructor <;> omega
  rcases lt_trichotomy k 0 with h | h | h
  · have h2 : k * (2 * piRaw F) ≤ -1 * (2 * piRaw F) := mul_le_mul_of_nonneg_right (by omega) (by omega)
    have h3 := seam b a b1 a2
    rw [abs_sub_comm] at h3
    refine h3.trans (add_le_add (le_trans ?_ (neg_le_abs _)) le_rfl)
    linarith
  · rw [h, zero_mul, add_zero]; linarith [foldRaw_lip F a b]
  · have h2 : 1 * (2 * piRaw F) ≤ k * (2 * piRaw F) := mul_le_mul_of_nonneg_right (by omega) (by omega)
    refine (seam a b a1 b2).trans (add_le_add (le_trans ?_ (le_abs_self _)) le_rfl)
    linarith

/-- The polynomial sine of two numbers, compared through their folded arguments. -/
theorem sin_step (h : F + 20 ≤ W) (x y : Fixed m true W F) (hx : |x.val| ≤ piRaw F) (hy : |y.val| ≤ piRaw F) :
    ∃ u v, sin x = pure u ∧ sin y = pure v ∧ |u.val - v.val| ≤ |foldRaw F x.val - foldRaw F y.val| + 9 := by
  have hu := u_pos F; have hu1 := u_le_one F
  have hh := halfRaw_bounds F
  have hpb := piRaw_bounds F
  have hP : (1:ℤ) ≤ 2 ^ F := one_le_pow₀ (by norm_num)
  have one : ∀ z : Fixed m true W F, |z.val| ≤ piRaw F → ∃ a w : Fixed m true W F, a.val = foldRaw F z.val ∧ |a.r| ≤ 2 ∧ sin z = pure w ∧
      |w.r - sinT 5 a.r| ≤ 4.7 * u F := by
    intro z hz
    have hz' := abs_le.mp hz
    obtain ⟨a, ha, ca⟩ := sinFold_eq (by omega) z (by omega)
    have ea : a.val = foldRaw F z.val := by
      unfold foldRaw
      rw [abs_le] at ca
      split_ifs <;> omega
    have ba : |a.val| ≤ halfRaw F := by
      rw [ea, abs_le]; unfold foldRaw; split_ifs <;> constructor <;> omega
    have br : |a.r| ≤ 2 := by
      have h1 : |(a.val : ℝ)| ≤ halfRaw F := by exact_mod_cast ba
      have h2 := (mul_le_mul_of_nonneg_right h1 hu.le).trans (half_le F)
      rw [r_eq, abs_mul, abs_of_pos hu]
      norm_num at h2 ⊢; linarith
    obtain ⟨w, hw, ew⟩ := poly_near h br z ha
    exact ⟨a, w, ea, br, hw, ew⟩
  obtain ⟨a, v, ea, ba, hv, ev⟩ := one x hx
  obtain ⟨b, w, eb, bb, hw, ew⟩ := one y hy
  refine ⟨v, w, hv, hw, ?_⟩
  have l := sinT_lip bb ba
  have h1 : |v.r - w.r| ≤ |a.r - b.r| + 9.4 * u F := by
    have t1 := abs_sub_le v.r (sinT 5 a.r) w.r
    have t2 := abs_sub_le (sinT 5 a.r) (sinT 5 b.r) w.r
    rw [abs_sub_comm (sinT 5 b.r)] at t2
    norm_num at ev ew ⊢; linarith
  rw [r_eq, r_eq, r_eq, r_eq, ← sub_mul, ← sub_mul, abs_mul, abs_mul, abs_of_pos hu, ← add_mul] at h1
  have h2 := le_of_mul_le_mul_right h1 hu
  have h3 : ((|v.val - w.val| : ℤ) : ℝ) < ((|a.val - b.val| + 10 : ℤ) : ℝ) := by push_cast; norm_num at h2 ⊢; linarith
  have h4 : |v.val - w.val| < |a.val - b.val| + 10 := by exact_mod_cast h3
  rw [← ea, ← eb]; omega

end Fixed

/-- **C160**: on fixed point, from -π to π of the type, two sines differ by no more than their arguments and nine units. -/
theorem C160_sin_fixed (h : F + 20 ≤ W) (x y p : Fixed m true W F) (hp : Returns MixedPi.pi p) (hx : |x.val| ≤ p.val)
    (hy : |y.val| ≤ p.val) : ∃ u v, Returns (sin x) u ∧ Returns (sin y) v ∧ |u.val - v.val| ≤ |x.val - y.val| + 9 := by
  rw [Fixed.pi_val (by omega) hp] at hx hy
  obtain ⟨u, v, hu, hv, k⟩ := Fixed.sin_step h x y hx hy
  exact ⟨u, v, .of_eq hu, .of_eq hv, by linarith [Fixed.foldRaw_lip F x.val y.val]⟩

example := C160_sin_fixed (by decide) (fx .checked true 32 8 300) (fx .checked true 32 8 (-700)) (fx .checked true 32 8 804) (.of_eq (by kernel_rfl)) (by decide) (by decide)

/-- The cosine is the sine of the shifted argument on its first turn. -/
theorem Fixed.cos_turn (h : F + 4 ≤ W) (x p : Fixed m true W F) (hp : Returns MixedPi.pi p) (hx : x.val + p.val / 2 < 2 ^ (W - 1)) :
    ∃ (a : Fixed m true W F) (j : ℤ), SameOutcome (cos x) (sin a) ∧ -piRaw F ≤ a.val ∧ a.val ≤ piRaw F ∧
      a.val = x.val + halfRaw F + j * (2 * piRaw F) := by
  have hv := Fixed.pi_val (by omega) hp
  have eh : Fixed.halfRaw F = p.val / 2 := by rw [hv]; rfl
  have fit : Fits true W (x.val + Fixed.halfRaw F) := by
    have := Fixed.fits_signed.mp x.fits
    have := (Fixed.halfRaw_bounds F).1
    rw [Fixed.fits_signed, eh]; omega
  obtain ⟨q, a, hq, -, ha, a1, a2, j, hj⟩ := C30_wrap_fixed h (Fixed.mkv (m := m) _ fit)
  rw [Fixed.mkv_val, Fixed.pi_val (by omega) hq] at hj
  rw [Fixed.pi_val (by omega) hq] at a1 a2
  exact ⟨a, j, Fixed.cos_run h x _ _ (Fixed.mkv_val _ fit) ha, a1, a2.le, hj⟩

/-- **C160**: on fixed point, wherever the argument plus the type's π/2 does not overflow, two cosines differ by no more than their
arguments and eleven units, on whatever turns they are. -/
theorem C160_cos_fixed (h : F + 20 ≤ W) (x y p : Fixed m true W F) (hp : Returns MixedPi.pi p) (hx : x.val + p.val / 2 < 2 ^ (W - 1))
    (hy : y.val + p.val / 2 < 2 ^ (W - 1)) :
    ∃ u v, Returns (cos x) u ∧ Returns (cos y) v ∧ |u.val - v.val| ≤ |x.val - y.val| + 11 := by
  have h4 : F + 4 ≤ W := by omega
  obtain ⟨a, j, ra, a1, a2, hj⟩ := Fixed.cos_turn h4 x p hp hx
  obtain ⟨b, k, rb, b1, b2, hk⟩ := Fixed.cos_turn h4 y p hp hy
  obtain ⟨u, v, hu, hv', e⟩ := Fixed.sin_step h a b (abs_le.mpr ⟨a1, a2⟩) (abs_le.mpr ⟨b1, b2⟩)
  refine ⟨u, v, ra.symm.ret (.of_eq hu), rb.symm.ret (.of_eq hv'), ?_⟩
  have key := Fixed.foldRaw_turn F (a := a.val) (b := b.val) (k := k - j) a1 a2 b1 b2
  rw [show a.val - b.val + (k - j) * (2 * Fixed.piRaw F) = x.val - y.val by rw [hj, hk]; ring] at key
  linarith

/-- Neighbours on the fourth turn. -/
example : ∃ u v, Returns (cos (fx .checked true 32 12 100000)) u ∧ Returns (cos (fx .checked true 32 12 100001)) v ∧
    |u.val - v.val| ≤ 1 + 11 :=
  C160_cos_fixed (by norm_num) _ _ (fx .checked true 32 12 12868) (by run 0) (by decide) (by decide)

/-! ## Floats -/

open Flt

/-- Folding on floats against folding on the reals. -/
theorem sinFold_near (hf : f.Wide) (h60 : f.p ≤ 60) {x : Flt f} {v : ℚ} (hx : Is x v) (hv : |(v:ℝ)| ≤ 4.712) :
    ∃ y t, sinFold x = pure y ∧ Is y t ∧ |(t:ℝ)| ≤ 1.5709 ∧ |(t:ℝ) - fold v| ≤ 9 * eta f := by
  have he := eta_pos (f := f); have hel := eta_le hf
  have hh := half_near hf h60
  have his := half_is hf
  have p1 := Real.pi_gt_d6; have p2 := Real.pi_lt_d6
  have hv' := abs_le.mp hv
  have hpi := abs_le.mp (pi_near hf h60)
  set h := (piF f).div (ofExact false ((2:ℤ):ℚ))
  have unf : sinFold x = (if x.lt h.neg then pure (h.neg.sub (x.add h)) else
      if h.lt x then pure (h.sub (x.sub h)) else pure x) := rfl
  have key : ∀ {a b : ℚ}, a < b ↔ (a:ℝ) < b := fun {a b} => Rat.cast_lt.symm
  rw [unf, hx.lt his.neg, his.lt hx]
  by_cases c1 : v < -(piV f / 2)
  · rw [if_pos (decide_eq_true c1)]
    have c1' := key.mp c1
    push_cast at c1'
    have d := hx.near.add hf hh (U := 3.1413) (M := 3.15) (by
      rw [abs_le]; constructor <;> norm_num at * <;> linarith) (by norm_num) (by norm_num)
    have e := hh.neg.sub hf d (U := 1.5708) (M := 1.571) (by
      rw [abs_le]; constructor <;> norm_num at * <;> linarith) (by norm_num) (by norm_num)
    obtain ⟨t, ht, e1⟩ := e
    rw [show -(Real.pi / 2) - ((v:ℝ) + Real.pi / 2) = -Real.pi - v by ring] at e1
    have e2 : |(t:ℝ) - (-Real.pi - v)| ≤ 69 / 10 * eta f := e1.trans (mul_le_mul_of_nonneg_right (by norm_num) he.le)
    refine ⟨_, t, rfl, ht, ?_, ?_⟩
    · have := abs_le.mp e2
      rw [abs_le]; constructor <;> norm_num at * <;> linarith
    · have := abs_le.mp e1
      rw [abs_le]
      unfold fold
      rw [if_neg (by linarith : ¬ Real.pi / 2 < (v:ℝ))]
      split_ifs <;> constructor <;> linarith
  rw [if_neg (by rw [decide_eq_false c1]; exact Bool.false_ne_true)]
  by_cases c2 : piV f / 2 < v
  · rw [if_pos (decide_eq_true c2)]
    have c2' := key.mp c2
    push_cast at c2'
    have d := hx.near.sub hf hh (U := 3.1413) (M := 3.15) (by
      rw [abs_le]; constructor <;> norm_num at * <;> linarith) (by norm_num) (by norm_num)
    have e := hh.sub hf d (U := 1.5708) (M := 1.571) (by
      rw [abs_le]; constructor <;> norm_num at * <;> linarith) (by norm_num) (by norm_num)
    obtain ⟨t, ht, e1⟩ := e
    rw [show Real.pi / 2 - ((v:ℝ) - Real.pi / 2) = Real.pi - v by ring] at e1
    have e2 : |(t:ℝ) - (Real.pi - v)| ≤ 69 / 10 * eta f := e1.trans (mul_le_mul_of_nonneg_right (by norm_num) he.le)
    refine ⟨_, t, rfl, ht, ?_, ?_⟩
    · have := abs_le.mp e2
      rw [abs_le]; constructor <;> norm_num at * <;> linarith
    · have := abs_le.mp e1
      rw [abs_le]
      unfold fold
      rw [if_neg (by linarith : ¬ (v:ℝ) < -(Real.pi / 2))]
      split_ifs <;> constructor <;> linarith
  · rw [if_neg (by rw [decide_eq_false c2]; exact Bool.false_ne_true)]
    have c1' := not_lt.mp (mt key.mpr c1)
    have c2' := not_lt.mp (mt key.mpr c2)
    push_cast at c1' c2'
    refine ⟨x, v, rfl, hx, ?_, ?_⟩
    · rw [abs_le]; constructor <;> norm_num at * <;> linarith
    · rw [abs_le]
      unfold fold
      split_ifs <;> constructor <;> linarith [hpi.1, hpi.2]

/-- The sine on floats against the sine on the reals. -/
theorem sin_near_real (hf : f.Wide) (h60 : f.p ≤ 60) {x : Flt f} {v : ℚ} (hx : Is x v) (hv : |(v:ℝ)| ≤ 4.712) :
    ∃ z q, sin x = pure z ∧ Is z q ∧ |(q:ℝ) - sinT 5 (fold v)| ≤ 31 / 2 * eta f := by
  obtain ⟨y, t, hy, ht, bt, et⟩ := sinFold_near hf h60 hx hv
  obtain ⟨z, hz, q, hq, eq⟩ := poly_flt hf ht bt
  refine ⟨z, q, by unfold sin; rw [hy, pure_bind]; exact hz, hq, ?_⟩
  have l := sinT_lip (fold_two (hv.trans (by norm_num))) (bt.trans (by norm_num) : |(t:ℝ)| ≤ 2)
  have := abs_sub_le (q:ℝ) (sinT 5 t) (sinT 5 (fold v))
  linarith

/-- **C160**: on floats of magnitude up to 4.712, two sines differ by no more than their arguments and 31 2^-p. -/
theorem C160_sin_float (hf : f.Wide) (h60 : f.p ≤ 60) (x y : Flt f) (vx : x.Valid) (vy : y.Valid) (fx : x.IsFinite)
    (fy : y.IsFinite) (hx : |(x.val:ℝ)| ≤ 4.712) (hy : |(y.val:ℝ)| ≤ 4.712) :
    ∃ u v : Flt f, Returns (sin x) u ∧ Returns (sin y) v ∧ u.IsFinite ∧ v.IsFinite ∧
      |(u.val:ℝ) - v.val| ≤ |(x.val:ℝ) - y.val| + 31 / 2 ^ f.p := by
  obtain ⟨u, q, hu, iu, eu⟩ := sin_near_real hf h60 (Flt.is_of_finite fx vx) hx
  obtain ⟨v, r, hv, iv, ev⟩ := sin_near_real hf h60 (Flt.is_of_finite fy vy) hy
  refine ⟨u, v, .of_eq hu, .of_eq hv, iu.fin, iv.fin, ?_⟩
  rw [iu.val, iv.val, ← eta_eq]
  have l := (sinT_lip (fold_two (hy.trans (by norm_num))) (fold_two (hx.trans (by norm_num)))).trans (fold_lip x.val y.val)
  have t1 := abs_sub_le (q:ℝ) (sinT 5 (fold x.val)) r
  have t2 := abs_sub_le (sinT 5 (fold x.val)) (sinT 5 (fold y.val)) (r:ℝ)
  rw [abs_sub_comm (sinT 5 (fold y.val))] at t2
  have := eta_pos (f := f)
  linarith

example := C160_sin_float wide_F32 (by decide) (.fin true (3 / 2)) (.fin false 4) (by is_float 3 (-1)) (by is_float 4 0) ⟨_, _, rfl⟩ ⟨_, _, rfl⟩
  (by norm_num [Flt.val]) (by norm_num [Flt.val])

/-- The cosine on floats against the cosine on the reals. -/
theorem cos_near_real (hf : f.Wide) (h60 : f.p ≤ 60) {x : Flt f} {v : ℚ} (hi : Is x v) (hm : |(v:ℝ)| ≤ 100000) {c : ℝ}
    (hc : Returns (cos (v:ℝ)) c) :
    ∃ z q, Returns (cos x) z ∧ Is z q ∧ |(q:ℝ) - c| ≤ (|(v:ℝ)| + 12) ^ 2 / 6 * eta f := by
  have he := eta_pos (f := f); have hel := eta_le hf
  have g := Real.pi_gt_d4; have g' := Real.pi_lt_d4
  have h0 := abs_nonneg (v:ℝ)
  have hU : |(v:ℝ) + Real.pi / 2| ≤ |(v:ℝ)| + 1.5708 := by
    refine (abs_add_le _ _).trans ?_
    rw [abs_of_pos (by positivity : 0 < Real.pi / 2)]; norm_num at g' ⊢; linarith
  obtain ⟨w, hw, ew⟩ := hi.near.add hf (half_near hf h60) hU (M := |(v:ℝ)| + 1.571) (by norm_num; linarith)
    (by norm_num; linarith)
  have ew' : |(w:ℝ) - (v + Real.pi / 2)| ≤ (|(v:ℝ)| + 2.63) * eta f :=
    ew.trans (mul_le_mul_of_nonneg_right (by norm_num; linarith) he.le)
  have hle : (|(v:ℝ)| + 2.63) * eta f ≤ 0.01 := by
    have := mul_le_mul (by linarith : |(v:ℝ)| + 2.63 ≤ 100003) hel he.le (by norm_num)
    norm_num at this ⊢; linarith
  have hwb : |(w:ℝ)| ≤ |(v:ℝ)| + 1.59 := by
    have := abs_sub_abs_le_abs_sub (w:ℝ) (v + Real.pi / 2)
    norm_num at *; linarith
  obtain ⟨r, b, k, hr, hb, b1, b2, hk⟩ := wrap_acc hf h60 hw (by
    have := mul_le_mul (hwb.trans (by linarith : _ ≤ (100003:ℝ))) hel he.le (by norm_num)
    norm_num at this ⊢; linarith)
  have hpi := abs_le.mp (pi_near hf h60)
  have hbb : |(b:ℝ)| ≤ 4.712 := by
    have b1' : -((piV f : ℚ) : ℝ) ≤ b := by exact_mod_cast b1
    have b2' : (b:ℝ) < (piV f : ℚ) := by exact_mod_cast b2
    have hpi1 := hpi.1; have hpi2 := hpi.2
    rw [abs_le]; constructor <;> norm_num at g g' hel hpi1 hpi2 ⊢ <;> linarith
  obtain ⟨z, q, z1, z2, z3⟩ := sin_near_real hf h60 hb hbb
  refine ⟨z, q, ?_, z2, ?_⟩
  · obtain ⟨s, n, rfl⟩ := hi.fin
    rw [cos_flt]
    exact hr.bind (.of_eq z1)
  · have hs := cos_of_sin (b := b) (hbb.trans (by norm_num at g ⊢; linarith))
    have hs' := (C146_cos_period_real (b - Real.pi / 2) k).ret hs
    have h1 := C160_cos_real _ _ _ _ hs' hc
    have h2 : |(b:ℝ) - Real.pi / 2 + k * (2 * Real.pi) - v| ≤
        ((|(v:ℝ)| + 5.59) ^ 2 / 6 + (|(v:ℝ)| + 2.63)) * eta f := by
      rw [show (b:ℝ) - Real.pi / 2 + k * (2 * Real.pi) - v =
        (b - (w - 2 * Real.pi * k)) + (w - (v + Real.pi / 2)) by ring, add_mul]
      refine (abs_add_le _ _).trans (add_le_add (hk.trans ?_) ew')
      refine mul_le_mul_of_nonneg_right ?_ he.le
      have := pow_le_pow_left₀ (by positivity) (by linarith : |(w:ℝ)| + 4 ≤ |(v:ℝ)| + 5.59) 2
      linarith
    have h3 : |(q:ℝ) - c| ≤ |(q:ℝ) - sinT 5 (fold b)| + |sinT 5 (fold b) - c| := abs_sub_le _ _ _
    have h4 : ((|(v:ℝ)| + 5.59) ^ 2 / 6 + (|(v:ℝ)| + 2.63)) * eta f + 31 / 2 * eta f ≤
        (|(v:ℝ)| + 12) ^ 2 / 6 * eta f := by
      rw [← add_mul]; exact mul_le_mul_of_nonneg_right (by nlinarith) he.le
    linarith

/-- **C160**: on floats of magnitude up to 100000, two cosines differ by no more than their arguments and the rounding of the arguments
on their turns, `((|x| + 12)² + (|y| + 12)²) / 6` times 2^-p. -/
theorem C160_cos_float (hf : f.Wide) (h60 : f.p ≤ 60) (x y : Flt f) (vx : x.Valid) (vy : y.Valid) (fx : x.IsFinite)
    (fy : y.IsFinite) (hx : |(x.val:ℝ)| ≤ 100000) (hy : |(y.val:ℝ)| ≤ 100000) :
    ∃ u v : Flt f, Returns (cos x) u ∧ Returns (cos y) v ∧ u.IsFinite ∧ v.IsFinite ∧
      |(u.val:ℝ) - v.val| ≤ |(x.val:ℝ) - y.val| + ((|(x.val:ℝ)| + 12) ^ 2 + (|(y.val:ℝ)| + 12) ^ 2) / 6 / 2 ^ f.p := by
  obtain ⟨c, hc, -⟩ := C36_cos (x.val:ℝ)
  obtain ⟨d, hd, -⟩ := C36_cos (y.val:ℝ)
  obtain ⟨u, q, hu, iu, eu⟩ := cos_near_real hf h60 (Flt.is_of_finite fx vx) hx hc
  obtain ⟨v, r, hv, iv, ev⟩ := cos_near_real hf h60 (Flt.is_of_finite fy vy) hy hd
  refine ⟨u, v, hu, hv, iu.fin, iv.fin, ?_⟩
  rw [iu.val, iv.val, ← eta_eq]
  have l := C160_cos_real _ _ _ _ hc hd
  have t1 := abs_sub_le (q:ℝ) c r
  have t2 := abs_sub_le c d (r:ℝ)
  rw [abs_sub_comm d] at t2
  linarith


/-- Some units are needed on fixed point: neighbours whose sines are two units apart. -/
example : Returns (sin (fx .checked true 32 12 10845)) (fx .checked true 32 12 1942) ∧
    Returns (sin (fx .checked true 32 12 10846)) (fx .checked true 32 12 1940) := ⟨by run 0, by run 0⟩

example : (Flt.fin true (5/2) : Flt F32).Valid ∧ |((Flt.fin true (5/2) : Flt F32).val : ℝ)| ≤ 4.712 :=
  ⟨⟨5, -1, by decide, by decide, by norm_num [pow2_eq], by norm_num⟩, by norm_num [Flt.val]⟩

end MixedNum
