import Verif.Spec.Multiply
import Verif.Props.Dot
import Verif.Props.Norm
import Verif.Lemmas.ArgNear
import Mathlib.Analysis.Complex.ExponentialBounds
import Verif.Props.AddSub
import Verif.Lemmas.Run
/-! # C169: multiplying up a list -/

namespace MixedNum
variable {m : Mode} {s : Bool} {W F : ℕ} {f : Format}
open Flt

/-- C169, exact reals: the loop computes the product. -/
theorem C169_real (z : Cartesian ℝ) (ws : List (Cartesian ℝ)) :
    ∃ c, Returns (multiplyUp z ws) c ∧ c.toC = z.toC * (ws.map Cartesian.toC).prod := by
  unfold multiplyUp
  induction ws generalizing z with
  | nil => exact ⟨z, .of_eq rfl, by simp⟩
  | cons w ws ih =>
    obtain ⟨t, t1, t2⟩ := C02_real z w
    obtain ⟨c, c1, c2⟩ := ih t
    refine ⟨c, by rw [List.foldlM_cons]; exact t1.bind c1, ?_⟩
    rw [c2, t2, List.map_cons, List.prod_cons, _root_.mul_assoc]

/-- A loop that returns has returned from every step. -/
theorem multiply_step {α : Type} [NumOps α] {z w c : Cartesian α} {ws : List (Cartesian α)}
    (h : ∀ a b : Cartesian α, LoopFree (a.mul b)) (hc : Returns (multiplyUp z (w :: ws)) c) :
    ∃ t, Returns (z.mul w) t ∧ Returns (multiplyUp t ws) c := by
  unfold multiplyUp at hc
  rw [List.foldlM_cons] at hc
  rcases h z w with ⟨t, ht⟩ | ⟨e, he⟩
  · rw [ht, pure_bind] at hc; exact ⟨t, .of_eq ht, hc⟩
  · rw [he, Prog.fail_bind] at hc; exact absurd hc returns_fail

theorem free_mul {α : Type} [NumOps α] (ha : ∀ a b : α, LoopFree (NumOps.add a b)) (hs : ∀ a b : α, LoopFree (NumOps.sub a b))
    (hm : ∀ a b : α, LoopFree (NumOps.mul a b)) (z w : Cartesian α) : LoopFree (z.mul w) := by
  show LoopFree (ops.mulCartesian z w)
  unfold ops.mulCartesian
  exact (hm _ _).bind fun _ => (hm _ _).bind fun _ => (hs _ _).bind fun _ => (hm _ _).bind fun _ => (hm _ _).bind fun _ =>
    (ha _ _).bind fun _ => .of_pure _

theorem free_mul_int (z w : Cartesian (PInt m s W)) : LoopFree (z.mul w) :=
  free_mul (fun _ _ => PInt.free_fit' _) (fun _ _ => PInt.free_fit' _) (fun _ _ => PInt.free_fit' _) z w

theorem gauss_mul {z w c : Cartesian (PInt m s W)} (h1 : c.re.val = z.re.val * w.re.val - z.im.val * w.im.val)
    (h2 : c.im.val = z.re.val * w.im.val + z.im.val * w.re.val) : gauss c = gauss z * gauss w := by
  unfold gauss
  apply Zsqrtd.ext
  · simp only [Zsqrtd.re_mul]; rw [h1]; ring
  · simp only [Zsqrtd.im_mul]; rw [h2]

/-- C169, integers with overflow checks: a product that is returned is the product of Gaussian integers. -/
theorem C169_int_checked (z c : Cartesian (PInt .checked s W)) (ws : List (Cartesian (PInt .checked s W))) (h : Returns (multiplyUp z ws) c) :
    gauss c = gauss z * (ws.map gauss).prod := by
  induction ws generalizing z with
  | nil => rw [returns_pure.mp (show Returns (pure z) c from h)]; simp
  | cons w ws ih =>
    obtain ⟨t, t1, t2⟩ := multiply_step free_mul_int h
    obtain ⟨e1, e2⟩ := C02_checked_exact z w t t1
    rw [ih t t2, gauss_mul e1 e2, List.map_cons, List.prod_cons, _root_.mul_assoc]

example := C169_int_checked ⟨i .checked true 8 3, i .checked true 8 4⟩ ⟨i .checked true 8 2, i .checked true 8 11⟩
  [⟨i .checked true 8 1, i .checked true 8 (-2)⟩, ⟨i .checked true 8 0, i .checked true 8 1⟩] (by run 0)

/-- C169, integers without overflow checks: the product of Gaussian integers with both parts reduced modulo `2^W`. -/
theorem C169_int_wrapping (hW : 0 < W) (z : Cartesian (PInt .wrapping s W)) (ws : List (Cartesian (PInt .wrapping s W))) :
    ∃ c, Returns (multiplyUp z ws) c ∧
      IsReduction s W (gauss z * (ws.map gauss).prod).re c.re.val ∧
      IsReduction s W (gauss z * (ws.map gauss).prod).im c.im.val := by
  induction ws generalizing z with
  | nil =>
    refine ⟨z, .of_eq rfl, ?_⟩
    rw [List.map_nil, List.prod_nil, mul_one]
    exact ⟨⟨inRange_iff.mpr z.re.fits, Int.ModEq.refl _⟩, inRange_iff.mpr z.im.fits, Int.ModEq.refl _⟩
  | cons w ws ih =>
    obtain ⟨t, t1, t2, t3⟩ := C02_wrapping hW z w
    obtain ⟨c, c1, c2, c3⟩ := ih t
    refine ⟨c, by unfold multiplyUp at c1 ⊢; rw [List.foldlM_cons, t1, pure_bind]; exact c1, ?_⟩
    rw [List.map_cons, List.prod_cons, ← _root_.mul_assoc]
    set P := (ws.map gauss).prod
    simp only [Zsqrtd.re_mul, Zsqrtd.im_mul, gauss] at c2 c3 ⊢
    have m1 : t.re.val ≡ z.re.val * w.re.val + -1 * z.im.val * w.im.val [ZMOD 2 ^ W] := by
      have := t2.2; rwa [show z.re.val * w.re.val - z.im.val * w.im.val = z.re.val * w.re.val + -1 * z.im.val * w.im.val by ring] at this
    have m2 := t3.2
    refine ⟨⟨c2.1, c2.2.trans ?_⟩, c3.1, c3.2.trans ?_⟩
    · exact (m1.mul_right _).add ((m2.mul_left _).mul_right _)
    · exact (m1.mul_right _).add (m2.mul_right _)

/-- C169, integers without overflow checks: a product that fits is right whatever overflowed on the way. -/
theorem C169_total (hW : 0 < W) (z : Cartesian (PInt .wrapping s W)) (ws : List (Cartesian (PInt .wrapping s W)))
    (h1 : InRange s W (gauss z * (ws.map gauss).prod).re)
    (h2 : InRange s W (gauss z * (ws.map gauss).prod).im) :
    ∃ c, Returns (multiplyUp z ws) c ∧ gauss c = gauss z * (ws.map gauss).prod := by
  obtain ⟨c, c1, r1, r2⟩ := C169_int_wrapping hW z ws
  exact ⟨c, c1, Zsqrtd.ext (eq_of_modEq_of_fits hW (inRange_iff.mp r1.1) (inRange_iff.mp h1) r1.2)
    (eq_of_modEq_of_fits hW (inRange_iff.mp r2.1) (inRange_iff.mp h2) r2.2)⟩

example := C169_total (by decide) ⟨i .wrapping true 8 3, i .wrapping true 8 4⟩
  [⟨i .wrapping true 8 1, i .wrapping true 8 (-2)⟩, ⟨i .wrapping true 8 0, i .wrapping true 8 1⟩] (by decide) (by decide)

/-- C169, integers: two orders of the same factors give the same number, if both return. -/
theorem C169_order (hW : 0 < W) (z c d : Cartesian (PInt m s W)) (ws vs : List (Cartesian (PInt m s W))) (hp : ws.Perm vs)
    (hc : Returns (multiplyUp z ws) c) (hd : Returns (multiplyUp z vs) d) : c = d := by
  have e := (hp.map gauss).prod_eq
  obtain ⟨x, y⟩ := c; obtain ⟨x', y'⟩ := d
  cases m with
  | checked =>
    have h := (C169_int_checked z _ ws hc).trans ((congrArg _ e).trans (C169_int_checked z _ vs hd).symm)
    have h1 : x.val = x'.val := congrArg Zsqrtd.re h
    have h2 : y.val = y'.val := congrArg Zsqrtd.im h
    rw [PInt.ext h1, PInt.ext h2]
  | wrapping =>
    obtain ⟨a, a1, a2, a3⟩ := C169_int_wrapping hW z ws
    obtain ⟨b, b1, b2, b3⟩ := C169_int_wrapping hW z vs
    rw [hc.unique a1, hd.unique b1]
    rw [← e] at b2 b3
    obtain ⟨x, y⟩ := a; obtain ⟨x', y'⟩ := b
    have e1 : x = x' := PInt.ext ((a2.eq_wrapInt hW).trans (b2.eq_wrapInt hW).symm)
    have e2 : y = y' := PInt.ext ((a3.eq_wrapInt hW).trans (b3.eq_wrapInt hW).symm)
    rw [e1, e2]

example := C169_order (by decide) ⟨i .checked true 8 3, i .checked true 8 4⟩ ⟨i .checked true 8 2, i .checked true 8 11⟩ ⟨i .checked true 8 2, i .checked true 8 11⟩
  [⟨i .checked true 8 1, i .checked true 8 (-2)⟩, ⟨i .checked true 8 0, i .checked true 8 1⟩]
  [⟨i .checked true 8 0, i .checked true 8 1⟩, ⟨i .checked true 8 1, i .checked true 8 (-2)⟩] (.swap _ _ _) (by run 0) (by run 0)

theorem size_nonneg (g : GaussianInt) : 0 ≤ size g := add_nonneg (abs_nonneg _) (abs_nonneg _)

/-- C169, signed integers with overflow checks: the loop returns if the sizes of the factors so far never multiply to `2^(W-1)`. -/
theorem C169_int_returns (z : Cartesian (PInt .checked true W)) (ws : List (Cartesian (PInt .checked true W)))
    (h : ∀ k ≤ ws.length, size (gauss z) * ((ws.take k).map (fun w => size (gauss w))).prod < 2 ^ (W - 1)) :
    ∃ c, Returns (multiplyUp z ws) c := by
  have inr : ∀ n : ℤ, |n| < 2 ^ (W - 1) → InRange true W n := fun n hn => ⟨(abs_lt.mp hn).1.le, (abs_lt.mp hn).2⟩
  induction ws generalizing z with
  | nil => exact ⟨z, .of_eq rfl⟩
  | cons w ws ih =>
    have h1 := h 1 (by simp)
    simp only [List.take_succ_cons, List.take_zero, List.map_cons, List.map_nil, List.prod_cons, List.prod_nil, mul_one, size, gauss] at h1
    have a1 := abs_nonneg (z.re.val * w.re.val); have a2 := abs_nonneg (z.im.val * w.im.val)
    have a3 := abs_nonneg (z.re.val * w.im.val); have a4 := abs_nonneg (z.im.val * w.re.val)
    have s1 := abs_sub (z.re.val * w.re.val) (z.im.val * w.im.val)
    have s2 := abs_add_le (z.re.val * w.im.val) (z.im.val * w.re.val)
    have e : (|z.re.val| + |z.im.val|) * (|w.re.val| + |w.im.val|) =
        |z.re.val * w.re.val| + |z.im.val * w.im.val| + |z.re.val * w.im.val| + |z.im.val * w.re.val| := by
      rw [abs_mul, abs_mul, abs_mul, abs_mul]; ring
    rw [e] at h1
    obtain ⟨t, ht⟩ := (C02_checked_returns_iff z w).2 ⟨inr _ (by linarith), inr _ (by linarith), inr _ (by linarith), inr _ (by linarith),
      inr _ (by linarith), inr _ (by linarith)⟩
    obtain ⟨t1, t2⟩ := C02_checked_exact z w t ht
    have sz : size (gauss t) ≤ size (gauss z) * size (gauss w) := by
      simp only [size, gauss]; rw [e, t1, t2]; linarith
    obtain ⟨c, hc⟩ := ih t fun k hk => by
      have := h (k + 1) (by simpa using hk)
      rw [List.take_succ_cons, List.map_cons, List.prod_cons, ← _root_.mul_assoc] at this
      refine lt_of_le_of_lt (mul_le_mul_of_nonneg_right sz (List.prod_nonneg ?_)) this
      intro q hq; obtain ⟨x, -, rfl⟩ := List.mem_map.mp hq; exact size_nonneg _
    exact ⟨c, by unfold multiplyUp at hc ⊢; rw [List.foldlM_cons]; exact ht.bind hc⟩

example := C169_int_returns ⟨i .checked true 8 3, i .checked true 8 4⟩
  [⟨i .checked true 8 1, i .checked true 8 (-2)⟩, ⟨i .checked true 8 0, i .checked true 8 1⟩] (by decide)

/-- C169: without overflow checks the loop gives the same product unless the build with checks panics. -/
theorem C169_release_int (z : Cartesian (PInt .checked s W)) (ws : List (Cartesian (PInt .checked s W))) :
    Agrees (Cartesian.releaseBy PInt.release) (multiplyUp z ws) (multiplyUp (z.releaseBy PInt.release) (ws.map (·.releaseBy PInt.release))) :=
  Sim.agrees_cart (Sim.fold_map (R := Sim.Cart (To PInt.release)) (Cartesian.releaseBy PInt.release) (fun _ _ _ h => Sim.mul h ⟨rfl, rfl⟩) ws
    ⟨rfl, rfl⟩)

theorem C169_release_fixed (z : Cartesian (Fixed .checked s W F)) (ws : List (Cartesian (Fixed .checked s W F))) :
    Agrees (Cartesian.releaseBy Fixed.release) (multiplyUp z ws)
      (multiplyUp (z.releaseBy Fixed.release) (ws.map (·.releaseBy Fixed.release))) :=
  Sim.agrees_cart (Sim.fold_map (R := Sim.Cart (To Fixed.release)) (Cartesian.releaseBy Fixed.release) (fun _ _ _ h => Sim.mul h ⟨rfl, rfl⟩) ws
    ⟨rfl, rfl⟩)

/-! ## Fixed point -/

/-- A fixed-point product is off by less than nine quarters of a unit. -/
theorem mul_near_fixed {z w p : Cartesian (Fixed .checked s W F)} (hp : Returns (z.mul w) p) :
    ‖p.c - z.c * w.c‖ ≤ 9 / 4 / 2 ^ F := by
  obtain ⟨k1, k2, k3⟩ := C73_accuracy z w p hp
  have q : (0:ℝ) < 1 / 2 ^ F := by positivity
  have e2 : (2:ℝ) / 2 ^ F = 2 * (1 / 2 ^ F) := by ring
  have e3 : (9 / 4:ℝ) / 2 ^ F = 9 / 4 * (1 / 2 ^ F) := by ring
  rw [e2] at k3; rw [e3]
  have r1 : (p.c - z.c * w.c).re = p.re.r - (z.re.r * w.re.r - z.im.r * w.im.r) := by simp [Cartesian.c]
  have r2 : (p.c - z.c * w.c).im = p.im.r - (z.re.r * w.im.r + z.im.r * w.re.r) := by simp [Cartesian.c]
  refine abs_le_of_sq_le_sq' ?_ (by positivity) |>.2
  rw [Complex.sq_norm, Complex.normSq_apply, r1, r2]
  set u : ℝ := 1 / 2 ^ F
  have h1 : (p.re.r - (z.re.r * w.re.r - z.im.r * w.im.r)) * (p.re.r - (z.re.r * w.re.r - z.im.r * w.im.r)) ≤ u * u :=
    abs_le_iff_mul_self_le.mp (by rw [abs_of_pos q]; exact k1.le)
  have h2 : (p.im.r - (z.re.r * w.im.r + z.im.r * w.re.r)) * (p.im.r - (z.re.r * w.im.r + z.im.r * w.re.r)) ≤ (2 * u) * (2 * u) :=
    abs_le_iff_mul_self_le.mp (by rw [abs_of_pos (by positivity : 0 < 2 * u)]; exact abs_le.mpr ⟨by linarith, by linarith⟩)
  nlinarith [mul_pos q q]

/-- C169, fixed point with overflow checks: a product of `n` factors no larger than `R` is off by at most nine quarters of a unit
times `1 + R + ... + R^(n-1)`. -/
theorem C169_fixed_checked {R : ℝ} (hR : 0 ≤ R) (z c : Cartesian (Fixed .checked s W F)) (ws : List (Cartesian (Fixed .checked s W F)))
    (hw : ∀ w ∈ ws, ‖w.c‖ ≤ R) (h : Returns (multiplyUp z ws) c) :
    ‖c.c - z.c * (ws.map Cartesian.c).prod‖ ≤ 9 / 4 / 2 ^ F * ∑ i ∈ Finset.range ws.length, R ^ i := by
  induction ws generalizing z with
  | nil => rw [returns_pure.mp (show Returns (pure z) c from h)]; simp
  | cons w ws ih =>
    have o : FreeOps (Fixed .checked s W F) := Fixed.freeOps
    obtain ⟨t, t1, t2⟩ := multiply_step (free_mul o.add o.sub o.mul) h
    have i1 := ih t (fun x hx => hw x (by simp [hx])) t2
    have i2 := mul_near_fixed t1
    have hprod : ‖(ws.map Cartesian.c).prod‖ ≤ R ^ ws.length := by
      clear ih t2 i1 h
      induction ws with
      | nil => simp
      | cons x ws ih =>
        rw [List.map_cons, List.prod_cons, norm_mul, List.length_cons, pow_succ']
        refine mul_le_mul (hw x (by simp)) (ih fun y hy => ?_) (norm_nonneg _) hR
        rcases List.mem_cons.mp hy with rfl | hy
        · exact hw _ (by simp)
        · exact hw _ (by simp [hy])
    rw [List.map_cons, List.prod_cons, List.length_cons, Finset.sum_range_succ, mul_add]
    have e : c.c - z.c * (w.c * (ws.map Cartesian.c).prod) = (c.c - t.c * (ws.map Cartesian.c).prod) + (t.c - z.c * w.c) * (ws.map Cartesian.c).prod := by
      ring
    rw [e]
    refine (norm_add_le _ _).trans (add_le_add i1 ?_)
    rw [norm_mul]
    exact mul_le_mul i2 hprod (norm_nonneg _) (by positivity)

example := C169_fixed_checked (R := 2) (by norm_num) ⟨fx .checked true 16 8 256, fx .checked true 16 8 100⟩ ⟨fx .checked true 16 8 22, fx .checked true 16 8 239⟩
  [⟨fx .checked true 16 8 100, fx .checked true 16 8 200⟩]
  (by simpa using (Complex.norm_le_abs_re_add_abs_im _).trans (by simp [Cartesian.c, Fixed.r, fx]; norm_num)) (by run 0)

/-- C169, fixed point, range of plus or minus four: factors no larger than one never overflow while the error bound stays below one. -/
theorem C169_fixed_returns (hK : F + 3 ≤ W) {R : ℝ} (hR : 0 ≤ R) (hR' : R ≤ 1) (z : Cartesian (Fixed .checked true W F))
    (ws : List (Cartesian (Fixed .checked true W F))) (hF : 2 ≤ F) (hz : ‖z.c‖ ≤ 1) (hw : ∀ w ∈ ws, ‖w.c‖ ≤ R)
    (hn : 9 / 4 / 2 ^ F * ∑ i ∈ Finset.range ws.length, R ^ i ≤ 1) : ∃ c, Returns (multiplyUp z ws) c := by
  have u4 : (1:ℝ) / 2 ^ F ≤ 1 / 4 := one_div_le_one_div_of_le (by norm_num) (by
    calc (4:ℝ) = 2 ^ 2 := by norm_num
      _ ≤ 2 ^ F := pow_le_pow_right₀ (by norm_num) hF)
  have hp : (0:ℝ) < 2 ^ F := by positivity
  have hu : (0:ℝ) < 1 / 2 ^ F := by positivity
  -- everything below four fits
  have inr : ∀ n : ℤ, |(n:ℝ) / 2 ^ F| < 4 → InRange true W n := by
    intro n hn
    rw [abs_div, abs_of_pos hp, div_lt_iff₀ hp] at hn
    have h1 : |n| < 4 * 2 ^ F := by exact_mod_cast hn
    have h2 : (4 * 2 ^ F : ℤ) ≤ 2 ^ (W - 1) := by
      rw [show (4:ℤ) = 2 ^ 2 by norm_num, ← pow_add]; exact pow_le_pow_right₀ (by norm_num) (by omega)
    obtain ⟨h3, h4⟩ := abs_lt.mp (h1.trans_le h2)
    exact ⟨h3.le, h4⟩
  have nine : (9 / 4:ℝ) / 2 ^ F = 9 / 4 * (1 / 2 ^ F) := by ring
  -- invariant: the size is at most 1 plus what the errors so far can have added
  have key : ∀ (ws : List (Cartesian (Fixed .checked true W F))) (z : Cartesian (Fixed .checked true W F)) (a : ℝ), ‖z.c‖ ≤ 1 + a → 0 ≤ a →
      (∀ w ∈ ws, ‖w.c‖ ≤ R) → (∀ k ≤ ws.length, a * R ^ k + 9 / 4 / 2 ^ F * ∑ i ∈ Finset.range k, R ^ i ≤ 1) →
      ∃ c, Returns (multiplyUp z ws) c := by
    intro ws
    induction ws with
    | nil => intro z a _ _ _ _; exact ⟨z, .of_eq rfl⟩
    | cons w ws ih =>
      intro z a hz ha hw hk
      have hw1 := hw w (by simp)
      have ha1 : a ≤ 1 := by have := hk 0 (by simp); simpa using this
      have nw := norm_nonneg w.c; have nz := norm_nonneg z.c
      have hzw : ‖z.c‖ * ‖w.c‖ ≤ (1 + a) * R := mul_le_mul hz hw1 nw (by linarith)
      have h2 : ‖z.c‖ * ‖w.c‖ ≤ 2 := hzw.trans (by nlinarith)
      have a1 : |z.re.r| ≤ ‖z.c‖ := Complex.abs_re_le_norm z.c
      have a2 : |z.im.r| ≤ ‖z.c‖ := Complex.abs_im_le_norm z.c
      have b1 : |w.re.r| ≤ ‖w.c‖ := Complex.abs_re_le_norm w.c
      have b2 : |w.im.r| ≤ ‖w.c‖ := Complex.abs_im_le_norm w.c
      have fl : ∀ x y : Fixed .checked true W F, ((x.val * y.val / 2 ^ F : ℤ) : ℝ) / 2 ^ F ≤ x.r * y.r ∧
          x.r * y.r < ((x.val * y.val / 2 ^ F : ℤ) : ℝ) / 2 ^ F + 1 / 2 ^ F := by
        intro x y
        have h := floor_real (F := F) (x.val * y.val)
        push_cast at h
        have e : x.r * y.r = (x.val : ℝ) * y.val / 2 ^ F / 2 ^ F := by
          show (x.val : ℝ) / 2 ^ F * ((y.val : ℝ) / 2 ^ F) = _
          field_simp
        rw [e, ← add_div]
        exact ⟨div_le_div_of_nonneg_right h.1 hp.le, div_lt_div_of_pos_right h.2 hp⟩
      have pr : ∀ x y : Fixed .checked true W F, |x.r| ≤ ‖z.c‖ → |y.r| ≤ ‖w.c‖ → |((x.val * y.val / 2 ^ F : ℤ) : ℝ) / 2 ^ F| < 4 := by
        intro x y hx hy
        have h3 : |x.r * y.r| ≤ 2 := by rw [abs_mul]; exact (mul_le_mul hx hy (abs_nonneg _) nz).trans h2
        obtain ⟨f1, f2⟩ := fl x y
        obtain ⟨g1, g2⟩ := abs_le.mp h3
        exact abs_lt.mpr ⟨by linarith, by linarith⟩
      have c1 : |z.re.r * w.re.r - z.im.r * w.im.r| ≤ 2 := by
        have := Complex.abs_re_le_norm (z.c * w.c)
        rw [norm_mul, Complex.mul_re] at this; exact this.trans h2
      have c2 : |z.re.r * w.im.r + z.im.r * w.re.r| ≤ 2 := by
        have := Complex.abs_im_le_norm (z.c * w.c)
        rw [norm_mul, Complex.mul_im] at this; exact this.trans h2
      obtain ⟨c1, c1'⟩ := abs_le.mp c1; obtain ⟨c2, c2'⟩ := abs_le.mp c2
      obtain ⟨f1, f1'⟩ := fl z.re w.re; obtain ⟨f2, f2'⟩ := fl z.im w.im
      obtain ⟨f3, f3'⟩ := fl z.re w.im; obtain ⟨f4, f4'⟩ := fl z.im w.re
      obtain ⟨t, ht⟩ := (C73_checked_domain z w).1 ⟨inr _ (pr _ _ a1 b1), inr _ (pr _ _ a2 b2),
        inr _ (by rw [Int.cast_sub, sub_div]; exact abs_lt.mpr ⟨by linarith, by linarith⟩), inr _ (pr _ _ a1 b2), inr _ (pr _ _ a2 b1),
        inr _ (by rw [Int.cast_add, add_div]; exact abs_lt.mpr ⟨by linarith, by linarith⟩)⟩
      have n1 := mul_near_fixed ht
      have n2 : ‖t.c‖ ≤ ‖t.c - z.c * w.c‖ + ‖z.c‖ * ‖w.c‖ := by
        have := norm_add_le (t.c - z.c * w.c) (z.c * w.c)
        rwa [sub_add_cancel, norm_mul] at this
      obtain ⟨c, hc⟩ := ih t (a * R + 9 / 4 / 2 ^ F) (by linarith) (by positivity) (fun x hx => hw x (by simp [hx])) fun k hk' => by
        have := hk (k + 1) (by simpa using hk')
        rw [Finset.sum_range_succ, pow_succ'] at this
        linarith
      exact ⟨c, by unfold multiplyUp at hc ⊢; rw [List.foldlM_cons]; exact ht.bind hc⟩
  refine key ws z 0 (by linarith) le_rfl hw fun k hk => ?_
  rw [zero_mul, zero_add]
  refine le_trans ?_ hn
  refine mul_le_mul_of_nonneg_left ?_ (by positivity)
  exact Finset.sum_le_sum_of_subset_of_nonneg (Finset.range_mono hk) fun i _ _ => pow_nonneg hR i

/-- The hypotheses hold on 16 bits with 8 fractional bits of fifty factors `i/2`, started at 1. -/
example := C169_fixed_returns (W := 16) (F := 8) (R := 1 / 2) (by decide) (by norm_num) (by norm_num)
  ⟨fx .checked true 16 8 256, fx .checked true 16 8 0⟩ (List.replicate 50 ⟨fx .checked true 16 8 0, fx .checked true 16 8 128⟩) (by decide)
  (by
    have : (⟨fx .checked true 16 8 256, fx .checked true 16 8 0⟩ : Cartesian (Fixed .checked true 16 8)).c = 1 := by
      apply Complex.ext <;> simp [Cartesian.c, Fixed.r, fx]; norm_num
    rw [this, norm_one])
  (fun w hw => by
    rw [List.eq_of_mem_replicate hw]
    have : (⟨fx .checked true 16 8 0, fx .checked true 16 8 128⟩ : Cartesian (Fixed .checked true 16 8)).c = (1 / 2 : ℝ) * Complex.I := by
      apply Complex.ext <;> simp [Cartesian.c, Fixed.r, fx]; norm_num
    rw [this, norm_mul, Complex.norm_I, Complex.norm_real]; norm_num)
  (by rw [List.length_replicate, geom_sum_eq (by norm_num)]; norm_num)

/-- C169, fixed point: a decaying product (all factors no larger than `R < 1`, not too near 1) never overflows however long it is, and
its error stays within `9/4 / (1 - R)` units for ever. -/
theorem C169_decay (hK : F + 3 ≤ W) (hF : 2 ≤ F) {R : ℝ} (hR : 0 ≤ R) (hR' : 9 / 4 / 2 ^ F ≤ 1 - R) (z : Cartesian (Fixed .checked true W F))
    (ws : List (Cartesian (Fixed .checked true W F))) (hz : ‖z.c‖ ≤ 1) (hw : ∀ w ∈ ws, ‖w.c‖ ≤ R) :
    ∃ c, Returns (multiplyUp z ws) c ∧ ‖c.c - z.c * (ws.map Cartesian.c).prod‖ ≤ 9 / 4 / 2 ^ F / (1 - R) := by
  have hu : (0:ℝ) < 9 / 4 / 2 ^ F := by positivity
  have h1 : 0 < 1 - R := by linarith
  have geo : ∑ i ∈ Finset.range ws.length, R ^ i ≤ 1 / (1 - R) := by
    rw [le_div_iff₀ h1, geom_sum_mul_neg]
    linarith [pow_nonneg hR ws.length]
  have hb : 9 / 4 / 2 ^ F * ∑ i ∈ Finset.range ws.length, R ^ i ≤ 9 / 4 / 2 ^ F / (1 - R) := by
    rw [div_eq_mul_one_div _ (1 - R)]; exact mul_le_mul_of_nonneg_left geo hu.le
  obtain ⟨c, hc⟩ := C169_fixed_returns hK hR (by linarith) z ws hF hz hw (hb.trans (by rw [div_le_one h1]; exact hR'))
  exact ⟨c, hc, (C169_fixed_checked hR z c ws hw hc).trans hb⟩

example := C169_decay (W := 16) (F := 8) (R := 3 / 5) (by decide) (by decide) (by norm_num) (by norm_num)
  ⟨fx .checked true 16 8 256, fx .checked true 16 8 0⟩ [⟨fx .checked true 16 8 100, fx .checked true 16 8 50⟩]
  ((Complex.norm_le_abs_re_add_abs_im _).trans (by simp [Cartesian.c, Fixed.r, fx]; norm_num))
  (by simpa using (Complex.norm_le_abs_re_add_abs_im _).trans (by simp [Cartesian.c, Fixed.r, fx]; norm_num))

/-! ## Floats -/

/-- Cauchy-Schwarz for the products of parts. -/
theorem abs_parts_le (p q r t : ℝ) : |p * r| + |q * t| ≤ ‖(⟨p, q⟩ : ℂ)‖ * ‖(⟨r, t⟩ : ℂ)‖ := by
  refine abs_le_of_sq_le_sq' ?_ (by positivity) |>.2
  rw [mul_pow, Complex.sq_norm, Complex.sq_norm, Complex.normSq_apply, Complex.normSq_apply, abs_mul, abs_mul]
  have s1 := abs_mul_abs_self p; have s2 := abs_mul_abs_self q; have s3 := abs_mul_abs_self r; have s4 := abs_mul_abs_self t
  dsimp only
  rw [← s1, ← s2, ← s3, ← s4]
  nlinarith [sq_nonneg (|p| * |t| - |q| * |r|)]

/-- C169, floats: a product of `n` factors no larger than `R` is off by at most `((1 + 5 * 2^-p)^n - 1) R^n` times the size of the start,
plus four of the smallest float times `1 + S + ... + S^(n-1)` with `S = (1 + 5 * 2^-p) R`. -/
theorem C169_float (hf : f.Wide) {R : ℝ} (hR : 0 ≤ R) (z : Cartesian (Flt f)) (ws : List (Cartesian (Flt f)))
    (hv : ∀ w ∈ z :: ws, (w.re.Valid ∧ w.re.IsFinite) ∧ w.im.Valid ∧ w.im.IsFinite) (hw : ∀ w ∈ ws, ‖w.fc‖ ≤ R)
    (hk : ∀ k < ws.length, 2 * R * (((1 + 5 / 2 ^ f.p) * R) ^ k * ‖z.fc‖ + 4 * 2 ^ f.emin * ∑ i ∈ Finset.range k, ((1 + 5 / 2 ^ f.p) * R) ^ i) ≤
      2 ^ f.emax) :
    ∃ c, Returns (multiplyUp z ws) c ∧ (c.re.Valid ∧ c.re.IsFinite) ∧ (c.im.Valid ∧ c.im.IsFinite) ∧
      ‖c.fc - z.fc * (ws.map Cartesian.fc).prod‖ ≤ ((1 + 5 / 2 ^ f.p) ^ ws.length - 1) * R ^ ws.length * ‖z.fc‖ +
        4 * 2 ^ f.emin * ∑ i ∈ Finset.range ws.length, ((1 + 5 / 2 ^ f.p) * R) ^ i := by
  have hδ : (0:ℝ) < 5 / 2 ^ f.p := by positivity
  have hη : (0:ℝ) < 4 * 2 ^ f.emin := by positivity
  have mulnear := fun z w p => @mul_near f hf z w p
  generalize (5:ℝ) / 2 ^ f.p = δ at *
  generalize (4:ℝ) * 2 ^ f.emin = η at *
  set S := (1 + δ) * R with hS
  have hS0 : 0 ≤ S := by positivity
  induction ws generalizing z with
  | nil => exact ⟨z, .of_eq rfl, (hv z (by simp)).1, (hv z (by simp)).2, by simp⟩
  | cons w ws ih =>
    have hw1 := hw w (by simp)
    have nw := norm_nonneg w.fc; have nz := norm_nonneg z.fc
    have hzw : ‖z.fc‖ * ‖w.fc‖ ≤ R * ‖z.fc‖ := by rw [_root_.mul_comm]; exact mul_le_mul_of_nonneg_right hw1 nz
    have h0 : 2 * (‖z.fc‖ * ‖w.fc‖) ≤ 2 ^ f.emax := by
      have := hk 0 (by simp)
      simp only [pow_zero, one_mul, Finset.range_zero, Finset.sum_empty, mul_zero, add_zero] at this
      linarith
    obtain ⟨⟨z1, z2⟩, z3, z4⟩ := hv z (by simp)
    obtain ⟨⟨w1, w2⟩, w3, w4⟩ := hv w (by simp)
    have big : ∀ a b c d : ℚ, |(a:ℝ) * b| + |(c:ℝ) * d| ≤ ‖z.fc‖ * ‖w.fc‖ → 2 * (|a * b| + |c * d|) ≤ 2 ^ f.emax := by
      intro a b c d h
      have h3 : 2 * (|(a:ℝ) * b| + |(c:ℝ) * d|) ≤ 2 ^ f.emax := by linarith
      have : ((2 * (|a * b| + |c * d|) : ℚ) : ℝ) ≤ ((2 ^ f.emax : ℚ) : ℝ) := by push_cast; exact h3
      exact (Rat.cast_le (K := ℝ)).mp this
    have hr := big _ _ _ _ (abs_parts_le (z.re.val : ℝ) z.im.val w.re.val w.im.val)
    have hi := big z.re.val w.im.val z.im.val w.re.val (by
      have := abs_parts_le (z.re.val : ℝ) z.im.val w.im.val w.re.val
      refine this.trans (le_of_eq ?_)
      have e : ‖(⟨(w.im.val : ℝ), (w.re.val : ℝ)⟩ : ℂ)‖ = ‖w.fc‖ := by
        rw [norm_mk, norm_fc, _root_.add_comm]
      rw [e]; rfl)
    obtain ⟨t, ht, t1, t2, -, -⟩ := C83_accuracy hf z w z2 z4 w2 w4 z1 z3 w1 w3 hr hi
    have n1 := mulnear z w t ht ⟨⟨z2, z1⟩, ⟨z4, z3⟩, ⟨w2, w1⟩, ⟨w4, w3⟩, hr, hi⟩
    have n2 : ‖t.fc‖ ≤ ‖t.fc - z.fc * w.fc‖ + ‖z.fc‖ * ‖w.fc‖ := by
      have := norm_add_le (t.fc - z.fc * w.fc) (z.fc * w.fc)
      rwa [sub_add_cancel, norm_mul] at this
    have n3 : δ * (‖z.fc‖ * ‖w.fc‖) ≤ δ * (R * ‖z.fc‖) := mul_le_mul_of_nonneg_left hzw hδ.le
    have nt : ‖t.fc‖ ≤ S * ‖z.fc‖ + η := by rw [hS]; linarith
    obtain ⟨c, c1, c2, c3, c4⟩ := ih t (fun x hx => by
        rcases List.mem_cons.mp hx with rfl | hx
        · exact ⟨t1, t2⟩
        · exact hv x (by simp [hx])) (fun x hx => hw x (by simp [hx])) fun k hk' => by
      have h3 := hk (k + 1) (by simpa using hk')
      refine le_trans (mul_le_mul_of_nonneg_left ?_ (by positivity)) h3
      rw [Finset.sum_range_succ, pow_succ]
      have := mul_le_mul_of_nonneg_left nt (pow_nonneg hS0 k)
      linarith
    refine ⟨c, by unfold multiplyUp at c1 ⊢; rw [List.foldlM_cons]; exact ht.bind c1, c2, c3, ?_⟩
    have hprod : ‖(ws.map Cartesian.fc).prod‖ ≤ R ^ ws.length := by
      have hw' : ∀ x ∈ ws, ‖x.fc‖ ≤ R := fun x hx => hw x (by simp [hx])
      clear * - hw' hR
      induction ws with
      | nil => simp
      | cons x ws ih =>
        rw [List.map_cons, List.prod_cons, norm_mul, List.length_cons, pow_succ']
        exact mul_le_mul (hw' x (by simp)) (ih fun y hy => hw' y (by simp [hy])) (norm_nonneg _) hR
    rw [List.map_cons, List.prod_cons, List.length_cons, Finset.sum_range_succ]
    have e : c.fc - z.fc * (w.fc * (ws.map Cartesian.fc).prod) =
        (c.fc - t.fc * (ws.map Cartesian.fc).prod) + (t.fc - z.fc * w.fc) * (ws.map Cartesian.fc).prod := by ring
    rw [e]
    refine (norm_add_le _ _).trans ?_
    rw [norm_mul]
    have g1 : ‖t.fc - z.fc * w.fc‖ * ‖(ws.map Cartesian.fc).prod‖ ≤ (δ * (R * ‖z.fc‖) + η) * R ^ ws.length :=
      mul_le_mul (n1.trans (by linarith)) hprod (norm_nonneg _) (by positivity)
    have D1 : 1 ≤ (1 + δ) ^ ws.length := one_le_pow₀ (by linarith)
    have g2 := mul_le_mul_of_nonneg_left nt (show 0 ≤ ((1 + δ) ^ ws.length - 1) * R ^ ws.length from
      mul_nonneg (by linarith) (pow_nonneg hR _))
    have g3 : S ^ ws.length = (1 + δ) ^ ws.length * R ^ ws.length := mul_pow _ _ _
    rw [g3, pow_succ, pow_succ]
    refine (add_le_add (c4.trans (add_le_add_left g2 _)) g1).trans (le_of_eq ?_)
    rw [hS]; ring

/-- The hypotheses hold on `f32` of fifty factors `-i`, started at 1. -/
example := C169_float (R := 1) wide_F32 zero_le_one ⟨.fin false 1, .fin false 0⟩ (List.replicate 50 ⟨.fin false 0, .fin true 1⟩)
  (fun w hw => by
    rcases List.mem_cons.mp hw with rfl | hw
    · exact ⟨⟨by is_float 1 0, _, _, rfl⟩, by is_float 0 0, _, _, rfl⟩
    · rw [List.eq_of_mem_replicate hw]; exact ⟨⟨by is_float 0 0, _, _, rfl⟩, by is_float 1 0, _, _, rfl⟩)
  (fun w hw => by
    rw [List.eq_of_mem_replicate hw]
    have : (⟨.fin false 0, .fin true 1⟩ : Cartesian (Flt F32)).fc = -Complex.I := by
      apply Complex.ext <;> simp [Cartesian.fc, Flt.val]
    rw [this, norm_neg, Complex.norm_I])
  (fun k hk => by
    rw [List.length_replicate] at hk
    have : (⟨.fin false 1, .fin false 0⟩ : Cartesian (Flt F32)).fc = 1 := by
      apply Complex.ext <;> simp [Cartesian.fc, Flt.val]
    rw [this, norm_one, mul_one, mul_one, mul_one]
    have b : ∀ j ≤ 50, ((1:ℝ) + 5 / 2 ^ F32.p) ^ j ≤ 2 := fun j hj =>
      (pow_le_pow_right₀ (by norm_num [F32]) hj).trans (by norm_num [F32])
    have s : ∑ i ∈ Finset.range k, ((1:ℝ) + 5 / 2 ^ F32.p) ^ i ≤ 100 :=
      (Finset.sum_le_card_nsmul _ _ 2 fun i hi => b i ((Finset.mem_range.mp hi).le.trans hk.le)).trans (by
        rw [Finset.card_range, nsmul_eq_mul]; have : (k:ℝ) ≤ 50 := by exact_mod_cast hk.le
        linarith)
    have e : (4:ℝ) * 2 ^ F32.emin ≤ 1 := by norm_num [F32]
    have e0 : (0:ℝ) ≤ 4 * 2 ^ F32.emin := by positivity
    have := mul_le_mul e s (Finset.sum_nonneg fun i _ => by positivity) zero_le_one
    have t : (1000:ℝ) ≤ 2 ^ F32.emax := by norm_num [F32]
    have := b k hk.le
    linarith)

theorem size_mul (g h : GaussianInt) : size (g * h) ≤ size g * size h ∧
    |g.re * h.re| + |g.im * h.im| ≤ size g * size h ∧ |g.re * h.im| + |g.im * h.re| ≤ size g * size h := by
  have a1 := abs_nonneg (g.re * h.re); have a2 := abs_nonneg (g.im * h.im)
  have a3 := abs_nonneg (g.re * h.im); have a4 := abs_nonneg (g.im * h.re)
  have s1 := abs_sub (g.re * h.re) (g.im * h.im)
  have s2 := abs_add_le (g.re * h.im) (g.im * h.re)
  have e : size g * size h = |g.re * h.re| + |g.im * h.im| + |g.re * h.im| + |g.im * h.re| := by
    simp only [size]; rw [abs_mul, abs_mul, abs_mul, abs_mul]; ring
  have e2 : size (g * h) = |g.re * h.re - g.im * h.im| + |g.re * h.im + g.im * h.re| := by
    simp only [size, Zsqrtd.re_mul, Zsqrtd.im_mul]; congr 2; ring
  rw [e, e2]
  exact ⟨by linarith, by linarith, by linarith⟩

/-- C169, floats: a product of Gaussian integers is exact while the sizes of the factors so far multiply to less than `2^p`. -/
theorem C169_float_exact (hf : f.Wide) (z : Cartesian (Flt f)) (g : GaussianInt) (hz : IsGauss z g) (ws : List (Cartesian (Flt f)))
    (gs : List GaussianInt) (h : List.Forall₂ IsGauss ws gs) (hk : ∀ k ≤ gs.length, size g * ((gs.take k).map size).prod < 2 ^ f.p) :
    ∃ c, Returns (multiplyUp z ws) c ∧ IsGauss c (g * gs.prod) := by
  induction h generalizing z g with
  | nil => exact ⟨z, .of_eq rfl, by simpa using hz⟩
  | @cons w k ws gs hw _ ih =>
    have h1 := hk 1 (by simp)
    simp only [List.take_succ_cons, List.take_zero, List.map_cons, List.map_nil, List.prod_cons, List.prod_nil, mul_one] at h1
    obtain ⟨s1, s2, s3⟩ := size_mul g k
    obtain ⟨⟨⟨z1, z2⟩, z3, z4⟩, z5, z6⟩ := hz
    obtain ⟨⟨⟨w1, w2⟩, w3, w4⟩, w5, w6⟩ := hw
    obtain ⟨c, c1, c2, c3⟩ := C83_whole hf z w z2 z4 w2 w4 z1 z3 w1 w3 g.re g.im k.re k.im z5 z6 w5 w6 (s2.trans_lt h1) (s3.trans_lt h1)
    have pe : (2:ℚ) ^ (f.p + 1) ≤ 2 ^ f.emax := pow_le_pow_right₀ (by norm_num) (by have := hf.emax; omega)
    have big : ∀ a b c d : ℤ, |a * b| + |c * d| < 2 ^ f.p → 2 * (|(a:ℚ) * b| + |(c:ℚ) * d|) ≤ 2 ^ f.emax := by
      intro a b c d h
      have : |(a:ℚ) * b| + |(c:ℚ) * d| < 2 ^ f.p := by exact_mod_cast h
      rw [pow_succ] at pe; linarith
    obtain ⟨d, d1, d2, d3, -, -⟩ := C83_accuracy hf z w z2 z4 w2 w4 z1 z3 w1 w3
      (by rw [z5, z6, w5, w6]; exact big _ _ _ _ (s2.trans_lt h1)) (by rw [z5, z6, w5, w6]; exact big _ _ _ _ (s3.trans_lt h1))
    obtain rfl := c1.unique d1
    obtain ⟨r, r1, r2⟩ := ih c (g * k) ⟨⟨d2, d3⟩, by rw [c2, Zsqrtd.re_mul]; congr 1; ring, by rw [c3, Zsqrtd.im_mul]⟩ fun j hj => by
      have := hk (j + 1) (by simpa using hj)
      rw [List.take_succ_cons, List.map_cons, List.prod_cons, ← _root_.mul_assoc] at this
      refine lt_of_le_of_lt (mul_le_mul_of_nonneg_right s1 (List.prod_nonneg ?_)) this
      intro q hq; obtain ⟨x, -, rfl⟩ := List.mem_map.mp hq; exact size_nonneg _
    refine ⟨r, by unfold multiplyUp at r1 ⊢; rw [List.foldlM_cons]; exact c1.bind r1, ?_⟩
    rw [List.prod_cons, ← _root_.mul_assoc]; exact r2

/-- Concrete cases of C169: (1+2i)(3+4i)(1-i) = 5 + 15i on `i8`; 100 * 100 * 0 is zero without checks and a panic with them. -/
example : multiplyUp ⟨i .checked true 8 1, i .checked true 8 2⟩ [⟨i .checked true 8 3, i .checked true 8 4⟩,
    ⟨i .checked true 8 1, i .checked true 8 (-1)⟩] = pure ⟨i .checked true 8 5, i .checked true 8 15⟩ := by rfl
example : size ⟨1, 2⟩ * (([⟨3, 4⟩, ⟨1, -1⟩] : List GaussianInt).map size).prod < 2 ^ (8 - 1) := by decide
example : multiplyUp ⟨i .wrapping true 8 100, i .wrapping true 8 0⟩ [⟨i .wrapping true 8 100, i .wrapping true 8 0⟩,
    ⟨i .wrapping true 8 0, i .wrapping true 8 0⟩] = pure ⟨i .wrapping true 8 0, i .wrapping true 8 0⟩ := by rfl
example : Panics (multiplyUp ⟨i .checked true 8 100, i .checked true 8 0⟩ [⟨i .checked true 8 100, i .checked true 8 0⟩,
    ⟨i .checked true 8 0, i .checked true 8 0⟩]) .overflow := .of_eq rfl

/-- A decaying product on 32-bit fixed point with 16 fractional bits: factors of size at most 3/4. -/
example : (16 + 3 ≤ 32) ∧ (9 / 4 / 2 ^ 16 : ℝ) ≤ 1 - 3 / 4 ∧
    ‖(⟨fx .checked true 32 16 (2 ^ 15), fx .checked true 32 16 (2 ^ 14)⟩ : Cartesian (Fixed .checked true 32 16)).c‖ ≤ 3 / 4 := by
  refine ⟨by norm_num, by norm_num, ?_⟩
  refine (Complex.norm_le_abs_re_add_abs_im _).trans ?_
  have h1 : (⟨fx .checked true 32 16 (2 ^ 15), fx .checked true 32 16 (2 ^ 14)⟩ : Cartesian (Fixed .checked true 32 16)).c.re = 1 / 2 := by
    show (((2 ^ 15 : ℤ) : ℝ)) / 2 ^ 16 = 1 / 2; norm_num
  have h2 : (⟨fx .checked true 32 16 (2 ^ 15), fx .checked true 32 16 (2 ^ 14)⟩ : Cartesian (Fixed .checked true 32 16)).c.im = 1 / 4 := by
    show (((2 ^ 14 : ℤ) : ℝ)) / 2 ^ 16 = 1 / 4; norm_num
  rw [h1, h2, abs_of_pos (by norm_num), abs_of_pos (by norm_num)]; norm_num

/-- A float product of unit size: a hundred factors of size at most one, started at one. -/
example : ∀ k < 100, 2 * 1 * (((1 + 5 / 2 ^ F32.p) * 1 : ℝ) ^ k * 1 + 4 * 2 ^ F32.emin * ∑ i ∈ Finset.range k, ((1 + 5 / 2 ^ F32.p) * 1) ^ i) ≤
    2 ^ F32.emax := by
  intro k hk
  have h2 : (1 + 5 / 2 ^ F32.p : ℝ) ≤ 1 + 1 / 100 := by norm_num [F32]
  have h0 : (1:ℝ) ≤ 1 + 5 / 2 ^ F32.p := by norm_num [F32]
  have he : (1 + 1 / 100 : ℝ) ^ 100 ≤ 3 := by
    have := Real.add_one_le_exp (1 / 100 : ℝ)
    have h3 : (1 + 1 / 100 : ℝ) ^ 100 ≤ Real.exp (1 / 100) ^ 100 := pow_le_pow_left₀ (by norm_num) (by linarith) _
    rw [← Real.exp_nat_mul, show ((100:ℕ):ℝ) * (1 / 100) = 1 by norm_num] at h3
    exact h3.trans (Real.exp_one_lt_d9.le.trans (by norm_num))
  have hp : ∀ j ≤ 100, (1 + 5 / 2 ^ F32.p : ℝ) ^ j ≤ 3 := fun j hj =>
    (pow_le_pow_right₀ h0 hj).trans ((pow_le_pow_left₀ (by linarith) h2 _).trans he)
  rw [mul_one, mul_one, mul_one]
  have hs : ∑ i ∈ Finset.range k, (1 + 5 / 2 ^ F32.p : ℝ) ^ i ≤ 300 := by
    refine (Finset.sum_le_sum (g := fun _ => (3:ℝ)) fun i hi => hp i (by have := Finset.mem_range.mp hi; omega)).trans ?_
    rw [Finset.sum_const, Finset.card_range, nsmul_eq_mul]
    have : (k:ℝ) ≤ 100 := by exact_mod_cast hk.le
    linarith
  have he' : (2:ℝ) ^ F32.emin ≤ 1 := zpow_le_one_of_nonpos₀ (by norm_num) (by decide)
  have hm : (4:ℝ) * 2 ^ F32.emin * ∑ i ∈ Finset.range k, (1 + 5 / 2 ^ F32.p : ℝ) ^ i ≤ 4 * 1 * 300 :=
    mul_le_mul (by linarith) hs (Finset.sum_nonneg fun i _ => pow_nonneg (by linarith) i) (by norm_num)
  have hE : (10000:ℝ) ≤ 2 ^ F32.emax := by norm_num [F32]
  linarith [hp k hk.le]

end MixedNum
