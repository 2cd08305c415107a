import Verif.Spec.Filter
import Verif.Props.Multiply
import Verif.Props.Accumulate
import Verif.Props.AddSub
import Verif.Lemmas.Run
/-! # C170: a one-pole filter, or Horner's rule -/

namespace MixedNum
variable {m : Mode} {s : Bool} {W F : ℕ} {f : Format}
open Flt

theorem horner_nil {R : Type} [CommRing R] (a y : R) : horner a y [] = y := by simp [horner]

theorem horner_cons {R : Type} [CommRing R] (a y w : R) (ws : List R) : horner a y (w :: ws) = horner a (y * a + w) ws := by
  unfold horner
  have h0 : ∑ i : Fin (w :: ws).length, (w :: ws)[i] * a ^ ((w :: ws).length - 1 - i) =
      (w :: ws)[(0 : Fin (ws.length + 1))] * a ^ ((w :: ws).length - 1 - ((0 : Fin (ws.length + 1)) : ℕ)) +
        ∑ i : Fin ws.length, (w :: ws)[i.succ] * a ^ ((w :: ws).length - 1 - (i.succ : ℕ)) :=
    Fin.sum_univ_succ (n := ws.length) fun i => (w :: ws)[i] * a ^ ((w :: ws).length - 1 - i)
  rw [h0]
  have e : ∀ i : Fin ws.length, (w :: ws)[i.succ] * a ^ ((w :: ws).length - 1 - (i.succ : ℕ)) = ws[i] * a ^ (ws.length - 1 - i) := by
    intro i
    have h1 : (w :: ws)[i.succ] = ws[i] := rfl
    have h2 : (w :: ws).length - 1 - (i.succ : ℕ) = ws.length - 1 - i := by simp only [List.length_cons, Fin.val_succ]; omega
    rw [h1, h2]
  rw [Finset.sum_congr rfl fun i _ => e i]
  have h1 : (w :: ws)[(0 : Fin (ws.length + 1))] * a ^ ((w :: ws).length - 1 - ((0 : Fin (ws.length + 1)) : ℕ)) = w * a ^ ws.length := rfl
  rw [h1, List.length_cons, pow_succ]
  ring

/-- The loop one step at a time. -/
theorem feedback_cons {α : Type} [NumOps α] {a y w p t c : Cartesian α} {ws : List (Cartesian α)} (hp : Returns (y.mul a) p)
    (ht : Returns (p.add w) t) (hc : Returns (feedback a t ws) c) : Returns (feedback a y (w :: ws)) c := by
  unfold feedback at hc ⊢
  rw [List.foldlM_cons]
  exact (hp.bind ht).bind hc

/-- A loop that returns has returned from every step. -/
theorem feedback_step {α : Type} [NumOps α] {a y w c : Cartesian α} {ws : List (Cartesian α)}
    (hm : ∀ a b : Cartesian α, LoopFree (a.mul b)) (ha : ∀ a b : Cartesian α, LoopFree (a.add b)) (hc : Returns (feedback a y (w :: ws)) c) :
    ∃ p t, Returns (y.mul a) p ∧ Returns (p.add w) t ∧ Returns (feedback a t ws) c := by
  unfold feedback at hc
  rw [List.foldlM_cons] at hc
  rcases hm y a with ⟨p, hp⟩ | ⟨e, he⟩
  · rw [hp, pure_bind] at hc
    rcases ha p w with ⟨t, ht⟩ | ⟨e, he⟩
    · rw [ht, pure_bind] at hc; exact ⟨p, t, .of_eq hp, .of_eq ht, hc⟩
    · rw [he, Prog.fail_bind] at hc; exact absurd hc returns_fail
  · rw [he, Prog.fail_bind, Prog.fail_bind] at hc; exact absurd hc returns_fail

theorem free_add_cart {α : Type} [NumOps α] (ha : ∀ a b : α, LoopFree (NumOps.add a b)) (z w : Cartesian α) : LoopFree (z.add w) := by
  unfold Cartesian.add
  exact (ha _ _).bind fun _ => (ha _ _).bind fun _ => .of_pure _

/-- C170, exact reals: the loop computes the polynomial. -/
theorem C170_real (a y : Cartesian ℝ) (ws : List (Cartesian ℝ)) :
    ∃ c, Returns (feedback a y ws) c ∧ c.toC = horner a.toC y.toC (ws.map Cartesian.toC) := by
  induction ws generalizing y with
  | nil => exact ⟨y, .of_eq rfl, (horner_nil _ _).symm⟩
  | cons w ws ih =>
    obtain ⟨p, p1, p2⟩ := C02_real y a
    obtain ⟨c, c1, c2⟩ := ih ⟨p.re + w.re, p.im + w.im⟩
    refine ⟨c, feedback_cons p1 (.of_eq rfl) c1, ?_⟩
    rw [c2, List.map_cons, horner_cons, ← p2]
    rfl

/-- C170, integers with overflow checks: a value that is returned is the value of the polynomial. -/
theorem C170_int_checked (hW : 0 < W) (a y c : Cartesian (PInt .checked s W)) (ws : List (Cartesian (PInt .checked s W)))
    (h : Returns (feedback a y ws) c) : gauss c = horner (gauss a) (gauss y) (ws.map gauss) := by
  induction ws generalizing y with
  | nil => rw [returns_pure.mp (show Returns (pure y) c from h)]; exact (horner_nil _ _).symm
  | cons w ws ih =>
    obtain ⟨p, t, p1, t1, t2⟩ := feedback_step free_mul_int (free_add_cart fun _ _ => PInt.free_fit' _) h
    obtain ⟨e1, e2⟩ := C02_checked_exact y a p p1
    rw [ih t t2, List.map_cons, horner_cons, ← gauss_mul e1 e2]
    congr 1
    have k := C01_add_int hW p w
    by_cases hk : InRange s W (p.re.val + w.re.val) ∧ InRange s W (p.im.val + w.im.val)
    · obtain ⟨t', t1', r1, r2⟩ := k.1 hk
      obtain rfl := t1.unique t1'
      exact Zsqrtd.ext r1 r2
    · exact (t1.not_panics (k.2 hk)).elim

example := C170_int_checked (by decide) ⟨i .checked true 16 2, i .checked true 16 3⟩ ⟨i .checked true 16 1, i .checked true 16 0⟩
  ⟨i .checked true 16 2, i .checked true 16 38⟩ [⟨i .checked true 16 3, i .checked true 16 5⟩, ⟨i .checked true 16 16, i .checked true 16 7⟩] (by run 0)

/-- C170, integers without overflow checks: the value of the polynomial with both parts reduced modulo `2^W`. -/
theorem C170_int_wrapping (hW : 0 < W) (a y : Cartesian (PInt .wrapping s W)) (ws : List (Cartesian (PInt .wrapping s W))) :
    ∃ c, Returns (feedback a y ws) c ∧
      IsReduction s W (horner (gauss a) (gauss y) (ws.map gauss)).re c.re.val ∧
      IsReduction s W (horner (gauss a) (gauss y) (ws.map gauss)).im c.im.val := by
  have main : ∀ (ws : List (Cartesian (PInt .wrapping s W))) (y : Cartesian (PInt .wrapping s W)) (g : GaussianInt),
      y.re.val ≡ g.re [ZMOD 2 ^ W] → y.im.val ≡ g.im [ZMOD 2 ^ W] →
      ∃ c, Returns (feedback a y ws) c ∧ c.re.val ≡ (horner (gauss a) g (ws.map gauss)).re [ZMOD 2 ^ W] ∧
        c.im.val ≡ (horner (gauss a) g (ws.map gauss)).im [ZMOD 2 ^ W] := by
    intro ws
    induction ws with
    | nil => intro y g h1 h2; exact ⟨y, .of_eq rfl, by rw [List.map_nil, horner_nil]; exact ⟨h1, h2⟩⟩
    | cons w ws ih =>
      intro y g h1 h2
      obtain ⟨p, p1, p2, p3⟩ := C02_wrapping hW y a
      have k := C01_add_int hW p w
      have : ∃ t, Returns (p.add w) t ∧ t.re.val ≡ p.re.val + w.re.val [ZMOD 2 ^ W] ∧ t.im.val ≡ p.im.val + w.im.val [ZMOD 2 ^ W] := by
        by_cases hk : InRange s W (p.re.val + w.re.val) ∧ InRange s W (p.im.val + w.im.val)
        · obtain ⟨t, t1, r1, r2⟩ := k.1 hk
          exact ⟨t, t1, by rw [← r1], by rw [← r2]⟩
        · obtain ⟨t, t1, r1, r2⟩ := k.2 hk
          exact ⟨t, t1, r1.2, r2.2⟩
      obtain ⟨t, t1, t2, t3⟩ := this
      obtain ⟨c, c1, c2⟩ := ih t (g * gauss a + gauss w) (by
          refine t2.trans ?_
          rw [Zsqrtd.re_add, Zsqrtd.re_mul]
          refine Int.ModEq.add_right _ (p2.2.trans ?_)
          rw [show y.re.val * a.re.val - y.im.val * a.im.val = y.re.val * a.re.val + -1 * y.im.val * a.im.val by ring]
          exact (h1.mul_right _).add ((h2.mul_left _).mul_right _)) (by
          refine t3.trans ?_
          rw [Zsqrtd.im_add, Zsqrtd.im_mul]
          exact Int.ModEq.add_right _ (p3.2.trans ((h1.mul_right _).add (h2.mul_right _))))
      refine ⟨c, feedback_cons (.of_eq p1) t1 c1, ?_⟩
      rw [List.map_cons, horner_cons]; exact c2
  obtain ⟨c, c1, c2, c3⟩ := main ws y (gauss y) (Int.ModEq.refl _) (Int.ModEq.refl _)
  exact ⟨c, c1, ⟨inRange_iff.mpr c.re.fits, c2⟩, inRange_iff.mpr c.im.fits, c3⟩

/-- C170, integers without overflow checks: a value that fits is right whatever overflowed on the way. -/
theorem C170_total (hW : 0 < W) (a y : Cartesian (PInt .wrapping s W)) (ws : List (Cartesian (PInt .wrapping s W)))
    (h1 : InRange s W (horner (gauss a) (gauss y) (ws.map gauss)).re)
    (h2 : InRange s W (horner (gauss a) (gauss y) (ws.map gauss)).im) :
    ∃ c, Returns (feedback a y ws) c ∧ gauss c = horner (gauss a) (gauss y) (ws.map gauss) := by
  obtain ⟨c, c1, r1, r2⟩ := C170_int_wrapping hW a y ws
  exact ⟨c, c1, Zsqrtd.ext (eq_of_modEq_of_fits hW (inRange_iff.mp r1.1) (inRange_iff.mp h1) r1.2)
    (eq_of_modEq_of_fits hW (inRange_iff.mp r2.1) (inRange_iff.mp h2) r2.2)⟩

example := C170_total (by decide) ⟨i .wrapping true 8 2, i .wrapping true 8 3⟩ ⟨i .wrapping true 8 1, i .wrapping true 8 0⟩
  [⟨i .wrapping true 8 3, i .wrapping true 8 5⟩, ⟨i .wrapping true 8 16, i .wrapping true 8 7⟩] (by decide) (by decide)

/-- C170: without overflow checks the loop gives the same value unless the build with checks panics. -/
theorem C170_release_int (a y : Cartesian (PInt .checked s W)) (ws : List (Cartesian (PInt .checked s W))) :
    Agrees (Cartesian.releaseBy PInt.release) (feedback a y ws)
      (feedback (a.releaseBy PInt.release) (y.releaseBy PInt.release) (ws.map (·.releaseBy PInt.release))) :=
  Sim.agrees_cart (Sim.fold_map (R := Sim.Cart (To PInt.release)) (Cartesian.releaseBy PInt.release)
    (fun _ _ w h => (Sim.mul h (w := a) (w' := a.releaseBy PInt.release) ⟨rfl, rfl⟩).bind fun _ _ h =>
      Sim.add h (w := w) (w' := w.releaseBy PInt.release) ⟨rfl, rfl⟩) ws ⟨rfl, rfl⟩)

theorem C170_release_fixed (a y : Cartesian (Fixed .checked s W F)) (ws : List (Cartesian (Fixed .checked s W F))) :
    Agrees (Cartesian.releaseBy Fixed.release) (feedback a y ws)
      (feedback (a.releaseBy Fixed.release) (y.releaseBy Fixed.release) (ws.map (·.releaseBy Fixed.release))) :=
  Sim.agrees_cart (Sim.fold_map (R := Sim.Cart (To Fixed.release)) (Cartesian.releaseBy Fixed.release)
    (fun _ _ w h => (Sim.mul h (w := a) (w' := a.releaseBy Fixed.release) ⟨rfl, rfl⟩).bind fun _ _ h =>
      Sim.add h (w := w) (w' := w.releaseBy Fixed.release) ⟨rfl, rfl⟩) ws ⟨rfl, rfl⟩)

/-! ## Errors -/

theorem norm_horner_sub {a y z : ℂ} {ws : List ℂ} : horner a y ws - horner a z ws = (y - z) * a ^ ws.length := by
  unfold horner; ring

/-- One step off by at most `e`, then the rest: the errors so far shrink by `R` with every step. -/
theorem feedback_err {a v y w c : ℂ} {ws : List ℂ} {R e E : ℝ} (ha : ‖a‖ ≤ R) (h1 : ‖v - (y * a + w)‖ ≤ e)
    (h2 : ‖c - horner a v ws‖ ≤ e * ∑ i ∈ Finset.range ws.length, R ^ i) (he : E = e) :
    ‖c - horner a y (w :: ws)‖ ≤ E * ∑ i ∈ Finset.range (w :: ws).length, R ^ i := by
  subst he
  have h0 : 0 ≤ E := (norm_nonneg _).trans h1
  rw [horner_cons, List.length_cons, Finset.sum_range_succ, mul_add]
  have e1 : c - horner a (y * a + w) ws = (c - horner a v ws) + (v - (y * a + w)) * a ^ ws.length := by
    rw [← norm_horner_sub]; ring
  rw [e1]
  refine (norm_add_le _ _).trans (add_le_add h2 ?_)
  rw [norm_mul, norm_pow]
  exact mul_le_mul h1 (pow_le_pow_left₀ (norm_nonneg _) ha _) (by positivity) h0

theorem geo_le {R e : ℝ} (hR : 0 ≤ R) (hR' : R < 1) (he : 0 ≤ e) (n : ℕ) : e * ∑ i ∈ Finset.range n, R ^ i ≤ e / (1 - R) := by
  have h1 : 0 < 1 - R := by linarith
  have geo : ∑ i ∈ Finset.range n, R ^ i ≤ 1 / (1 - R) := by
    rw [le_div_iff₀ h1, geom_sum_mul_neg]
    linarith [pow_nonneg hR n]
  rw [div_eq_mul_one_div e]; exact mul_le_mul_of_nonneg_left geo he

/-- A loop all of whose steps keep an invariant and are off by at most `e`. -/
theorem feedback_invariant {α : Type} [NumOps α] (v : Cartesian α → ℂ) (Inv Ok : Cartesian α → Prop) {R e : ℝ} {a : Cartesian α} (ha : ‖v a‖ ≤ R)
    (step : ∀ y w, Inv y → Ok w → ∃ p t, Returns (y.mul a) p ∧ Returns (p.add w) t ∧ Inv t ∧ ‖v t - (v y * v a + v w)‖ ≤ e)
    (ws : List (Cartesian α)) (hw : ∀ w ∈ ws, Ok w) (y : Cartesian α) (hy : Inv y) :
    ∃ c, Returns (feedback a y ws) c ∧ Inv c ∧ ‖v c - horner (v a) (v y) (ws.map v)‖ ≤ e * ∑ i ∈ Finset.range ws.length, R ^ i := by
  induction ws generalizing y with
  | nil => exact ⟨y, .of_eq rfl, hy, by simp [horner_nil]⟩
  | cons w ws ih =>
    obtain ⟨p, t, h1, h2, h3, h4⟩ := step y w hy (hw w (by simp))
    obtain ⟨c, c1, c2, c3⟩ := ih (fun x hx => hw x (by simp [hx])) t h3
    refine ⟨c, feedback_cons h1 h2 c1, c2, ?_⟩
    have := feedback_err (ws := ws.map v) ha h4 (by rw [List.length_map]; exact c3) rfl
    rw [← List.map_cons, List.length_map] at this
    exact this

/-! ## Fixed point -/

theorem add_exact_fixed {z w t : Cartesian (Fixed .checked s W F)} (ht : Returns (z.add w) t) (hW : 0 < W) : t.c = z.c + w.c := by
  have k := C01_add_fixed hW z w
  by_cases hk : InRange s W (z.re.val + w.re.val) ∧ InRange s W (z.im.val + w.im.val)
  · obtain ⟨t', t1, r1, r2⟩ := k.1 hk
    obtain rfl := ht.unique t1
    apply Complex.ext
    · show (t.re.val : ℝ) / 2 ^ F = (z.re.val : ℝ) / 2 ^ F + (w.re.val : ℝ) / 2 ^ F
      rw [show t.re.val = _ from r1]; push_cast; ring
    · show (t.im.val : ℝ) / 2 ^ F = (z.im.val : ℝ) / 2 ^ F + (w.im.val : ℝ) / 2 ^ F
      rw [show t.im.val = _ from r2]; push_cast; ring
  · exact (ht.not_panics (k.2 hk)).elim

/-- C170, fixed point with overflow checks: a value that is returned is off by at most nine quarters of a unit times
`1 + R + ... + R^(n-1)`, `R` the size of the feedback. -/
theorem C170_fixed_checked (hW : 0 < W) {R : ℝ} (a y c : Cartesian (Fixed .checked s W F)) (ws : List (Cartesian (Fixed .checked s W F)))
    (ha : ‖a.c‖ ≤ R) (h : Returns (feedback a y ws) c) :
    ‖c.c - horner a.c y.c (ws.map Cartesian.c)‖ ≤ 9 / 4 / 2 ^ F * ∑ i ∈ Finset.range ws.length, R ^ i := by
  induction ws generalizing y with
  | nil => rw [returns_pure.mp (show Returns (pure y) c from h)]; simp [horner_nil]
  | cons w ws ih =>
    have o : FreeOps (Fixed .checked s W F) := Fixed.freeOps
    obtain ⟨p, t, p1, t1, t2⟩ := feedback_step (free_mul o.add o.sub o.mul) (free_add_cart o.add) h
    have k := mul_near_fixed p1
    have := feedback_err (ws := ws.map Cartesian.c) (w := w.c) (v := t.c) (y := y.c) (e := 9 / 4 / 2 ^ F) ha
      (by rw [add_exact_fixed t1 hW, add_sub_add_right_eq_sub]; exact k) (by rw [List.length_map]; exact ih t t2) rfl
    rw [← List.map_cons, List.length_map] at this
    exact this

example := C170_fixed_checked (R := 1) (by decide) ⟨fx .checked true 16 8 100, fx .checked true 16 8 50⟩ ⟨fx .checked true 16 8 256, fx .checked true 16 8 0⟩
  ⟨fx .checked true 16 8 3, fx .checked true 16 8 100⟩ [⟨fx .checked true 16 8 30, fx .checked true 16 8 40⟩, ⟨fx .checked true 16 8 (-30), fx .checked true 16 8 40⟩]
  ((Complex.norm_le_abs_re_add_abs_im _).trans (by simp [Cartesian.c, Fixed.r, fx]; norm_num)) (by run 0)

/-- A fixed-point product and sum that stay away from the limits of the type return. -/
theorem step_returns_fixed (hW : F < W) {Y B R : ℝ} (hB : 0 ≤ B) (hY : R * Y + B + 9 / 4 / 2 ^ F ≤ Y) (hY' : Y < 2 ^ (W - 1 - F))
    {a y w : Cartesian (Fixed .checked true W F)} (ha : ‖a.c‖ ≤ R) (hy : ‖y.c‖ ≤ Y) (hw : ‖w.c‖ ≤ B) :
    ∃ p t, Returns (y.mul a) p ∧ Returns (p.add w) t ∧ ‖t.c‖ ≤ Y ∧ ‖t.c - (y.c * a.c + w.c)‖ ≤ 9 / 4 / 2 ^ F := by
  have hp : (0:ℝ) < 2 ^ F := by positivity
  have hu : (0:ℝ) < 1 / 2 ^ F := by positivity
  have nine : (9 / 4:ℝ) / 2 ^ F = 9 / 4 * (1 / 2 ^ F) := by ring
  have inr : ∀ n : ℤ, |(n:ℝ) / 2 ^ F| ≤ Y → InRange true W n := by
    intro n hn
    have hn := hn.trans_lt hY'
    rw [abs_div, abs_of_pos hp, div_lt_iff₀ hp, ← pow_add, show W - 1 - F + F = W - 1 by omega] at hn
    obtain ⟨h3, h4⟩ := abs_lt.mp (show |n| < 2 ^ (W - 1) by exact_mod_cast hn)
    exact ⟨h3.le, h4⟩
  have nw := norm_nonneg a.c; have nz := norm_nonneg y.c
  have Y0 : 0 ≤ Y := nz.trans hy
  have h2 : ‖y.c‖ * ‖a.c‖ ≤ R * Y := by rw [_root_.mul_comm R]; exact mul_le_mul hy ha nw Y0
  have a1 : |y.re.r| ≤ ‖y.c‖ := Complex.abs_re_le_norm y.c
  have a2 : |y.im.r| ≤ ‖y.c‖ := Complex.abs_im_le_norm y.c
  have b1 : |a.re.r| ≤ ‖a.c‖ := Complex.abs_re_le_norm a.c
  have b2 : |a.im.r| ≤ ‖a.c‖ := Complex.abs_im_le_norm a.c
  have fl : ∀ x y : Fixed .checked true W F, ((x.val * y.val / 2 ^ F : ℤ) : ℝ) / 2 ^ F ≤ x.r * y.r ∧
      x.r * y.r < ((x.val * y.val / 2 ^ F : ℤ) : ℝ) / 2 ^ F + 1 / 2 ^ F := by
    intro x y
    have h := floor_real (F := F) (x.val * y.val)
    push_cast at h
    have e : x.r * y.r = (x.val : ℝ) * y.val / 2 ^ F / 2 ^ F := by
      show (x.val : ℝ) / 2 ^ F * ((y.val : ℝ) / 2 ^ F) = _
      field_simp
    rw [e, ← add_div]
    exact ⟨div_le_div_of_nonneg_right h.1 hp.le, div_lt_div_of_pos_right h.2 hp⟩
  have pr : ∀ x x' : Fixed .checked true W F, |x.r| ≤ ‖y.c‖ → |x'.r| ≤ ‖a.c‖ → |((x.val * x'.val / 2 ^ F : ℤ) : ℝ) / 2 ^ F| ≤ Y := by
    intro x x' hx hy
    have h3 : |x.r * x'.r| ≤ R * Y := by rw [abs_mul]; exact (mul_le_mul hx hy (abs_nonneg _) nz).trans h2
    obtain ⟨f1, f2⟩ := fl x x'
    obtain ⟨g1, g2⟩ := abs_le.mp h3
    exact abs_le.mpr ⟨by linarith, by linarith⟩
  have c1 : |y.re.r * a.re.r - y.im.r * a.im.r| ≤ R * Y := by
    have := Complex.abs_re_le_norm (y.c * a.c)
    rw [norm_mul, Complex.mul_re] at this; exact this.trans h2
  have c2 : |y.re.r * a.im.r + y.im.r * a.re.r| ≤ R * Y := by
    have := Complex.abs_im_le_norm (y.c * a.c)
    rw [norm_mul, Complex.mul_im] at this; exact this.trans h2
  obtain ⟨c1, c1'⟩ := abs_le.mp c1; obtain ⟨c2, c2'⟩ := abs_le.mp c2
  obtain ⟨f1, f1'⟩ := fl y.re a.re; obtain ⟨f2, f2'⟩ := fl y.im a.im
  obtain ⟨f3, f3'⟩ := fl y.re a.im; obtain ⟨f4, f4'⟩ := fl y.im a.re
  obtain ⟨p, hp'⟩ := (C73_checked_domain y a).1 ⟨inr _ (pr _ _ a1 b1), inr _ (pr _ _ a2 b2),
    inr _ (by rw [Int.cast_sub, sub_div]; exact abs_le.mpr ⟨by linarith, by linarith⟩), inr _ (pr _ _ a1 b2), inr _ (pr _ _ a2 b1),
    inr _ (by rw [Int.cast_add, add_div]; exact abs_le.mpr ⟨by linarith, by linarith⟩)⟩
  have n1 := mul_near_fixed hp'
  have n2 : ‖p.c + w.c‖ ≤ Y := by
    have e : p.c + w.c = (p.c - y.c * a.c) + (y.c * a.c + w.c) := by ring
    rw [e]
    have g1 := norm_add_le (p.c - y.c * a.c) (y.c * a.c + w.c)
    have g2 := norm_add_le (y.c * a.c) w.c
    rw [norm_mul] at g2
    linarith
  have r1 : InRange true W (p.re.val + w.re.val) := inr _ (by
    have := (Complex.abs_re_le_norm (p.c + w.c)).trans n2
    rw [Int.cast_add, add_div]; exact this)
  have r2 : InRange true W (p.im.val + w.im.val) := inr _ (by
    have := (Complex.abs_im_le_norm (p.c + w.c)).trans n2
    rw [Int.cast_add, add_div]; exact this)
  obtain ⟨t, t1, -⟩ := (C01_add_fixed (by omega) p w).1 ⟨r1, r2⟩
  have te := add_exact_fixed t1 (by omega)
  exact ⟨p, t, hp', t1, by rw [te]; exact n2, by rw [te, add_sub_add_right_eq_sub]; exact n1⟩

/-- C170, fixed point: a stable filter. If the feedback is smaller than one, inputs are at most `B`, and the bound `Y` on the state leaves
room for both, then the filter never overflows however long it runs, its state stays within `Y`, and its error stays within
`9/4 / (1 - R)` units for ever. -/
theorem C170_fixed_stable (hW : F < W) {Y B R : ℝ} (hR : 0 ≤ R) (hR' : R < 1) (hB : 0 ≤ B) (hY : R * Y + B + 9 / 4 / 2 ^ F ≤ Y)
    (hY' : Y < 2 ^ (W - 1 - F)) (a y : Cartesian (Fixed .checked true W F)) (ws : List (Cartesian (Fixed .checked true W F))) (ha : ‖a.c‖ ≤ R)
    (hy : ‖y.c‖ ≤ Y) (hw : ∀ w ∈ ws, ‖w.c‖ ≤ B) :
    ∃ c, Returns (feedback a y ws) c ∧ ‖c.c‖ ≤ Y ∧
      ‖c.c - horner a.c y.c (ws.map Cartesian.c)‖ ≤ 9 / 4 / 2 ^ F / (1 - R) := by
  obtain ⟨c, c1, c2, c3⟩ := feedback_invariant Cartesian.c (fun y => ‖y.c‖ ≤ Y) (fun w => ‖w.c‖ ≤ B) ha
    (fun y w hy hw => step_returns_fixed hW hB hY hY' ha hy hw) ws hw y hy
  exact ⟨c, c1, c2, c3.trans (geo_le hR hR' (by positivity) _)⟩

example := C170_fixed_stable (W := 16) (F := 8) (Y := 2) (B := 1 / 2) (R := 3 / 5) (by decide) (by norm_num) (by norm_num) (by norm_num) (by norm_num) (by norm_num)
  ⟨fx .checked true 16 8 100, fx .checked true 16 8 50⟩ ⟨fx .checked true 16 8 256, fx .checked true 16 8 0⟩ [⟨fx .checked true 16 8 30, fx .checked true 16 8 40⟩]
  ((Complex.norm_le_abs_re_add_abs_im _).trans (by simp [Cartesian.c, Fixed.r, fx]; norm_num))
  ((Complex.norm_le_abs_re_add_abs_im _).trans (by simp [Cartesian.c, Fixed.r, fx]; norm_num))
  (by simpa using (Complex.norm_le_abs_re_add_abs_im _).trans (by simp [Cartesian.c, Fixed.r, fx]; norm_num))

/-- C170, fixed point: the filter forgets where it started. -/
theorem C170_fixed_forgets (hW : F < W) {Y B R : ℝ} (hR : 0 ≤ R) (hR' : R < 1) (hB : 0 ≤ B) (hY : R * Y + B + 9 / 4 / 2 ^ F ≤ Y)
    (hY' : Y < 2 ^ (W - 1 - F)) (a y z : Cartesian (Fixed .checked true W F)) (ws : List (Cartesian (Fixed .checked true W F)))
    (ha : ‖a.c‖ ≤ R) (hy : ‖y.c‖ ≤ Y) (hz : ‖z.c‖ ≤ Y) (hw : ∀ w ∈ ws, ‖w.c‖ ≤ B) :
    ∃ c d, Returns (feedback a y ws) c ∧ Returns (feedback a z ws) d ∧
      ‖c.c - d.c‖ ≤ R ^ ws.length * ‖y.c - z.c‖ + 9 / 2 / 2 ^ F / (1 - R) := by
  obtain ⟨c, c1, -, c2⟩ := C170_fixed_stable hW hR hR' hB hY hY' a y ws ha hy hw
  obtain ⟨d, d1, -, d2⟩ := C170_fixed_stable hW hR hR' hB hY hY' a z ws ha hz hw
  refine ⟨c, d, c1, d1, ?_⟩
  have e : c.c - d.c = (c.c - horner a.c y.c (ws.map Cartesian.c)) +
      ((y.c - z.c) * a.c ^ ws.length - (d.c - horner a.c z.c (ws.map Cartesian.c))) := by
    have := norm_horner_sub (a := a.c) (y := y.c) (z := z.c) (ws := ws.map Cartesian.c)
    rw [List.length_map] at this; rw [← this]; ring
  rw [e]
  have g1 := norm_add_le (c.c - horner a.c y.c (ws.map Cartesian.c))
    ((y.c - z.c) * a.c ^ ws.length - (d.c - horner a.c z.c (ws.map Cartesian.c)))
  have g2 := norm_sub_le ((y.c - z.c) * a.c ^ ws.length) (d.c - horner a.c z.c (ws.map Cartesian.c))
  have g3 : ‖(y.c - z.c) * a.c ^ ws.length‖ ≤ R ^ ws.length * ‖y.c - z.c‖ := by
    rw [norm_mul, norm_pow, _root_.mul_comm]
    exact mul_le_mul_of_nonneg_right (pow_le_pow_left₀ (norm_nonneg _) ha _) (norm_nonneg _)
  have e2 : (9:ℝ) / 2 / 2 ^ F / (1 - R) = 9 / 4 / 2 ^ F / (1 - R) + 9 / 4 / 2 ^ F / (1 - R) := by ring
  rw [e2]; linarith

example := C170_fixed_forgets (W := 16) (F := 8) (Y := 2) (B := 1 / 2) (R := 3 / 5) (by decide) (by norm_num) (by norm_num) (by norm_num) (by norm_num) (by norm_num)
  ⟨fx .checked true 16 8 100, fx .checked true 16 8 50⟩ ⟨fx .checked true 16 8 256, fx .checked true 16 8 0⟩ ⟨fx .checked true 16 8 10, fx .checked true 16 8 0⟩
  [⟨fx .checked true 16 8 30, fx .checked true 16 8 40⟩]
  ((Complex.norm_le_abs_re_add_abs_im _).trans (by simp [Cartesian.c, Fixed.r, fx]; norm_num))
  ((Complex.norm_le_abs_re_add_abs_im _).trans (by simp [Cartesian.c, Fixed.r, fx]; norm_num))
  ((Complex.norm_le_abs_re_add_abs_im _).trans (by simp [Cartesian.c, Fixed.r, fx]; norm_num))
  (by simpa using (Complex.norm_le_abs_re_add_abs_im _).trans (by simp [Cartesian.c, Fixed.r, fx]; norm_num))

/-! ## Floats -/

/-- A float product and sum that stay away from overflow. -/
theorem step_returns_flt (hf : f.Wide) {Y B R : ℝ} (hR : 0 ≤ R) (hR' : R < 1) (hB : 0 ≤ B)
    (hY : (1 + 2 / 2 ^ f.p) * ((1 + 5 / 2 ^ f.p) * (R * Y) + 4 * 2 ^ f.emin + B) ≤ Y) (hY' : 2 * Y < 2 ^ f.emax)
    {a y w : Cartesian (Flt f)} (va : (a.re.Valid ∧ a.re.IsFinite) ∧ a.im.Valid ∧ a.im.IsFinite)
    (vy : (y.re.Valid ∧ y.re.IsFinite) ∧ y.im.Valid ∧ y.im.IsFinite) (vw : (w.re.Valid ∧ w.re.IsFinite) ∧ w.im.Valid ∧ w.im.IsFinite)
    (ha : ‖a.fc‖ ≤ R) (hy : ‖y.fc‖ ≤ Y) (hw : ‖w.fc‖ ≤ B) :
    ∃ p t, Returns (y.mul a) p ∧ Returns (p.add w) t ∧ (((t.re.Valid ∧ t.re.IsFinite) ∧ t.im.Valid ∧ t.im.IsFinite) ∧ ‖t.fc‖ ≤ Y) ∧
      ‖t.fc - (y.fc * a.fc + w.fc)‖ ≤ 7 / 2 ^ f.p * Y + 4 * 2 ^ f.emin := by
  have hu : (0:ℝ) < 1 / 2 ^ f.p := by positivity
  have hη : (0:ℝ) < 4 * 2 ^ f.emin := by positivity
  have e2 : (2:ℝ) / 2 ^ f.p = 2 * (1 / 2 ^ f.p) := by ring
  have e5 : (5:ℝ) / 2 ^ f.p = 5 * (1 / 2 ^ f.p) := by ring
  have e7 : (7:ℝ) / 2 ^ f.p = 7 * (1 / 2 ^ f.p) := by ring
  have mulnear := fun z w p => @mul_near f hf z w p
  have nw := norm_nonneg a.fc; have nz := norm_nonneg y.fc
  have Y0 : 0 ≤ Y := nz.trans hy
  have RY : R * Y ≤ Y := by nlinarith
  have RY0 : 0 ≤ R * Y := mul_nonneg hR Y0
  have hzw : ‖y.fc‖ * ‖a.fc‖ ≤ R * Y := by rw [_root_.mul_comm R]; exact mul_le_mul hy ha nw Y0
  obtain ⟨⟨z1, z2⟩, z3, z4⟩ := vy
  obtain ⟨⟨w1, w2⟩, w3, w4⟩ := va
  have big : ∀ p q r t : ℚ, |(p:ℝ) * q| + |(r:ℝ) * t| ≤ ‖y.fc‖ * ‖a.fc‖ → 2 * (|p * q| + |r * t|) ≤ 2 ^ f.emax := by
    intro p q r t h
    have h3 : 2 * (|(p:ℝ) * q| + |(r:ℝ) * t|) ≤ 2 ^ f.emax := by linarith
    have : ((2 * (|p * q| + |r * t|) : ℚ) : ℝ) ≤ ((2 ^ f.emax : ℚ) : ℝ) := by push_cast; exact h3
    exact (Rat.cast_le (K := ℝ)).mp this
  have hr := big _ _ _ _ (abs_parts_le (y.re.val : ℝ) y.im.val a.re.val a.im.val)
  have hi := big y.re.val a.im.val y.im.val a.re.val (by
    have := abs_parts_le (y.re.val : ℝ) y.im.val a.im.val a.re.val
    refine this.trans (le_of_eq ?_)
    have e : ‖(⟨(a.im.val : ℝ), (a.re.val : ℝ)⟩ : ℂ)‖ = ‖a.fc‖ := by
      rw [norm_mk, norm_fc, _root_.add_comm]
    rw [e]; rfl)
  obtain ⟨p, hp, p1, p2, -, -⟩ := C83_accuracy hf y a z2 z4 w2 w4 z1 z3 w1 w3 hr hi
  have n1 := mulnear y a p hp ⟨⟨z2, z1⟩, ⟨z4, z3⟩, ⟨w2, w1⟩, ⟨w4, w3⟩, hr, hi⟩
  rw [e5] at n1 hY; rw [e2] at hY
  generalize (4:ℝ) * 2 ^ f.emin = η at *
  set u : ℝ := 1 / 2 ^ f.p with hu'
  have n1' : ‖p.fc - y.fc * a.fc‖ ≤ 5 * u * (R * Y) + η :=
    n1.trans (add_le_add_left (mul_le_mul_of_nonneg_left hzw (by positivity)) _)
  have n2 : ‖p.fc‖ ≤ (1 + 5 * u) * (R * Y) + η := by
    have := norm_add_le (p.fc - y.fc * a.fc) (y.fc * a.fc)
    rw [sub_add_cancel, norm_mul] at this
    linarith
  -- the sum
  set Q := (1 + 5 * u) * (R * Y) + η + B with hQ
  have Q0 : 0 ≤ Q := by positivity
  have QY : Q + 2 * u * Q ≤ Y := by linarith
  have pw : ‖p.fc‖ + ‖w.fc‖ ≤ Q := by linarith
  have room : ∀ q r : ℚ, |(q:ℝ)| ≤ ‖p.fc‖ → |(r:ℝ)| ≤ ‖w.fc‖ → (1 + 1 / 2 ^ f.p) ^ 1 * (|q| + (|r| + 0)) < 2 ^ f.emax := by
    intro q r hq hr
    have h3 : (1 + u) * (|(q:ℝ)| + |(r:ℝ)|) < 2 ^ f.emax := by
      have h4 : (1 + u) * (|(q:ℝ)| + |(r:ℝ)|) ≤ (1 + u) * Q := mul_le_mul_of_nonneg_left (by linarith) (by positivity)
      have := mul_nonneg hu.le Q0
      linarith
    have : (((1 + 1 / 2 ^ f.p) ^ 1 * (|q| + (|r| + 0)) : ℚ) : ℝ) < ((2 ^ f.emax : ℚ) : ℝ) := by
      push_cast; rw [pow_one, add_zero]; exact h3
    exact (Rat.cast_lt (K := ℝ)).mp this
  obtain ⟨t, t1, t2, t3, t4, t5⟩ := C164_float hf p [w] p1 p2 (by simpa using vw)
    (by simpa using room _ _ (Complex.abs_re_le_norm p.fc) (Complex.abs_re_le_norm w.fc))
    (by simpa using room _ _ (Complex.abs_im_le_norm p.fc) (Complex.abs_im_le_norm w.fc))
  have t1' : Returns (p.add w) t := by
    have := t1; unfold addUp at this
    simpa [List.foldlM_cons, List.foldlM_nil] using this
  have part : ∀ c q r : ℚ, |c - (q + ([r] : List ℚ).sum)| ≤ ((1 + 1 / 2 ^ f.p) ^ 1 - 1) * (|q| + ([|r|] : List ℚ).sum) → |(q:ℝ)| ≤ ‖p.fc‖ →
      |(r:ℝ)| ≤ ‖w.fc‖ → |(c:ℝ) - (q + r)| ≤ u * Q := by
    intro c q r h hq hr
    have h1 : ((|c - (q + ([r] : List ℚ).sum)| : ℚ) : ℝ) ≤ ((((1 + 1 / 2 ^ f.p) ^ 1 - 1) * (|q| + ([|r|] : List ℚ).sum) : ℚ) : ℝ) :=
      (Rat.cast_le (K := ℝ)).mpr h
    rw [List.sum_singleton, List.sum_singleton] at h1
    push_cast at h1
    rw [pow_one, add_sub_cancel_left] at h1
    exact h1.trans (mul_le_mul_of_nonneg_left (by linarith) hu.le)
  have k1 := part _ _ _ t4 (Complex.abs_re_le_norm p.fc) (Complex.abs_re_le_norm w.fc)
  have k2 := part _ _ _ t5 (Complex.abs_im_le_norm p.fc) (Complex.abs_im_le_norm w.fc)
  have n3 : ‖t.fc - (p.fc + w.fc)‖ ≤ 2 * u * Q := by
    refine (Complex.norm_le_abs_re_add_abs_im _).trans ?_
    have r1 : (t.fc - (p.fc + w.fc)).re = (t.re.val : ℝ) - (p.re.val + w.re.val) := rfl
    have r2 : (t.fc - (p.fc + w.fc)).im = (t.im.val : ℝ) - (p.im.val + w.im.val) := rfl
    rw [r1, r2]; linarith
  refine ⟨p, t, hp, t1', ⟨⟨t2, t3⟩, ?_⟩, ?_⟩
  · have g1 := norm_add_le (t.fc - (p.fc + w.fc)) (p.fc + w.fc)
    rw [sub_add_cancel] at g1
    have g2 := norm_add_le p.fc w.fc
    linarith
  · have e : t.fc - (y.fc * a.fc + w.fc) = (t.fc - (p.fc + w.fc)) + (p.fc - y.fc * a.fc) := by ring
    rw [e, e7]
    have g1 := norm_add_le (t.fc - (p.fc + w.fc)) (p.fc - y.fc * a.fc)
    have g2 : u * Q ≤ u * Y := mul_le_mul_of_nonneg_left (by have := mul_nonneg hu.le Q0; linarith) hu.le
    have g3 : u * (R * Y) ≤ u * Y := mul_le_mul_of_nonneg_left RY hu.le
    linarith

/-- C170, floats: a stable filter never overflows however long it runs, its state stays within `Y`, and its error stays within
`(7 * 2^-p Y + 4 * 2^emin) / (1 - R)` for ever. -/
theorem C170_float_stable (hf : f.Wide) {Y B R : ℝ} (hR : 0 ≤ R) (hR' : R < 1) (hB : 0 ≤ B)
    (hY : (1 + 2 / 2 ^ f.p) * ((1 + 5 / 2 ^ f.p) * (R * Y) + 4 * 2 ^ f.emin + B) ≤ Y) (hY' : 2 * Y < 2 ^ f.emax)
    (a y : Cartesian (Flt f)) (ws : List (Cartesian (Flt f))) (hv : ∀ w ∈ a :: y :: ws, (w.re.Valid ∧ w.re.IsFinite) ∧ w.im.Valid ∧ w.im.IsFinite)
    (ha : ‖a.fc‖ ≤ R) (hy : ‖y.fc‖ ≤ Y) (hw : ∀ w ∈ ws, ‖w.fc‖ ≤ B) :
    ∃ c, Returns (feedback a y ws) c ∧ ((c.re.Valid ∧ c.re.IsFinite) ∧ c.im.Valid ∧ c.im.IsFinite) ∧ ‖c.fc‖ ≤ Y ∧
      ‖c.fc - horner a.fc y.fc (ws.map Cartesian.fc)‖ ≤ (7 / 2 ^ f.p * Y + 4 * 2 ^ f.emin) / (1 - R) := by
  have Y0 : 0 ≤ Y := (norm_nonneg _).trans hy
  obtain ⟨c, c1, ⟨c2, c2'⟩, c3⟩ := feedback_invariant Cartesian.fc
    (fun y => ((y.re.Valid ∧ y.re.IsFinite) ∧ y.im.Valid ∧ y.im.IsFinite) ∧ ‖y.fc‖ ≤ Y)
    (fun w => ((w.re.Valid ∧ w.re.IsFinite) ∧ w.im.Valid ∧ w.im.IsFinite) ∧ ‖w.fc‖ ≤ B) ha
    (fun y w hy hw => step_returns_flt hf hR hR' hB hY hY' (hv a (by simp)) hy.1 hw.1 ha hy.2 hw.2) ws
    (fun w hx => ⟨hv w (by simp [hx]), hw w hx⟩) y ⟨hv y (by simp), hy⟩
  exact ⟨c, c1, c2, c2', c3.trans (geo_le hR hR' (by positivity) _)⟩

/-- Concrete cases of C170: (1+i) x^2 + 2 x + 3i at x = i is -1 + 4i on `i8`; without checks 100 * 100 + 1 is 17 (10001 modulo 256), with checks
it is a panic. -/
example : feedback ⟨i .checked true 8 0, i .checked true 8 1⟩ ⟨i .checked true 8 1, i .checked true 8 1⟩ [⟨i .checked true 8 2, i .checked true 8 0⟩,
    ⟨i .checked true 8 0, i .checked true 8 3⟩] = pure ⟨i .checked true 8 (-1), i .checked true 8 4⟩ := by rfl
example : horner (⟨0, 1⟩ : GaussianInt) ⟨1, 1⟩ [⟨2, 0⟩, ⟨0, 3⟩] = ⟨-1, 4⟩ := by rw [horner_cons, horner_cons, horner_nil]; decide
example : feedback ⟨i .wrapping true 8 100, i .wrapping true 8 0⟩ ⟨i .wrapping true 8 100, i .wrapping true 8 0⟩
    [⟨i .wrapping true 8 1, i .wrapping true 8 0⟩] = pure ⟨i .wrapping true 8 17, i .wrapping true 8 0⟩ := by rfl
example : Panics (feedback ⟨i .checked true 8 100, i .checked true 8 0⟩ ⟨i .checked true 8 100, i .checked true 8 0⟩
    [⟨i .checked true 8 1, i .checked true 8 0⟩]) .overflow := .of_eq rfl

/-- A filter on 32 bits with 16 fractional bits: feedback of size at most 3/4, inputs of size at most 1, state at most 5 (the largest
number is 32768); it starts at 0 and its input is 1, 1, ... -/
example : (3 / 4 * 5 + 1 + 9 / 4 / 2 ^ 16 : ℝ) ≤ 5 ∧ (5:ℝ) < 2 ^ (32 - 1 - 16) ∧
    ‖(⟨fx .checked true 32 16 (2 ^ 15), fx .checked true 32 16 (2 ^ 14)⟩ : Cartesian (Fixed .checked true 32 16)).c‖ ≤ 3 / 4 := by
  refine ⟨by norm_num, by norm_num, ?_⟩
  refine (Complex.norm_le_abs_re_add_abs_im _).trans ?_
  have h1 : (⟨fx .checked true 32 16 (2 ^ 15), fx .checked true 32 16 (2 ^ 14)⟩ : Cartesian (Fixed .checked true 32 16)).c.re = 1 / 2 := by
    show (((2 ^ 15 : ℤ) : ℝ)) / 2 ^ 16 = 1 / 2; norm_num
  have h2 : (⟨fx .checked true 32 16 (2 ^ 15), fx .checked true 32 16 (2 ^ 14)⟩ : Cartesian (Fixed .checked true 32 16)).c.im = 1 / 4 := by
    show (((2 ^ 14 : ℤ) : ℝ)) / 2 ^ 16 = 1 / 4; norm_num
  rw [h1, h2, abs_of_pos (by norm_num), abs_of_pos (by norm_num)]; norm_num
example : feedback ⟨fx .checked true 32 16 (2 ^ 15), fx .checked true 32 16 0⟩ ⟨fx .checked true 32 16 0, fx .checked true 32 16 0⟩
    [⟨fx .checked true 32 16 (2 ^ 16), fx .checked true 32 16 0⟩, ⟨fx .checked true 32 16 (2 ^ 16), fx .checked true 32 16 0⟩] =
    pure ⟨fx .checked true 32 16 (2 ^ 16 + 2 ^ 15), fx .checked true 32 16 0⟩ := by rfl

/-- The same filter on `f32`: feedback 3/4, inputs at most 1, state at most 5. -/
example : (1 + 2 / 2 ^ F32.p : ℝ) * ((1 + 5 / 2 ^ F32.p) * (3 / 4 * 5) + 4 * 2 ^ F32.emin + 1) ≤ 5 ∧ (2 * 5 : ℝ) < 2 ^ F32.emax := by
  have he' : (2:ℝ) ^ F32.emin ≤ 2 ^ (-10 : ℤ) := zpow_le_zpow_right₀ (by norm_num) (by decide)
  refine ⟨?_, by norm_num [F32]⟩
  calc (1 + 2 / 2 ^ F32.p : ℝ) * ((1 + 5 / 2 ^ F32.p) * (3 / 4 * 5) + 4 * 2 ^ F32.emin + 1)
      ≤ (1 + 2 / 2 ^ F32.p) * ((1 + 5 / 2 ^ F32.p) * (3 / 4 * 5) + 4 * 2 ^ (-10 : ℤ) + 1) :=
        mul_le_mul_of_nonneg_left (by linarith) (by positivity)
    _ ≤ 5 := by norm_num [F32]

end MixedNum
