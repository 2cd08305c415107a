import Verif.Props.Accumulate
import Verif.Props.Mul
import Verif.Props.FixedComplex
import Verif.Props.ComplexFloat
import Verif.Props.Modes
import Verif.Lemmas.TimeOps
import Verif.Props.AddSub
import Verif.Lemmas.Run
/-! # C166: inner products -/

namespace MixedNum
variable {m : Mode} {s : Bool} {W F : ℕ} {f : Format}
open Flt

/-- If the products return, the loop does what adding up the products does. -/
theorem dot_split {α : Type} [NumOps α] {ps : List (Cartesian α × Cartesian α)} {qs : List (Cartesian α)}
    (h : List.Forall₂ (fun p q => Returns (p.1.mul p.2) q) ps qs) : ∃ N, ∀ n, N ≤ n → ∀ z, dotUp z ps n = addUp z qs n := by
  induction h with
  | nil => exact ⟨0, fun n _ z => rfl⟩
  | @cons p q ps qs hp _ ih =>
    obtain ⟨N, hN⟩ := ih; obtain ⟨M, hM⟩ := hp
    refine ⟨max N M, fun n hn z => ?_⟩
    have h1 := hM n (le_trans (le_max_right _ _) hn)
    unfold dotUp addUp at hN ⊢
    rw [List.foldlM_cons, List.foldlM_cons]
    have e : ((do z.add (← p.1.mul p.2)) : Prog (Cartesian α)) n = z.add q n := Prog.bind_apply_ok h1
    cases hz : z.add q n with
    | ok t => rw [Prog.bind_apply_ok (e.trans hz), Prog.bind_apply_ok hz]; exact hN n (le_trans (le_max_left _ _) hn) t
    | panic x => rw [Prog.bind_apply_panic (e.trans hz), Prog.bind_apply_panic hz]
    | timeout => rw [Prog.bind_apply_timeout (e.trans hz), Prog.bind_apply_timeout hz]

theorem dot_returns {α : Type} [NumOps α] {ps : List (Cartesian α × Cartesian α)} {qs : List (Cartesian α)}
    (h : List.Forall₂ (fun p q => Returns (p.1.mul p.2) q) ps qs) {z c : Cartesian α} (hc : Returns (addUp z qs) c) :
    Returns (dotUp z ps) c := by
  obtain ⟨N, hN⟩ := dot_split h; obtain ⟨M, hM⟩ := hc
  exact ⟨max N M, fun n hn => (hN n (le_trans (le_max_left _ _) hn) z).trans (hM n (le_trans (le_max_right _ _) hn))⟩

/-- Conversely, without loops in the arithmetic, an inner product that returns has computed all its products. -/
theorem dot_inv {α : Type} [NumOps α] (ha : ∀ a b : α, LoopFree (NumOps.add a b)) (hs : ∀ a b : α, LoopFree (NumOps.sub a b))
    (hm : ∀ a b : α, LoopFree (NumOps.mul a b)) {ps : List (Cartesian α × Cartesian α)} {z c : Cartesian α} (h : Returns (dotUp z ps) c) :
    ∃ qs, List.Forall₂ (fun p q => Returns (p.1.mul p.2) q) ps qs ∧ Returns (addUp z qs) c := by
  unfold dotUp at h
  induction ps generalizing z with
  | nil => exact ⟨[], .nil, h⟩
  | cons p ps ih =>
    have fm : LoopFree (p.1.mul p.2) := by
      show LoopFree (ops.mulCartesian p.1 p.2)
      unfold ops.mulCartesian
      exact (hm _ _).bind fun _ => (hm _ _).bind fun _ => (hs _ _).bind fun _ => (hm _ _).bind fun _ => (hm _ _).bind fun _ =>
        (ha _ _).bind fun _ => .of_pure _
    have fa : ∀ q : Cartesian α, LoopFree (z.add q) := fun q => (ha _ _).bind fun _ => (ha _ _).bind fun _ => .of_pure _
    rw [List.foldlM_cons] at h
    rcases fm with ⟨q, hq⟩ | ⟨e, he⟩
    · rw [hq, pure_bind] at h
      rcases fa q with ⟨t, ht⟩ | ⟨e, he⟩
      · rw [ht, pure_bind] at h
        obtain ⟨qs, h1, h2⟩ := ih h
        refine ⟨q :: qs, .cons (.of_eq hq) h1, ?_⟩
        unfold addUp at h2 ⊢
        rw [List.foldlM_cons, ht, pure_bind]; exact h2
      · rw [he, Prog.fail_bind] at h; exact absurd h returns_fail
    · rw [he, Prog.fail_bind, Prog.fail_bind] at h; exact absurd h returns_fail

/-- C166, exact reals: the loop computes the inner product. -/
theorem C166_real (z : Cartesian ℝ) (ps : List (Cartesian ℝ × Cartesian ℝ)) :
    ∃ c, Returns (dotUp z ps) c ∧ c.toC = z.toC + (ps.map (fun p => p.1.toC * p.2.toC)).sum := by
  have : ∃ qs, List.Forall₂ (fun p q => Returns (Cartesian.mul p.1 p.2) q) ps qs ∧
      (qs.map Cartesian.toC).sum = (ps.map (fun p => p.1.toC * p.2.toC)).sum := by
    induction ps with
    | nil => exact ⟨[], .nil, rfl⟩
    | cons p ps ih =>
      obtain ⟨qs, h1, h2⟩ := ih
      obtain ⟨q, q1, q2⟩ := C02_real p.1 p.2
      exact ⟨q :: qs, .cons q1 h1, by rw [List.map_cons, List.sum_cons, List.map_cons, List.sum_cons, h2, q2]⟩
  obtain ⟨qs, h1, h2⟩ := this
  obtain ⟨c, c1, c2⟩ := C164_real z qs
  exact ⟨c, dot_returns h1 c1, by rw [c2, h2]⟩

/-- The exact sum of values known pair by pair. -/
theorem sum_forall₂ {β γ : Type} {R : β → γ → Prop} {l : List β} {k : List γ} (h : List.Forall₂ R l k) (u : β → ℤ) (v : γ → ℤ)
    (hR : ∀ b c, R b c → v c = u b) : (k.map v).sum = (l.map u).sum := by
  induction h with
  | nil => rfl
  | cons h1 _ ih => rw [List.map_cons, List.sum_cons, List.map_cons, List.sum_cons, ih, hR _ _ h1]

theorem PInt.free_fit' (n : ℤ) : LoopFree (PInt.fit n : Prog (PInt m s W)) := by
  by_cases h : Fits s W n
  · rw [PInt.fit_of_fits h]; exact .of_pure _
  · cases m with
    | checked => rw [PInt.fit_checked h]; exact .of_fail _
    | wrapping => rw [PInt.fit_wrapping]; exact .of_pure _

/-- C166, integers with overflow checks: an inner product that returns is exact. -/
theorem C166_int_checked (z c : Cartesian (PInt .checked s W)) (ps : List (Cartesian (PInt .checked s W) × Cartesian (PInt .checked s W)))
    (hW : 0 < W) (h : Returns (dotUp z ps) c) :
    c.re.val = z.re.val + (ps.map (fun p => p.1.re.val * p.2.re.val - p.1.im.val * p.2.im.val)).sum ∧
    c.im.val = z.im.val + (ps.map (fun p => p.1.re.val * p.2.im.val + p.1.im.val * p.2.re.val)).sum := by
  obtain ⟨qs, h1, h2⟩ := dot_inv (fun _ _ => PInt.free_fit' _) (fun _ _ => PInt.free_fit' _) (fun _ _ => PInt.free_fit' _) h
  have hL := C164_int hW z qs
  by_cases hk : ∀ k ≤ qs.length, InRange s W (z.re.val + ((qs.take k).map (fun w => w.re.val)).sum) ∧
      InRange s W (z.im.val + ((qs.take k).map (fun w => w.im.val)).sum)
  · obtain ⟨d, d1, d2, d3⟩ := hL.1 hk
    obtain rfl := h2.unique d1
    simp only [List.take_length] at d2 d3
    rw [d2, d3, sum_forall₂ h1 _ (fun w => w.re.val) (fun p q hq => (C02_checked_exact p.1 p.2 q hq).1),
      sum_forall₂ h1 _ (fun w => w.im.val) (fun p q hq => (C02_checked_exact p.1 p.2 q hq).2)]
    exact ⟨rfl, rfl⟩
  · exact absurd (hL.2 hk) h2.not_panics

example := C166_int_checked ⟨i .checked true 16 20, i .checked true 16 30⟩ ⟨i .checked true 16 33, i .checked true 16 131⟩
  [(⟨i .checked true 16 3, i .checked true 16 5⟩, ⟨i .checked true 16 16, i .checked true 16 7⟩)] (by decide) (by run 0)

/-- C166, integers without overflow checks: the inner product reduced modulo `2^W`. -/
theorem C166_int_wrapping (hW : 0 < W) (z : Cartesian (PInt .wrapping s W))
    (ps : List (Cartesian (PInt .wrapping s W) × Cartesian (PInt .wrapping s W))) :
    ∃ c, Returns (dotUp z ps) c ∧
      IsReduction s W (z.re.val + (ps.map (fun p => p.1.re.val * p.2.re.val - p.1.im.val * p.2.im.val)).sum) c.re.val ∧
      IsReduction s W (z.im.val + (ps.map (fun p => p.1.re.val * p.2.im.val + p.1.im.val * p.2.re.val)).sum) c.im.val := by
  have : ∃ qs : List (Cartesian (PInt .wrapping s W)), List.Forall₂ (fun p q => Returns (Cartesian.mul p.1 p.2) q) ps qs ∧
      (qs.map (fun w => w.re.val)).sum ≡ (ps.map (fun p => p.1.re.val * p.2.re.val - p.1.im.val * p.2.im.val)).sum [ZMOD 2 ^ W] ∧
      (qs.map (fun w => w.im.val)).sum ≡ (ps.map (fun p => p.1.re.val * p.2.im.val + p.1.im.val * p.2.re.val)).sum [ZMOD 2 ^ W] := by
    induction ps with
    | nil => exact ⟨[], .nil, Int.ModEq.refl _, Int.ModEq.refl _⟩
    | cons p ps ih =>
      obtain ⟨qs, h1, h2, h3⟩ := ih
      obtain ⟨q, q1, q2, q3⟩ := C02_wrapping hW p.1 p.2
      refine ⟨q :: qs, .cons (.of_eq q1) h1, ?_, ?_⟩
      · rw [List.map_cons, List.sum_cons, List.map_cons, List.sum_cons]; exact q2.2.add h2
      · rw [List.map_cons, List.sum_cons, List.map_cons, List.sum_cons]; exact q3.2.add h3
  obtain ⟨qs, h1, h2, h3⟩ := this
  have hL := C164_int hW z qs
  have hc : ∃ c, Returns (addUp z qs) c := by
    by_cases hk : ∀ k ≤ qs.length, InRange s W (z.re.val + ((qs.take k).map (fun w => w.re.val)).sum) ∧
        InRange s W (z.im.val + ((qs.take k).map (fun w => w.im.val)).sum)
    · obtain ⟨c, c1, -⟩ := hL.1 hk; exact ⟨c, c1⟩
    · obtain ⟨c, c1, -⟩ := hL.2 hk; exact ⟨c, c1⟩
  obtain ⟨c, c1⟩ := hc
  obtain ⟨r1, r2⟩ := hL.reduction c1
  simp only [List.take_length] at r1 r2
  exact ⟨c, dot_returns h1 c1, ⟨r1.1, r1.2.trans (h2.add_left _)⟩, ⟨r2.1, r2.2.trans (h3.add_left _)⟩⟩

/-- C166, fixed point with overflow checks: an inner product of `n` terms that returns is off by less than `n` units in the real
part and between zero and `2n` units too small in the imaginary part. -/
theorem C166_fixed_checked (hW : 0 < W) (z c : Cartesian (Fixed .checked s W F))
    (ps : List (Cartesian (Fixed .checked s W F) × Cartesian (Fixed .checked s W F))) (h : Returns (dotUp z ps) c) :
    |c.re.r - (z.re.r + (ps.map (fun p => p.1.re.r * p.2.re.r - p.1.im.r * p.2.im.r)).sum)| ≤ ps.length / 2 ^ F ∧
    c.im.r ≤ z.im.r + (ps.map (fun p => p.1.re.r * p.2.im.r + p.1.im.r * p.2.re.r)).sum ∧
    z.im.r + (ps.map (fun p => p.1.re.r * p.2.im.r + p.1.im.r * p.2.re.r)).sum ≤ c.im.r + 2 * ps.length / 2 ^ F := by
  have o : FreeOps (Fixed .checked s W F) := Fixed.freeOps
  obtain ⟨qs, h1, h2⟩ := dot_inv o.add o.sub o.mul h
  have hL := C164_fixed hW z qs
  have hp : (0:ℝ) < 2 ^ F := by positivity
  -- the computed sum is the sum of the computed products
  have hc : c.re.r = z.re.r + (qs.map (fun w => w.re.r)).sum ∧ c.im.r = z.im.r + (qs.map (fun w => w.im.r)).sum := by
    by_cases hk : ∀ k ≤ qs.length, InRange s W (z.re.val + ((qs.take k).map (fun w => w.re.val)).sum) ∧
        InRange s W (z.im.val + ((qs.take k).map (fun w => w.im.val)).sum)
    · obtain ⟨d, d1, d2, d3⟩ := hL.1 hk
      obtain rfl := h2.unique d1
      simp only [List.take_length] at d2 d3
      have e : ∀ (g : Cartesian (Fixed .checked s W F) → Fixed .checked s W F),
          (qs.map (fun w => (g w).r)).sum = ((qs.map (fun w => (g w).val)).sum : ℤ) / 2 ^ F := by
        intro g
        clear d1 d2 d3 hk hL h2 h1 h
        induction qs with
        | nil => simp
        | cons q qs ih =>
          rw [List.map_cons, List.sum_cons, List.map_cons, List.sum_cons, ih]; push_cast; rw [add_div]; rfl
      have r : ∀ x : Fixed .checked s W F, x.r = (x.val : ℝ) / 2 ^ F := fun _ => rfl
      rw [e, e, r, r, r, r, d2, d3]; push_cast
      exact ⟨add_div _ _ _, add_div _ _ _⟩
    · exact absurd (hL.2 hk) h2.not_panics
  have hd : |(qs.map (fun w => w.re.r)).sum - (ps.map (fun p => p.1.re.r * p.2.re.r - p.1.im.r * p.2.im.r)).sum| ≤ ps.length / 2 ^ F ∧
      (qs.map (fun w => w.im.r)).sum ≤ (ps.map (fun p => p.1.re.r * p.2.im.r + p.1.im.r * p.2.re.r)).sum ∧
      (ps.map (fun p => p.1.re.r * p.2.im.r + p.1.im.r * p.2.re.r)).sum ≤ (qs.map (fun w => w.im.r)).sum + 2 * ps.length / 2 ^ F := by
    clear hc hL h2 h
    induction h1 with
    | nil => simp
    | @cons p q ps qs hq _ ih =>
      obtain ⟨a1, a2, a3⟩ := C73_accuracy p.1 p.2 q hq
      obtain ⟨b1, b2, b3⟩ := ih
      obtain ⟨a1, a1'⟩ := abs_lt.mp a1; obtain ⟨b1, b1'⟩ := abs_le.mp b1
      simp only [List.map_cons, List.sum_cons, List.length_cons]
      push_cast
      rw [add_div, mul_add, add_div, mul_one]
      refine ⟨abs_le.mpr ⟨by linarith, by linarith⟩, by linarith, by linarith⟩
  obtain ⟨d1, d2, d3⟩ := hd
  rw [hc.1, hc.2, add_sub_add_left_eq_sub]
  exact ⟨d1, by linarith, by linarith⟩

example := C166_fixed_checked (by decide) ⟨fx .checked true 16 4 20, fx .checked true 16 4 30⟩ ⟨fx .checked true 16 4 29, fx .checked true 16 4 93⟩
  [(⟨fx .checked true 16 4 30, fx .checked true 16 4 50⟩, ⟨fx .checked true 16 4 16, fx .checked true 16 4 7⟩)] (by run 0)

/-- C166, signed integers with overflow checks: the inner product returns if the magnitudes of the start and of all products
together fit the type. -/
theorem C166_int_returns (hW : 0 < W) (z : Cartesian (PInt .checked true W))
    (ps : List (Cartesian (PInt .checked true W) × Cartesian (PInt .checked true W)))
    (hr : |z.re.val| + (ps.map (fun p => |p.1.re.val * p.2.re.val| + |p.1.im.val * p.2.im.val|)).sum < 2 ^ (W - 1))
    (hi : |z.im.val| + (ps.map (fun p => |p.1.re.val * p.2.im.val| + |p.1.im.val * p.2.re.val|)).sum < 2 ^ (W - 1)) :
    ∃ c, Returns (dotUp z ps) c := by
  have inr : ∀ n : ℤ, |n| < 2 ^ (W - 1) → InRange true W n := fun n hn => ⟨(abs_lt.mp hn).1.le, (abs_lt.mp hn).2⟩
  unfold dotUp
  induction ps generalizing z with
  | nil => exact ⟨z, .of_eq rfl⟩
  | cons p ps ih =>
    simp only [List.map_cons, List.sum_cons] at hr hi
    have n1 : 0 ≤ (ps.map (fun p => |p.1.re.val * p.2.re.val| + |p.1.im.val * p.2.im.val|)).sum := List.sum_nonneg (by
      intro q hq; obtain ⟨x, -, rfl⟩ := List.mem_map.mp hq; exact add_nonneg (abs_nonneg _) (abs_nonneg _))
    have n2 : 0 ≤ (ps.map (fun p => |p.1.re.val * p.2.im.val| + |p.1.im.val * p.2.re.val|)).sum := List.sum_nonneg (by
      intro q hq; obtain ⟨x, -, rfl⟩ := List.mem_map.mp hq; exact add_nonneg (abs_nonneg _) (abs_nonneg _))
    have z1 := abs_nonneg z.re.val; have z2 := abs_nonneg z.im.val
    have a1 := abs_nonneg (p.1.re.val * p.2.re.val); have a2 := abs_nonneg (p.1.im.val * p.2.im.val)
    have a3 := abs_nonneg (p.1.re.val * p.2.im.val); have a4 := abs_nonneg (p.1.im.val * p.2.re.val)
    have s1 := abs_sub (p.1.re.val * p.2.re.val) (p.1.im.val * p.2.im.val)
    have s2 := abs_add_le (p.1.re.val * p.2.im.val) (p.1.im.val * p.2.re.val)
    obtain ⟨q, hq⟩ := (C02_checked_returns_iff p.1 p.2).2 ⟨inr _ (by linarith), inr _ (by linarith), inr _ (by linarith), inr _ (by linarith),
      inr _ (by linarith), inr _ (by linarith)⟩
    obtain ⟨q1, q2⟩ := C02_checked_exact p.1 p.2 q hq
    rw [← q1] at s1; rw [← q2] at s2
    have u1 := abs_add_le z.re.val q.re.val; have u2 := abs_add_le z.im.val q.im.val
    obtain ⟨t, ht, e1, e2⟩ := (C01_add_int hW z q).1 ⟨inr _ (by linarith), inr _ (by linarith)⟩
    dsimp only at e1 e2
    obtain ⟨c, hc⟩ := ih t (by rw [e1]; linarith) (by rw [e2]; linarith)
    refine ⟨c, ?_⟩
    rw [List.foldlM_cons]
    exact (hq.bind ht).bind hc

example := C166_int_returns (by decide) ⟨i .checked true 16 20, i .checked true 16 30⟩
  [(⟨i .checked true 16 3, i .checked true 16 5⟩, ⟨i .checked true 16 16, i .checked true 16 7⟩)] (by decide) (by decide)

/-- C166, signed fixed point with overflow checks: the inner product returns if the magnitudes of the start and of all products
together fit the type. -/
theorem C166_fixed_returns (hW : 0 < W) (z : Cartesian (Fixed .checked true W F))
    (ps : List (Cartesian (Fixed .checked true W F) × Cartesian (Fixed .checked true W F)))
    (hr : |z.re.val| + (ps.map termRe).sum < 2 ^ (W - 1)) (hi : |z.im.val| + (ps.map termIm).sum < 2 ^ (W - 1)) :
    ∃ c, Returns (dotUp z ps) c := by
  have inr : ∀ n : ℤ, |n| < 2 ^ (W - 1) → InRange true W n := fun n hn => ⟨(abs_lt.mp hn).1.le, (abs_lt.mp hn).2⟩
  unfold dotUp
  induction ps generalizing z with
  | nil => exact ⟨z, .of_eq rfl⟩
  | cons p ps ih =>
    simp only [List.map_cons, List.sum_cons] at hr hi
    have n1 : 0 ≤ (ps.map termRe).sum := List.sum_nonneg (by
      intro q hq; obtain ⟨x, -, rfl⟩ := List.mem_map.mp hq; exact add_nonneg (abs_nonneg _) (abs_nonneg _))
    have n2 : 0 ≤ (ps.map termIm).sum := List.sum_nonneg (by
      intro q hq; obtain ⟨x, -, rfl⟩ := List.mem_map.mp hq; exact add_nonneg (abs_nonneg _) (abs_nonneg _))
    have t1 : termRe p = |p.1.re.val * p.2.re.val / 2 ^ F| + |p.1.im.val * p.2.im.val / 2 ^ F| := rfl
    have t2 : termIm p = |p.1.re.val * p.2.im.val / 2 ^ F| + |p.1.im.val * p.2.re.val / 2 ^ F| := rfl
    have z1 := abs_nonneg z.re.val; have z2 := abs_nonneg z.im.val
    have a1 := abs_nonneg (p.1.re.val * p.2.re.val / 2 ^ F); have a2 := abs_nonneg (p.1.im.val * p.2.im.val / 2 ^ F)
    have a3 := abs_nonneg (p.1.re.val * p.2.im.val / 2 ^ F); have a4 := abs_nonneg (p.1.im.val * p.2.re.val / 2 ^ F)
    have s1 := abs_sub (p.1.re.val * p.2.re.val / 2 ^ F) (p.1.im.val * p.2.im.val / 2 ^ F)
    have s2 := abs_add_le (p.1.re.val * p.2.im.val / 2 ^ F) (p.1.im.val * p.2.re.val / 2 ^ F)
    obtain ⟨q, hq⟩ := (C73_checked_domain p.1 p.2).1 ⟨inr _ (by linarith), inr _ (by linarith), inr _ (by linarith), inr _ (by linarith),
      inr _ (by linarith), inr _ (by linarith)⟩
    obtain ⟨q1, q2⟩ := C73_checked_exact p.1 p.2 q hq
    rw [← q1] at s1; rw [← q2] at s2
    have u1 := abs_add_le z.re.val q.re.val; have u2 := abs_add_le z.im.val q.im.val
    obtain ⟨t, ht, e1, e2⟩ := (C01_add_fixed hW z q).1 ⟨inr _ (by linarith), inr _ (by linarith)⟩
    dsimp only at e1 e2
    obtain ⟨c, hc⟩ := ih t (by rw [e1]; linarith) (by rw [e2]; linarith)
    refine ⟨c, ?_⟩
    rw [List.foldlM_cons]
    exact (hq.bind ht).bind hc

example := C166_fixed_returns (by decide) ⟨fx .checked true 16 4 20, fx .checked true 16 4 30⟩
  [(⟨fx .checked true 16 4 30, fx .checked true 16 4 50⟩, ⟨fx .checked true 16 4 16, fx .checked true 16 4 7⟩)] (by decide) (by decide)

/-- Related steps make related loops. -/
theorem Sim.fold_map {α β γ δ : Type} {R : α → β → Prop} {op : α → γ → Prog α} {op' : β → δ → Prog β} (g : γ → δ)
    (h : ∀ a b w, R a b → Sim R (op a w) (op' b (g w))) (ws : List γ) {a : α} {b : β} (hab : R a b) :
    Sim R (ws.foldlM op a) ((ws.map g).foldlM op' b) := by
  induction ws generalizing a b with
  | nil => exact Sim.pure hab
  | cons w ws ih =>
    rw [List.map_cons, List.foldlM_cons, List.foldlM_cons]
    exact (h a b w hab).bind fun _ _ h' => ih h'

/-- C166 and C164, integers: a build without overflow checks computes the same sums and inner products, unless the other build
panics. -/
theorem C166_release_int (z : Cartesian (PInt .checked s W)) (ws : List (Cartesian (PInt .checked s W)))
    (ps : List (Cartesian (PInt .checked s W) × Cartesian (PInt .checked s W))) :
    Agrees (Cartesian.releaseBy PInt.release) (addUp z ws) (addUp (z.releaseBy PInt.release) (ws.map (·.releaseBy PInt.release))) ∧
    Agrees (Cartesian.releaseBy PInt.release) (addUpAssign z ws)
      (addUpAssign (z.releaseBy PInt.release) (ws.map (·.releaseBy PInt.release))) ∧
    Agrees (Cartesian.releaseBy PInt.release) (dotUp z ps)
      (dotUp (z.releaseBy PInt.release) (ps.map (fun p => (p.1.releaseBy PInt.release, p.2.releaseBy PInt.release)))) := by
  refine ⟨Sim.agrees_cart ?_, Sim.agrees_cart ?_, Sim.agrees_cart ?_⟩
  · exact Sim.fold_map (R := Sim.Cart (To PInt.release)) (Cartesian.releaseBy PInt.release) (fun _ _ _ h => Sim.add h ⟨rfl, rfl⟩) ws ⟨rfl, rfl⟩
  · exact Sim.fold_map (R := Sim.Cart (To PInt.release)) (Cartesian.releaseBy PInt.release) (fun _ _ _ h => Sim.addAssign h ⟨rfl, rfl⟩) ws
      ⟨rfl, rfl⟩
  · refine Sim.fold_map (R := Sim.Cart (To PInt.release)) (fun p => (p.1.releaseBy PInt.release, p.2.releaseBy PInt.release)) (fun a b p h => ?_) ps
      (a := z) (b := z.releaseBy PInt.release) ⟨rfl, rfl⟩
    exact (Sim.mul (R := To PInt.release) (z := p.1) (w := p.2) (z' := p.1.releaseBy PInt.release) (w' := p.2.releaseBy PInt.release)
      ⟨rfl, rfl⟩ ⟨rfl, rfl⟩).bind fun _ _ h' => Sim.add h h'

/-- C166 and C164, fixed point: a build without overflow checks computes the same sums and inner products, unless the other build
panics. -/
theorem C166_release_fixed (z : Cartesian (Fixed .checked s W F)) (ws : List (Cartesian (Fixed .checked s W F)))
    (ps : List (Cartesian (Fixed .checked s W F) × Cartesian (Fixed .checked s W F))) :
    Agrees (Cartesian.releaseBy Fixed.release) (addUp z ws) (addUp (z.releaseBy Fixed.release) (ws.map (·.releaseBy Fixed.release))) ∧
    Agrees (Cartesian.releaseBy Fixed.release) (addUpAssign z ws)
      (addUpAssign (z.releaseBy Fixed.release) (ws.map (·.releaseBy Fixed.release))) ∧
    Agrees (Cartesian.releaseBy Fixed.release) (dotUp z ps)
      (dotUp (z.releaseBy Fixed.release) (ps.map (fun p => (p.1.releaseBy Fixed.release, p.2.releaseBy Fixed.release)))) := by
  refine ⟨Sim.agrees_cart ?_, Sim.agrees_cart ?_, Sim.agrees_cart ?_⟩
  · exact Sim.fold_map (R := Sim.Cart (To Fixed.release)) (Cartesian.releaseBy Fixed.release) (fun _ _ _ h => Sim.add h ⟨rfl, rfl⟩) ws ⟨rfl, rfl⟩
  · exact Sim.fold_map (R := Sim.Cart (To Fixed.release)) (Cartesian.releaseBy Fixed.release) (fun _ _ _ h => Sim.addAssign h ⟨rfl, rfl⟩) ws
      ⟨rfl, rfl⟩
  · refine Sim.fold_map (R := Sim.Cart (To Fixed.release)) (fun p => (p.1.releaseBy Fixed.release, p.2.releaseBy Fixed.release)) (fun a b p h => ?_) ps
      (a := z) (b := z.releaseBy Fixed.release) ⟨rfl, rfl⟩
    exact (Sim.mul (R := To Fixed.release) (z := p.1) (w := p.2) (z' := p.1.releaseBy Fixed.release) (w' := p.2.releaseBy Fixed.release)
      ⟨rfl, rfl⟩ ⟨rfl, rfl⟩).bind fun _ _ h' => Sim.add h h'

/-- Sums of values that are known up to an error relative to `M`, and a constant one. -/
theorem dot_near {β γ : Type} {R : β → γ → Prop} {l : List β} {k : List γ} (h : List.Forall₂ R l k) (e M : β → ℚ) (v : γ → ℚ) {a t : ℚ}
    (hM : ∀ b, |e b| ≤ M b) (hR : ∀ b c, R b c → |v c - e b| ≤ a * M b + t) :
    |(k.map v).sum - (l.map e).sum| ≤ a * (l.map M).sum + l.length * t ∧
    (k.map (fun c => |v c|)).sum ≤ (1 + a) * (l.map M).sum + l.length * t := by
  induction h with
  | nil => simp
  | @cons b c l k h1 _ ih =>
    have h2 := hR _ _ h1
    have h3 := hM b
    have h4 := abs_sub_abs_le_abs_sub (v c) (e b)
    obtain ⟨i1, i2⟩ := ih
    simp only [List.map_cons, List.sum_cons, List.length_cons]
    push_cast
    constructor
    · have := abs_add_le (v c - e b) ((k.map v).sum - (l.map e).sum)
      rw [show v c + (k.map v).sum - (e b + (l.map e).sum) = v c - e b + ((k.map v).sum - (l.map e).sum) by ring]
      linarith
    · linarith

/-- C166, floats: an inner product of `n` terms is off by at most `(1 + 2^-p)^(n+2) - 1` times the sum of the magnitudes of all
real products, plus `2n (1 + 2^-p)^n` of the smallest float. -/
theorem C166_float (hf : f.Wide) (z : Cartesian (Flt f)) (ps : List (Cartesian (Flt f) × Cartesian (Flt f)))
    (v1 : z.re.Valid ∧ z.re.IsFinite) (v2 : z.im.Valid ∧ z.im.IsFinite)
    (hv : ∀ p ∈ ps, ((p.1.re.Valid ∧ p.1.re.IsFinite) ∧ p.1.im.Valid ∧ p.1.im.IsFinite) ∧
      (p.2.re.Valid ∧ p.2.re.IsFinite) ∧ p.2.im.Valid ∧ p.2.im.IsFinite)
    (hr : (1 + 1 / 2 ^ f.p) ^ (ps.length + 2) * (|z.re.val| + (ps.map (fun p => |p.1.re.val * p.2.re.val| + |p.1.im.val * p.2.im.val|)).sum) +
      (1 + 1 / 2 ^ f.p) ^ ps.length * (2 * ps.length * 2 ^ f.emin) ≤ 2 ^ f.emax / 2)
    (hi : (1 + 1 / 2 ^ f.p) ^ (ps.length + 2) * (|z.im.val| + (ps.map (fun p => |p.1.re.val * p.2.im.val| + |p.1.im.val * p.2.re.val|)).sum) +
      (1 + 1 / 2 ^ f.p) ^ ps.length * (2 * ps.length * 2 ^ f.emin) ≤ 2 ^ f.emax / 2) :
    ∃ c, Returns (dotUp z ps) c ∧ (c.re.Valid ∧ c.re.IsFinite) ∧ (c.im.Valid ∧ c.im.IsFinite) ∧
      |c.re.val - (z.re.val + (ps.map (fun p => p.1.re.val * p.2.re.val - p.1.im.val * p.2.im.val)).sum)| ≤
        ((1 + 1 / 2 ^ f.p) ^ (ps.length + 2) - 1) * (|z.re.val| + (ps.map (fun p => |p.1.re.val * p.2.re.val| + |p.1.im.val * p.2.im.val|)).sum) +
        (1 + 1 / 2 ^ f.p) ^ ps.length * (2 * ps.length * 2 ^ f.emin) ∧
      |c.im.val - (z.im.val + (ps.map (fun p => p.1.re.val * p.2.im.val + p.1.im.val * p.2.re.val)).sum)| ≤
        ((1 + 1 / 2 ^ f.p) ^ (ps.length + 2) - 1) * (|z.im.val| + (ps.map (fun p => |p.1.re.val * p.2.im.val| + |p.1.im.val * p.2.re.val|)).sum) +
        (1 + 1 / 2 ^ f.p) ^ ps.length * (2 * ps.length * 2 ^ f.emin) := by
  have hu : (0:ℚ) < 1 / 2 ^ f.p := by positivity
  have hη : (0:ℚ) < 2 ^ f.emin := by positivity
  have e2 : (2:ℚ) / 2 ^ f.p + 1 / 2 ^ (2 * f.p) = (1 + 1 / 2 ^ f.p) ^ 2 - 1 := by
    rw [pow_mul' (2:ℚ) 2 f.p]; field_simp; ring
  set u : ℚ := 1 / 2 ^ f.p
  set η : ℚ := 2 ^ f.emin
  -- the sums of magnitudes dominate each single term
  have snn : ∀ g : Cartesian (Flt f) × Cartesian (Flt f) → ℚ, (∀ p, 0 ≤ g p) → ∀ l : List _, 0 ≤ (l.map g).sum := fun g hg l =>
    List.sum_nonneg (by intro q hq; obtain ⟨x, -, rfl⟩ := List.mem_map.mp hq; exact hg x)
  have sge : ∀ g : Cartesian (Flt f) × Cartesian (Flt f) → ℚ, (∀ p, 0 ≤ g p) → ∀ l : List _, ∀ p ∈ l, g p ≤ (l.map g).sum := fun g hg l p hp =>
    List.single_le_sum (by intro q hq; obtain ⟨x, -, rfl⟩ := List.mem_map.mp hq; exact hg x) _ (List.mem_map.mpr ⟨p, hp, rfl⟩)
  have g1 : ∀ p : Cartesian (Flt f) × Cartesian (Flt f), 0 ≤ |p.1.re.val * p.2.re.val| + |p.1.im.val * p.2.im.val| := fun p => by positivity
  have g2 : ∀ p : Cartesian (Flt f) × Cartesian (Flt f), 0 ≤ |p.1.re.val * p.2.im.val| + |p.1.im.val * p.2.re.val| := fun p => by positivity
  have P1 : 1 ≤ (1 + u) ^ ps.length := one_le_pow₀ (by linarith)
  have P2 : 1 ≤ (1 + u) ^ (ps.length + 2) := one_le_pow₀ (by linarith)
  -- each product is accurate
  have hq : ∀ p ∈ ps, ∃ q : Cartesian (Flt f), Returns (p.1.mul p.2) q ∧ ((q.re.Valid ∧ q.re.IsFinite) ∧ q.im.Valid ∧ q.im.IsFinite) ∧
      |q.re.val - (p.1.re.val * p.2.re.val - p.1.im.val * p.2.im.val)| ≤ ((1 + u) ^ 2 - 1) * (|p.1.re.val * p.2.re.val| + |p.1.im.val * p.2.im.val|) + 2 * η ∧
      |q.im.val - (p.1.re.val * p.2.im.val + p.1.im.val * p.2.re.val)| ≤ ((1 + u) ^ 2 - 1) * (|p.1.re.val * p.2.im.val| + |p.1.im.val * p.2.re.val|) + 2 * η := by
    intro p hp
    obtain ⟨⟨⟨a1, a2⟩, a3, a4⟩, ⟨b1, b2⟩, b3, b4⟩ := hv p hp
    have big : ∀ x S : ℚ, 0 ≤ x → 0 ≤ S → (1 + u) ^ (ps.length + 2) * (x + S) + (1 + u) ^ ps.length * (2 * ps.length * η) ≤ 2 ^ f.emax / 2 →
        2 * S ≤ 2 ^ f.emax := by
      intro x S hx hS h
      have h1 : 1 * (x + S) ≤ (1 + u) ^ (ps.length + 2) * (x + S) := mul_le_mul_of_nonneg_right P2 (by linarith)
      have h2 : 0 ≤ (1 + u) ^ ps.length * (2 * ps.length * η) := by positivity
      linarith
    have r1 := big _ _ (abs_nonneg _) (snn _ g1 ps) hr; have r2 := big _ _ (abs_nonneg _) (snn _ g2 ps) hi
    have s1 := sge _ g1 ps p hp; have s2 := sge _ g2 ps p hp
    obtain ⟨q, q1, q2, q3, q4, q5⟩ := C83_accuracy hf p.1 p.2 a2 a4 b2 b4 a1 a3 b1 b3 (by linarith) (by linarith)
    rw [e2] at q4 q5
    exact ⟨q, q1, ⟨q2, q3⟩, q4, q5⟩
  -- all of them
  have hqs : ∃ qs : List (Cartesian (Flt f)), List.Forall₂ (fun (p : Cartesian (Flt f) × Cartesian (Flt f)) (q : Cartesian (Flt f)) =>
      Returns (p.1.mul p.2) q ∧ ((q.re.Valid ∧ q.re.IsFinite) ∧ q.im.Valid ∧ q.im.IsFinite) ∧
      |q.re.val - (p.1.re.val * p.2.re.val - p.1.im.val * p.2.im.val)| ≤ ((1 + u) ^ 2 - 1) * (|p.1.re.val * p.2.re.val| + |p.1.im.val * p.2.im.val|) + 2 * η ∧
      |q.im.val - (p.1.re.val * p.2.im.val + p.1.im.val * p.2.re.val)| ≤ ((1 + u) ^ 2 - 1) * (|p.1.re.val * p.2.im.val| + |p.1.im.val * p.2.re.val|) + 2 * η)
      ps qs := by
    clear hv hr hi P1 P2
    induction ps with
    | nil => exact ⟨[], .nil⟩
    | cons p ps ih =>
      obtain ⟨q, hq'⟩ := hq p (by simp)
      obtain ⟨qs, hqs⟩ := ih fun p hp => hq p (by simp [hp])
      exact ⟨q :: qs, .cons hq' hqs⟩
  obtain ⟨qs, hqs⟩ := hqs
  have hlen : qs.length = ps.length := hqs.length_eq.symm
  obtain ⟨n1, n2⟩ := dot_near hqs (fun p => p.1.re.val * p.2.re.val - p.1.im.val * p.2.im.val)
    (fun p => |p.1.re.val * p.2.re.val| + |p.1.im.val * p.2.im.val|) (fun q => q.re.val) (fun p => abs_sub _ _) (fun p q h => h.2.2.1)
  obtain ⟨k1, k2⟩ := dot_near hqs (fun p => p.1.re.val * p.2.im.val + p.1.im.val * p.2.re.val)
    (fun p => |p.1.re.val * p.2.im.val| + |p.1.im.val * p.2.re.val|) (fun q => q.im.val) (fun p => abs_add_le _ _) (fun p q h => h.2.2.2)
  have sum := C164_float hf z qs v1 v2 (by
    intro w hw
    obtain ⟨j, hj, rfl⟩ := List.mem_iff_getElem.mp hw
    exact (hqs.get (by rw [← hlen]; exact hj) hj).2.1)
  rw [hlen] at sum
  have fin : ∀ x M Q E : ℚ, Q ≤ (1 + ((1 + u) ^ 2 - 1)) * M + ps.length * (2 * η) →
      (1 + u) ^ (ps.length + 2) * (|x| + M) + (1 + u) ^ ps.length * (2 * ps.length * η) ≤ E →
      (1 + u) ^ ps.length * (|x| + Q) ≤ E := by
    intro x M Q E h1 h2
    have h3 := mul_le_mul_of_nonneg_left h1 (zero_le_one.trans P1)
    have h4 : (1 + u) ^ ps.length * |x| ≤ (1 + u) ^ (ps.length + 2) * |x| :=
      mul_le_mul_of_nonneg_right (pow_le_pow_right₀ (by linarith) (by omega)) (abs_nonneg _)
    have h5 : (1 + u) ^ (ps.length + 2) = (1 + u) ^ ps.length * (1 + u) ^ 2 := pow_add _ _ _
    rw [h5] at h2 h4
    nlinarith
  have hE : (2:ℚ) ^ f.emax / 2 < 2 ^ f.emax := half_lt_self (by positivity)
  obtain ⟨c, c1, c2, c3, c4, c5⟩ := sum (lt_of_le_of_lt (fin _ _ _ _ n2 hr) hE) (lt_of_le_of_lt (fin _ _ _ _ k2 hi) hE)
  have tot : ∀ x M Q S e C : ℚ, |S - e| ≤ ((1 + u) ^ 2 - 1) * M + ps.length * (2 * η) → Q ≤ (1 + ((1 + u) ^ 2 - 1)) * M + ps.length * (2 * η) →
      |C - (x + S)| ≤ ((1 + u) ^ ps.length - 1) * (|x| + Q) →
      |C - (x + e)| ≤ ((1 + u) ^ (ps.length + 2) - 1) * (|x| + M) + (1 + u) ^ ps.length * (2 * ps.length * η) := by
    intro x M Q S e C h1 h2 h3
    have h4 := abs_sub_le C (x + S) (x + e)
    rw [add_sub_add_left_eq_sub] at h4
    have h5 := mul_le_mul_of_nonneg_left h2 (show 0 ≤ (1 + u) ^ ps.length - 1 by linarith)
    have h6 : (1 + u) ^ ps.length * |x| ≤ (1 + u) ^ (ps.length + 2) * |x| :=
      mul_le_mul_of_nonneg_right (pow_le_pow_right₀ (by linarith) (by omega)) (abs_nonneg _)
    have h7 : (1 + u) ^ (ps.length + 2) = (1 + u) ^ ps.length * (1 + u) ^ 2 := pow_add _ _ _
    rw [h7] at h6 ⊢
    nlinarith
  exact ⟨c, dot_returns (hqs.imp fun _ _ h => h.1) c1, c2, c3, tot _ _ _ _ _ _ n1 n2 c4, tot _ _ _ _ _ _ k1 k2 c5⟩

/-- Concrete cases of C166: (1+2i)(3+4i) + (5+6i)(1+i) = -6 + 21i on `i8` and on I4F4-like 16-bit fixed point, where nothing is lost. -/
example : dotUp ⟨i .checked true 8 0, i .checked true 8 0⟩
    [(⟨i .checked true 8 1, i .checked true 8 2⟩, ⟨i .checked true 8 3, i .checked true 8 4⟩),
      (⟨i .checked true 8 5, i .checked true 8 6⟩, ⟨i .checked true 8 1, i .checked true 8 1⟩)] =
    pure ⟨i .checked true 8 (-6), i .checked true 8 21⟩ := by rfl
example : Returns (dotUp ⟨fx m true 16 4 0, fx m true 16 4 0⟩
    [(⟨fx m true 16 4 16, fx m true 16 4 32⟩, ⟨fx m true 16 4 48, fx m true 16 4 64⟩),
      (⟨fx m true 16 4 80, fx m true 16 4 96⟩, ⟨fx m true 16 4 16, fx m true 16 4 16⟩)])
    ⟨fx m true 16 4 (-96), fx m true 16 4 336⟩ := by cases m <;> exact .of_eq rfl

/-- The error of C166 on fixed point occurs: each product of a 16th with a 16th is lost. -/
example : Returns (dotUp ⟨fx m true 16 4 0, fx m true 16 4 0⟩
    [(⟨fx m true 16 4 1, fx m true 16 4 1⟩, ⟨fx m true 16 4 1, fx m true 16 4 (-1)⟩),
      (⟨fx m true 16 4 1, fx m true 16 4 1⟩, ⟨fx m true 16 4 1, fx m true 16 4 (-1)⟩)])
    ⟨fx m true 16 4 2, fx m true 16 4 (-2)⟩ := by cases m <;> exact .of_eq rfl

/-- The hypotheses of `C166_float` hold for ordinary numbers: one term (3 + 4i)(3 + 4i) on binary32. -/
example : (1 + 1 / 2 ^ F32.p : ℚ) ^ (1 + 2) * (|(0:ℚ)| + (|(3:ℚ) * 3| + |(4:ℚ) * 4| + 0)) + (1 + 1 / 2 ^ F32.p) ^ 1 * (2 * 1 * 2 ^ F32.emin) ≤
    2 ^ F32.emax / 2 := by
  have h1 : (2:ℚ) ^ F32.emin ≤ 1 := zpow_le_one_of_nonpos₀ (by norm_num) (by decide)
  have h2 : (1 + 1 / 2 ^ F32.p : ℚ) ≤ 2 := by norm_num [F32]
  have h3 : (1 + 1 / 2 ^ F32.p : ℚ) ^ (1 + 2) ≤ 8 := by norm_num [F32]
  have h4 : (1000:ℚ) ≤ 2 ^ F32.emax := by norm_num [F32]
  have h5 : (0:ℚ) < 2 ^ F32.emin := by positivity
  rw [abs_zero, abs_of_pos (by norm_num), abs_of_pos (by norm_num), pow_one]
  nlinarith

end MixedNum
