import Verif.Spec.PhaseAcc
import Verif.Props.CosFixed
import Verif.Props.Wrap
import Verif.Props.TrigFloat
import Verif.Props.WrapFloat
import Verif.Props.AddSub
import Verif.Spec.Float
import Verif.Lemmas.Run
/-! # C167: a phase accumulator -/

namespace MixedNum
variable {m : Mode} {W F : ℕ} {f : Format}

/-- C167, fixed point: started in range and advanced by steps that fit beside the largest phase, the accumulator never fails, stays
in range, and holds the start plus all steps up to whole turns, exactly: it does not drift, however long it runs. -/
theorem C167_fixed (h : F + 4 ≤ W) (x p : Fixed m true W F) (ds : List (Fixed m true W F)) (hp : Returns MixedPi.pi p)
    (h1 : -p.val ≤ x.val) (h2 : x.val < p.val) (hd : ∀ d ∈ ds, |d.val| + p.val < 2 ^ (W - 1)) :
    ∃ r : Fixed m true W F, Returns (advance x ds) r ∧ -p.val ≤ r.val ∧ r.val < p.val ∧
      ∃ k : ℤ, r.val = x.val + (ds.map (fun d => d.val)).sum + k * (2 * p.val) := by
  induction ds generalizing x with
  | nil => exact ⟨x, .of_eq rfl, h1, h2, 0, by simp⟩
  | cons d ds ih =>
    have hd' := hd d (by simp)
    have a1 := neg_abs_le d.val; have a2 := le_abs_self d.val
    have hfit : Fits true W (x.val + d.val) := inRange_iff.mp ⟨by omega, by omega⟩
    obtain ⟨p', r, hp', -, hr, r1, r2, k, hk⟩ := C30_wrap_fixed h (Fixed.mkv (m := m) _ hfit)
    obtain rfl := hp.unique hp'
    rw [Fixed.mkv_val] at hk
    obtain ⟨q, hq, q1, q2, l, hl⟩ := ih r r1 r2 (fun d hd' => hd d (by simp [hd']))
    refine ⟨q, ?_, q1, q2, k + l, ?_⟩
    · unfold advance
      rw [List.foldlM_cons, Fixed.add_def, Fixed.fit_of_fits hfit, pure_bind]
      exact hr.bind hq
    · rw [hl, hk, List.map_cons, List.sum_cons]; ring

example := C167_fixed (by decide) (fx .checked true 16 8 300) (fx .checked true 16 8 804) [fx .checked true 16 8 500, fx .checked true 16 8 (-2000)]
  (.of_eq (by kernel_rfl)) (by decide) (by decide) (by decide)

/-- C167, fixed point: on types with four integer bits steps of up to half a turn fit, so the accumulator runs for ever. -/
theorem C167_half_turn (h : F + 4 ≤ W) (x p : Fixed m true W F) (ds : List (Fixed m true W F)) (hp : Returns MixedPi.pi p)
    (h1 : -p.val ≤ x.val) (h2 : x.val < p.val) (hd : ∀ d ∈ ds, |d.val| ≤ p.val) :
    ∃ r : Fixed m true W F, Returns (advance x ds) r ∧ -p.val ≤ r.val ∧ r.val < p.val := by
  have hpv : p.val = Fixed.piRaw F := by
    have := hp.unique (.of_eq (Fixed.pi_def (m := m) (F := F) (W := W) (by omega))); rw [this]; rfl
  have hb := (Fixed.piRaw_bounds F).2
  have hW : (2:ℤ) ^ F * 8 ≤ 2 ^ (W - 1) := by
    rw [show (8:ℤ) = 2 ^ 3 by norm_num, ← pow_add]; exact pow_le_pow_right₀ (by norm_num) (by omega)
  obtain ⟨r, r1, r2, r3, -⟩ := C167_fixed h x p ds hp h1 h2 (fun d hd' => by have := hd d hd'; omega)
  exact ⟨r, r1, r2, r3⟩

example := C167_half_turn (by decide) (fx .checked true 16 8 300) (fx .checked true 16 8 804) [fx .checked true 16 8 500, fx .checked true 16 8 (-800)]
  (.of_eq (by kernel_rfl)) (by decide) (by decide) (by decide)

/-- C167, fixed point: against the true angle, the accumulator is off only by the rounding of the constant π, once per turn: after
any number of steps adding up to `T` it is within `(|T|/6 + 2/3)` units in the last place of the true angle up to whole turns. -/
theorem C167_drift (h : F + 4 ≤ W) (x p : Fixed m true W F) (ds : List (Fixed m true W F)) (hp : Returns MixedPi.pi p)
    (h1 : -p.val ≤ x.val) (h2 : x.val < p.val) (hd : ∀ d ∈ ds, |d.val| + p.val < 2 ^ (W - 1)) :
    ∃ (r : Fixed m true W F) (k : ℤ), Returns (advance x ds) r ∧
      |r.r - (x.r + (ds.map Fixed.r).sum + k * (2 * Real.pi))| ≤
        (|x.r + (ds.map Fixed.r).sum| / 6 + 2 / 3) * (1 / 2 ^ F + 1 / 2 ^ 51) := by
  obtain ⟨r, hr, r1, r2, k, hk⟩ := C167_fixed h x p ds hp h1 h2 hd
  have hpv : p.val = Fixed.piRaw F := by
    have := hp.unique (.of_eq (Fixed.pi_def (m := m) (F := F) (W := W) (by omega))); rw [this]; rfl
  rw [hpv] at r1 r2 hk
  refine ⟨r, k, hr, ?_⟩
  have hu := Fixed.u_pos F; have hpu := Fixed.pow_mul_u F
  have hsum : (ds.map Fixed.r).sum = ((ds.map (fun d => d.val)).sum : ℤ) * Fixed.u F := by
    clear hd hk hr
    induction ds with
    | nil => simp
    | cons d ds ih =>
      rw [List.map_cons, List.sum_cons, List.map_cons, List.sum_cons, ih, Fixed.r_eq]; push_cast; ring
  generalize hT : (ds.map (fun d => d.val)).sum = T at *
  have hb := Fixed.piRaw_bounds F
  have h2F : (0:ℤ) < 2 ^ F := by positivity
  have ht := Fixed.turns_le (a := x.val + T) (by omega) r1 r2 hk
  have hp3 : (3:ℝ) ≤ Fixed.piRaw F * Fixed.u F := by
    have : ((3 * 2 ^ F : ℤ) : ℝ) ≤ Fixed.piRaw F := by exact_mod_cast hb.1
    push_cast at this
    nlinarith
  have hp4 : (Fixed.piRaw F : ℝ) * Fixed.u F ≤ 4 := by
    have : ((Fixed.piRaw F : ℤ) : ℝ) ≤ (4 * 2 ^ F : ℤ) := by exact_mod_cast hb.2.le
    push_cast at this
    nlinarith
  have ex : x.r + (ds.map Fixed.r).sum = ((x.val + T : ℤ) : ℝ) * Fixed.u F := by rw [hsum, Fixed.r_eq]; push_cast; ring
  have hx : |x.r + (ds.map Fixed.r).sum| = |((x.val + T : ℤ) : ℝ)| * Fixed.u F := by rw [ex, abs_mul, abs_of_pos hu]
  have hk6 : |(k:ℝ)| * 6 ≤ |x.r + (ds.map Fixed.r).sum| + 4 := by
    rw [hx]
    have h1 := mul_le_mul_of_nonneg_right ht hu.le
    have h2 : |(k:ℝ)| * 3 ≤ |(k:ℝ)| * (Fixed.piRaw F * Fixed.u F) := mul_le_mul_of_nonneg_left hp3 (abs_nonneg _)
    linarith
  have hpc := Fixed.pi_close F
  have e : r.r - (x.r + (ds.map Fixed.r).sum + k * (2 * Real.pi)) = k * 2 * ((Fixed.piRaw F : ℝ) * Fixed.u F - Real.pi) := by
    rw [ex, Fixed.r_eq, hk]; push_cast; ring
  have e1 : (1:ℝ) / 2 ^ F = Fixed.u F := by unfold Fixed.u; ring
  rw [e, abs_mul, abs_mul, abs_two, e1]
  have h3 : 2 * |(Fixed.piRaw F : ℝ) * Fixed.u F - Real.pi| ≤ Fixed.u F + 1 / 2 ^ 51 := by
    have : (1:ℝ) / 2 ^ 51 = 2 * (1 / 2 ^ 52) := by norm_num
    rw [this]; linarith
  calc |(k:ℝ)| * 2 * |(Fixed.piRaw F : ℝ) * Fixed.u F - Real.pi| = |(k:ℝ)| * (2 * |(Fixed.piRaw F : ℝ) * Fixed.u F - Real.pi|) := by ring
    _ ≤ |(k:ℝ)| * (Fixed.u F + 1 / 2 ^ 51) := mul_le_mul_of_nonneg_left h3 (abs_nonneg _)
    _ ≤ _ := mul_le_mul_of_nonneg_right (by linarith) (by positivity)

example := C167_drift (by decide) (fx .checked true 16 8 300) (fx .checked true 16 8 804) [fx .checked true 16 8 500, fx .checked true 16 8 (-2000)]
  (.of_eq (by kernel_rfl)) (by decide) (by decide) (by decide)

/-- The sine does not see whole turns and moves no faster than its argument. -/
theorem sin_turns {a b e : ℝ} (k : ℤ) (h : |a - (b + k * (2 * Real.pi))| ≤ e) : |Real.sin a - Real.sin b| ≤ e := by
  rw [← Real.sin_add_int_mul_two_pi b k]
  exact (Real.abs_sin_sub_sin_le _ _).trans h

/-- C167, fixed point: the tone. The polynomial sine of the accumulated phase is within 4e-6 + 7 units in the last place, plus the
drift of the phase, of the sine of the start plus all steps. -/
theorem C167_tone (h : F + 20 ≤ W) (x p : Fixed m true W F) (ds : List (Fixed m true W F)) (hp : Returns MixedPi.pi p)
    (h1 : -p.val ≤ x.val) (h2 : x.val < p.val) (hd : ∀ d ∈ ds, |d.val| + p.val < 2 ^ (W - 1)) :
    ∃ s : Fixed m true W F, Returns (advance x ds >>= sin) s ∧
      |s.r - Real.sin (x.r + (ds.map Fixed.r).sum)| ≤
        4 / 1000000 + 7 / 2 ^ F + (|x.r + (ds.map Fixed.r).sum| / 6 + 2 / 3) * (1 / 2 ^ F + 1 / 2 ^ 51) := by
  obtain ⟨r, k, hr, e⟩ := C167_drift (by omega) x p ds hp h1 h2 hd
  obtain ⟨r', hr', r1, r2, -⟩ := C167_fixed (by omega) x p ds hp h1 h2 hd
  obtain rfl := hr.unique hr'
  have hp' : (MixedPi.pi : Prog (Fixed m true W F)) = pure p := by
    rw [Fixed.pi_def (by omega), hp.unique (.of_eq (Fixed.pi_def (m := m) (F := F) (W := W) (by omega)))]
  obtain ⟨s, hs, e2⟩ := C39_sin h r p hp' (abs_le.mpr ⟨by omega, by omega⟩)
  refine ⟨s, hr.bind hs, ?_⟩
  have e3 := sin_turns k e
  have e4 : |s.r - Real.sin r.r| ≤ 4 / 1000000 + 7 / 2 ^ F := e2
  have := abs_sub_le s.r (Real.sin r.r) (Real.sin (x.r + (ds.map Fixed.r).sum))
  linarith

example := C167_tone (by decide) (fx .checked true 32 8 300) (fx .checked true 32 8 804) [fx .checked true 32 8 500, fx .checked true 32 8 (-2000)]
  (.of_eq (by kernel_rfl)) (by decide) (by decide) (by decide)

/-- C167, reals: the accumulator holds the start plus all steps up to whole turns. -/
theorem C167_real (x : ℝ) (ds : List ℝ) (h1 : -Real.pi ≤ x) (h2 : x < Real.pi) :
    ∃ r, Returns (advance x ds) r ∧ -Real.pi ≤ r ∧ r < Real.pi ∧ ∃ k : ℤ, r = x + ds.sum + k * (2 * Real.pi) := by
  induction ds generalizing x with
  | nil => exact ⟨x, .of_eq rfl, h1, h2, 0, by simp⟩
  | cons d ds ih =>
    obtain ⟨r, hr, r1, r2, k, hk⟩ := C33_wrap_real (x + d)
    obtain ⟨q, hq, q1, q2, l, hl⟩ := ih r r1 r2
    refine ⟨q, ?_, q1, q2, k + l, ?_⟩
    · unfold advance
      rw [List.foldlM_cons, show (NumOps.add x d : Prog ℝ) = pure (x + d) from rfl, pure_bind]
      exact hr.bind hq
    · rw [hl, hk, List.sum_cons]; push_cast; ring

example := C167_real 3 [100, -1000] (by linarith [Real.pi_gt_three]) Real.pi_gt_three

section Float
open Flt

/-- C167, floats: advanced by `n` steps of magnitude at most 1.6, the accumulator stays in range and drifts by at most `18 n 2^-p`. -/
theorem C167_float (hf : f.Wide) (h60 : f.p ≤ 60) (x : Flt f) (ds : List (Flt f)) (hx : x.Valid ∧ x.IsFinite)
    (h1 : |(x.val : ℝ)| ≤ 3.15) (hd : ∀ d ∈ ds, (d.Valid ∧ d.IsFinite) ∧ |(d.val : ℝ)| ≤ 1.6) :
    ∃ (r : Flt f) (k : ℤ), Returns (advance x ds) r ∧ (r.Valid ∧ r.IsFinite) ∧ |(r.val : ℝ)| ≤ 3.15 ∧
      |(r.val : ℝ) - (x.val + (ds.map (fun d => (d.val : ℝ))).sum + k * (2 * Real.pi))| ≤ 18 * ds.length / 2 ^ f.p := by
  induction ds generalizing x with
  | nil => exact ⟨x, 0, .of_eq rfl, hx, h1, by simp⟩
  | cons d ds ih =>
    obtain ⟨vd, d1⟩ := hd d (by simp)
    have is : ∀ x : Flt f, x.Valid ∧ x.IsFinite → Is x x.val := by rintro _ ⟨v, ⟨t, b, rfl⟩⟩; exact is_of_valid v
    have heta : eta f = 1 / 2 ^ f.p := by unfold eta; rw [zpow_neg, zpow_natCast, one_div]
    have he := eta_le hf; have he0 := eta_pos (f := f)
    obtain ⟨y, hy, ey⟩ := (is x hx).near.add hf (is d vd).near (U := 4.75) (M := 4.76)
      ((abs_add_le _ _).trans (by norm_num at h1 d1 ⊢; linarith)) (by norm_num) (by norm_num)
    obtain ⟨t, b, et⟩ := hy.fin
    have hyb : |(y:ℝ)| ≤ 4.8 := by
      have := abs_sub_abs_le_abs_sub (y:ℝ) ((x.val:ℝ) + d.val)
      have h3 := abs_add_le (x.val:ℝ) d.val
      norm_num at *
      nlinarith
    rw [← hy.val] at hyb ey
    obtain ⟨r, k, hr, r1, r2, r3, -⟩ := C75_accuracy hf h60 _ hy.valid t b et (by
      have : (2:ℝ) ^ 24 ≤ 2 ^ f.p := pow_le_pow_right₀ (by norm_num) hf.p
      norm_num at this hyb ⊢; linarith)
    obtain ⟨r', k', hr', -, r3⟩ := C75_near hf h60 _ hy.valid t b et hyb
    obtain rfl := hr.unique hr'
    have hb2 : b ≤ 2 ^ (f.p + 3) := by
      have h5 : (b:ℝ) ≤ 4.8 := by
        rw [et] at hyb
        cases t
        · exact (le_abs_self _).trans hyb
        · have : |((-b : ℚ) : ℝ)| ≤ 4.8 := hyb
          push_cast at this; rw [abs_neg] at this; exact (le_abs_self _).trans this
      have h6 : (2:ℝ) ^ 3 ≤ 2 ^ (f.p + 3) := pow_le_pow_right₀ (by norm_num) (by omega)
      have : (b:ℝ) ≤ ((2 ^ (f.p + 3) : ℚ) : ℝ) := by push_cast; norm_num at h5 h6 ⊢; linarith
      exact_mod_cast this
    obtain ⟨r', p, hr', hp, -, c1, c2⟩ := C34_terminates_partial hf.ok _ hy.valid t b et hb2
    obtain rfl := hr.unique hr'
    have ep : p = piF f := (Prog.pure_inj hp).symm
    have ir := is r ⟨r1, r2⟩
    rw [ep, (is_pi hf.ok).neg.le ir, decide_eq_true_eq] at c1
    rw [ep, Flt.lt_def, ir.lt (is_pi hf.ok), decide_eq_true_eq] at c2
    have pn := pi_near hf h60
    have p1 := Real.pi_lt_d4
    have hpi : ((piV f : ℚ) : ℝ) ≤ 3.15 := by
      have := (abs_le.mp pn).2; norm_num at *; linarith
    have hrb : |(r.val:ℝ)| ≤ 3.15 := by
      have c1' : -((piV f : ℚ):ℝ) ≤ r.val := by exact_mod_cast c1
      have c2' : (r.val:ℝ) < (piV f : ℚ) := by exact_mod_cast c2
      rw [abs_le]; constructor <;> linarith
    obtain ⟨q, l, hq, q1, q2, q3⟩ := ih r ⟨r1, r2⟩ hrb (fun d hd' => hd d (by simp [hd']))
    refine ⟨q, l - k', ?_, q1, q2, ?_⟩
    · unfold advance
      rw [List.foldlM_cons, show (NumOps.add x d : Prog (Flt f)) = pure (x.add d) from rfl, pure_bind]
      exact hr.bind hq
    · rw [List.map_cons, List.sum_cons, List.length_cons]
      push_cast
      rw [heta] at ey
      set S := (ds.map (fun d => (d.val : ℝ))).sum
      set A := (x.add d).val
      have e1 := abs_add_le ((q.val:ℝ) - (r.val + S + l * (2 * Real.pi))) ((r.val:ℝ) - (A - 2 * Real.pi * k') + ((A:ℝ) - (x.val + d.val)))
      have e2 := abs_add_le ((r.val:ℝ) - (A - 2 * Real.pi * k')) ((A:ℝ) - (x.val + d.val))
      rw [show (q.val:ℝ) - (r.val + S + l * (2 * Real.pi)) + ((r.val:ℝ) - (A - 2 * Real.pi * k') + ((A:ℝ) - (x.val + d.val))) =
        q.val - (x.val + (d.val + S) + ((l:ℝ) - k') * (2 * Real.pi)) by ring] at e1
      have e3 : (18:ℝ) * (ds.length + 1) / 2 ^ f.p = 18 * ds.length / 2 ^ f.p + 13 / 2 ^ f.p + 5 * (1 / 2 ^ f.p) := by ring
      have e4 : (0 + 0 + 4.76) * (1 / 2 ^ f.p : ℝ) ≤ 5 * (1 / 2 ^ f.p) := mul_le_mul_of_nonneg_right (by norm_num) (by positivity)
      rw [e3]; linarith

/-- C167, floats: the tone. -/
theorem C167_tone_float (hf : f.Wide) (h60 : f.p ≤ 60) (x : Flt f) (ds : List (Flt f)) (hx : x.Valid ∧ x.IsFinite)
    (h1 : |(x.val : ℝ)| ≤ 3.15) (hd : ∀ d ∈ ds, (d.Valid ∧ d.IsFinite) ∧ |(d.val : ℝ)| ≤ 1.6) :
    ∃ s : Flt f, Returns (advance x ds >>= sin) s ∧ (s.Valid ∧ s.IsFinite) ∧
      |(s.val : ℝ) - Real.sin (x.val + (ds.map (fun d => (d.val : ℝ))).sum)| ≤
        361 / 10 ^ 8 + (13.4 + 18 * ds.length) / 2 ^ f.p := by
  obtain ⟨r, k, hr, ⟨v, t, b, e⟩, r1, r2⟩ := C167_float hf h60 x ds hx h1 hd
  obtain ⟨s, hs, s1, s2, s3⟩ := C76_accuracy hf h60 r v t b e (by norm_num at r1 ⊢; linarith)
  refine ⟨s, hr.bind hs, ⟨s1, s2⟩, ?_⟩
  have e3 := sin_turns k r2
  have := abs_sub_le (s.val:ℝ) (Real.sin r.val) (Real.sin (x.val + (ds.map (fun d => (d.val : ℝ))).sum))
  rw [add_div]; linarith

end Float

/-- Cases of C167: 8-bit numbers with four fraction bits, where π is 50/16. Four steps of 40/16 from 45/16 are 205/16, two turns of
100/16 and 5/16. -/
example : ∃ N, advance (fx .checked true 8 4 45) [fx .checked true 8 4 40, fx .checked true 8 4 40, fx .checked true 8 4 40, fx .checked true 8 4 40] N =
    .ok (fx .checked true 8 4 5) := ⟨5, by decide +kernel⟩
example : Returns (MixedPi.pi : Prog (Fixed .checked true 8 4)) (fx .checked true 8 4 50) ∧ |(40:ℤ)| + 50 < 2 ^ (8 - 1) :=
  ⟨.of_eq (by kernel_rfl), by decide⟩

/-- And on `f32`: a thousand steps of 1 from 3 drift by at most 18000 * 2^-24. -/
example : ∃ (r : Flt F32) (k : ℤ), Returns (advance (.fin false 3) (List.replicate 1000 (.fin false 1))) r ∧
    |(r.val : ℝ) - (1003 + k * (2 * Real.pi))| ≤ 18000 / 2 ^ 24 := by
  have v1 : (.fin false 1 : Flt F32).Valid := ⟨1, 0, by decide, by decide, by norm_num [pow2_eq], by norm_num⟩
  have v3 : (.fin false 3 : Flt F32).Valid := ⟨3, 0, by decide, by decide, by norm_num [pow2_eq], by norm_num⟩
  obtain ⟨r, k, h1, -, -, h2⟩ := C167_float (f := F32) ⟨by decide, by decide, by decide, by decide, by decide⟩ (by decide) (.fin false 3)
    (List.replicate 1000 (.fin false 1)) ⟨v3, _, _, rfl⟩ (by norm_num [Flt.val]) (fun d hd => by
      rw [List.eq_of_mem_replicate hd]; exact ⟨⟨v1, _, _, rfl⟩, by norm_num [Flt.val]⟩)
  refine ⟨r, k, h1, ?_⟩
  simp only [List.map_replicate, List.sum_replicate, List.length_replicate, Flt.val, F32] at h2
  norm_num at h2 ⊢
  exact h2

end MixedNum
