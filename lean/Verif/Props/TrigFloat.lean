import Verif.Lemmas.WrapAcc
import Verif.Lemmas.RndNearest
import Verif.Props.WrapFloat
import Verif.Props.AddSub
import Verif.Lemmas.Run
import Verif.Lemmas.Case
/-! C75–C78: accuracy of `wrap_phase`, `sin` and `cos` on floats, and the floats on which `cos` never returns. -/

namespace MixedNum
variable {f : Format}
open Flt

/-! ## C75 -/

/-- C75: the float returned is the argument less a whole number of turns of the real circle, up to an error that grows
with the square of the argument. -/
theorem C75_accuracy (hf : f.Wide) (h60 : f.p ≤ 60) (x : Flt f) (hx : x.Valid) (s : Bool) (m : ℚ) (e : x = .fin s m)
    (hm : |(x.val : ℝ)| ≤ 2 ^ f.p / 10) :
    ∃ r : Flt f, ∃ k : ℤ, Returns (wrapPhase x) r ∧ r.Valid ∧ (∃ b q, r = .fin b q) ∧
      |(r.val : ℝ) - (x.val - 2 * Real.pi * k)| ≤ (|(x.val : ℝ)| + 4) ^ 2 / 6 / 2 ^ f.p ∧
      |(r.val : ℝ)| ≤ Real.pi + 21 / 10 / 2 ^ f.p := by
  subst e
  have e1 : eta f = 1 / 2 ^ f.p := by unfold eta; rw [zpow_neg, zpow_natCast, one_div]
  obtain ⟨r, b, k, hr, hb, b1, b2, h⟩ := wrap_acc hf h60 (is_of_valid hx) (by
    rw [e1, ← mul_div_assoc, mul_one, div_le_iff₀ (by positivity)]; linarith)
  refine ⟨r, k, hr, hb.valid, hb.fin, ?_⟩
  rw [hb.val, div_eq_mul_one_div _ ((2:ℝ) ^ f.p), div_eq_mul_one_div (21 / 10) ((2:ℝ) ^ f.p), ← e1]
  refine ⟨h, ?_⟩
  have hp := (abs_le.mp (pi_near hf h60)).2
  have hb' : |(b : ℝ)| ≤ (piV f : ℚ) := by exact_mod_cast abs_le.mpr ⟨b1, b2.le⟩
  linarith

example := C75_accuracy wide_F32 (by decide) (.fin true 1000) (by is_float 1000 0) _ _ rfl (by norm_num [Flt.val, F32])

/-- C75: within three half turns the error is below 13 units of `2^-p`. -/
theorem C75_near (hf : f.Wide) (h60 : f.p ≤ 60) (x : Flt f) (hx : x.Valid) (s : Bool) (m : ℚ) (e : x = .fin s m)
    (hm : |(x.val : ℝ)| ≤ 4.8) :
    ∃ r : Flt f, ∃ k : ℤ, Returns (wrapPhase x) r ∧ r.Valid ∧
      |(r.val : ℝ) - (x.val - 2 * Real.pi * k)| ≤ 13 / 2 ^ f.p ∧ |(r.val : ℝ)| ≤ Real.pi + 21 / 10 / 2 ^ f.p := by
  have h10 : (48:ℝ) ≤ 2 ^ f.p := by
    have : (2:ℝ) ^ 24 ≤ 2 ^ f.p := pow_le_pow_right₀ (by norm_num) hf.p
    norm_num at this; linarith
  obtain ⟨r, k, h1, h2, -, h3, h4⟩ := C75_accuracy hf h60 x hx s m e (by norm_num at hm ⊢; linarith)
  refine ⟨r, k, h1, h2, h3.trans ?_, h4⟩
  have : (|(x.val:ℝ)| + 4) ^ 2 / 6 ≤ 13 := by
    have := pow_le_pow_left₀ (by positivity) (by linarith : |(x.val:ℝ)| + 4 ≤ 8.8) 2
    norm_num at this ⊢; linarith
  exact div_le_div_of_nonneg_right this (by positivity)

example : (Flt.fin false 100 : Flt F32).Valid ∧ |((Flt.fin false 100 : Flt F32).val : ℝ)| ≤ 2 ^ F32.p / 10 :=
  ⟨⟨100, 0, by decide, by decide, by norm_num [pow2_eq], by norm_num⟩, by norm_num [Flt.val, F32]⟩

/-! ## C76 -/

/-- C76: the sine of a finite float of magnitude at most 4.712, for every binary format from 24 to 60 bits. -/
theorem C76_accuracy (hf : f.Wide) (h60 : f.p ≤ 60) (x : Flt f) (hx : x.Valid) (s : Bool) (m : ℚ) (e : x = .fin s m)
    (hm : |(x.val : ℝ)| ≤ 4.712) :
    ∃ z : Flt f, Returns (sin x) z ∧ z.Valid ∧ (∃ b q, z = .fin b q) ∧
      |(z.val : ℝ) - Real.sin x.val| ≤ 361 / 10 ^ 8 + 13.4 / 2 ^ f.p := by
  subst e
  obtain ⟨z, q, h1, h2, h3⟩ := sin_acc hf h60 (is_of_valid hx) hm
  refine ⟨z, .of_eq h1, h2.valid, h2.fin, ?_⟩
  have e1 : eta f = 1 / 2 ^ f.p := by unfold eta; rw [zpow_neg, zpow_natCast, one_div]
  rw [h2.val, show (13.4:ℝ) / 2 ^ f.p = 67 / 5 * eta f by rw [e1]; ring]
  exact h3

example := C76_accuracy wide_F32 (by decide) (.fin true 4) (by is_float 4 0) _ _ rfl (by norm_num [Flt.val])

/-- C76, single precision. -/
theorem C76_f32 (x : Flt F32) (hx : x.Valid) (s : Bool) (m : ℚ) (e : x = .fin s m) (hm : |(x.val : ℝ)| ≤ 4.712) :
    ∃ z : Flt F32, Returns (sin x) z ∧ z.Valid ∧ |(z.val : ℝ) - Real.sin x.val| ≤ 4.41 / 10 ^ 6 := by
  obtain ⟨z, h1, h2, -, h3⟩ := C76_accuracy wide_F32 (by decide) x hx s m e hm
  exact ⟨z, h1, h2, h3.trans (by norm_num [F32])⟩

example := C76_f32 (.fin true 4) (by is_float 4 0) _ _ rfl (by norm_num [Flt.val])

/-- C76, double precision. -/
theorem C76_f64 (x : Flt F64) (hx : x.Valid) (s : Bool) (m : ℚ) (e : x = .fin s m) (hm : |(x.val : ℝ)| ≤ 4.712) :
    ∃ z : Flt F64, Returns (sin x) z ∧ z.Valid ∧ |(z.val : ℝ) - Real.sin x.val| ≤ 3.611 / 10 ^ 6 := by
  obtain ⟨z, h1, h2, -, h3⟩ := C76_accuracy wide_F64 (by decide) x hx s m e hm
  exact ⟨z, h1, h2, h3.trans (by norm_num [F64])⟩

example := C76_f64 (.fin true 4) (by is_float 4 0) _ _ rfl (by norm_num [Flt.val])

/-- C76: NaN gives NaN. -/
theorem C76_nan : Returns (sin (Flt.nan : Flt f)) .nan := by
  refine .of_eq ?_
  have : sinFold (Flt.nan : Flt f) = pure .nan := by
    show (if Flt.lt ((piF f).div (ofExact false ((2:ℤ):ℚ))) .nan then _ else pure (Flt.nan : Flt f) : Prog (Flt f)) = _
    rw [lt_nan]; rfl
  unfold sin; rw [this, pure_bind]; rfl

example : (Flt.fin true (5/2) : Flt F32).Valid ∧ |((Flt.fin true (5/2) : Flt F32).val : ℝ)| ≤ 4.712 :=
  ⟨⟨5, -1, by decide, by decide, by norm_num [pow2_eq], by norm_num⟩, by norm_num [Flt.val]⟩

/-- The cosine on floats, unfolded once (the kernel is slow to unfold it in one go). -/
theorem cos_flt (x : Flt f) : cos x = (do let t ← wrapPhase (x.add ((piF f).div (ofExact false ((2:ℤ):ℚ)))); sin t) := by
  have h1 : (MixedPi.pi : Prog (Flt f)) = pure (piF f) := rfl
  have h2 : (Lit.ofI32 2 : Prog (Flt f)) = pure (ofExact false ((2:ℤ):ℚ)) := rfl
  have h3 : ∀ a b : Flt f, (NumOps.div a b : Prog (Flt f)) = pure (a.div b) := fun _ _ => rfl
  have h4 : ∀ a b : Flt f, (NumOps.add a b : Prog (Flt f)) = pure (a.add b) := fun _ _ => rfl
  unfold cos
  rw [h1, pure_bind, h2, pure_bind, h3, pure_bind, h4, pure_bind]

/-! ## C77 -/

/-- C77: the cosine of a finite float of magnitude at most 100000. -/
theorem C77_accuracy (hf : f.Wide) (h60 : f.p ≤ 60) (x : Flt f) (hx : x.Valid) (s : Bool) (m : ℚ) (e : x = .fin s m)
    (hm : |(x.val : ℝ)| ≤ 100000) :
    ∃ z : Flt f, Returns (cos x) z ∧ z.Valid ∧ (∃ b q, z = .fin b q) ∧
      |(z.val : ℝ) - Real.cos x.val| ≤ 361 / 10 ^ 8 + (|(x.val : ℝ)| + 12) ^ 2 / 6 / 2 ^ f.p := by
  subst e
  have hi := is_of_valid hx
  set v := (Flt.fin s m : Flt f).val with hv
  have he := eta_pos (f := f); have hel := eta_le hf
  have g := Real.pi_gt_d4; have g' := Real.pi_lt_d4
  have h0 := abs_nonneg (v:ℝ)
  have hU : |(v:ℝ) + Real.pi / 2| ≤ |(v:ℝ)| + 1.5708 := by
    refine (abs_add_le _ _).trans ?_
    rw [abs_of_pos (by positivity : 0 < Real.pi / 2)]; norm_num at g' ⊢; linarith
  obtain ⟨w, hw, ew⟩ := hi.near.add hf (half_near hf h60) hU (M := |(v:ℝ)| + 1.571) (by norm_num; linarith)
    (by norm_num; linarith)
  have ew' : |(w:ℝ) - (v + Real.pi / 2)| ≤ (|(v:ℝ)| + 2.63) * eta f :=
    ew.trans (mul_le_mul_of_nonneg_right (by norm_num; linarith) he.le)
  have hle : (|(v:ℝ)| + 2.63) * eta f ≤ 0.01 := by
    have := mul_le_mul (by linarith : |(v:ℝ)| + 2.63 ≤ 100003) hel he.le (by norm_num)
    norm_num at this ⊢; linarith
  have hwb : |(w:ℝ)| ≤ |(v:ℝ)| + 1.59 := by
    have := abs_sub_abs_le_abs_sub (w:ℝ) (v + Real.pi / 2)
    norm_num at *; linarith
  obtain ⟨r, b, k, hr, hb, b1, b2, hk⟩ := wrap_acc hf h60 hw (by
    have := mul_le_mul (hwb.trans (by linarith : _ ≤ (100003:ℝ))) hel he.le (by norm_num)
    norm_num at this ⊢; linarith)
  have hpi := abs_le.mp (pi_near hf h60)
  have hbb : |(b:ℝ)| ≤ 4.712 := by
    have b1' : -((piV f : ℚ) : ℝ) ≤ b := by exact_mod_cast b1
    have b2' : (b:ℝ) < (piV f : ℚ) := by exact_mod_cast b2
    have hpi1 := hpi.1; have hpi2 := hpi.2
    rw [abs_le]; constructor <;> norm_num at g g' hel hpi1 hpi2 ⊢ <;> linarith
  obtain ⟨z, q, z1, z2, z3⟩ := sin_acc hf h60 hb hbb
  refine ⟨z, ?_, z2.valid, z2.fin, ?_⟩
  · rw [cos_flt]
    exact hr.bind (.of_eq z1)
  · have e1 : eta f = 1 / 2 ^ f.p := by unfold eta; rw [zpow_neg, zpow_natCast, one_div]
    rw [z2.val, div_eq_mul_one_div _ ((2:ℝ) ^ f.p), ← e1]
    have hcos : Real.cos v = Real.sin (v + Real.pi / 2 - 2 * Real.pi * k) := by
      rw [show (v:ℝ) + Real.pi / 2 - 2 * Real.pi * k = v + Real.pi / 2 - k * (2 * Real.pi) by ring,
        Real.sin_sub_int_mul_two_pi, Real.sin_add_pi_div_two]
    have h1 := Real.abs_sin_sub_sin_le (b:ℝ) (v + Real.pi / 2 - 2 * Real.pi * k)
    rw [← hcos] at h1
    have h2 : |(b:ℝ) - (v + Real.pi / 2 - 2 * Real.pi * k)| ≤
        ((|(v:ℝ)| + 5.59) ^ 2 / 6 + (|(v:ℝ)| + 2.63)) * eta f := by
      rw [show (b:ℝ) - (v + Real.pi / 2 - 2 * Real.pi * k) =
        (b - (w - 2 * Real.pi * k)) + (w - (v + Real.pi / 2)) by ring, add_mul]
      refine (abs_add_le _ _).trans (add_le_add (hk.trans ?_) ew')
      refine mul_le_mul_of_nonneg_right ?_ he.le
      have := pow_le_pow_left₀ (by positivity) (by linarith : |(w:ℝ)| + 4 ≤ |(v:ℝ)| + 5.59) 2
      linarith
    have h3 : |(q:ℝ) - Real.cos v| ≤ |(q:ℝ) - Real.sin b| + |Real.sin b - Real.cos v| := abs_sub_le _ _ _
    have h4 : ((|(v:ℝ)| + 5.59) ^ 2 / 6 + (|(v:ℝ)| + 2.63)) * eta f + 67 / 5 * eta f ≤
        (|(v:ℝ)| + 12) ^ 2 / 6 * eta f := by
      rw [← add_mul]; exact mul_le_mul_of_nonneg_right (by nlinarith) he.le
    linarith

example := C77_accuracy wide_F32 (by decide) (.fin true 1000) (by is_float 1000 0) _ _ rfl (by norm_num [Flt.val])

/-- C77, single precision, half a turn either way. -/
theorem C77_f32 (x : Flt F32) (hx : x.Valid) (s : Bool) (m : ℚ) (e : x = .fin s m) (hm : |(x.val : ℝ)| ≤ 3.15) :
    ∃ z : Flt F32, Returns (cos x) z ∧ z.Valid ∧ |(z.val : ℝ) - Real.cos x.val| ≤ 5.9 / 10 ^ 6 := by
  obtain ⟨z, h1, h2, -, h3⟩ := C77_accuracy wide_F32 (by decide) x hx s m e (by norm_num at hm ⊢; linarith)
  refine ⟨z, h1, h2, h3.trans ?_⟩
  have := pow_le_pow_left₀ (by positivity) (by linarith : |(x.val:ℝ)| + 12 ≤ 15.15) 2
  norm_num [F32] at this ⊢; linarith

example := C77_f32 (.fin true 3) (by is_float 3 0) _ _ rfl (by norm_num [Flt.val])

/-- C77, double precision: the truncation of the series dominates far beyond one turn. -/
theorem C77_f64 (x : Flt F64) (hx : x.Valid) (s : Bool) (m : ℚ) (e : x = .fin s m) (hm : |(x.val : ℝ)| ≤ 1000) :
    ∃ z : Flt F64, Returns (cos x) z ∧ z.Valid ∧ |(z.val : ℝ) - Real.cos x.val| ≤ 3.62 / 10 ^ 6 := by
  obtain ⟨z, h1, h2, -, h3⟩ := C77_accuracy wide_F64 (by decide) x hx s m e (by linarith)
  refine ⟨z, h1, h2, h3.trans ?_⟩
  have := pow_le_pow_left₀ (by positivity) (by linarith : |(x.val:ℝ)| + 12 ≤ 1012) 2
  norm_num [F64] at this ⊢; linarith

example : (Flt.fin true 37 : Flt F32).Valid ∧ |((Flt.fin true 37 : Flt F32).val : ℝ)| ≤ 100000 :=
  ⟨⟨37, 0, by decide, by decide, by norm_num [pow2_eq], by norm_num⟩, by norm_num [Flt.val]⟩

/-! ## C78 -/

/-- The argument after the shift by a quarter turn. -/
theorem shifted (hf : f.Wide) (s : Bool) (m : ℚ) (hx : (Flt.fin s m : Flt f).Valid) :
    Is ((Flt.fin s m : Flt f).add ((piF f).div (ofExact false ((2:ℤ):ℚ))))
        (rnd f.p f.emin ((Flt.fin s m : Flt f).val + piV f / 2)) ∨
      (limit f < |(Flt.fin s m : Flt f).val| ∧
        (Flt.fin s m : Flt f).add ((piF f).div (ofExact false ((2:ℤ):ℚ))) = .inf s) := by
  have hh := half_is hf
  have hpb := piV_bounds hf.ok
  have hi := is_of_valid hx
  have hl := limit_ge hf.ok
  have hm0 : 0 ≤ m := by obtain ⟨_, _, he, h0, _⟩ := hi; cases he; exact h0
  obtain ⟨b, q, hq, -, hqv, -⟩ := hh
  rw [hq] at hqv ⊢
  have hadd : (Flt.fin s m : Flt f).add (.fin b q) =
    ofExact (s && b) (Flt.val (.fin s m : Flt f) + Flt.val (.fin b q : Flt f)) := rfl
  rw [hadd, hqv]
  rcases ofExact_cases hf.one_le (s && b) (Flt.val (.fin s m : Flt f) + piV f / 2) with h | ⟨h0, h⟩
  · exact .inl h
  · have hlim : limit f < |Flt.val (.fin s m : Flt f)| := by
      by_contra hc
      have hc := abs_le.mp (not_lt.mp hc)
      have h1 := (rnd_limit hf.ok hi.rep (d := piV f / 2) (by linarith) (by linarith)).1 hc.2
      have h2 : -limit f ≤ rnd f.p f.emin (Flt.val (.fin s m : Flt f) + piV f / 2) :=
        rep_le_rnd hf.one_le (by linarith) (rep_limit hf.ok).neg
      have h3 := h0.trans (abs_le.mpr ⟨h2, h1⟩)
      unfold limit at h3
      have h4 : (2:ℚ) ^ ((f.emax : ℕ) : ℤ) ≤ 2 ^ ((f.p:ℤ) + 3) := by rw [zpow_natCast]; exact h3
      have h5 : (2:ℚ) ^ ((f.p:ℤ) + 3) < 2 ^ ((f.emax : ℕ) : ℤ) := two_zpow_lt (by have := hf.emax; omega)
      linarith
    refine .inr ⟨hlim, ?_⟩
    rw [h]
    congr 1
    cases s
    · have e : Flt.val (.fin false m : Flt f) = m := rfl
      rw [e]; exact decide_eq_false (by linarith)
    · have e : Flt.val (.fin true m : Flt f) = -m := rfl
      rw [e, abs_neg, abs_of_nonneg hm0] at hlim
      rw [e]; exact decide_eq_true (by linarith)

theorem val_abs {s : Bool} {m : ℚ} (hm : 0 ≤ m) : |(Flt.fin s m : Flt f).val| = m := by
  cases s
  · show |m| = m; exact abs_of_nonneg hm
  · show |-m| = m; rw [abs_neg, abs_of_nonneg hm]

theorem limit_eq : limit f = 2 ^ (f.p + 3) := by unfold limit; rw [← zpow_natCast]; congr 1

/-- C78 is false: on infinities and on every float of magnitude above `2^(p+3)` the cosine never returns. -/
theorem C78_diverges (hf : f.Wide) (x : Flt f) (hx : x.Valid) (hbig : ∀ s m, x = .fin s m → 2 ^ (f.p + 3) < m)
    (hn : x ≠ .nan) : Diverges (cos x) := by
  rw [cos_flt]
  refine Diverges.bind ?_
  have hpb := piV_bounds hf.ok
  cases x with
  | nan => exact absurd rfl hn
  | inf s =>
    obtain ⟨b, q, hq⟩ := (half_is hf).fin
    rw [hq]
    exact C34_diverges hf.ok (.inf s) trivial (by simp) (by simp)
  | fin s m =>
    rcases shifted hf s m hx with h | ⟨-, h⟩
    · have hi := is_of_valid hx
      have hm := hbig s m rfl
      rw [← limit_eq] at hm
      refine C34_diverges hf.ok _ h.valid ?_ (by obtain ⟨_, _, h, -⟩ := h; rw [h]; simp)
      intro t n hn
      have hv := h.val
      have hn0 : 0 ≤ n := by
        obtain ⟨_, _, h5, h6, -⟩ := h
        rw [hn] at h5; cases h5; exact h6
      rw [hn] at hv
      rw [← limit_eq, ← val_abs (f := f) (s := t) hn0, hv]
      cases s
      · have : m ≤ rnd f.p f.emin (Flt.val (.fin false m : Flt f) + piV f / 2) :=
          rep_le_rnd hf.one_le (show m ≤ m + piV f / 2 by linarith) hi.rep
        exact lt_of_lt_of_le (by linarith) (le_abs_self _)
      · have := (rnd_limit hf.ok hi.rep (d := piV f / 2) (by linarith) (by linarith)).2 (show -m < _ by linarith)
        exact lt_of_lt_of_le (by linarith) (neg_le_abs _)
    · rw [h]; exact C34_diverges hf.ok (.inf _) trivial (by simp) (by simp)

example : Diverges (cos (Flt.fin false (2 ^ 28) : Flt F32)) := C78_diverges wide_F32 _ ⟨1, 28, by decide, by decide, by norm_num [pow2_eq], by norm_num⟩ (by rintro s m h; cases h; norm_num [F32]) (by simp)

/-- C78, the part that holds: NaN gives NaN, and from every magnitude up to `2^(p+3)` the cosine returns a finite
float. Missing for the full statement: larger magnitudes and infinities, where it is false. -/
theorem C78_partial (hf : f.Wide) (h60 : f.p ≤ 60) (x : Flt f) (hx : x.Valid)
    (h : x = .nan ∨ ∃ s m, x = .fin s m ∧ m ≤ 2 ^ (f.p + 3)) : ∃ z : Flt f, Returns (cos x) z ∧ z.Valid := by
  rcases h with rfl | ⟨s, m, rfl, hm⟩
  · refine ⟨.nan, ?_, trivial⟩
    rw [cos_flt, show (Flt.nan : Flt f).add ((piF f).div (ofExact false ((2:ℤ):ℚ))) = .nan by rw [Flt.add]]
    exact C34_nan.bind C76_nan
  · have hi := is_of_valid hx
    have hpb := piV_bounds hf.ok
    have hm0 : 0 ≤ m := by obtain ⟨_, _, he, h0, _⟩ := hi; cases he; exact h0
    rw [← limit_eq, ← val_abs (f := f) (s := s) hm0] at hm
    rcases shifted hf s m hx with h | ⟨h, -⟩
    · have h1 := (rnd_limit hf.ok hi.rep (d := piV f / 2) (by linarith) (by linarith)).1 (abs_le.mp hm).2
      have h2 : -limit f ≤ rnd f.p f.emin (Flt.val (.fin s m : Flt f) + piV f / 2) :=
        rep_le_rnd hf.one_le (by have := (abs_le.mp hm).1; linarith) (rep_limit hf.ok).neg
      obtain ⟨t, a, ht, hta, a1, a2⟩ := loop_up hf.ok h h2 h1
      obtain ⟨r, b, hr, hrb, b1, b2⟩ := loop_down hf.ok hta a1 a2
      have hb : |(b:ℝ)| ≤ 4.712 := by
        have : |b| ≤ 7 / 2 := abs_le.mpr ⟨by linarith, by linarith⟩
        have := cast_abs_le (q := b) this
        norm_num at this ⊢; linarith
      obtain ⟨z, q, z1, z2, -⟩ := sin_acc hf h60 hrb hb
      refine ⟨z, ?_, z2.valid⟩
      rw [cos_flt, wrapPhase_eq]
      exact (ht.bind hr).bind (.of_eq z1)
    · linarith

example : ∃ z : Flt F64, Returns (cos (Flt.fin true 3 : Flt F64)) z ∧ z.Valid := C78_partial wide_F64 (by norm_num [F64]) _ ⟨3, 0, by decide, by decide, by norm_num [pow2_eq], by decide +kernel⟩ (.inr ⟨_, _, rfl, by norm_num [F64]⟩)

/-- C78: the exact set of `f32` inputs on which the cosine does not terminate. -/
theorem C78_f32 (x : Flt F32) (hx : x.Valid) :
    Diverges (cos x) ↔ (∃ s, x = .inf s) ∨ ∃ s m, x = .fin s m ∧ 2 ^ 27 < m := by
  constructor
  · intro hd
    cases x with
    | nan => obtain ⟨z, hz, -⟩ := C78_partial wide_F32 (by decide) _ hx (.inl rfl); exact absurd hd hz.not_diverges
    | inf s => exact .inl ⟨s, rfl⟩
    | fin s m =>
      refine .inr ⟨s, m, rfl, ?_⟩
      by_contra hc
      obtain ⟨z, hz, -⟩ := C78_partial wide_F32 (by decide) _ hx (.inr ⟨s, m, rfl, by simpa using hc⟩)
      exact hz.not_diverges hd
  · rintro (⟨s, rfl⟩ | ⟨s, m, rfl, hm⟩)
    · exact C78_diverges wide_F32 _ hx (by simp) (by simp)
    · exact C78_diverges wide_F32 _ hx (by rintro _ _ ⟨⟩; exact hm) (by simp)

example : Diverges (cos (Flt.fin false (2 ^ 28) : Flt F32)) := (C78_f32 (.fin false (2 ^ 28)) ⟨1, 28, by decide, by decide, by norm_num [pow2_eq], by norm_num⟩).mpr (.inr ⟨_, _, rfl, by norm_num⟩)

/-- C78: the exact set of `f64` inputs on which the cosine does not terminate. -/
theorem C78_f64 (x : Flt F64) (hx : x.Valid) :
    Diverges (cos x) ↔ (∃ s, x = .inf s) ∨ ∃ s m, x = .fin s m ∧ 2 ^ 56 < m := by
  constructor
  · intro hd
    cases x with
    | nan => obtain ⟨z, hz, -⟩ := C78_partial wide_F64 (by decide) _ hx (.inl rfl); exact absurd hd hz.not_diverges
    | inf s => exact .inl ⟨s, rfl⟩
    | fin s m =>
      refine .inr ⟨s, m, rfl, ?_⟩
      by_contra hc
      obtain ⟨z, hz, -⟩ := C78_partial wide_F64 (by decide) _ hx (.inr ⟨s, m, rfl, by simpa using hc⟩)
      exact hz.not_diverges hd
  · rintro (⟨s, rfl⟩ | ⟨s, m, rfl, hm⟩)
    · exact C78_diverges wide_F64 _ hx (by simp) (by simp)
    · exact C78_diverges wide_F64 _ hx (by rintro _ _ ⟨⟩; exact hm) (by simp)

example : ¬ Diverges (cos (Flt.fin true 3 : Flt F64)) := fun h => by
  rcases (C78_f64 (.fin true 3) ⟨3, 0, by decide, by decide, by norm_num [pow2_eq], by decide +kernel⟩).mp h with ⟨s, h⟩ | ⟨s, m, h, h'⟩
  · cases h
  · cases h; norm_num at h'

/-- C78: a finite witness, `1e9f32`. -/
theorem C78_counterexample : (Flt.fin false 1000000000 : Flt F32).Valid ∧
    Diverges (cos (Flt.fin false 1000000000 : Flt F32)) := by
  have hv : (Flt.fin false 1000000000 : Flt F32).Valid :=
    ⟨15625000, 6, by decide, by decide, by norm_num [pow2_eq], by norm_num⟩
  exact ⟨hv, (C78_f32 _ hv).mpr (.inr ⟨_, _, rfl, by norm_num⟩)⟩

end MixedNum
