import Verif.Props.MagFloat
import Verif.Props.TrigFloat
import Verif.Props.WrapFloat
import Verif.Props.AddSub
import Verif.Lemmas.Run
import Verif.Lemmas.Case
/-! # C86, C87: polar to Cartesian on floats -/

namespace MixedNum
variable {f : Format}
open Flt

/-! ## C86 -/

/-- C86: each part is the magnitude times the cosine/sine of the angle up to the errors of the phase wrapping, the external
`sincos` and one rounding. -/
theorem C86_accuracy [MixedSinCos (Flt f)] {ε : ℝ} (hf : f.Wide) (h60 : f.p ≤ 60) (hs : SinCosWithin f ε) (hε' : ε ≤ 1)
    (q : Polar (Flt f)) (h1 : q.mag.IsFinite) (h2 : q.ang.IsFinite) (v1 : q.mag.Valid) (v2 : q.ang.Valid)
    (ha : |(q.ang.val : ℝ)| ≤ 2 ^ f.p / 10) (hm : 4 * |q.mag.val| ≤ 2 ^ f.emax) :
    ∃ c : Cartesian (Flt f), Returns (ops.toCartesian q) c ∧ (c.re.Valid ∧ c.re.IsFinite) ∧ (c.im.Valid ∧ c.im.IsFinite) ∧
      |(c.re.val : ℝ) - q.mag.val * Real.cos q.ang.val| ≤
        |(q.mag.val : ℝ)| * (ε + ((|(q.ang.val : ℝ)| + 4) ^ 2 / 6 + 2) / 2 ^ f.p) + 2 ^ f.emin ∧
      |(c.im.val : ℝ) - q.mag.val * Real.sin q.ang.val| ≤
        |(q.mag.val : ℝ)| * (ε + ((|(q.ang.val : ℝ)| + 4) ^ 2 / 6 + 2) / 2 ^ f.p) + 2 ^ f.emin := by
  have hp := hf.p; have hmin := hf.emin; have hmax := hf.emax
  obtain ⟨M, x⟩ := q
  obtain ⟨b1, m1, rfl⟩ := h1; obtain ⟨b2, m2, rfl⟩ := h2
  have iM := is_of_valid v1; have ix := is_of_valid v2
  change Is (Flt.fin b1 m1 : Flt f) _ at iM
  change Is (Flt.fin b2 m2 : Flt f) _ at ix
  change |((Flt.fin b2 m2 : Flt f).val : ℝ)| ≤ _ at ha
  change 4 * |(Flt.fin b1 m1 : Flt f).val| ≤ _ at hm
  have e1 : eta f = 1 / 2 ^ f.p := by unfold eta; rw [zpow_neg, zpow_natCast, one_div]
  obtain ⟨r, b, k, hr, hb, l1, l2, hw⟩ := wrap_acc hf h60 ix (by
    rw [e1, ← mul_div_assoc, mul_one, div_le_iff₀ (by positivity)]; linarith)
  have hpi := abs_le.mp (pi_near hf h60)
  have hel := eta_le hf
  have g' := Real.pi_lt_d4
  have hpv : ((piV f : ℚ) : ℝ) ≤ 4 := by norm_num at *; linarith
  have hb4 : |(b:ℝ)| ≤ 4 := by
    have q1 : -((piV f : ℚ) : ℝ) ≤ b := by exact_mod_cast l1
    have q2 : (b:ℝ) < ((piV f : ℚ) : ℝ) := by exact_mod_cast l2
    rw [abs_le]; constructor <;> linarith
  obtain ⟨s, c, s1, ⟨s2, s3⟩, ⟨c2, c3⟩, s4, c4⟩ := hs r hb.valid hb.fin (by rw [hb.val]; exact hb4)
  rw [hb.val] at s4 c4
  show ∃ c : Cartesian (Flt f), _ ∧ _ ∧ _ ∧
    |(c.re.val : ℝ) - (Flt.fin b1 m1 : Flt f).val * Real.cos (Flt.fin b2 m2 : Flt f).val| ≤
      |((Flt.fin b1 m1 : Flt f).val : ℝ)| * (ε + ((|((Flt.fin b2 m2 : Flt f).val : ℝ)| + 4) ^ 2 / 6 + 2) / 2 ^ f.p) + 2 ^ f.emin ∧
    |(c.im.val : ℝ) - (Flt.fin b1 m1 : Flt f).val * Real.sin (Flt.fin b2 m2 : Flt f).val| ≤
      |((Flt.fin b1 m1 : Flt f).val : ℝ)| * (ε + ((|((Flt.fin b2 m2 : Flt f).val : ℝ)| + 4) ^ 2 / 6 + 2) / 2 ^ f.p) + 2 ^ f.emin
  generalize hMv : (Flt.fin b1 m1 : Flt f).val = A at *
  generalize hxv : (Flt.fin b2 m2 : Flt f).val = X at *
  generalize hMf : (Flt.fin b1 m1 : Flt f) = M at *
  generalize hxf : (Flt.fin b2 m2 : Flt f) = x at *
  set E := (|(X:ℝ)| + 4) ^ 2 / 6 with hE
  have hη := two_zpow_pos f.emin
  -- one product
  have key : ∀ (t : Flt f) (T : ℝ), t.Valid → t.IsFinite → |T| ≤ 1 → |(t.val:ℝ) - T| ≤ ε + E * eta f →
      |(t.val:ℝ)| ≤ 2 →
      ∃ p, Is (M.mul t) p ∧ |(p:ℝ) - A * T| ≤ |(A:ℝ)| * (ε + (E + 2) / 2 ^ f.p) + 2 ^ f.emin := by
    intro t T v w hT ht h2
    have it : Is t t.val := by obtain ⟨_, _, rfl⟩ := w; exact is_of_valid v
    generalize t.val = τ at it ht h2
    have h2' : |τ| ≤ 2 := by exact_mod_cast h2
    have hAt : |A * τ| ≤ 2 * |A| := by rw [abs_mul]; nlinarith [abs_nonneg A]
    have hr : |rnd f.p f.emin (A * τ) - A * τ| ≤ |A * τ| * uq f + 2 ^ f.emin / 2 := abs_rnd_le _
    have hu := uq_pos (f := f); have hu' := uq_le hf
    have hη' : (2:ℚ) ^ f.emin ≤ 1 := zpow_le_one_of_nonpos₀ (by norm_num) (by omega)
    have hbig : (1024:ℚ) ≤ 2 ^ f.emax := by
      calc (1024:ℚ) = 2 ^ 10 := by norm_num
        _ ≤ _ := pow_le_pow_right₀ (by norm_num) (by omega)
    have h3 : |A * τ| * uq f ≤ 2 * |A| * uq f := mul_le_mul_of_nonneg_right hAt hu.le
    have h4 : |A| * uq f ≤ |A| * (1 / 10 ^ 7) := mul_le_mul_of_nonneg_left hu' (abs_nonneg _)
    have h5 := abs_sub_abs_le_abs_sub (rnd f.p f.emin (A * τ)) (A * τ)
    refine ⟨_, iM.mul hf.one_le it (by linarith), ?_⟩
    have hr' : |((rnd f.p f.emin (A * τ) : ℚ) : ℝ) - A * τ| ≤ 2 * |(A:ℝ)| * (uq f : ℝ) + 2 ^ f.emin := by
      have : |rnd f.p f.emin (A * τ) - A * τ| ≤ 2 * |A| * uq f + 2 ^ f.emin := by linarith
      have h8 : ((|rnd f.p f.emin (A * τ) - A * τ| : ℚ) : ℝ) ≤ ((2 * |A| * uq f + 2 ^ f.emin : ℚ) : ℝ) := by exact_mod_cast this
      push_cast at h8; exact h8
    have h6 : |(A:ℝ) * τ - A * T| ≤ |(A:ℝ)| * (ε + E * eta f) := by
      rw [← mul_sub, abs_mul]; exact mul_le_mul_of_nonneg_left ht (abs_nonneg _)
    have h7 := abs_sub_le ((rnd f.p f.emin (A * τ) : ℚ) : ℝ) (A * τ) (A * T)
    have e : |(A:ℝ)| * (ε + (E + 2) / 2 ^ f.p) = |(A:ℝ)| * (ε + E * eta f) + 2 * |(A:ℝ)| * (uq f : ℝ) := by
      rw [uq_real, e1]; ring
    rw [e]; linarith
  have cs : |Real.cos b - Real.cos X| ≤ E * eta f := by
    have : Real.cos X = Real.cos (X - 2 * Real.pi * k) := by
      rw [show (X:ℝ) - 2 * Real.pi * k = X - k * (2 * Real.pi) by ring, Real.cos_sub_int_mul_two_pi]
    rw [this]; exact (Real.abs_cos_sub_cos_le _ _).trans hw
  have sn : |Real.sin b - Real.sin X| ≤ E * eta f := by
    have : Real.sin X = Real.sin (X - 2 * Real.pi * k) := by
      rw [show (X:ℝ) - 2 * Real.pi * k = X - k * (2 * Real.pi) by ring, Real.sin_sub_int_mul_two_pi]
    rw [this]; exact (Real.abs_sin_sub_sin_le _ _).trans hw
  have two : ∀ t T : ℝ, |T| ≤ 1 → |t - T| ≤ ε → |t| ≤ 2 := by
    intro t T h1 h2
    have := abs_sub_abs_le_abs_sub t T; linarith
  obtain ⟨pr, r1, r2⟩ := key c (Real.cos X) c2 c3 (Real.abs_cos_le_one _)
    ((abs_sub_le _ (Real.cos b) _).trans (add_le_add c4 cs)) (two _ _ (Real.abs_cos_le_one _) c4)
  obtain ⟨pi, i1, i2⟩ := key s (Real.sin X) s2 s3 (Real.abs_sin_le_one _)
    ((abs_sub_le _ (Real.sin b) _).trans (add_le_add s4 sn)) (two _ _ (Real.abs_sin_le_one _) s4)
  refine ⟨⟨M.mul c, M.mul s⟩, hr.bind (s1.bind (.of_eq rfl)), ⟨r1.valid, r1.fin⟩, ⟨i1.valid, i1.fin⟩, ?_, ?_⟩
  · rw [r1.val]; exact r2
  · rw [i1.val]; exact i2

/-- On `f32` the hypotheses hold of magnitude 3 and angle -10, given a `sincos` good to `2^-22`. -/
example [MixedSinCos (Flt F32)] (hs : SinCosWithin F32 (1 / 2 ^ 22)) := C86_accuracy wide_F32 (by decide) hs (by norm_num)
  ⟨.fin false 3, .fin true 10⟩ ⟨_, _, rfl⟩ ⟨_, _, rfl⟩ (by is_float 3 0) (by is_float 10 0) (by norm_num [Flt.val, F32]) (by norm_num [Flt.val, F32])

/-- The crate's own sine and cosine meet the hypothesis of C86. -/
theorem sinCosWithin_poly (hf : f.Wide) (h60 : f.p ≤ 60) :
    @SinCosWithin f ⟨fun x => do let s ← sin x; let c ← cos x; pure (s, c)⟩ (1 / 10 ^ 5) := by
  rintro x hx ⟨b, m, e⟩ h4
  obtain ⟨s, s1, s2, s3, s4⟩ := C76_accuracy hf h60 x hx b m e (by norm_num at h4 ⊢; linarith)
  obtain ⟨c, c1, c2, c3, c4⟩ := C77_accuracy hf h60 x hx b m e (by linarith)
  have hu : (1:ℝ) / 2 ^ f.p ≤ 1 / 2 ^ 24 :=
    one_div_le_one_div_of_le (by norm_num) (pow_le_pow_right₀ (by norm_num) hf.p)
  have hu0 : (0:ℝ) < 1 / 2 ^ f.p := by positivity
  rw [div_eq_mul_one_div _ ((2:ℝ) ^ f.p)] at s4 c4
  have hq : (|(x.val:ℝ)| + 12) ^ 2 / 6 ≤ 256 / 6 := by
    have := pow_le_pow_left₀ (by positivity) (by linarith : |(x.val:ℝ)| + 12 ≤ 16) 2
    linarith
  have hq' := mul_le_mul hq hu hu0.le (by norm_num)
  refine ⟨s, c, s1.bind (c1.bind (.of_eq rfl)), ⟨s2, s3⟩, ⟨c2, c3⟩, s4.trans ?_, c4.trans ?_⟩
  · norm_num at hu ⊢; linarith
  · norm_num at hq' ⊢; linarith

example : ∃ q : Polar (Flt F32), q.mag.IsFinite ∧ q.ang.IsFinite ∧ q.mag.Valid ∧ q.ang.Valid ∧
    |(q.ang.val : ℝ)| ≤ 2 ^ F32.p / 10 ∧ 4 * |q.mag.val| ≤ 2 ^ F32.emax :=
  ⟨⟨.fin false 3, .fin true 10⟩, ⟨_, _, rfl⟩, ⟨_, _, rfl⟩, ⟨3, 0, by decide, by decide, by norm_num [pow2_eq], by norm_num⟩,
    ⟨10, 0, by decide, by decide, by norm_num [pow2_eq], by norm_num⟩, by norm_num [Flt.val, F32], by norm_num [Flt.val, F32]⟩

/-! ## C87 -/

/-- C87 is false of the code: the conversion never returns for an infinite angle or one beyond `2^(p+3)`, whatever `sincos` does. -/
theorem C87_diverges [MixedSinCos (Flt f)] (hf : f.Wide) (q : Polar (Flt f)) (hx : q.ang.Valid)
    (hbig : ∀ s m, q.ang = .fin s m → 2 ^ (f.p + 3) < m) (hn : q.ang ≠ .nan) : Diverges (ops.toCartesian q) :=
  (C34_diverges hf.ok q.ang hx hbig hn).bind

example [MixedSinCos (Flt F32)] := C87_diverges wide_F32 ⟨.fin false 3, .fin true (2 ^ 28)⟩ (by is_float 1 28)
  (fun s m h => by cases h; norm_num [F32]) (by decide)

/-- C87, the concrete case `1 ∠ 10^9` in single precision; its product with a Cartesian number does not return either. -/
theorem C87_counterexample [MixedSinCos (Flt F32)] (z : Cartesian (Flt F32)) :
    Diverges (ops.toCartesian ⟨(.fin false 1 : Flt F32), .fin false 1000000000⟩) ∧
    Diverges (z.mulPolar ⟨.fin false 1, .fin false 1000000000⟩) := by
  have h : Diverges (ops.toCartesian ⟨(.fin false 1 : Flt F32), .fin false 1000000000⟩) := C34_counterexample.2.bind
  exact ⟨h, h.bind⟩

/-- C87, the part that holds: every finite angle up to `2^(p+3)`. What is missing: larger and infinite angles. -/
theorem C87_partial [MixedSinCos (Flt f)] {ε : ℝ} (hf : f.Wide) (hs : SinCosWithin f ε)
    (q : Polar (Flt f)) (v2 : q.ang.Valid) (s : Bool) (m : ℚ) (e : q.ang = .fin s m)
    (hm : m ≤ 2 ^ (f.p + 3)) : ∃ c : Cartesian (Flt f), Returns (ops.toCartesian q) c := by
  obtain ⟨r, p, h1, h2, h3, h4, h5⟩ := C34_terminates_partial hf.ok q.ang v2 s m e hm
  have hp := is_pi hf.ok
  have hpb := piV_bounds hf.ok
  obtain rfl : piF f = p := Prog.pure_inj h2
  have hr : r.IsFinite := by
    obtain ⟨_, _, hpf, -⟩ := hp
    cases r with
    | nan => rw [hpf] at h5; exact absurd h5 Bool.false_ne_true
    | inf b =>
      rw [hpf] at h4 h5
      cases b
      · exact absurd h5 Bool.false_ne_true
      · exact absurd h4 Bool.false_ne_true
    | fin b n => exact ⟨_, _, rfl⟩
  obtain ⟨b, n, rfl⟩ := hr
  have ir := is_of_valid h3
  rw [hp.neg.le ir] at h4
  have h5' : (Flt.fin b n : Flt f).lt (piF f) = true := h5
  rw [ir.lt hp] at h5'
  have h4 := of_decide_eq_true h4; have h5' := of_decide_eq_true h5'
  have h6 : |(Flt.fin b n : Flt f).val| ≤ 4 := by rw [abs_le]; constructor <;> linarith
  obtain ⟨s, c, s1, -⟩ := hs _ h3 ⟨_, _, rfl⟩ (by exact_mod_cast h6)
  exact ⟨_, h1.bind (s1.bind (.of_eq rfl))⟩

example [MixedSinCos (Flt F32)] (h : SinCosWithin F32 (2 / 2 ^ 24)) := C87_partial wide_F32 h ⟨.fin false 3, .fin true 1000⟩ (by is_float 1000 0) _ _ rfl
  (by norm_num [F32])

end MixedNum
