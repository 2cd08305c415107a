import Verif.Props.SinRelease
import Verif.Props.TrigFloat
import Verif.Props.SqrtFloat
import Verif.Props.SqrtFixed
import Verif.Props.Monotone
import Verif.Spec.Float
import Verif.Props.AddSub
import Verif.Lemmas.Run
import Verif.Lemmas.Case
/-! # C38, C119 and C120 on the machine types: what does hold -/

namespace MixedNum
variable {m : Mode} {s : Bool} {W F : ℕ} {f : Format}

/-- C38 without overflow checks, accuracy of the cosine: with 16 to 19 integer bits it is within 0.0024 plus 9 units in the last place
from -π to π of the type. -/
theorem C38_release_accuracy_cos (h : F + 16 ≤ W) (h' : W ≤ F + 19) (hF : 5 ≤ F) (x p : Fixed .wrapping true W F)
    (hp : (MixedPi.pi : Prog (Fixed .wrapping true W F)) = pure p)
    (hx : |x.val| ≤ p.val) :
    ∃ z : Fixed .wrapping true W F, Returns (cos x) z ∧
      |(z.val : ℝ) / 2 ^ F - Real.cos (x.val / 2 ^ F)| ≤ 24 / 10000 + 9 / 2 ^ F := by
  have hpv : p.val = Fixed.piRaw F := by
    rw [Fixed.pi_def (by omega)] at hp; rw [← Prog.pure_inj hp]; rfl
  rw [hpv] at hx
  have hb := Fixed.halfRaw_bounds F; have hb' := Fixed.piRaw_bounds F
  have h2F : (0:ℤ) < 2 ^ F := by positivity
  have hx' := abs_le.mp hx
  have hu := Fixed.u_pos F; have hpu := Fixed.pow_mul_u F
  -- the shifted argument
  have hfit : Fits true W (x.val + Fixed.halfRaw F) := Fixed.fits_small (F := F) (by omega) (by omega) (by omega)
  set q : Fixed .wrapping true W F := Fixed.mkv (x.val + Fixed.halfRaw F) hfit with hq
  set E := Fixed.wrapExact (m := .wrapping) (F := F) (W := W) (by omega) (fun _ => by omega) with hE
  obtain ⟨w, hw, w1, w2, k, hk⟩ := E.spec q
  have hw1 : -((Fixed.piRaw F : ℤ) : ℝ) ≤ w.val := by simpa [hE, Fixed.wrapExact] using w1
  have hw2 : (w.val : ℝ) < (Fixed.piRaw F : ℤ) := by simpa [hE, Fixed.wrapExact] using w2
  have hk' : (w.val : ℝ) = ((x.val + Fixed.halfRaw F : ℤ) : ℝ) + k * (2 * (Fixed.piRaw F : ℤ)) := by
    simpa [hE, Fixed.wrapExact, hq] using hk
  have hw1' : -Fixed.piRaw F ≤ w.val := by exact_mod_cast hw1
  have hw2' : w.val < Fixed.piRaw F := by exact_mod_cast hw2
  have hkZ : w.val = x.val + Fixed.halfRaw F + k * (2 * Fixed.piRaw F) := by exact_mod_cast hk'
  have hk1 : k = 0 ∨ k = -1 := by
    have hpos : 0 < 2 * Fixed.piRaw F := by omega
    have a : k < 1 := by
      by_contra hc
      have : 1 * (2 * Fixed.piRaw F) ≤ k * (2 * Fixed.piRaw F) := mul_le_mul_of_nonneg_right (by omega) hpos.le
      omega
    have b : -2 < k := by
      by_contra hc
      have : k * (2 * Fixed.piRaw F) ≤ -2 * (2 * Fixed.piRaw F) := mul_le_mul_of_nonneg_right (by omega) hpos.le
      omega
    omega
  obtain ⟨z, hz, e⟩ := C38_release_accuracy h h' hF w _ (Fixed.pi_def (by omega))
    (show |w.val| ≤ Fixed.piRaw F + 1 from abs_le.mpr ⟨by omega, by omega⟩)
  refine ⟨z, ?_, ?_⟩
  · unfold cos
    have assoc : ∀ (g : Fixed .wrapping true W F → Prog (Fixed .wrapping true W F)),
        (do let p ← MixedPi.pi; let two ← Lit.ofI32 2; let ph ← NumOps.div p two; g ph) =
        (do let ph ← (do let p ← MixedPi.pi; let two ← Lit.ofI32 2; NumOps.div p two); g ph) := by
      intro g; simp only [bind_assoc]
    rw [assoc, Fixed.half_eq (by omega), pure_bind, Fixed.add_def, Fixed.mkv_val, Fixed.fit_of_fits hfit, pure_bind]
    exact hw.bind hz
  · have e : |z.r - Real.sin w.r| ≤ 23 / 10000 + 7 * Fixed.u F := by
      rw [show (7:ℝ) / 2 ^ F = 7 * Fixed.u F by unfold Fixed.u; ring] at e; exact e
    have hpc := abs_le.mp (Fixed.pi_close F)
    have hhc := abs_le.mp (Fixed.half_close F)
    have hwr : w.r = x.r + Fixed.halfRaw F * Fixed.u F + k * (2 * Fixed.piRaw F) * Fixed.u F := by
      rw [Fixed.r_eq, Fixed.r_eq, hkZ]; push_cast; ring
    have hcos : Real.cos x.r = Real.sin (x.r + Real.pi / 2 + k * (2 * Real.pi)) := by
      rw [Real.sin_add_int_mul_two_pi, Real.sin_add_pi_div_two]
    have hsc : |Real.sin w.r - Real.cos x.r| ≤ 7 / 4 * Fixed.u F + 3 / 2 ^ 52 := by
      rw [hcos]
      refine (Real.abs_sin_sub_sin_le _ _).trans ?_
      rw [hwr, abs_le]
      rcases hk1 with rfl | rfl <;> push_cast <;> norm_num at hpc hhc ⊢ <;> constructor <;> linarith
    have hfin : |z.r - Real.cos x.r| ≤ 24 / 10000 + 9 * Fixed.u F := by
      calc |z.r - Real.cos x.r| = |(z.r - Real.sin w.r) + (Real.sin w.r - Real.cos x.r)| := by congr 1; ring
        _ ≤ _ := abs_add_le _ _
        _ ≤ _ := by norm_num at e hsc ⊢; linarith
    rw [show (9:ℝ) / 2 ^ F = 9 * Fixed.u F by unfold Fixed.u; ring]
    exact hfin

example : (16 + 16 ≤ 32) ∧ 32 ≤ 16 + 19 ∧ |(fx .wrapping true 32 16 (-150000)).val| ≤ Fixed.piRaw 16 := by
  unfold Fixed.piRaw; rw [Fixed.piLit_eq]; decide +kernel

/-! ## C119 -/

/-- **C119**, what does hold on floats: sine and cosine exceed one by less than 4.41e-6 and 5.9e-6 on `f32`, and by less than 3.62e-6 on
`f64`. Missing compared to C119: no excess at all. -/
theorem C119_float_partial :
    (∀ (x : Flt F32) (b : Bool) (n : ℚ), x.Valid → x = .fin b n → |(x.val : ℝ)| ≤ 3.15 →
      ∃ y z : Flt F32, Returns (sin x) y ∧ Returns (cos x) z ∧ |(y.val : ℝ)| ≤ 1 + 4.41 / 10 ^ 6 ∧ |(z.val : ℝ)| ≤ 1 + 5.9 / 10 ^ 6) ∧
    (∀ (x : Flt F64) (b : Bool) (n : ℚ), x.Valid → x = .fin b n → |(x.val : ℝ)| ≤ 4.712 →
      ∃ y z : Flt F64, Returns (sin x) y ∧ Returns (cos x) z ∧ |(y.val : ℝ)| ≤ 1 + 3.62 / 10 ^ 6 ∧ |(z.val : ℝ)| ≤ 1 + 3.62 / 10 ^ 6) := by
  have key : ∀ a b c d : ℝ, |a - b| ≤ c → |b| ≤ 1 → c ≤ d → |a| ≤ 1 + d := by
    intro a b c d h1 h2 h3
    calc |a| = |b + (a - b)| := by congr 1; ring
      _ ≤ |b| + |a - b| := abs_add_le _ _
      _ ≤ _ := by linarith
  constructor
  · intro x b n hx e h
    obtain ⟨y, hy, -, e1⟩ := C76_f32 x hx b n e (h.trans (by norm_num))
    obtain ⟨z, hz, -, e2⟩ := C77_f32 x hx b n e h
    exact ⟨y, z, hy, hz, key _ _ _ _ e1 (Real.abs_sin_le_one _) le_rfl, key _ _ _ _ e2 (Real.abs_cos_le_one _) le_rfl⟩
  · intro x b n hx e h
    obtain ⟨y, hy, -, e1⟩ := C76_f64 x hx b n e h
    obtain ⟨z, hz, -, e2⟩ := C77_f64 x hx b n e (h.trans (by norm_num))
    exact ⟨y, z, hy, hz, key _ _ _ _ e1 (Real.abs_sin_le_one _) (by norm_num), key _ _ _ _ e2 (Real.abs_cos_le_one _) le_rfl⟩

/-- **C119**, what does hold on fixed point with at least 20 integer bits: sine and cosine exceed one by at most 4e-6 plus 7 or 9 units in
the last place. Missing compared to C119: no excess at all. -/
theorem C119_fixed_partial (h : F + 20 ≤ W) (x p : Fixed m true W F) (hp : (MixedPi.pi : Prog (Fixed m true W F)) = pure p)
    (hx : |x.val| ≤ p.val) :
    ∃ y z : Fixed m true W F, Returns (sin x) y ∧ Returns (cos x) z ∧
      |(y.val : ℝ) / 2 ^ F| ≤ 1 + 4 / 1000000 + 7 / 2 ^ F ∧ |(z.val : ℝ) / 2 ^ F| ≤ 1 + 4 / 1000000 + 9 / 2 ^ F := by
  have key : ∀ a b c : ℝ, |a - b| ≤ c → |b| ≤ 1 → |a| ≤ 1 + c := by
    intro a b c h1 h2
    calc |a| = |b + (a - b)| := by congr 1; ring
      _ ≤ |b| + |a - b| := abs_add_le _ _
      _ ≤ _ := by linarith
  obtain ⟨y, hy, e1⟩ := C39_sin h x p hp (by omega)
  obtain ⟨z, hz, e2⟩ := C39_cos h x p hp hx
  refine ⟨y, z, hy, hz, ?_, ?_⟩
  · rw [add_assoc]; exact key _ _ _ e1 (Real.abs_sin_le_one _)
  · rw [add_assoc]; exact key _ _ _ e2 (Real.abs_cos_le_one _)

example : (Flt.fin true (5/2) : Flt F32).Valid ∧ |((Flt.fin true (5/2) : Flt F32).val : ℝ)| ≤ 3.15 :=
  ⟨⟨5, -1, by decide, by decide, by norm_num [pow2_eq], by norm_num⟩, by norm_num [Flt.val]⟩

/-! ## C120 -/

/-- **C120**, what does hold on floats: a larger argument gives a larger root if it is larger by 0.4 %. Missing compared to C120: closer
arguments. -/
theorem C120_float_partial (hf : f.Wide) (md : Mode) (x x' : Flt f) (hx : x.Valid) (hx' : x'.Valid) (h1 : x.IsFinite) (h2 : x'.IsFinite)
    (h0 : 0 < x.val) (h : 1.004 * x.val ≤ x'.val) :
    ∃ y y', Returns (niirf (.i32 md) x 2) y ∧ Returns (niirf (.i32 md) x' 2) y' ∧ y.val < y'.val := by
  obtain ⟨b, n, e⟩ := h1
  obtain ⟨b', n', e'⟩ := h2
  have h0' : 0 < x'.val := by norm_num at h; linarith
  obtain ⟨y, hy, -, -, -, k⟩ := C70_accuracy hf md x hx b n e h0.ne' 2 le_rfl
  obtain ⟨y', hy', -, -, -, k'⟩ := C70_accuracy hf md x' hx' b' n' e' h0'.ne' 2 le_rfl
  refine ⟨y, y', hy, hy', ?_⟩
  have r0 : (0:ℝ) < x.val := by exact_mod_cast h0
  have r0' : (0:ℝ) < x'.val := by exact_mod_cast h0'
  rw [abs_of_pos r0] at k
  rw [abs_of_pos r0'] at k'
  have k := (abs_le.mp k).2
  have k' := (abs_le.mp k').1
  norm_num at k k'
  have hr : (1.004:ℝ) * x.val ≤ x'.val := by
    have : ((1.004 * x.val : ℚ) : ℝ) ≤ (x'.val : ℝ) := by exact_mod_cast h
    push_cast at this; exact this
  have hs : 1.001997 * √(x.val : ℝ) ≤ √(x'.val : ℝ) := by
    rw [Real.le_sqrt' (by positivity), mul_pow, Real.sq_sqrt r0.le]
    norm_num at hr ⊢; linarith
  have hp : 0 < √(x.val : ℝ) := Real.sqrt_pos.mpr r0
  have : (y.val : ℝ) < y'.val := by norm_num at hs; linarith
  exact_mod_cast this

example := C120_float_partial Flt.wide_F32 .checked (.fin false 2) (.fin false (9 / 4)) (by is_float 2 0) (by is_float 9 (-2)) ⟨_, _, rfl⟩ ⟨_, _, rfl⟩
  (by norm_num [Flt.val]) (by norm_num [Flt.val])

/-- **C120**, what does hold on fixed point with at least 16 fraction bits: a larger argument gives a larger root if it is larger by 1 % and
the smaller one is at least 1/1024. Missing compared to C120: closer and smaller arguments. -/
theorem C120_fixed_partial (hF : 16 ≤ F) (hW : W ≤ 128) (hK : F + 4 ≤ W) (x x' : Fixed m true W F) (h0 : 2 ^ F ≤ 1024 * x.val)
    (h : 101 * x.val ≤ 100 * x'.val) :
    ∃ y y', Returns (MixedSqrt.sqrt x) y ∧ Returns (MixedSqrt.sqrt x') y' ∧ y.val < y'.val := by
  have hP : (0:ℤ) < 2 ^ F := by positivity
  have p0 : 0 < x.val := by omega
  have p0' : 0 < x'.val := by omega
  obtain ⟨y, hy, k⟩ := C49_fine (by omega) hW hK x p0
  obtain ⟨y', hy', k'⟩ := C49_fine (by omega) hW hK x' p0'
  refine ⟨y, y', hy, hy', ?_⟩
  have hR : (0:ℝ) < 2 ^ F := by positivity
  have hu : (1:ℝ) / 2 ^ F ≤ 1 / 65536 := by
    rw [div_le_div_iff_of_pos_left one_pos hR (by norm_num)]
    calc (65536:ℝ) = 2 ^ 16 := by norm_num
      _ ≤ 2 ^ F := pow_le_pow_right₀ (by norm_num) hF
  have k := (abs_le.mp k).2
  have k' := (abs_le.mp k').1
  set a : ℝ := (x.val : ℝ) / 2 ^ F with ha
  set b : ℝ := (x'.val : ℝ) / 2 ^ F with hb
  have a0 : 1 / 1024 ≤ a := by
    rw [ha, div_le_div_iff₀ (by norm_num) hR]
    have : ((2 ^ F : ℤ) : ℝ) ≤ ((1024 * x.val : ℤ) : ℝ) := by exact_mod_cast h0
    push_cast at this; linarith
  have hab : 1.01 * a ≤ b := by
    rw [ha, hb, ← mul_div_assoc, div_le_div_iff_of_pos_right hR]
    have : ((101 * x.val : ℤ) : ℝ) ≤ ((100 * x'.val : ℤ) : ℝ) := by exact_mod_cast h
    push_cast at this; norm_num; linarith
  have hs : 1.00498 * √a ≤ √b := by
    rw [Real.le_sqrt' (mul_pos (by norm_num) (Real.sqrt_pos.mpr (by linarith))), mul_pow, Real.sq_sqrt (by linarith)]
    norm_num at hab ⊢; linarith
  have h32 : 1 / 32 ≤ √a := by
    rw [Real.le_sqrt' (by norm_num)]; norm_num at a0 ⊢; linarith
  have e1 : (4.5:ℝ) / 2 ^ F ≤ 4.5 / 65536 := by
    have : (4.5:ℝ) / 2 ^ F = 4.5 * (1 / 2 ^ F) := by ring
    rw [this]; linarith
  have e2 : (2:ℝ) / 2 ^ F ≤ 2 / 65536 := by
    have : (2:ℝ) / 2 ^ F = 2 * (1 / 2 ^ F) := by ring
    rw [this]; linarith
  have sa : 0 ≤ √a := Real.sqrt_nonneg _
  have sb : 0 ≤ √b := Real.sqrt_nonneg _
  have m1 := mul_le_mul_of_nonneg_right e1 sa
  have m2 := mul_le_mul_of_nonneg_right e1 sb
  have : (y.val : ℝ) / 2 ^ F < (y'.val : ℝ) / 2 ^ F := by
    norm_num at hs k k' m1 m2 e2 h32
    nlinarith
  have := (div_lt_div_iff_of_pos_right hR).mp this
  exact_mod_cast this

example : (2:ℤ) ^ 16 ≤ 1024 * (fx .checked true 32 16 70000).val ∧
    101 * (fx .checked true 32 16 70000).val ≤ 100 * (fx .checked true 32 16 80000).val := by decide

end MixedNum
