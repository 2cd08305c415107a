import Verif.Props.SmallAngles
import Verif.Props.AtanFloatExact
import Verif.Props.SqrtFloat
import Verif.Props.SqrtFixed
import Verif.Props.MagFloatExact
import Verif.Props.Period
import Verif.Props.Monotone
import Verif.Props.SqrtScale
import Verif.Props.AddSub
import Verif.Lemmas.Run
import Verif.Lemmas.Case
/-! # C159: simple arguments give their textbook results -/

namespace MixedNum
variable {f : Format} {m : Mode} {W F : ℕ}

/-! ## What is not exact: the root of one, and the cosine of zero -/

/-- **C159 is false of the code**: the root of one. On doubles, on single floats and on `I16F16` it is about 1.00075. -/
theorem C159_counterexample_sqrt :
    Returns (niirf (.i32 m) (.fin false 1 : Flt F64) 2) (.fin false (563373247057445 / 562949953421312)) ∧
      Returns (niirf (.i32 m) (.fin false 1 : Flt F32) 2) (.fin false (2098729 / 2097152)) ∧
      Returns (MixedSqrt.sqrt (fx m true 32 16 (2 ^ 16))) (fx m true 32 16 65586) := by
  cases m
  · exact ⟨by run 3, by run 3, by run 3⟩
  · exact ⟨by run 3, by run 3, by run 3⟩

/-- **C159 is false of the code**: the cosine of zero. On doubles, on single floats and with ten fraction bits it is larger than one. -/
theorem C159_counterexample_cos :
    Returns (cos (.fin false 0 : Flt F64)) (.fin false (4503615581751767 / 4503599627370496)) ∧
      Returns (cos (.fin false 0 : Flt F32)) (.fin false (8388637 / 8388608)) ∧
      Returns (cos (fx m true 32 10 0)) (fx m true 32 10 1025) := by
  cases m
  · exact ⟨by run 2, by run 2, by run 2⟩
  · exact ⟨by run 2, by run 2, by run 2⟩

/-- Neither is exact on the reals: the polynomial cosine of zero is larger than one. -/
theorem C159_counterexample_cos_real : ∃ v : ℝ, Returns (cos (0:ℝ)) v ∧ 1 < v := by
  have hpi := Real.pi_pos
  have hw := C31_identity_real (0 + Real.pi / 2) (by linarith) (by linarith)
  have h1 := cos_real_run 0 _ hw
  refine ⟨_, h1.symm.ret (.of_eq (sin_real _)), ?_⟩
  have e : fold (0 + Real.pi / 2) = Real.pi / 2 := by
    unfold fold; rw [zero_add, if_neg (by linarith), if_neg (by linarith)]
  rw [e]
  have h2 := Real.pi_gt_d4
  have h3 : sinT 5 (15707 / 10000) < sinT 5 (Real.pi / 2) :=
    sinT_strictMono ⟨by linarith, by norm_num at h2 ⊢; linarith⟩ ⟨by linarith, le_rfl⟩ (by norm_num at h2 ⊢; linarith)
  refine lt_trans ?_ h3
  rw [sinT_five]; norm_num

open Flt

/-! ## What is exact -/

/-- **C159**, the axes on fixed point: `atan2` gives zero, the type's π, and plus or minus half of it (truncated). -/
theorem C159_axis_fixed_partial (h : F + 3 ≤ W) (x o p q : Fixed m true W F) (ho : o.val = 0)
    (hp : Returns (MixedPi.pi : Prog (Fixed m true W F)) p) (hq : q.val = p.val / 2) (hx : |x.val| < 2 ^ (W - 1)) :
    (0 ≤ x.val → Returns (atan2Poly o x) o) ∧ (x.val < 0 → Returns (atan2Poly o x) p) ∧
      (0 < x.val → Returns (atan2Poly x o) q) ∧
      (x.val < 0 → ∃ n : Fixed m true W F, Returns (atan2Poly x o) n ∧ n.val = -q.val) := by
  have hfx : Fits true W |x.val| := (Fixed.fits_iff_lt (abs_nonneg _)).mpr hx
  have hfo : Fits true W |o.val| := by rw [ho, abs_zero]; exact fits_zero _ _
  have vp : p.val = Fixed.piRaw F := by
    have e := (Returns.of_eq (Fixed.pi_def (m := m) h)).unique hp
    rw [← e]; rfl
  have vq : q.val = Fixed.halfRaw F := by rw [hq, vp]; rfl
  have a1 := Fixed.atan2_value h o x hfo hfx (fun _ h => absurd ho h) (fun _ h => absurd ho h) (.inr (.inl ho))
  have a2 := Fixed.atan2_value h x o hfx hfo (fun h => absurd ho h) (fun h => absurd ho h) (.inl ho)
  obtain ⟨v, hv, A⟩ := a1
  obtain ⟨w, hw, B⟩ := a2
  refine ⟨fun h0 => ?_, fun h0 => ?_, fun h0 => ?_, fun h0 => ⟨w, .of_eq hw, ?_⟩⟩
  · have e : v = o := by apply Fixed.ext; rw [ho]; generalize v.val = k at A; cases A <;> omega
    rw [← e]; exact .of_eq (e ▸ hv)
  · have e : v = p := by apply Fixed.ext; rw [vp]; generalize v.val = k at A; cases A <;> omega
    rw [← e]; exact .of_eq hv
  · have e : w = q := by apply Fixed.ext; rw [vq]; generalize w.val = k at B; cases B <;> omega
    rw [← e]; exact .of_eq hw
  · rw [vq]; generalize w.val = k at B; cases B <;> omega

/-- The type's π with 16 fraction bits is 205887, which is odd: half of it is 102943. -/
example : Returns (atan2Poly (fx .checked true 32 16 0) (fx .checked true 32 16 (-5))) (fx .checked true 32 16 205887) ∧
    Returns (atan2Poly (fx .checked true 32 16 7) (fx .checked true 32 16 0)) (fx .checked true 32 16 102943) :=
  ⟨(C159_axis_fixed_partial (by norm_num) _ _ (fx .checked true 32 16 205887) (fx .checked true 32 16 102943) (by decide)
      (by run 0) (by decide) (by decide)).2.1 (by decide),
    (C159_axis_fixed_partial (by norm_num) _ _ (fx .checked true 32 16 205887) (fx .checked true 32 16 102943) (by decide)
      (by run 0) (by decide) (by decide)).2.2.1 (by decide)⟩

/-- **C159**, the axes on floats: with one coordinate zero (of either sign), `atan2` gives plus zero, the format's π, and plus or minus
half of it, at every distance from the origin, infinity included. -/
theorem C159_axis_float_partial (b : Bool) (x : Flt f) (hx : x ≠ .nan) (h0 : ∀ s, x ≠ .fin s 0) :
    Returns (atan2Poly (.fin b 0) x) (if MixedReal.isNegative x then piF f else .fin false 0) ∧
      Returns (atan2Poly x (.fin b 0))
        (if MixedReal.isPositive x then (piF f).div (ofExact false 2) else (piF f).neg.div (ofExact false 2)) := by
  have hz : ∀ s : Bool, (Flt.fin s 0 : Flt f).beq (.fin false 0) = true := by intro s; cases s <;> simp [Flt.beq, Flt.val]
  have hb : x.beq (.fin false 0) = false := by
    cases x with
    | nan => rfl
    | inf _ => rfl
    | fin s q =>
      have hm : q ≠ 0 := fun e => h0 s (by rw [e])
      cases s <;> simp [Flt.beq, Flt.val, hm]
  constructor
  · refine .of_eq ((atan2_run _ _).trans ?_)
    simp only [hz, if_true]
  · refine .of_eq ((atan2_run _ _).trans ?_)
    simp only [hz, hb, if_true, Int.cast_ofNat]
    rfl

example := C159_axis_float_partial (f := F32) true (.inf false) (by decide) (fun _ => nofun)

/-- **C159**, zero on fixed point: sine, arctangent, root (any number of iterations), magnitude and angle reduction of zero are zero. -/
theorem C159_zero_fixed_partial (h : F + 20 ≤ W) (o : Fixed m true W F) (ho : o.val = 0) (n : ℕ) :
    Returns (sin o) o ∧ Returns (atanPoly o) o ∧ Returns (niirf (.i32 m) o n) o ∧ Returns (Cartesian.mag ⟨o, o⟩) o ∧
      Returns (wrapPhase o) o := by
  have hP : (0:ℤ) < 2 ^ F := by positivity
  have ez : (MixedZero.zero : Fixed m true W F) = o := by apply Fixed.ext; rw [ho]; rfl
  have hb := Fixed.piRaw_bounds F
  refine ⟨C145_sin_fixed h o (by rw [ho, mul_zero]; exact hP), ?_, ?_, ?_, ?_⟩
  · have hf : Fits true W (1 * 2 ^ F) := by
      have := Fixed.fits_two (W := W) (F := F) (by omega)
      exact (fits_zero _ _).between this (by omega) (by omega)
    have e1 : (MixedOne.one : Prog (Fixed m true W F)) = pure (Fixed.mkv (1 * 2 ^ F) hf) := Fixed.fit_of_fits hf
    rw [C44_def o _ e1]
    refine (C159_axis_fixed_partial (by omega) (Fixed.mkv (1 * 2 ^ F) hf) o _ (Fixed.mkv (Fixed.piRaw F / 2) ?_) ho
      (.of_eq (Fixed.pi_def (by omega))) rfl ?_).1 ?_
    · exact (fits_zero _ _).between (Fixed.fits_two (by omega : F + 3 ≤ W)) (by omega) (by omega)
    · rw [Fixed.mkv_val, abs_of_pos (by positivity)]; exact (Fixed.fits_iff_lt (by positivity)).mp hf
    · rw [Fixed.mkv_val]; positivity
  · refine .of_eq ?_
    unfold niirf
    rw [if_pos (by rw [Fixed.beq_def, Fixed.zero_val, decide_eq_true ho]), ez]
  · have e0 : o.r = 0 := by rw [Fixed.r, ho]; simp
    obtain ⟨v, hv, h0⟩ := C72_underflow (⟨o, o⟩ : Cartesian (Fixed m true W F)) (by simp [e0]) (by simp [e0])
    have : v = o := by apply Fixed.ext; rw [h0, ho]
    rw [this] at hv; exact hv
  · refine C31_identity_fixed (by omega) o _ (.of_eq (Fixed.pi_def (by omega))) ?_ ?_
    · rw [ho]; show -Fixed.piRaw F ≤ 0; omega
    · rw [ho]; show 0 < Fixed.piRaw F; omega

/-- **C159**, zero on floats, of either sign: the sine is a zero, the arctangent and the root (any number of iterations) are plus zero,
and the angle is already reduced. -/
theorem C159_zero_float_partial (hf : f.Wide) (h60 : f.p ≤ 60) (b : Bool) (n : ℕ) :
    (∃ z : Flt f, Returns (sin (.fin b 0 : Flt f)) z ∧ z.IsFinite ∧ z.val = 0) ∧
      Returns (atanPoly (.fin b 0 : Flt f)) (.fin false 0) ∧ Returns (niirf (.i32 m) (.fin b 0 : Flt f) n) (.fin false 0) ∧
      Returns (wrapPhase (.fin b 0 : Flt f)) (.fin b 0) := by
  have v0 : (Flt.fin b 0 : Flt f).val = 0 := by cases b <;> simp [Flt.val]
  have hv : (Flt.fin b 0 : Flt f).Valid := ⟨0, f.emin, by positivity, le_rfl, by simp, by positivity⟩
  have i0 : Is (Flt.fin b 0 : Flt f) 0 := by have := Flt.is_of_finite ⟨_, _, rfl⟩ hv; rwa [v0] at this
  have ip := is_pi hf.ok
  have bp := piV_bounds hf.ok
  refine ⟨?_, ?_, C70_zero m b n, ?_⟩
  · obtain ⟨z, hz, -, hfin, hb, -⟩ := C145_sin_float hf h60 (.fin b 0) hv ⟨_, _, rfl⟩ (by rw [v0]; norm_num)
    refine ⟨z, hz, hfin, ?_⟩
    rw [v0] at hb
    simp only [Rat.cast_zero, Real.sin_zero, sub_zero, abs_zero, ne_eq, OfNat.ofNat_ne_zero, not_false_eq_true, zero_pow, zero_div,
      mul_zero, add_zero] at hb
    exact_mod_cast abs_nonpos_iff.mp hb
  · rw [C44_def _ _ rfl, one_fin hf]
    exact (C159_axis_float_partial b (.fin false 1) (by simp) (by simp)).1
  · rw [wrapPhase_eq]
    refine (whileLoop_done ?_).bind (whileLoop_done ?_)
    · rw [i0.lt ip.neg, decide_eq_false (by linarith)]
    · show (pure (Flt.lt (piF f) _ || Flt.beq (piF f) _) : Prog Bool) = _
      rw [ip.lt i0, ip.beq i0, decide_eq_false (by linarith), decide_eq_false (by linarith)]; rfl

/-- **C159**: the magnitude of a zero is the external square root of positive zero, on floats. -/
theorem C159_mag_float_partial [MixedSqrt (Flt f)] (a b : Bool) :
    (Cartesian.mag ⟨.fin a 0, .fin b 0⟩ : Prog (Flt f)) = MixedSqrt.sqrt (.fin false 0) := by
  show MixedSqrt.sqrt (((Flt.fin a 0 : Flt f).mul (.fin a 0)).add ((Flt.fin b 0 : Flt f).mul (.fin b 0))) = _
  congr 1
  cases a <;> cases b <;> simp [Flt.add, Flt.mul, Flt.val, ofExact]

/-- **C159**: a polar number of magnitude zero is the origin, whatever its angle and whatever sine and cosine are used, on fixed point. -/
theorem C159_origin_fixed_partial [MixedSinCos (Fixed m true W F)] (o θ t s c : Fixed m true W F) (ho : o.val = 0)
    (ht : Returns (wrapPhase θ) t) (hs : Returns (MixedSinCos.sincos t) (s, c)) :
    Returns (Polar.toCartesian ⟨o, θ⟩) ⟨o, o⟩ := by
  have key : ∀ y : Fixed m true W F, Returns (NumOps.mul o y) o := by
    intro y
    refine .of_eq ?_
    have hf : Fits true W (o.val * y.val / 2 ^ F) := by rw [ho, zero_mul, Int.zero_ediv]; exact fits_zero _ _
    rw [Fixed.mul_def, Fixed.fit_of_fits hf]
    congr 1; apply Fixed.ext
    rw [Fixed.mkv_val, ho, zero_mul, Int.zero_ediv]
  exact ht.bind (hs.bind ((key c).bind ((key s).bind (.of_eq rfl))))

/-- **C159**: the same on floats, up to the sign of the zeros. -/
theorem C159_origin_float_partial [MixedSinCos (Flt f)] (b : Bool) (θ t s c : Flt f)
    (ht : Returns (wrapPhase θ) t) (hs : Returns (MixedSinCos.sincos t) (s, c)) (fs : s.IsFinite) (fc : c.IsFinite) :
    ∃ b1 b2, Returns (Polar.toCartesian ⟨.fin b 0, θ⟩) ⟨.fin b1 0, .fin b2 0⟩ := by
  have key : ∀ y : Flt f, y.IsFinite → ∃ d, Returns (NumOps.mul (.fin b 0) y) (.fin d 0 : Flt f) := by
    rintro y ⟨d, q, rfl⟩
    refine ⟨b != d, .of_eq ?_⟩
    show (pure (Flt.mul _ _) : Prog (Flt f)) = _
    simp [Flt.mul, ofExact, Flt.val]
  obtain ⟨b1, h1⟩ := key c fc
  obtain ⟨b2, h2⟩ := key s fs
  exact ⟨b1, b2, ht.bind (hs.bind (h1.bind (h2.bind (.of_eq rfl))))⟩

example : Returns (niirf (.i32 .wrapping) (fx .wrapping true 32 12 0) 5) (fx .wrapping true 32 12 0) ∧
    Returns (atanPoly (.fin true 0 : Flt F32)) (.fin false 0) :=
  ⟨(C159_zero_fixed_partial (by norm_num) _ (by decide) 5).2.2.1, (C159_zero_float_partial (m := .checked) wide_F32 (by decide) true 3).2.1⟩

/-- With the crate's own sine and cosine, at an angle of two turns and a bit. -/
example : Returns (@Polar.toCartesian _ _ _ _ _ _ ⟨fun x => do pure (← sin x, ← cos x)⟩
      ⟨fx .checked true 32 12 0, fx .checked true 32 12 60000⟩) ⟨fx .checked true 32 12 0, fx .checked true 32 12 0⟩ :=
  letI : MixedSinCos (Fixed .checked true 32 12) := ⟨fun x => do pure (← sin x, ← cos x)⟩
  C159_origin_fixed_partial _ _ (fx .checked true 32 12 8528) (fx .checked true 32 12 3573) (fx .checked true 32 12 (-2004)) (by decide)
    (by run 4) (by run 4)

end MixedNum
