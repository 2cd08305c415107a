import Mathlib.Tactic.LinearCombination
import Verif.Props.AddSub
import Verif.Lemmas.Run
/-! # C02, C03, C04, C09, C10, C14: complex multiplication, scalars, conjugation -/

namespace MixedNum
variable {m : Mode} {s : Bool} {W F : ℕ}

/-! ## C02 -/

/-- C02, integers with overflow checks: any value returned is the exact product. -/
theorem C02_checked_exact (a b c : Cartesian (PInt .checked s W)) (h : Returns (a.mul b) c) :
    c.re.val = a.re.val * b.re.val - a.im.val * b.im.val ∧
    c.im.val = a.re.val * b.im.val + a.im.val * b.re.val := by
  have key : ∀ n x r, (PInt.fit x : Prog (PInt .checked s W)) n = .ok r → r.val = x := by
    intro n x r hr
    by_cases hf : Fits s W x
    · rw [PInt.fit_of_fits hf] at hr; simp at hr; rw [← hr]; rfl
    · rw [PInt.fit_checked hf] at hr; simp at hr
  obtain ⟨N, hN⟩ := h
  have h := hN N (le_refl _)
  simp only [Cartesian.mul, ops.mulCartesian] at h
  obtain ⟨p1, h1, h⟩ := Prog.bind_ok_inv h
  obtain ⟨p2, h2, h⟩ := Prog.bind_ok_inv h
  obtain ⟨p3, h3, h⟩ := Prog.bind_ok_inv h
  obtain ⟨p4, h4, h⟩ := Prog.bind_ok_inv h
  obtain ⟨p5, h5, h⟩ := Prog.bind_ok_inv h
  obtain ⟨p6, h6, h⟩ := Prog.bind_ok_inv h
  simp only [Prog.pure_apply, Out.ok.injEq] at h
  have h1 := key _ _ _ h1; have h2 := key _ _ _ h2; have h3 := key _ _ _ h3
  have h4 := key _ _ _ h4; have h5 := key _ _ _ h5; have h6 := key _ _ _ h6
  rw [← h]; simp [*]

example := C02_checked_exact ⟨i .checked true 8 3, i .checked true 8 4⟩ ⟨i .checked true 8 5, i .checked true 8 (-6)⟩ ⟨i .checked true 8 39, i .checked true 8 2⟩ (by run 0)

/-- C02, integers with overflow checks: it returns exactly when the four products and both results are representable. -/
theorem C02_checked_returns_iff (a b : Cartesian (PInt .checked s W)) :
    (∃ c, Returns (a.mul b) c) ↔
      InRange s W (a.re.val * b.re.val) ∧ InRange s W (a.im.val * b.im.val) ∧
      InRange s W (a.re.val * b.re.val - a.im.val * b.im.val) ∧
      InRange s W (a.re.val * b.im.val) ∧ InRange s W (a.im.val * b.re.val) ∧
      InRange s W (a.re.val * b.im.val + a.im.val * b.re.val) := by
  simp only [inRange_iff]
  constructor
  · rintro ⟨c, N, hN⟩
    have h := hN N (le_refl _)
    have key : ∀ n x r, (PInt.fit x : Prog (PInt .checked s W)) n = .ok r → Fits s W x ∧ r.val = x := by
      intro n x r hr
      by_cases hf : Fits s W x
      · rw [PInt.fit_of_fits hf] at hr; simp at hr; rw [← hr]; exact ⟨hf, rfl⟩
      · rw [PInt.fit_checked hf] at hr; simp at hr
    simp only [Cartesian.mul, ops.mulCartesian] at h
    obtain ⟨p1, h1, h⟩ := Prog.bind_ok_inv h
    obtain ⟨p2, h2, h⟩ := Prog.bind_ok_inv h
    obtain ⟨p3, h3, h⟩ := Prog.bind_ok_inv h
    obtain ⟨p4, h4, h⟩ := Prog.bind_ok_inv h
    obtain ⟨p5, h5, h⟩ := Prog.bind_ok_inv h
    obtain ⟨p6, h6, h⟩ := Prog.bind_ok_inv h
    obtain ⟨h1, e1⟩ := key _ _ _ h1; obtain ⟨h2, e2⟩ := key _ _ _ h2; obtain ⟨h3, e3⟩ := key _ _ _ h3
    obtain ⟨h4, e4⟩ := key _ _ _ h4; obtain ⟨h5, e5⟩ := key _ _ _ h5; obtain ⟨h6, e6⟩ := key _ _ _ h6
    rw [e1, e2] at h3; rw [e4, e5] at h6
    exact ⟨h1, h2, h3, h4, h5, h6⟩
  · rintro ⟨h1, h2, h3, h4, h5, h6⟩
    refine ⟨⟨PInt.mkv _ h3, PInt.mkv _ h6⟩, .of_eq ?_⟩
    simp [Cartesian.mul, ops.mulCartesian, PInt.fit_of_fits, h1, h2, h3, h4, h5, h6]

/-- C02, integers with overflow checks: when it does not return it panics with overflow (it never hangs). -/
theorem C02_checked_total (a b : Cartesian (PInt .checked s W)) :
    (∃ c, Returns (a.mul b) c) ∨ Panics (a.mul b) .overflow := by
  have key : ∀ x, (∃ v, (PInt.fit x : Prog (PInt .checked s W)) = pure v) ∨ (PInt.fit x : Prog (PInt .checked s W)) = Prog.fail .overflow := by
    intro x
    by_cases hf : Fits s W x
    · exact .inl ⟨_, PInt.fit_of_fits hf⟩
    · exact .inr (PInt.fit_checked hf)
  simp only [Cartesian.mul, ops.mulCartesian, PInt.mul_def, PInt.add_def, PInt.sub_def]
  rcases key (a.re.val * b.re.val) with ⟨v1, h⟩ | h <;> rw [h]
  swap; · exact .inr (.of_eq rfl)
  rcases key (a.im.val * b.im.val) with ⟨v2, h⟩ | h <;> simp only [h, pure_bind]
  swap; · exact .inr (.of_eq rfl)
  rcases key (v1.val - v2.val) with ⟨v3, h⟩ | h <;> simp only [h, pure_bind]
  swap; · exact .inr (.of_eq rfl)
  rcases key (a.re.val * b.im.val) with ⟨v4, h⟩ | h <;> simp only [h, pure_bind]
  swap; · exact .inr (.of_eq rfl)
  rcases key (a.im.val * b.re.val) with ⟨v5, h⟩ | h <;> simp only [h, pure_bind]
  swap; · exact .inr (.of_eq rfl)
  rcases key (v4.val + v5.val) with ⟨v6, h⟩ | h <;> simp only [h, pure_bind]
  swap; · exact .inr (.of_eq rfl)
  exact .inl ⟨_, .of_eq rfl⟩

example : Cartesian.mul ⟨i .checked true 8 3, i .checked true 8 4⟩ ⟨i .checked true 8 5, i .checked true 8 (-6)⟩
    = pure ⟨i .checked true 8 39, i .checked true 8 2⟩ := by rfl

/-- C02, integers without overflow checks: the product reduced modulo 2^W. -/
theorem C02_wrapping (hW : 0 < W) (a b : Cartesian (PInt .wrapping s W)) :
    ∃ c, a.mul b = pure c ∧
      IsReduction s W (a.re.val * b.re.val - a.im.val * b.im.val) c.re.val ∧
      IsReduction s W (a.re.val * b.im.val + a.im.val * b.re.val) c.im.val := by
  refine ⟨_, by simp only [Cartesian.mul, ops.mulCartesian, PInt.mul_def, PInt.add_def, PInt.sub_def,
    PInt.fit_wrapping, pure_bind, PInt.mkv_val]; rfl, ?_, ?_⟩
  · simp only [PInt.mkv_val]
    exact ⟨(isReduction_wrapInt hW _).1, (wrapInt_modEq hW _).trans
      ((wrapInt_modEq hW _).sub (wrapInt_modEq hW _))⟩
  · simp only [PInt.mkv_val]
    exact ⟨(isReduction_wrapInt hW _).1, (wrapInt_modEq hW _).trans
      ((wrapInt_modEq hW _).add (wrapInt_modEq hW _))⟩

/-- C02, exact reals: multiplication of complex numbers. -/
theorem C02_real (a b : Cartesian ℝ) : ∃ c, Returns (a.mul b) c ∧ c.toC = a.toC * b.toC := by
  refine ⟨⟨a.re * b.re - a.im * b.im, a.re * b.im + a.im * b.re⟩, .of_eq ?_, ?_⟩
  · simp [Cartesian.mul, ops.mulCartesian]
  · apply Complex.ext <;> simp [Cartesian.toC]

/-! ## C03 -/

/-- C03, generic: if the component `*` and `+` commute, and `*` either returns or panics with overflow,
then complex `*` commutes, panics included. -/
theorem C03_generic {α : Type} [NumOps α]
    (hmul : ∀ a b : α, NumOps.mul a b = NumOps.mul b a) (hadd : ∀ a b : α, NumOps.add a b = NumOps.add b a)
    (htot : ∀ a b : α, (∃ c, NumOps.mul a b = pure c) ∨ NumOps.mul a b = Prog.fail .overflow)
    (z w : Cartesian α) : z.mul w = w.mul z := by
  simp only [Cartesian.mul, ops.mulCartesian]
  rw [hmul w.re z.re, hmul w.im z.im, hmul w.re z.im, hmul w.im z.re]
  congr 1; funext p; congr 1; funext q; congr 1; funext r
  rcases htot z.re w.im with ⟨c, hc⟩ | hc <;> rcases htot z.im w.re with ⟨d, hd⟩ | hd <;>
    simp only [hc, hd, pure_bind, Prog.fail_bind]
  rw [hadd]

example (z w : Cartesian ℝ) := C03_generic (fun a b : ℝ => congrArg pure (mul_comm a b)) (fun a b : ℝ => congrArg pure (add_comm a b)) (fun _ _ => .inl ⟨_, rfl⟩) z w

/-- C03 for integers. -/
theorem C03_int (z w : Cartesian (PInt m s W)) : z.mul w = w.mul z := by
  apply C03_generic
  · intro a b; simp [mul_comm]
  · intro a b; simp [add_comm]
  · intro a b
    by_cases h : Fits s W (a.val * b.val)
    · exact .inl ⟨_, PInt.fit_of_fits h⟩
    · cases m
      · exact .inr (PInt.fit_checked h)
      · exact .inl ⟨_, PInt.fit_wrapping _⟩

/-- C03 for fixed point. -/
theorem C03_fixed (z w : Cartesian (Fixed m s W F)) : z.mul w = w.mul z := by
  apply C03_generic
  · intro a b; simp [mul_comm]
  · intro a b; simp [add_comm]
  · intro a b
    by_cases h : Fits s W (a.val * b.val / 2 ^ F)
    · exact .inl ⟨_, Fixed.fit_of_fits h⟩
    · cases m
      · exact .inr (Fixed.fit_checked h)
      · exact .inl ⟨_, Fixed.fit_wrapping _⟩

theorem Flt.mul_comm {f : Format} (a b : Flt f) : a.mul b = b.mul a := by
  cases a <;> cases b <;> simp [Flt.mul, Bool.xor_comm, _root_.mul_comm]

theorem Flt.add_comm {f : Format} (a b : Flt f) : a.add b = b.add a := by
  cases a <;> cases b <;> simp [Flt.add, Bool.and_comm, _root_.add_comm]
  rename_i s t; cases s <;> cases t <;> rfl

/-- C03 for floats (NaN payloads are not modelled). -/
theorem C03_float {f : Format} (z w : Cartesian (Flt f)) : z.mul w = w.mul z := by
  apply C03_generic
  · intro a b; simp [Flt.mul_comm a b]
  · intro a b; simp [Flt.add_comm a b]
  · intro a b; exact .inl ⟨_, rfl⟩

/-- C03 for exact reals. -/
theorem C03_real (z w : Cartesian ℝ) : z.mul w = w.mul z := by
  apply C03_generic
  · intro a b; simp [mul_comm]
  · intro a b; simp [add_comm]
  · intro a b; exact .inl ⟨_, rfl⟩

/-- In C03 the panicking case occurs. -/
example : Cartesian.mul ⟨i .checked true 8 100, i .checked true 8 0⟩ ⟨i .checked true 8 2, i .checked true 8 0⟩
    = Prog.fail .overflow := by rfl

/-! ## C04 -/

section C04
variable (hW : 0 < W) (a b c : Cartesian (PInt .wrapping true W))

/-- Component-wise congruence determines a wrapping Cartesian integer. -/
theorem cart_ext_modEq (hW : 0 < W) {x y : Cartesian (PInt m s W)}
    (h1 : x.re.val ≡ y.re.val [ZMOD 2 ^ W]) (h2 : x.im.val ≡ y.im.val [ZMOD 2 ^ W]) : x = y := by
  rcases x with ⟨xr, xi⟩; rcases y with ⟨yr, yi⟩
  congr
  · ext; exact eq_of_modEq_of_fits hW xr.fits yr.fits h1
  · ext; exact eq_of_modEq_of_fits hW xi.fits yi.fits h2

theorem wadd (hW : 0 < W) (a b : Cartesian (PInt .wrapping s W)) : ∃ c, a.add b = pure c ∧
    c.re.val ≡ a.re.val + b.re.val [ZMOD 2 ^ W] ∧ c.im.val ≡ a.im.val + b.im.val [ZMOD 2 ^ W] :=
  ⟨_, by simp only [Cartesian.add, PInt.add_def, PInt.fit_wrapping, pure_bind]; rfl,
    wrapInt_modEq hW _, wrapInt_modEq hW _⟩

theorem wmul (hW : 0 < W) (a b : Cartesian (PInt .wrapping s W)) : ∃ c, a.mul b = pure c ∧
    c.re.val ≡ a.re.val * b.re.val - a.im.val * b.im.val [ZMOD 2 ^ W] ∧
    c.im.val ≡ a.re.val * b.im.val + a.im.val * b.re.val [ZMOD 2 ^ W] := by
  obtain ⟨c, h, h1, h2⟩ := C02_wrapping hW a b
  exact ⟨c, h, h1.2, h2.2⟩

include hW

/-- C04: addition is associative. -/
theorem C04_add_assoc : (do let t ← a.add b; t.add c) = (do let t ← b.add c; a.add t) := by
  obtain ⟨t, ht, t1, t2⟩ := wadd hW a b
  obtain ⟨u, hu, u1, u2⟩ := wadd hW b c
  obtain ⟨x, hx, x1, x2⟩ := wadd hW t c
  obtain ⟨y, hy, y1, y2⟩ := wadd hW a u
  simp only [ht, hu, pure_bind, hx, hy]
  congr 1
  refine cart_ext_modEq hW ?_ ?_
  · refine (x1.trans (t1.add_right _)).trans (Int.ModEq.trans ?_ (y1.trans (u1.add_left _)).symm)
    rw [add_assoc]
  · refine (x2.trans (t2.add_right _)).trans (Int.ModEq.trans ?_ (y2.trans (u2.add_left _)).symm)
    rw [add_assoc]

omit hW in
/-- C04: addition is commutative. -/
theorem C04_add_comm : a.add b = b.add a := by
  simp only [Cartesian.add, PInt.add_def, add_comm a.re.val, add_comm a.im.val]

/-- C04: multiplication is associative. -/
theorem C04_mul_assoc : (do let t ← a.mul b; t.mul c) = (do let t ← b.mul c; a.mul t) := by
  obtain ⟨t, ht, t1, t2⟩ := wmul hW a b
  obtain ⟨u, hu, u1, u2⟩ := wmul hW b c
  obtain ⟨x, hx, x1, x2⟩ := wmul hW t c
  obtain ⟨y, hy, y1, y2⟩ := wmul hW a u
  simp only [ht, hu, pure_bind, hx, hy]
  congr 1
  refine cart_ext_modEq hW ?_ ?_
  · refine (x1.trans ((t1.mul_right _).sub (t2.mul_right _))).trans
      (Int.ModEq.trans ?_ (y1.trans ((u1.mul_left _).sub (u2.mul_left _))).symm)
    ring_nf; exact Int.ModEq.refl _
  · refine (x2.trans ((t1.mul_right _).add (t2.mul_right _))).trans
      (Int.ModEq.trans ?_ (y2.trans ((u2.mul_left _).add (u1.mul_left _))).symm)
    ring_nf; exact Int.ModEq.refl _

/-- C04: multiplication distributes over addition. -/
theorem C04_distrib : (do let t ← b.add c; a.mul t) = (do let t ← a.mul b; let u ← a.mul c; t.add u) := by
  obtain ⟨t, ht, t1, t2⟩ := wadd hW b c
  obtain ⟨u, hu, u1, u2⟩ := wmul hW a b
  obtain ⟨v, hv, v1, v2⟩ := wmul hW a c
  obtain ⟨x, hx, x1, x2⟩ := wmul hW a t
  obtain ⟨y, hy, y1, y2⟩ := wadd hW u v
  simp only [ht, hu, hv, pure_bind, hx, hy]
  congr 1
  refine cart_ext_modEq hW ?_ ?_
  · refine (x1.trans ((t1.mul_left _).sub (t2.mul_left _))).trans
      (Int.ModEq.trans ?_ (y1.trans (u1.add v1)).symm)
    ring_nf; exact Int.ModEq.refl _
  · refine (x2.trans ((t2.mul_left _).add (t1.mul_left _))).trans
      (Int.ModEq.trans ?_ (y2.trans (u2.add v2)).symm)
    ring_nf; exact Int.ModEq.refl _

/-- C04: `mixed_zero()` is the identity of `+`. -/
theorem C04_zero : a.add MixedZero.zero = pure a := by
  obtain ⟨t, ht, t1, t2⟩ := wadd hW a MixedZero.zero
  rw [ht]; congr 1
  exact cart_ext_modEq hW (by simpa [MixedZero.zero] using t1) (by simpa [MixedZero.zero] using t2)

/-- C04: `mixed_one()` is the identity of `*`. -/
theorem C04_one : (do let o ← MixedOne.one; a.mul o) = pure a := by
  have : (MixedOne.one : Prog (Cartesian (PInt .wrapping true W))) =
      pure ⟨PInt.mkv (wrapInt true W 1) (fits_wrapInt _ _ _), MixedZero.zero⟩ := rfl
  rw [this, pure_bind]
  obtain ⟨t, ht, t1, t2⟩ := wmul hW a ⟨PInt.mkv (wrapInt true W 1) (fits_wrapInt _ _ _), MixedZero.zero⟩
  rw [ht]; congr 1
  have h1 := wrapInt_modEq (s := true) hW 1
  refine cart_ext_modEq hW (t1.trans ?_) (t2.trans ?_)
  · simpa using h1.mul_left a.re.val
  · simpa using h1.mul_left a.im.val

end C04

/-- C04 is about values that really wrap: (100+0i)*(3+0i) in an `i8` is 44. -/
example : Cartesian.mul ⟨i .wrapping true 8 100, i .wrapping true 8 0⟩ ⟨i .wrapping true 8 3, i .wrapping true 8 0⟩
    = pure ⟨i .wrapping true 8 44, i .wrapping true 8 0⟩ := by rfl

/-! ## C09 -/

/-- C09, every component type: with `t` the converted scalar, both parts are multiplied by `t`
(first the real, then the imaginary one). -/
theorem C09_generic {α β : Type} [NumOps β] [Conv α β] (z : Cartesian β) (r : α) (t : β)
    (h : Conv.fromNum r = pure t) :
    z.mulScalar r = (do let re ← NumOps.mul z.re t; let im ← NumOps.mul z.im t; pure ⟨re, im⟩) := by
  simp [Cartesian.mulScalar, h]

example := C09_generic (⟨i .checked true 8 3, i .checked true 8 4⟩ : Cartesian (PInt .checked true 8)) (i .checked true 16 5) (i .checked true 8 5) rfl

/-- C09, every component type: if the conversion panics, so does the product. -/
theorem C09_conversion_panics {α β : Type} [NumOps β] [Conv α β] (z : Cartesian β) (r : α) (e : Panic)
    (h : (Conv.fromNum r : Prog β) = Prog.fail e) : z.mulScalar r = Prog.fail e := by
  simp [Cartesian.mulScalar, h]

example := C09_conversion_panics (⟨fx .checked true 8 4 3, fx .checked true 8 4 4⟩ : Cartesian (Fixed .checked true 8 4)) (i .checked true 16 300) .overflow rfl

/-- C09, exact reals: multiplication by the complex number `r + 0i`. -/
theorem C09_real (z : Cartesian ℝ) (r : ℝ) : ∃ c, Returns (z.mulScalar r) c ∧ c.toC = z.toC * r := by
  refine ⟨⟨z.re * r, z.im * r⟩, .of_eq (by simp [Cartesian.mulScalar]), ?_⟩
  apply Complex.ext <;> simp [Cartesian.toC]

/-- C09, integers scaled by an integer of any other type: exact when representable, else panic or reduction. -/
theorem C09_int (hW : 0 < W) {s' : Bool} {W' : ℕ} (z : Cartesian (PInt m s W)) (r : PInt m s' W')
    (hr : InRange s W r.val) :
    PairOutcome (fun c : PInt m s W => c.val) m s W (z.re.val * r.val) (z.im.val * r.val) (z.mulScalar r) := by
  have : (Conv.fromNum r : Prog (PInt m s W)) = pure (PInt.mkv r.val (inRange_iff.mp hr)) := by
    show pure _ = _; congr 1; ext; exact wrapInt_of_fits (inRange_iff.mp hr)
  rw [C09_generic z r _ this]
  exact PInt.pairOutcome hW _ _

example : Cartesian.mulScalar ⟨i .checked true 8 3, i .checked true 8 (-4)⟩ (i .checked false 16 5)
    = pure ⟨i .checked true 8 15, i .checked true 8 (-20)⟩ := by rfl

/-! ## C10 -/

/-- C10: `z + s` and `z - s` leave the imaginary part alone; the real part is the component sum/difference. -/
theorem C10_add {α β : Type} [NumOps β] [Conv α β] (z c : Cartesian β) (r : α) (h : Returns (z.addScalar r) c) :
    c.im = z.im ∧ Returns (do NumOps.add z.re (← Conv.fromNum r)) c.re := by
  obtain ⟨N, hN⟩ := h
  refine ⟨?_, N, fun n hn => ?_⟩
  · have h := hN N (le_refl _)
    obtain ⟨t, _, h⟩ := Prog.bind_ok_inv h
    obtain ⟨u, _, h⟩ := Prog.bind_ok_inv h
    simp at h; rw [← h]
  · have h := hN n hn
    obtain ⟨t, ht, h⟩ := Prog.bind_ok_inv h
    obtain ⟨u, hu, h⟩ := Prog.bind_ok_inv h
    simp at h; rw [Prog.bind_apply_ok ht, hu, ← h]

example := C10_add (⟨i .checked true 8 3, i .checked true 8 4⟩ : Cartesian (PInt .checked true 8)) ⟨i .checked true 8 8, i .checked true 8 4⟩ (i .checked true 16 5) (by run 0)

theorem C10_sub {α β : Type} [NumOps β] [Conv α β] (z c : Cartesian β) (r : α) (h : Returns (z.subScalar r) c) :
    c.im = z.im ∧ Returns (do NumOps.sub z.re (← Conv.fromNum r)) c.re := by
  obtain ⟨N, hN⟩ := h
  refine ⟨?_, N, fun n hn => ?_⟩
  · have h := hN N (le_refl _)
    obtain ⟨t, _, h⟩ := Prog.bind_ok_inv h
    obtain ⟨u, _, h⟩ := Prog.bind_ok_inv h
    simp at h; rw [← h]
  · have h := hN n hn
    obtain ⟨t, ht, h⟩ := Prog.bind_ok_inv h
    obtain ⟨u, hu, h⟩ := Prog.bind_ok_inv h
    simp at h; rw [Prog.bind_apply_ok ht, hu, ← h]

example := C10_sub (⟨i .checked true 8 3, i .checked true 8 4⟩ : Cartesian (PInt .checked true 8)) ⟨i .checked true 8 (-2), i .checked true 8 4⟩ (i .checked true 16 5) (by run 0)

/-- C10: the assigning forms have the same outcome, panics included. -/
theorem C10_assign {α β : Type} [NumOps β] [Conv α β] (z : Cartesian β) (r : α) :
    z.addAssignScalar r = z.addScalar r ∧ z.subAssignScalar r = z.subScalar r := ⟨rfl, rfl⟩

/-- C10, integers: the outcome in full for `z + r`, including panic and wrap-around. -/
theorem C10_int (hW : 0 < W) {s' : Bool} {W' : ℕ} (z : Cartesian (PInt m s W)) (r : PInt m s' W')
    (hr : InRange s W r.val) :
    PairOutcome (fun c : PInt m s W => c.val) m s W (z.re.val + r.val) z.im.val (z.addScalar r) ∧
    PairOutcome (fun c : PInt m s W => c.val) m s W (z.re.val - r.val) z.im.val (z.subScalar r) := by
  have hc : (Conv.fromNum r : Prog (PInt m s W)) = pure (PInt.mkv r.val (inRange_iff.mp hr)) := by
    show pure _ = _; congr 1; ext; exact wrapInt_of_fits (inRange_iff.mp hr)
  have hz : (pure z.im : Prog (PInt m s W)) = PInt.fit z.im.val := by rw [PInt.fit_of_fits z.im.fits]; rfl
  constructor
  · have : z.addScalar r = (do let re ← PInt.fit (z.re.val + r.val); let im ← PInt.fit z.im.val; pure ⟨re, im⟩) := by
      simp only [← hz, Cartesian.addScalar, hc, pure_bind, PInt.add_def, PInt.mkv_val]
    rw [this]; exact PInt.pairOutcome hW _ _
  · have : z.subScalar r = (do let re ← PInt.fit (z.re.val - r.val); let im ← PInt.fit z.im.val; pure ⟨re, im⟩) := by
      simp only [← hz, Cartesian.subScalar, hc, pure_bind, PInt.sub_def, PInt.mkv_val]
    rw [this]; exact PInt.pairOutcome hW _ _

example := C10_int (by decide) (⟨i .checked true 8 3, i .checked true 8 4⟩ : Cartesian (PInt .checked true 8)) (i .checked true 16 5) (by decide)

/-- C10, exact reals: addition and subtraction of `r + 0i`. -/
theorem C10_real (z : Cartesian ℝ) (r : ℝ) :
    (∃ c, Returns (z.addScalar r) c ∧ c.toC = z.toC + r) ∧ (∃ c, Returns (z.subScalar r) c ∧ c.toC = z.toC - r) := by
  refine ⟨⟨⟨z.re + r, z.im⟩, .of_eq (by simp [Cartesian.addScalar]), ?_⟩,
    ⟨⟨z.re - r, z.im⟩, .of_eq (by simp [Cartesian.subScalar]), ?_⟩⟩ <;>
  apply Complex.ext <;> simp [Cartesian.toC]

example : Cartesian.addScalar ⟨i .checked true 8 3, i .checked true 8 (-4)⟩ (i .checked true 8 5)
    = pure ⟨i .checked true 8 8, i .checked true 8 (-4)⟩ := by rfl

/-! ## C14 -/

/-- C14, exact reals: `conj` is complex conjugation, hence an involutive ring automorphism. -/
theorem C14_real (z : Cartesian ℝ) : ∃ c, Returns z.conj c ∧ c.toC = (starRingEnd ℂ) z.toC := by
  refine ⟨⟨z.re, -z.im⟩, .of_eq (by simp [Cartesian.conj, Cartesian.new]), ?_⟩
  apply Complex.ext <;> simp [Cartesian.toC]

theorem C14_involutive (z : Cartesian ℝ) : (do let c ← z.conj; c.conj) = pure z := by
  simp [Cartesian.conj, Cartesian.new]

theorem C14_mul (z w : Cartesian ℝ) :
    (do let c ← z.mul w; c.conj) = (do let a ← z.conj; let b ← w.conj; a.mul b) := by
  simp [Cartesian.conj, Cartesian.new, Cartesian.mul, ops.mulCartesian]; ring_nf

theorem C14_add (z w : Cartesian ℝ) :
    (do let c ← z.add w; c.conj) = (do let a ← z.conj; let b ← w.conj; a.add b) := by
  simp [Cartesian.conj, Cartesian.new, Cartesian.add]; ring_nf

/-- C14: `z * conj z` is real and is the squared modulus. -/
theorem C14_norm (z : Cartesian ℝ) : (do let c ← z.conj; z.mul c) = pure ⟨z.re ^ 2 + z.im ^ 2, 0⟩ := by
  simp [Cartesian.conj, Cartesian.new, Cartesian.mul, ops.mulCartesian]; ring_nf

/-- C14, signed integers: `conj` negates the imaginary part and keeps the real part; it overflows exactly at the
type's minimum. -/
theorem C14_int (hW : 0 < W) (z : Cartesian (PInt m true W)) :
    (z.im.val ≠ -(2 ^ (W - 1)) → ∃ c, z.conj = pure c ∧ c.re = z.re ∧ c.im.val = - z.im.val) ∧
    (z.im.val = -(2 ^ (W - 1)) → match m with
      | .checked => z.conj = Prog.fail .overflow
      | .wrapping => z.conj = pure z) := by
  have hlo := z.im.fits.1; have hhi := z.im.fits.2
  simp only [wlo, whi, if_true] at hlo hhi
  have hpos : (0:ℤ) < 2 ^ (W - 1) := by positivity
  constructor
  · intro h
    have hf : Fits true W (-z.im.val) := by simp only [Fits, wlo, whi, if_true]; omega
    exact ⟨⟨z.re, PInt.mkv _ hf⟩, by simp [Cartesian.conj, Cartesian.new, PInt.fit_of_fits hf], rfl, rfl⟩
  · intro h
    cases m with
    | checked =>
      have hf : ¬ Fits true W (-z.im.val) := by simp only [Fits, wlo, whi, if_true]; omega
      simp [Cartesian.conj, PInt.fit_checked hf, Functor.map]
      rfl
    | wrapping =>
      simp only [Cartesian.conj, Cartesian.new, PInt.neg_def, PInt.fit_wrapping, pure_bind]
      congr 1
      refine cart_ext_modEq hW (Int.ModEq.refl _) ?_
      simp only [PInt.mkv_val]
      refine (wrapInt_modEq hW _).trans ?_
      rw [h]
      have : (2:ℤ) ^ W = 2 * 2 ^ (W - 1) := by
        obtain ⟨k, rfl⟩ : ∃ k, W = k + 1 := ⟨W - 1, by omega⟩
        simp [pow_succ]; ring
      rw [this]
      exact (Int.modEq_iff_dvd.mpr ⟨-1, by ring⟩)

/-- C14, signed fixed point: the same. -/
theorem C14_fixed (z : Cartesian (Fixed m true W F)) :
    (z.im.val ≠ -(2 ^ (W - 1)) → ∃ c, z.conj = pure c ∧ c.re = z.re ∧ c.im.val = - z.im.val) ∧
    (z.im.val = -(2 ^ (W - 1)) → m = .checked → z.conj = Prog.fail .overflow) := by
  have hlo := z.im.fits.1; have hhi := z.im.fits.2
  simp only [wlo, whi, if_true] at hlo hhi
  have hpos : (0:ℤ) < 2 ^ (W - 1) := by positivity
  constructor
  · intro h
    have hf : Fits true W (-z.im.val) := by simp only [Fits, wlo, whi, if_true]; omega
    exact ⟨⟨z.re, Fixed.mkv _ hf⟩, by simp [Cartesian.conj, Cartesian.new, Fixed.fit_of_fits hf], rfl, rfl⟩
  · rintro h rfl
    have hf : ¬ Fits true W (-z.im.val) := by simp only [Fits, wlo, whi, if_true]; omega
    simp [Cartesian.conj, Fixed.fit_checked hf, Functor.map]
    rfl

/-- C14, integers without overflow checks: `conj` is multiplicative modulo 2^W. -/
theorem C14_mul_wrapping (hW : 0 < W) (z w : Cartesian (PInt .wrapping true W)) :
    (do let c ← z.mul w; c.conj) = (do let a ← z.conj; let b ← w.conj; a.mul b) := by
  have wconj : ∀ a : Cartesian (PInt .wrapping true W), ∃ c, a.conj = pure c ∧
      c.re.val ≡ a.re.val [ZMOD 2 ^ W] ∧ c.im.val ≡ - a.im.val [ZMOD 2 ^ W] := fun a =>
    ⟨⟨a.re, PInt.mkv (wrapInt true W (-a.im.val)) (fits_wrapInt _ _ _)⟩,
      by simp only [Cartesian.conj, Cartesian.new, PInt.neg_def, PInt.fit_wrapping, pure_bind],
      Int.ModEq.refl _, wrapInt_modEq hW _⟩
  obtain ⟨t, ht, t1, t2⟩ := wmul hW z w
  obtain ⟨u, hu, u1, u2⟩ := wconj z
  obtain ⟨v, hv, v1, v2⟩ := wconj w
  obtain ⟨x, hx, x1, x2⟩ := wconj t
  obtain ⟨y, hy, y1, y2⟩ := wmul hW u v
  simp only [ht, hu, hv, pure_bind, hx, hy]
  congr 1
  refine cart_ext_modEq hW ?_ ?_
  · refine (x1.trans t1).trans (Int.ModEq.trans ?_ (y1.trans ((u1.mul v1).sub (u2.mul v2))).symm)
    ring_nf; exact Int.ModEq.refl _
  · refine (x2.trans t2.neg).trans (Int.ModEq.trans ?_ (y2.trans ((u1.mul v2).add (u2.mul v1))).symm)
    ring_nf; exact Int.ModEq.refl _

example : Cartesian.conj ⟨i .checked true 8 3, i .checked true 8 (-128)⟩ = Prog.fail .overflow := by rfl
example : Cartesian.conj ⟨i .checked true 8 3, i .checked true 8 (-127)⟩
    = pure ⟨i .checked true 8 3, i .checked true 8 127⟩ := by rfl

end MixedNum
