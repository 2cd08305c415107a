import Verif.Props.AtanFloatExact
import Verif.Props.SymFloat
import Verif.Props.TrigFloat
import Verif.Props.WrapFloat
import Verif.Props.SqrtFloat
import Verif.Props.Exactly
import Verif.Lemmas.Run
import Verif.Spec.Float
import Verif.Props.AddSub
/-! # C168: NaN operands

Full statement (false of the code): an operation on floats one of whose operands is NaN, or has a NaN part, gives NaN in every part
of the result that depends on it. -/

namespace MixedNum
variable {f : Format}
open Flt

theorem ofExact_not_nan (z : Bool) (q : ℚ) : (ofExact z q : Flt f) ≠ .nan := by
  unfold ofExact; intro h
  split at h
  · cases h
  · dsimp only at h; split at h <;> cases h

/-- C168: the basic operations give NaN exactly if an operand is NaN or the operation is invalid: opposite infinities added, zero times
infinity, zero by zero, infinity by infinity. -/
theorem C168_ops_partial (x y : Flt f) :
    (x.add y = .nan ↔ x = .nan ∨ y = .nan ∨ ∃ s, x = .inf s ∧ y = .inf !s) ∧
    (x.sub y = .nan ↔ x = .nan ∨ y = .nan ∨ ∃ s, x = .inf s ∧ y = .inf s) ∧
    (x.mul y = .nan ↔ x = .nan ∨ y = .nan ∨ (∃ s t, x = .inf s ∧ y = .fin t 0) ∨ ∃ s t, x = .fin s 0 ∧ y = .inf t) ∧
    (x.div y = .nan ↔ x = .nan ∨ y = .nan ∨ (∃ s t, x = .inf s ∧ y = .inf t) ∨ ∃ s t, x = .fin s 0 ∧ y = .fin t 0) ∧
    (x.neg = .nan ↔ x = .nan) ∧ (x.abs = .nan ↔ x = .nan) := by
  have ne := @ofExact_not_nan f
  refine ⟨?_, ?_, ?_, ?_, ?_, ?_⟩
  · cases x <;> cases y <;> simp [add, ne]
    rename_i s t; cases s <;> cases t <;> simp
  · cases x <;> cases y <;> simp [sub, neg, add, ne]
    rename_i s t; cases s <;> cases t <;> simp
  · cases x <;> cases y <;> simp [mul, ne]
  · cases x <;> cases y <;> simp [div]
    rename_i s m t n
    by_cases hn : n = 0 <;> by_cases hm : m = 0 <;> simp [hn, hm, ne]
  · cases x <;> simp [neg]
  · cases x <;> simp [Flt.abs]

theorem add_nan (x y : Flt f) (h : x = .nan ∨ y = .nan) : x.add y = .nan :=
  (C168_ops_partial x y).1.mpr (h.elim .inl fun h => .inr (.inl h))
theorem sub_nan (x y : Flt f) (h : x = .nan ∨ y = .nan) : x.sub y = .nan :=
  (C168_ops_partial x y).2.1.mpr (h.elim .inl fun h => .inr (.inl h))
theorem mul_nan (x y : Flt f) (h : x = .nan ∨ y = .nan) : x.mul y = .nan :=
  (C168_ops_partial x y).2.2.1.mpr (h.elim .inl fun h => .inr (.inl h))
theorem div_nan (x y : Flt f) (h : x = .nan ∨ y = .nan) : x.div y = .nan :=
  (C168_ops_partial x y).2.2.2.1.mpr (h.elim .inl fun h => .inr (.inl h))

/-- C168 fails: NaN is lost in the left imaginary part by `+=`, in the divisor's imaginary part by `/`, in a factor by the polar product
with zero, in the dividend when dividing by zero, and in `atan2` beside a zero. -/
theorem C168_counterexample :
    Returns ((⟨.fin false 0, .nan⟩ : Cartesian (Flt F32)).addAssign ⟨.fin false 1, .fin false 2⟩) ⟨.fin false 1, .fin false 3⟩ ∧
    Returns ((⟨.fin false 1, .fin false 0⟩ : Cartesian (Flt F32)).div ⟨.fin false 1, .nan⟩) ⟨.fin false (1/2), .fin true (1/2)⟩ ∧
    Returns (ops.mulPolar (⟨.fin false 0, .nan⟩ : Polar (Flt F32)) ⟨.nan, .nan⟩) ⟨.fin false 0, .fin false 0⟩ ∧
    (∃ z : Cartesian (Flt F32), Returns (Cartesian.divScalar (⟨.nan, .nan⟩ : Cartesian (Flt F32)) (.fin false 0 : Flt F32)) z ∧
      z.re.IsFinite ∧ z.im.IsFinite) ∧
    (∃ z : Flt F32, Returns (atan2Poly (.nan : Flt F32) (.fin false 0)) z ∧ z ≠ .nan) ∧
    (∃ z : Flt F32, Returns (atan2Poly (.fin false 0 : Flt F32) .nan) z ∧ z ≠ .nan) := by
  have hf : F32.Wide := ⟨by decide, by decide, by decide, by decide, by decide⟩
  have nf : ¬ (Flt.nan : Flt F32).IsFinite := by rintro ⟨_, _, h⟩; cases h
  obtain ⟨t, b, hp⟩ := (is_pi hf.ok).fin
  have h2 : (ofExact false 2 : Flt F32) ≠ .nan := ofExact_not_nan _ _
  obtain ⟨u, c, e2⟩ := (lit_int hf (n := 2) (by norm_num)).fin
  refine ⟨.of_eq (by kernel_rfl), .of_eq (by kernel_rfl), .of_eq (by kernel_rfl),
    ⟨_, .of_eq rfl, ⟨_, _, rfl⟩, ⟨_, _, rfl⟩⟩, ⟨_, (C80_nonfinite hf .nan (.fin false 0) (fun h => nf h.1)).2.1 ⟨_, rfl⟩, ?_⟩,
    ⟨_, (C80_nonfinite hf (.fin false 0) .nan (fun h => nf h.2)).1 ⟨_, rfl⟩, ?_⟩⟩
  · have e : (ofExact false 2 : Flt F32) = .fin u c := by rw [← e2]; norm_num
    rw [hp, e]
    have hb : ∀ s, (.fin s b : Flt F32).div (.fin u c) ≠ .nan := by
      intro s h
      rcases (C168_ops_partial _ _).2.2.2.1.mp h with h | h | ⟨_, _, h, _⟩ | ⟨_, _, h, _⟩
      · cases h
      · cases h
      · cases h
      · cases h
        have := (is_pi hf.ok).val
        rw [hp] at this
        have hpos := (piV_bounds hf.ok).1
        cases t <;> simp [Flt.val] at this <;> linarith
    split
    · exact hb _
    · exact hb _
  · split
    · rw [hp]; simp
    · simp

/-- C168: a NaN part of an operand reaches the parts of sums, differences, products and conjugates that depend on it; in a product
that is both parts. -/
theorem C168_complex_partial (z w c : Cartesian (Flt f)) :
    (Returns (z.add w) c → ((z.re = .nan ∨ w.re = .nan) → c.re = .nan) ∧ ((z.im = .nan ∨ w.im = .nan) → c.im = .nan)) ∧
    (Returns (z.sub w) c → ((z.re = .nan ∨ w.re = .nan) → c.re = .nan) ∧ ((z.im = .nan ∨ w.im = .nan) → c.im = .nan)) ∧
    (Returns (z.mul w) c → (z.re = .nan ∨ z.im = .nan ∨ w.re = .nan ∨ w.im = .nan) → c = ⟨.nan, .nan⟩) ∧
    (Returns z.conj c → (z.re = .nan → c.re = .nan) ∧ (z.im = .nan → c.im = .nan)) := by
  refine ⟨fun h => ?_, fun h => ?_, fun h => ?_, fun h => ?_⟩
  · obtain rfl := returns_pure.mp (show Returns (pure ⟨z.re.add w.re, z.im.add w.im⟩) c from h)
    exact ⟨add_nan _ _, add_nan _ _⟩
  · obtain rfl := returns_pure.mp (show Returns (pure ⟨z.re.sub w.re, z.im.sub w.im⟩) c from h)
    exact ⟨sub_nan _ _, sub_nan _ _⟩
  · obtain rfl := returns_pure.mp (show Returns (pure ⟨(z.re.mul w.re).sub (z.im.mul w.im), (z.re.mul w.im).add (z.im.mul w.re)⟩) c from h)
    intro hn
    have e1 : (z.re.mul w.re).sub (z.im.mul w.im) = .nan := by
      rcases hn with hn | hn | hn | hn
      · exact sub_nan _ _ (.inl (mul_nan _ _ (.inl hn)))
      · exact sub_nan _ _ (.inr (mul_nan _ _ (.inl hn)))
      · exact sub_nan _ _ (.inl (mul_nan _ _ (.inr hn)))
      · exact sub_nan _ _ (.inr (mul_nan _ _ (.inr hn)))
    have e2 : (z.re.mul w.im).add (z.im.mul w.re) = .nan := by
      rcases hn with hn | hn | hn | hn
      · exact add_nan _ _ (.inl (mul_nan _ _ (.inl hn)))
      · exact add_nan _ _ (.inr (mul_nan _ _ (.inl hn)))
      · exact add_nan _ _ (.inr (mul_nan _ _ (.inr hn)))
      · exact add_nan _ _ (.inl (mul_nan _ _ (.inr hn)))
    rw [e1, e2]
  · obtain rfl := returns_pure.mp (show Returns (pure ⟨z.re, z.im.neg⟩) c from h)
    exact ⟨fun h => h, fun h => by show z.im.neg = .nan; rw [h]; rfl⟩

/-- C168: a complex quotient is NaN in both parts if a part of the dividend or the real part of the divisor is; the divisor's
imaginary part plays no role. -/
theorem C168_div_partial (z w c : Cartesian (Flt f)) (h : Returns (z.div w) c) (hn : z.re = .nan ∨ z.im = .nan ∨ w.re = .nan) :
    c = ⟨.nan, .nan⟩ := by
  set n2 := ((w.re.mul w.re).add (w.re.mul w.re))
  obtain rfl := returns_pure.mp (show Returns (pure ⟨((z.re.mul w.re).add (z.im.mul w.re)).div n2,
    ((z.im.mul w.re).sub (z.re.mul w.re)).div n2⟩) c from h)
  have e1 : (z.re.mul w.re).add (z.im.mul w.re) = .nan := by
    rcases hn with hn | hn | hn
    · exact add_nan _ _ (.inl (mul_nan _ _ (.inl hn)))
    · exact add_nan _ _ (.inr (mul_nan _ _ (.inl hn)))
    · exact add_nan _ _ (.inl (mul_nan _ _ (.inr hn)))
  have e2 : (z.im.mul w.re).sub (z.re.mul w.re) = .nan := by
    rcases hn with hn | hn | hn
    · exact sub_nan _ _ (.inr (mul_nan _ _ (.inl hn)))
    · exact sub_nan _ _ (.inl (mul_nan _ _ (.inl hn)))
    · exact sub_nan _ _ (.inl (mul_nan _ _ (.inr hn)))
  rw [e1, e2]; rfl

/-- `(1 + NaN i) / (1+2i)` on `f32`. -/
example := C168_div_partial (f := F32) ⟨.fin false 1, .nan⟩ ⟨.fin false 1, .fin false 2⟩ ⟨.nan, .nan⟩ (by run 0) (.inr (.inl rfl))

/-- C168: `+=` and `-=` give NaN in both parts if a real part is NaN, in the imaginary part if the right one is; the left imaginary part
plays no role. -/
theorem C168_assign_partial (z w c : Cartesian (Flt f)) (h : Returns (z.addAssign w) c ∨ Returns (z.subAssign w) c) :
    ((z.re = .nan ∨ w.re = .nan) → c = ⟨.nan, .nan⟩) ∧ (w.im = .nan → c.im = .nan) := by
  rcases h with h | h
  · obtain rfl := returns_pure.mp (show Returns (pure ⟨z.re.add w.re, (z.re.add w.re).add w.im⟩) c from h)
    exact ⟨fun h => by rw [add_nan _ _ h, add_nan _ _ (.inl rfl)], fun h => add_nan _ _ (.inr h)⟩
  · obtain rfl := returns_pure.mp (show Returns (pure ⟨z.re.sub w.re, (z.re.sub w.re).sub w.im⟩) c from h)
    exact ⟨fun h => by rw [sub_nan _ _ h, sub_nan _ _ (.inl rfl)], fun h => sub_nan _ _ (.inr h)⟩

example := C168_assign_partial (f := F32) ⟨.nan, .fin false 1⟩ ⟨.fin false 0, .fin false 0⟩ ⟨.nan, .nan⟩ (.inl (.of_eq rfl))

/-- C168: a NaN scalar. It spoils both parts of products and quotients and the real part of sums; a NaN part of the complex operand
stays NaN unless it is divided by zero. -/
theorem C168_scalar_partial (z c : Cartesian (Flt f)) (x : Flt f) :
    (Returns (Cartesian.mulScalar z x) c → (x = .nan → c = ⟨.nan, .nan⟩) ∧ (z.re = .nan → c.re = .nan) ∧ (z.im = .nan → c.im = .nan)) ∧
    (Returns (Cartesian.divScalar z x) c → (x = .nan → c = ⟨.nan, .nan⟩) ∧
      ((∀ s, x ≠ .fin s 0) → (z.re = .nan → c.re = .nan) ∧ (z.im = .nan → c.im = .nan))) ∧
    (Returns (Cartesian.addScalar z x) c ∨ Returns (Cartesian.subScalar z x) c →
      ((x = .nan ∨ z.re = .nan) → c.re = .nan) ∧ (z.im = .nan → c.im = .nan)) := by
  have cn : ∀ {a : Flt f}, a = .nan → (a.cast : Flt f) = .nan := by rintro _ rfl; rfl
  refine ⟨fun h => ?_, fun h => ?_, fun h => ?_⟩
  · obtain rfl := returns_pure.mp (show Returns (pure ⟨z.re.mul x.cast, z.im.mul x.cast⟩) c from h)
    exact ⟨fun h => by rw [mul_nan _ _ (.inr (cn h)), mul_nan _ _ (.inr (cn h))], fun h => mul_nan _ _ (.inl h), fun h => mul_nan _ _ (.inl h)⟩
  · have e : (∀ s, x ≠ .fin s 0) → c = ⟨z.re.div x.cast, z.im.div x.cast⟩ := by
      intro h0
      have hb : (MixedCmp.beq x MixedZero.zero) = false := by
        cases x with
        | nan => rfl
        | inf s => rfl
        | fin s m =>
          have hm : m ≠ 0 := fun hm => h0 s (by rw [hm])
          cases s <;> simp [MixedCmp.beq, MixedZero.zero, Flt.beq, Flt.val, hm]
      unfold Cartesian.divScalar at h
      rw [hb] at h
      exact (returns_pure.mp (show Returns (pure ⟨z.re.div x.cast, z.im.div x.cast⟩) c from h)).symm
    refine ⟨fun hx => ?_, fun h0 => ?_⟩
    · rw [e (by rw [hx]; intro s hs; cases hs), div_nan _ _ (.inr (cn hx)), div_nan _ _ (.inr (cn hx))]
    · rw [e h0]; exact ⟨fun h => div_nan _ _ (.inl h), fun h => div_nan _ _ (.inl h)⟩
  · rcases h with h | h
    · obtain rfl := returns_pure.mp (show Returns (pure ⟨z.re.add x.cast, z.im⟩) c from h)
      exact ⟨fun h => add_nan _ _ (h.elim (fun h => .inr (cn h)) .inl), fun h => h⟩
    · obtain rfl := returns_pure.mp (show Returns (pure ⟨z.re.sub x.cast, z.im⟩) c from h)
      exact ⟨fun h => sub_nan _ _ (h.elim (fun h => .inr (cn h)) .inl), fun h => h⟩

theorem powStrip_nan (k e : ℕ) : (powStrip k (.nan : Flt f) e).1 = .nan := by
  induction k generalizing e with
  | zero => rfl
  | succ k ih =>
    unfold powStrip; split
    · exact ih _
    · rfl

theorem powAcc_nan (k : ℕ) (b : Flt f) (e : ℕ) : powAcc k .nan b e = .nan := by
  induction k generalizing b e with
  | zero => rfl
  | succ k ih =>
    unfold powAcc; split
    · dsimp only
      split
      · exact ih _ _
      · exact ih _ _
    · rfl

/-- C168: powers of NaN are NaN, except that the power zero is one. -/
theorem C168_powi_partial (e : ℤ) (he : e ≠ 0) : Returns (MixedPowi.powi (.nan : Flt f) e) .nan ∧
    Returns (MixedPowi.powi (.nan : Flt f) 0) (ofExact false 1) := by
  have hp : ∀ n : ℕ, n ≠ 0 → pow (.nan : Flt f) n = .nan := by
    intro n hn
    unfold Flt.pow
    rw [if_neg hn]
    have := powStrip_nan (f := f) 64 n
    generalize powStrip 64 (.nan : Flt f) n = q at *
    obtain ⟨b, e⟩ := q
    dsimp only at this ⊢
    rw [this]; exact powAcc_nan _ _ _
  refine ⟨.of_eq ?_, .of_eq rfl⟩
  show pure (if e < 0 then pow (div (ofExact false 1) .nan) e.natAbs else pow .nan e.natAbs) = _
  rw [div_nan _ _ (.inr rfl), hp _ (by omega)]; simp

/-- C168: `atan2` with a NaN operand is NaN unless the other is zero. -/
theorem C168_atan2_partial (hf : f.Wide) (y x : Flt f) (h : y = .nan ∨ x = .nan) (h1 : ∀ s, y ≠ .fin s 0) (h2 : ∀ s, x ≠ .fin s 0) :
    Returns (atan2Poly y x) .nan :=
  (C80_nonfinite hf y x (by rintro ⟨⟨_, _, e⟩, ⟨_, _, e'⟩⟩; rcases h with h | h
                            · rw [h] at e; cases e
                            · rw [h] at e'; cases e')).2.2 h1 h2

/-- C168: the routines of the crate: phase wrapping, sine, cosine, square root and arctangent of NaN are NaN. -/
theorem C168_routines_partial (hf : f.Wide) (md : Mode) (n : ℕ) :
    Returns (wrapPhase (.nan : Flt f)) .nan ∧ Returns (sin (.nan : Flt f)) .nan ∧ Returns (cos (.nan : Flt f)) .nan ∧
    Returns (niirf (.i32 md) (.nan : Flt f) n) .nan ∧ Returns (atanPoly (.nan : Flt f)) .nan := by
  refine ⟨C34_nan, C76_nan, ?_, C71_nan_partial md n, ?_⟩
  · rw [cos_flt, show (Flt.nan : Flt f).add ((piF f).div (ofExact false ((2:ℤ):ℚ))) = .nan by rw [Flt.add]]
    exact C34_nan.bind C76_nan
  · show Returns (atan2Poly .nan (ofExact false 1)) _
    rw [one_fin hf]
    exact C168_atan2_partial hf _ _ (.inl rfl) (by intro s h; cases h) (by intro s h; cases h)

/-- C168, through external functions: if the square root of NaN is NaN, so is the magnitude of a number with a NaN part; a NaN
magnitude, or sine and cosine that are NaN, give NaN in both parts of the Cartesian form. -/
theorem C168_forms_partial [MixedSqrt (Flt f)] [MixedSinCos (Flt f)] (hs : Returns (MixedSqrt.sqrt (.nan : Flt f)) .nan)
    (hc : Returns (MixedSinCos.sincos (.nan : Flt f)) (.nan, .nan)) (z c : Cartesian (Flt f)) (p : Polar (Flt f)) :
    ((z.re = .nan ∨ z.im = .nan) → Returns z.mag .nan) ∧
    ((p.mag = .nan ∨ p.ang = .nan) → Returns p.toCartesian c → c = ⟨.nan, .nan⟩) := by
  refine ⟨fun h => ?_, fun h hr => ?_⟩
  · show Returns (pure ((z.re.mul z.re).add (z.im.mul z.im)) >>= MixedSqrt.sqrt) _
    rw [pure_bind, add_nan _ _ (h.elim (fun h => .inl (mul_nan _ _ (.inl h))) fun h => .inr (mul_nan _ _ (.inl h)))]
    exact hs
  · rcases h with h | h
    · obtain ⟨N, hN⟩ := hr
      obtain ⟨t, -, h2⟩ := Prog.bind_ok_inv (show (wrapPhase p.ang >>= _) N = .ok c from hN N le_rfl)
      obtain ⟨⟨s, d⟩, -, h3⟩ := Prog.bind_ok_inv h2
      have h4 : Out.ok (⟨p.mag.mul d, p.mag.mul s⟩ : Cartesian (Flt f)) = .ok c := h3
      injection h4 with h4
      rw [← h4]
      rw [mul_nan _ _ (.inl h), mul_nan _ _ (.inl h)]
    · obtain ⟨m, a⟩ := p
      dsimp only at h; subst h
      have e := C87_nan m .nan .nan hc
      rw [hr.unique e, mul_nan _ _ (.inr rfl)]

/-- C168: a polar product of numbers neither of which has magnitude zero keeps NaN in the magnitude and in the angle. -/
theorem C168_polar_partial (p q c : Polar (Flt f)) (h1 : ∀ s, p.mag ≠ .fin s 0) (h2 : ∀ s, q.mag ≠ .fin s 0) (h : Returns (p.mul q) c) :
    ((p.mag = .nan ∨ q.mag = .nan) → c.mag = .nan) ∧ ((p.ang = .nan ∨ q.ang = .nan) → c.ang = .nan) := by
  have hb : ∀ x : Flt f, (∀ s, x ≠ .fin s 0) → MixedCmp.beq x (ofExact false ((0:ℤ):ℚ)) = false := by
    intro x h0
    have z0 : (ofExact false ((0:ℤ):ℚ) : Flt f) = .fin false 0 := by simp [ofExact]
    rw [z0]
    cases x with
    | nan => rfl
    | inf s => rfl
    | fin s m =>
      have hm : m ≠ 0 := fun hm => h0 s (by rw [hm])
      cases s <;> simp [MixedCmp.beq, Flt.beq, Flt.val, hm]
  have h' : Returns (if MixedCmp.beq p.mag (ofExact false ((0:ℤ):ℚ)) || MixedCmp.beq q.mag (ofExact false ((0:ℤ):ℚ)) then
      pure ⟨ofExact false ((0:ℤ):ℚ), ofExact false ((0:ℤ):ℚ)⟩ else pure ⟨p.mag.mul q.mag, p.ang.add q.ang⟩ : Prog (Polar (Flt f))) c := h
  rw [hb _ h1, hb _ h2] at h'
  obtain rfl := returns_pure.mp (show Returns (pure ⟨p.mag.mul q.mag, p.ang.add q.ang⟩) c from h')
  exact ⟨mul_nan _ _, add_nan _ _⟩

/-- Concrete cases of C168 on `f32`: (NaN + 1i) * (2 + 3i) is NaN in both parts, and NaN cubed is NaN. -/
example : Returns ((⟨.nan, .fin false 1⟩ : Cartesian (Flt F32)).mul ⟨.fin false 2, .fin false 3⟩) ⟨.nan, .nan⟩ := .of_eq rfl
example : Returns (MixedPowi.powi (.nan : Flt F32) 3) .nan := (C168_powi_partial 3 (by decide)).1
example : Returns (atan2Poly (.nan : Flt F32) (.fin true 1)) .nan :=
  C168_atan2_partial ⟨by decide, by decide, by decide, by decide, by decide⟩ _ _ (.inl rfl) (by intro s h; cases h) (by intro s h; cases h)
example : ∃ (i : MixedSqrt (Flt F32)) (j : MixedSinCos (Flt F32)), Returns (i.sqrt .nan) .nan ∧ Returns (j.sincos .nan) (.nan, .nan) :=
  ⟨⟨pure⟩, ⟨fun x => pure (x, x)⟩, .of_eq rfl, .of_eq rfl⟩

end MixedNum
