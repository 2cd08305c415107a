import Verif.Spec.Symmetric
import Verif.Props.SymFloat
import Verif.Props.MagSym
import Verif.Props.WrapSym
import Verif.Props.Undo
import Verif.Props.PolarLaws
import Verif.Props.AddSub
import Verif.Lemmas.Run
import Verif.Lemmas.Case
/-! # C154: conjugation against conversions and the exponential on machine numbers -/

namespace MixedNum
variable {f : Format} {m : Mode} {W F : ℕ}

/-- What follows a step that returns. -/
theorem returns_step {α β : Type} {p : Prog α} {g : α → Prog β} {a : α} {b : β} (hp : Returns p a) (h : Returns (p >>= g) b) :
    Returns (g a) b := by
  obtain ⟨N, hN⟩ := hp; obtain ⟨M, hM⟩ := h
  refine ⟨max N M, fun n hn => ?_⟩
  obtain ⟨a', h1, h2⟩ := Prog.bind_ok_inv (hM n (le_trans (le_max_right _ _) hn))
  rw [hN n (le_trans (le_max_left _ _) hn)] at h1
  cases h1; exact h2

section Float
open Flt

theorem sgn_of_same {x y : Flt f} (h : y.Same x) : Sgn false x y := by
  rcases h with rfl | ⟨s, t, rfl, rfl⟩
  · exact Sgn.refl _
  · exact ⟨rfl, .inl rfl⟩

theorem sgn_of_opp {x y : Flt f} (h : y.Same x.neg) : Sgn true x y := by
  have := (sgn_neg x).trans (sgn_of_same h); simpa using this

/-- C154, all floats, NaN and infinities included: the exponential of the conjugate is the conjugate of the exponential, to the last
bit but for the signs of zeros, if libm's sine is odd and its cosine even to the last bit. -/
theorem C154_exp_float [Libm f] (hs : SymSinCos (f := f) MixedSinCos.sincos) (z : Cartesian (Flt f)) :
    ∃ c d : Cartesian (Flt f), Returns (do Cartesian.conj (← z.exp)) c ∧ Returns (do Cartesian.exp (← z.conj)) d ∧
      d.re.Same c.re ∧ d.im.Same c.im := by
  obtain ⟨s, c, s', c', h1, h2, h3, h4⟩ := hs z.im z.im.neg (.inl rfl)
  refine ⟨⟨c.mul (Libm.exp z.re), (s.mul (Libm.exp z.re)).neg⟩, ⟨c'.mul (Libm.exp z.re), s'.mul (Libm.exp z.re)⟩, ?_, ?_, ?_, ?_⟩
  · have : Returns z.exp ⟨c.mul (Libm.exp z.re), s.mul (Libm.exp z.re)⟩ := h1.bind (.of_eq rfl)
    exact this.bind (.of_eq rfl)
  · have : Returns (Cartesian.exp (⟨z.re, z.im.neg⟩ : Cartesian (Flt f))) ⟨c'.mul (Libm.exp z.re), s'.mul (Libm.exp z.re)⟩ :=
      h2.bind (.of_eq rfl)
    exact (C91_conj z).1.bind this
  · exact ((sgn_of_same h4).mul (Sgn.refl _)).same
  · exact ((sgn_of_opp h3).mul (Sgn.refl _)).opp

example [Libm F32] (hs : SymSinCos (f := F32) MixedSinCos.sincos) := C154_exp_float hs ⟨.fin true (1 / 2), .fin false 3⟩

/-- C154, all valid floats: the Cartesian form of the conjugate is the conjugate of the Cartesian form, or both conversions loop for
ever; an angle that wraps to minus pi has the same Cartesian form as its opposite. -/
theorem C154_to_cartesian_float [MixedSinCos (Flt f)] (hf : f.Ok) (hs : SymSinCos (f := f) MixedSinCos.sincos) (p : Polar (Flt f))
    (hx : p.ang.Valid) :
    (Diverges p.toCartesian ∧ Diverges (do Polar.toCartesian (← p.conj)) ∧ Diverges p.conjCartesian) ∨
    ∃ (q r : Flt f) (c d : Cartesian (Flt f)), Returns MixedPi.pi q ∧ Returns (wrapPhase p.ang) r ∧
      Returns p.toCartesian c ∧ Returns (do Polar.toCartesian (← p.conj)) d ∧ Returns p.conjCartesian d ∧
      (r = q.neg → d = c) ∧ (r ≠ q.neg → d.re.Same c.re ∧ d.im.Same c.im.neg) := by
  have ec : (do Polar.toCartesian (← p.conj)) = Polar.toCartesian (⟨p.mag, p.ang.neg⟩ : Polar (Flt f)) := rfl
  have ec' : p.conjCartesian = Polar.toCartesian (⟨p.mag, p.ang.neg⟩ : Polar (Flt f)) := rfl
  rw [ec, ec']
  rcases C106_neg_float hf p.ang hx with ⟨h1, h2⟩ | ⟨q, r, r', h1, h2, h3, h4, h5⟩
  · exact .inl ⟨h1.bind, h2.bind, h2.bind⟩
  · right
    by_cases hr : r = q.neg
    · obtain ⟨s, c, -, -, k1, -⟩ := hs r r.neg (.inl rfl)
      have e : r' = r := by rw [h4 hr, hr]
      rw [e] at h3
      have d1 : Returns (Polar.toCartesian (⟨p.mag, p.ang.neg⟩ : Polar (Flt f))) ⟨p.mag.mul c, p.mag.mul s⟩ :=
        h3.bind (k1.bind (.of_eq rfl))
      exact ⟨q, r, ⟨p.mag.mul c, p.mag.mul s⟩, ⟨p.mag.mul c, p.mag.mul s⟩, h1, h2, h2.bind (k1.bind (.of_eq rfl)),
        d1, d1, fun _ => rfl, fun h => absurd hr h⟩
    · obtain ⟨s, c, s', c', k1, k2, k3, k4⟩ := hs r r' (h5 hr)
      have d1 : Returns (Polar.toCartesian (⟨p.mag, p.ang.neg⟩ : Polar (Flt f))) ⟨p.mag.mul c', p.mag.mul s'⟩ :=
        h3.bind (k2.bind (.of_eq rfl))
      exact ⟨q, r, ⟨p.mag.mul c, p.mag.mul s⟩, ⟨p.mag.mul c', p.mag.mul s'⟩, h1, h2, h2.bind (k1.bind (.of_eq rfl)),
        d1, d1, fun h => absurd h hr,
        fun _ => ⟨((Sgn.refl _).mul (sgn_of_same k4)).same, ((Sgn.refl _).mul (sgn_of_opp k3)).opp⟩⟩

example [MixedSinCos (Flt F32)] (hs : SymSinCos (f := F32) MixedSinCos.sincos) := C154_to_cartesian_float Flt.ok_F32 hs ⟨.fin true (1 / 2), .fin false 3⟩
  (by is_float 3 0)

/-- C154, all floats off the real axis: the polar form of the conjugate has the same magnitude to the last bit, and the opposite
angle. -/
theorem C154_to_polar_float [MixedSqrt (Flt f)] [MixedAtan (Flt f)] (ha : SymAtan (f := f) MixedAtan.atan2) (z : Cartesian (Flt f))
    (h0 : ∀ s, z.im ≠ .fin s 0) (v : Flt f) (hv : Returns z.mag v) :
    ∃ a a' : Flt f, Returns z.toPolar ⟨v, a⟩ ∧ Returns (do Cartesian.toPolar (← z.conj)) ⟨v, a'⟩ ∧ Returns z.conjPolar ⟨v, a'⟩ ∧
      a'.Same a.neg := by
  obtain ⟨a, a', h1, h2, h3⟩ := ha z.im z.re h0
  have hv' : Returns (Cartesian.mag (⟨z.re, z.im.neg⟩ : Cartesian (Flt f))) v := by
    rw [(C134_float z.re z.im).2.1]; exact hv
  have d : Returns (Cartesian.toPolar (⟨z.re, z.im.neg⟩ : Cartesian (Flt f))) ⟨v, a'⟩ := hv'.bind (h2.bind (.of_eq rfl))
  exact ⟨a, a', hv.bind (h1.bind (.of_eq rfl)), d, d, h3⟩

example [MixedSqrt (Flt F32)] [MixedAtan (Flt F32)] (ha : SymAtan (f := F32) MixedAtan.atan2) := C154_to_polar_float ha ⟨.fin true (1 / 2), .fin false 3⟩
  (fun s h => by cases s <;> simp at h)

end Float

section Fixed
open Fixed

/-- A negated product rounds down to the negative or to one unit less. -/
theorem neg_floor (a : ℤ) (F : ℕ) : -a / 2 ^ F = -(a / 2 ^ F) ∨ -a / 2 ^ F = -(a / 2 ^ F) - 1 := by
  have hP : (0:ℤ) < 2 ^ F := by positivity
  generalize (2:ℤ) ^ F = P at *
  have fl : ∀ y : ℤ, y / P * P ≤ y ∧ y < y / P * P + P := fun y =>
    ⟨Int.ediv_mul_le _ hP.ne', by have := Int.lt_ediv_add_one_mul_self y hP; linarith [add_mul (y / P) 1 P]⟩
  obtain ⟨a1, a2⟩ := fl a; obtain ⟨b1, b2⟩ := fl (-a)
  generalize a / P = q at *; generalize -a / P = q' at *
  have h1 : q + q' < 1 := by
    by_contra h
    push Not at h
    nlinarith
  have h2 : -2 < q + q' := by
    by_contra h
    push Not at h
    nlinarith
  omega

/-- Scaling `(c, s)` and `(c, -s)` by the same number. -/
theorem conj_scaled (hW : 0 < W) {s s' c g : Fixed .checked true W F} (hs : s'.val = -s.val) {z : Cartesian (Fixed .checked true W F)}
    (h : Returns (do
      let re ← Fixed.fit (c.val * g.val / 2 ^ F); let im ← Fixed.fit (s.val * g.val / 2 ^ F)
      pure (⟨re, im⟩ : Cartesian (Fixed .checked true W F))) z) (hm : z.im.val ≠ -2 ^ (W - 1)) :
    ∃ w : Cartesian (Fixed .checked true W F), Returns (do
      let re ← Fixed.fit (c.val * g.val / 2 ^ F); let im ← Fixed.fit (s'.val * g.val / 2 ^ F)
      pure (⟨re, im⟩ : Cartesian (Fixed .checked true W F))) w ∧ w.re = z.re ∧ (w.im.val = -z.im.val ∨ w.im.val = -z.im.val - 1) := by
  obtain ⟨h1, h2⟩ := returns_pair h
  have e := (returns_fit hW h2).2 rfl
  have b := z.im.fits
  have k := neg_floor (s.val * g.val) F
  rw [← neg_mul, ← hs, ← e] at k
  have ft : Fits true W (s'.val * g.val / 2 ^ F) := by
    have hb : -2 ^ (W - 1) ≤ z.im.val ∧ z.im.val < 2 ^ (W - 1) := b
    have : -2 ^ (W - 1) ≤ s'.val * g.val / 2 ^ F ∧ s'.val * g.val / 2 ^ F < 2 ^ (W - 1) := by
      generalize (2:ℤ) ^ (W - 1) = M at *
      rcases k with k | k <;> rw [k] <;> omega
    exact this
  refine ⟨⟨z.re, mkv _ ft⟩, h1.bind (.of_eq ?_), rfl, ?_⟩
  · rw [fit_of_fits ft]; rfl
  · exact k

/-- C154, fixed point with overflow checks: the exponential of the conjugate has the same real part and the opposite imaginary part,
or one unit less. -/
theorem C154_exp_fixed [Cordic .checked W F] (hW : 0 < W) (hs : FixedSymSinCos (m := .checked) (W := W) (F := F) Cordic.sinCos)
    (z z' c : Cartesian (Fixed .checked true W F)) (hz : Returns z.conj z') (g : Fixed .checked true W F)
    (hg : Returns (Cordic.exp z.re) g) (hc : Returns z.exp c) (hm : c.im.val ≠ -2 ^ (W - 1)) :
    ∃ d : Cartesian (Fixed .checked true W F), Returns z'.exp d ∧ d.re = c.re ∧ (d.im.val = -c.im.val ∨ d.im.val = -c.im.val - 1) := by
  obtain ⟨h1, h2⟩ := returns_pair (p := (pure z.re : Prog (Fixed .checked true W F))) (q := Fixed.fit (-z.im.val)) hz
  have e1 : z'.re = z.re := (returns_pure.mp h1).symm
  have e2 := (returns_fit hW h2).2 rfl
  rcases hs _ _ e2 with ⟨s, k, s', hsc, hsc', hs'⟩ | ⟨e, -, he, -⟩
  · have hc : Returns (do
        let re ← Fixed.fit (k.val * g.val / 2 ^ F); let im ← Fixed.fit (s.val * g.val / 2 ^ F)
        pure (⟨re, im⟩ : Cartesian (Fixed .checked true W F))) c := by
      have hc := returns_step (p := Cordic.sinCos z.im) hsc hc
      exact returns_step (p := Cordic.exp z.re) hg hc
    obtain ⟨d, d1, d2⟩ := conj_scaled hW hs' hc hm
    refine ⟨d, hsc'.bind (Returns.bind (a := g) ?_ d1), d2⟩
    rw [e1]; exact hg
  · exact (hc.not_panics he.bind).elim

/-- The hypotheses hold with an identity for a sine and the constant 1 for cosine and exponential. -/
example := @C154_exp_fixed 16 8 ⟨pure, pure, fun x => pure (x, fx .checked true 16 8 256), pure, pure, pure, fun x _ => pure x,
    fun _ => pure (fx .checked true 16 8 256)⟩ (by decide) (fun x y h => .inl ⟨x, _, y, .of_eq rfl, .of_eq rfl, h⟩)
  ⟨fx .checked true 16 8 0, fx .checked true 16 8 128⟩ ⟨fx .checked true 16 8 0, fx .checked true 16 8 (-128)⟩
  ⟨fx .checked true 16 8 256, fx .checked true 16 8 128⟩ (by run 0) (fx .checked true 16 8 256) (.of_eq rfl) (by run 0) (by decide)

/-- C154, fixed point with overflow checks: the Cartesian form of the conjugate has the same real part and the opposite imaginary
part, or one unit less; angles that wrap to minus pi have the same Cartesian form as their opposites. -/
theorem C154_to_cartesian_fixed (h : F + 4 ≤ W) (sc : Fixed .checked true W F → Prog (Fixed .checked true W F × Fixed .checked true W F))
    (hs : FixedSymSinCos sc) (p p' : Polar (Fixed .checked true W F)) (hp : Returns p.conj p') (c : Cartesian (Fixed .checked true W F))
    (hc : Returns (@Polar.toCartesian _ _ _ _ _ _ ⟨sc⟩ p) c) :
    ∃ q r : Fixed .checked true W F, Returns MixedPi.pi q ∧ Returns (wrapPhase p.ang) r ∧
      (r.val = -q.val → Returns (@Polar.toCartesian _ _ _ _ _ _ ⟨sc⟩ p') c) ∧
      (r.val ≠ -q.val → c.im.val ≠ -2 ^ (W - 1) → ∃ d : Cartesian (Fixed .checked true W F),
        Returns (@Polar.toCartesian _ _ _ _ _ _ ⟨sc⟩ p') d ∧ d.re = c.re ∧ (d.im.val = -c.im.val ∨ d.im.val = -c.im.val - 1)) := by
  have hW : 0 < W := by omega
  have hp : p'.mag = p.mag ∧ p'.ang.val = -p.ang.val := by
    have e : p.conj = ((pure p.mag : Prog (Fixed .checked true W F)) >>= fun u => Fixed.fit (-p.ang.val) >>= fun v => pure ⟨u, v⟩) := rfl
    rw [e] at hp
    obtain ⟨h1, h2⟩ := returns_polar hp
    exact ⟨(returns_pure.mp h1).symm, (returns_fit hW h2).2 rfl⟩
  obtain ⟨q, r, r', h1, h2, h3, h4, h5⟩ := C106_neg_fixed h p.ang p'.ang hp.2
  have hc := returns_step h2 hc
  refine ⟨q, r, h1, h2, fun hr => ?_, fun hr hm => ?_⟩
  · rw [h4 hr] at h3
    refine h3.bind ?_
    rw [hp.1]; exact hc
  · rcases hs _ _ (h5 hr) with ⟨s, k, s', hsc, hsc', hs'⟩ | ⟨e, -, he, -⟩
    · have hc : Returns (do
          let re ← Fixed.fit (p.mag.val * k.val / 2 ^ F); let im ← Fixed.fit (p.mag.val * s.val / 2 ^ F)
          pure (⟨re, im⟩ : Cartesian (Fixed .checked true W F))) c := by
        have hc := returns_step (p := sc r) hsc hc
        exact hc
      rw [mul_comm p.mag.val, mul_comm p.mag.val] at hc
      obtain ⟨d, d1, d2⟩ := conj_scaled hW hs' hc hm
      rw [mul_comm k.val, mul_comm s'.val] at d1
      refine ⟨d, h3.bind (hsc'.bind ?_), d2⟩
      rw [hp.1]; exact d1
    · exact (hc.not_panics he.bind).elim

/-- One unit at angle 1/2, with the identity for a sine; `C154_unit_lost` computes both sides. -/
example := C154_to_cartesian_fixed (W := 16) (F := 8) (by decide) (fun x => pure (x, fx .checked true 16 8 256))
  (fun x y h => .inl ⟨x, _, y, .of_eq rfl, .of_eq rfl, h⟩) ⟨fx .checked true 16 8 1, fx .checked true 16 8 128⟩
  ⟨fx .checked true 16 8 1, fx .checked true 16 8 (-128)⟩ (by run 0) ⟨fx .checked true 16 8 1, fx .checked true 16 8 0⟩ (by run 2)

/-- C154, fixed point, either mode, off the real axis: the polar form of the conjugate has the same magnitude and exactly the opposite
angle. -/
theorem C154_to_polar_fixed (hW : 0 < W) (at2 : Fixed m true W F → Fixed m true W F → Prog (Fixed m true W F)) (ha : FixedSymAtan at2)
    (z z' : Cartesian (Fixed m true W F)) (hz : Returns z.conj z') (hmin : z.im.val ≠ -2 ^ (W - 1)) (h0 : z.im.val ≠ 0)
    (v a : Fixed m true W F) (hv : Returns z.mag v) (hp : Returns (@Cartesian.toPolar _ _ _ _ ⟨at2⟩ z) ⟨v, a⟩) :
    ∃ a' : Fixed m true W F, Returns (@Cartesian.toPolar _ _ _ _ ⟨at2⟩ z') ⟨v, a'⟩ ∧ a'.val = -a.val := by
  obtain ⟨h1, h2⟩ := returns_pair (p := (pure z.re : Prog (Fixed m true W F))) (q := Fixed.fit (-z.im.val)) hz
  have e1 : z'.re = z.re := (returns_pure.mp h1).symm
  have e2 : z'.im.val = -z.im.val := by
    refine eq_of_modEq_of_fits hW z'.im.fits ?_ (returns_fit hW h2).1
    have hb : -2 ^ (W - 1) ≤ z.im.val ∧ z.im.val < 2 ^ (W - 1) := z.im.fits
    have : -2 ^ (W - 1) ≤ -z.im.val ∧ -z.im.val < 2 ^ (W - 1) := by
      generalize (2:ℤ) ^ (W - 1) = M at *
      omega
    exact this
  have hp := returns_step (p := ops.abs z) hv hp
  rcases ha z.im z'.im z.re h0 e2 with ⟨r, r', r1, r2, r3⟩ | ⟨e, -, he, -⟩
  · have hp := returns_step r1 hp
    cases returns_pure.mp hp
    have hv' : Returns (ops.abs z') v := by
      have : ops.abs z' = ops.abs z := C134_conj_fixed hW z z' hz
      rw [this]; exact hv
    refine ⟨r', hv'.bind (Returns.bind (a := r') ?_ (.of_eq rfl)), r3⟩
    rw [e1]; exact r2
  · exact (hp.not_panics he.bind).elim

example := C154_to_polar_fixed (m := .checked) (W := 16) (F := 8) (by decide) (fun y _ => pure y) (fun y y' _ _ h => .inl ⟨y, y', .of_eq rfl, .of_eq rfl, h⟩)
  ⟨fx .checked true 16 8 768, fx .checked true 16 8 1024⟩ ⟨fx .checked true 16 8 768, fx .checked true 16 8 (-1024)⟩ (by run 0) (by decide) (by decide)
  (fx .checked true 16 8 1280) (fx .checked true 16 8 1024) (by run 50) (by run 50)

/-- The unit is lost in the simplest case: one unit at angle 1/2, with the identity for a sine. -/
theorem C154_unit_lost :
    let sc : Fixed .checked true 16 8 → Prog (Fixed .checked true 16 8 × Fixed .checked true 16 8) :=
      fun x => pure (x, fx .checked true 16 8 256)
    FixedSymSinCos sc ∧
    Returns (@Polar.toCartesian _ _ _ _ _ _ ⟨sc⟩ ⟨fx .checked true 16 8 1, fx .checked true 16 8 128⟩)
      ⟨fx .checked true 16 8 1, fx .checked true 16 8 0⟩ ∧
    Returns (@Polar.toCartesian _ _ _ _ _ _ ⟨sc⟩ ⟨fx .checked true 16 8 1, fx .checked true 16 8 (-128)⟩)
      ⟨fx .checked true 16 8 1, fx .checked true 16 8 (-1)⟩ := by
  refine ⟨fun x y h => .inl ⟨x, _, y, .of_eq rfl, .of_eq rfl, h⟩, ?_, ?_⟩ <;> run 2

/-- There are symmetric functions. -/
example : SymSinCos (f := F32) (fun x => pure (x, .fin false 1)) ∧ SymAtan (f := F32) (fun y _ => pure y) ∧
    FixedSymAtan (m := .wrapping) (W := 16) (F := 8) (fun y _ => pure y) :=
  ⟨fun x y h => ⟨x, _, y, _, .of_eq rfl, .of_eq rfl, h, .inl rfl⟩, fun y _ _ => ⟨y, _, .of_eq rfl, .of_eq rfl, .inl rfl⟩,
    fun y y' _ _ h => .inl ⟨y, y', .of_eq rfl, .of_eq rfl, h⟩⟩

end Fixed
end MixedNum
