import Verif.Props.Wrap
import Verif.Props.WrapFloat
import Verif.Spec.FloatSame
import Verif.Props.AddSub
import Verif.Lemmas.Run
/-! C106: phase wrapping, negation and addition. -/

namespace MixedNum
open Flt

/-- Opposite angles wrap to opposite values, except that `-π` stands for both ends. -/
theorem WrapExact.neg {α : Type} [MixedCmp α] [NumOps α] [Lit α] [MixedPi α] [MixedNumSigned α] (E : WrapExact α) {x y : α}
    (h : E.v y = -E.v x) : ∃ r r', Returns (wrapPhase x) r ∧ Returns (wrapPhase y) r' ∧
      (E.v r = -E.v E.p → r' = r) ∧ (E.v r ≠ -E.v E.p → E.v r' = -E.v r) := by
  obtain ⟨r, hr, a, b, k, c⟩ := E.spec x
  obtain ⟨r', hr', a', b', k', c'⟩ := E.spec y
  refine ⟨r, r', hr, hr', fun e => ?_, fun e => ?_⟩
  · refine E.unique hr' (-1 - k) a b ?_
    rw [h]; push_cast; linear_combination 2 * e - c
  · refine eq_of_range_of_turns (k' + k) E.pos a' b' (by linarith) ?_ ?_
    · have := lt_of_le_of_ne a (Ne.symm e); linarith
    · rw [c', h, c]; push_cast; ring

section Fixed
variable {m : Mode} {W F : ℕ}

/-- C106, signed fixed point: opposite angles wrap to opposite values, except that an odd multiple of π wraps to -π from both
sides. -/
theorem C106_neg_fixed (h : F + 4 ≤ W) (x y : Fixed m true W F) (hy : y.val = -x.val) :
    ∃ p r r' : Fixed m true W F, Returns MixedPi.pi p ∧ Returns (wrapPhase x) r ∧ Returns (wrapPhase y) r' ∧
      (r.val = -p.val → r' = r) ∧ (r.val ≠ -p.val → r'.val = -r.val) := by
  let E := Fixed.wrapExact (m := m) (show F + 3 ≤ W by omega) (fun _ => h)
  obtain ⟨r, r', h1, h2, h3, h4⟩ := E.neg (x := x) (y := y) (by show ((y.val : ℤ) : ℝ) = -(x.val : ℤ); rw [hy]; push_cast; rfl)
  refine ⟨E.p, r, r', .of_eq E.pi_eq, h1, h2, fun e => h3 ?_, fun e => ?_⟩
  · show ((r.val : ℤ) : ℝ) = -((E.p.val : ℤ) : ℝ); rw [e]; push_cast; rfl
  · have : ((r'.val : ℤ) : ℝ) = -((r.val : ℤ) : ℝ) := h4 (fun c => e (by
      have c : ((r.val : ℤ) : ℝ) = -((E.p.val : ℤ) : ℝ) := c
      exact_mod_cast c))
    exact_mod_cast this

example := C106_neg_fixed (by decide) (fx .checked true 16 8 804) (fx .checked true 16 8 (-804)) (by decide)

/-- C106, signed fixed point: wrapping a summand first does not change the wrapped sum, provided no sum overflows. -/
theorem C106_add_fixed (h : F + 4 ≤ W) (x y w : Fixed m true W F) (hw : Returns (wrapPhase x) w)
    (h1 : InRange true W (x.val + y.val)) (h2 : InRange true W (w.val + y.val)) :
    ∃ r : Fixed m true W F, Returns (NumOps.add x y >>= wrapPhase) r ∧
      Returns (do let w ← wrapPhase x; let t ← NumOps.add w y; wrapPhase t) r := by
  let E := Fixed.wrapExact (m := m) (show F + 3 ≤ W by omega) (fun _ => h)
  obtain ⟨p, w', hp, -, hw', -, -, k, hk⟩ := C30_wrap_fixed h x
  obtain rfl := hw.unique hw'
  have e : E.p = p := (Returns.of_eq E.pi_eq).unique hp
  have f1 := inRange_iff.mp h1; have f2 := inRange_iff.mp h2
  obtain ⟨r, r1, r2, -⟩ := E.congr (x := Fixed.mkv (m := m) _ f1) (y := Fixed.mkv _ f2) k (by
    show (((Fixed.mkv (m := m) _ f2).val : ℤ) : ℝ) = (((Fixed.mkv (m := m) _ f1).val : ℤ) : ℝ) + k * (2 * ((E.p.val : ℤ) : ℝ))
    rw [Fixed.mkv_val, Fixed.mkv_val, hk, e]; push_cast; ring)
  refine ⟨r, ?_, hw.bind ?_⟩
  · rw [Fixed.add_def, Fixed.fit_of_fits f1, pure_bind]; exact r1
  · rw [Fixed.add_def, Fixed.fit_of_fits f2, pure_bind]; exact r2

/-- Cases of C106: 7.5 and -7.5, and an odd multiple of π, as 8-bit numbers with four fraction bits (π is 50/16). -/
example : ∃ N, wrapPhase (fx .checked true 8 4 120) N = .ok (fx .checked true 8 4 20) ∧
    wrapPhase (fx .checked true 8 4 (-120)) N = .ok (fx .checked true 8 4 (-20)) := ⟨5, by decide +kernel⟩
example : ∃ N, wrapPhase (fx .checked true 8 4 50) N = .ok (fx .checked true 8 4 (-50)) ∧
    wrapPhase (fx .checked true 8 4 (-50)) N = .ok (fx .checked true 8 4 (-50)) := ⟨5, by decide +kernel⟩
example : InRange true 8 (120 + (-30)) ∧ InRange true 8 (20 + (-30)) := by decide

end Fixed

/-- C106, exact reals: negation. -/
theorem C106_neg_real (x : ℝ) : ∃ r r' : ℝ, Returns (wrapPhase x) r ∧ Returns (wrapPhase (-x)) r' ∧
    (r = -Real.pi → r' = r) ∧ (r ≠ -Real.pi → r' = -r) :=
  wrapReal.neg (x := x) (y := -x) rfl

/-- C106, exact reals: addition. -/
theorem C106_add_real (x y : ℝ) : ∃ r : ℝ, Returns (NumOps.add x y >>= wrapPhase) r ∧
    Returns (do let w ← wrapPhase x; let t ← NumOps.add w y; wrapPhase t) r := by
  obtain ⟨w, hw, -, -, k, hk⟩ := C33_wrap_real x
  obtain ⟨r, r1, r2, -⟩ := wrapReal.congr (x := x + y) (y := w + y) k (by
    show w + y = x + y + k * (2 * Real.pi); rw [hk]; ring)
  exact ⟨r, r1, hw.bind r2⟩

section Float
variable {f : Format}

/-- The two loops run side by side from opposite values. -/
theorem mirror (h : f.Ok) : ∀ (n : ℕ) {x x' : Flt f} {a : ℚ}, ⌊(a + piV f) / 2 ^ f.emin⌋₊ = n → Is x a → Is x' (-a) →
    -piV f ≤ a → a ≤ limit f → ∃ k k' r r' b,
      Steps (fun t => (pure (MixedCmp.le (piF f) t) : Prog Bool)) (fun t => pure (t.sub (tauF f))) k x r ∧
      Steps (fun t => (pure (t.lt (piF f).neg) : Prog Bool)) (fun t => pure (t.add (tauF f))) k' x' r' ∧
      Is r b ∧ -piV f ≤ b ∧ b < piV f ∧ (Is r' (-b) ∨ (b = -piV f ∧ Is r' (-piV f))) := by
  have hp : 1 ≤ f.p := by have := h.p; omega
  have hb := piV_bounds h
  intro n
  induction n using Nat.strongRecOn with
  | _ n ih =>
    intro x x' a hn hx hx' h1 h2
    rcases lt_trichotomy a (piV f) with hc | hc | hc
    · refine ⟨0, 0, x, x', a, .done ?_, .done ?_, hx, h1, hc, .inl hx'⟩
      · rw [(is_pi h).le hx, decide_eq_false (by linarith)]
      · rw [hx'.lt (is_pi h).neg, decide_eq_false (by linarith)]
    · obtain ⟨s1, s2, s3⟩ := step_down h hc.ge h2
      have hs := hx.sub hp (is_tau h) s3
      have e : rnd f.p f.emin (a - 2 * piV f) = -piV f := by
        rw [hc, show piV f - 2 * piV f = -piV f by ring]; exact rnd_rep (is_pi h).neg.rep
      rw [e] at hs
      refine ⟨1, 0, _, x', -piV f, .step (s' := x.sub (tauF f)) ?_ rfl (.done ?_), .done ?_, hs, le_rfl, by linarith, .inr ⟨rfl, hc ▸ hx'⟩⟩
      · rw [(is_pi h).le hx, decide_eq_true hc.ge]
      · rw [(is_pi h).le hs, decide_eq_false (by linarith)]
      · rw [hx'.lt (is_pi h).neg, decide_eq_false (by linarith)]
    · obtain ⟨s1, s2, s3⟩ := step_down h hc.le h2
      have hs := hx.sub hp (is_tau h) s3
      have e : rnd f.p f.emin (-a + 2 * piV f) = -rnd f.p f.emin (a - 2 * piV f) := by
        rw [← rnd_neg]; congr 1; ring
      have hs' := hx'.add hp (is_tau h) (by rw [e, abs_neg]; exact s3)
      rw [e] at hs'
      obtain ⟨k, k', r, r', b, g1, g2, g3⟩ := ih _ (by
        rw [← hn]; exact measure_lt hs.rep hx.rep (by linarith) s2) rfl hs hs' s1 (by linarith)
      refine ⟨k + 1, k' + 1, r, r', b, .step ?_ rfl g1, .step ?_ rfl g2, g3⟩
      · rw [(is_pi h).le hx, decide_eq_true hc.le]
      · rw [hx'.lt (is_pi h).neg, decide_eq_true (by linarith)]

/-- Wrapping a value that is not below -π and its opposite. -/
theorem mirror_wrap (h : f.Ok) {x x' : Flt f} {a : ℚ} (hx : Is x a) (hx' : Is x' (-a)) (h1 : -piV f ≤ a) (h2 : a ≤ limit f) :
    ∃ r r' b b', Returns (wrapPhase x) r ∧ Returns (wrapPhase x') r' ∧ Is r b ∧ Is r' b' ∧
      ((b = -piV f ∧ b' = -piV f) ∨ (b ≠ -piV f ∧ b' ≠ -piV f ∧ b' = -b)) := by
  have hp : 1 ≤ f.p := by have := h.p; omega
  have hb := piV_bounds h
  obtain ⟨k, k', r, r', b, g1, g2, hr, b1, b2, g⟩ := mirror h _ rfl hx hx' h1 h2
  have stop : ∀ {t : Flt f} {c : ℚ}, Is t c → c < piV f →
      Returns (whileLoop (fun t => (pure (MixedCmp.le (piF f) t) : Prog Bool)) (fun t => pure (t.sub (tauF f))) t) t := by
    intro t c ht hc
    refine whileLoop_done ?_
    rw [(is_pi h).le ht, decide_eq_false (by linarith)]
  have hw : Returns (wrapPhase x) r := by
    rw [wrapPhase_eq]
    refine (whileLoop_done ?_).bind g1.returns
    rw [hx.lt (is_pi h).neg, decide_eq_false (by linarith)]
  rcases g with g | ⟨e, g⟩
  · by_cases e : b = -piV f
    · -- the first loop ends on π, the second takes it to -π
      rw [e, neg_neg] at g
      have s3 : rnd f.p f.emin (piV f - 2 * piV f) = -piV f := by
        rw [show piV f - 2 * piV f = -piV f by ring]; exact rnd_rep (is_pi h).neg.rep
      have hs := g.sub hp (is_tau h) (by rw [s3, abs_neg]; exact (is_pi h).lt_max)
      rw [s3] at hs
      refine ⟨r, r'.sub (tauF f), b, -piV f, hw, ?_, hr, hs, .inl ⟨e, rfl⟩⟩
      rw [wrapPhase_eq]
      refine g2.returns.bind (Steps.returns (.step (k := 0) (s' := r'.sub (tauF f)) ?_ rfl (.done ?_)))
      · rw [(is_pi h).le g, decide_eq_true le_rfl]
      · rw [(is_pi h).le hs, decide_eq_false (by linarith)]
    · refine ⟨r, r', b, -b, hw, ?_, hr, g, .inr ⟨e, fun c => by linarith, rfl⟩⟩
      rw [wrapPhase_eq]
      exact g2.returns.bind (stop g (by have := lt_of_le_of_ne b1 (Ne.symm e); linarith))
  · refine ⟨r, r', b, -piV f, hw, ?_, hr, g, .inl ⟨e, rfl⟩⟩
    rw [wrapPhase_eq]; exact g2.returns.bind (stop g (by linarith))

theorem same_of_is {x y : Flt f} {a : ℚ} (hx : Is x a) (hy : Is y a) : x.Same y := by
  by_cases h : a = 0
  · subst h
    obtain ⟨s, m, rfl, -, hv, -⟩ := hx
    obtain ⟨t, n, rfl, -, hw, -⟩ := hy
    right; refine ⟨s, t, ?_, ?_⟩
    · cases s <;> simp [Flt.val] at hv <;> rw [hv]
    · cases t <;> simp [Flt.val] at hw <;> rw [hw]
  · exact .inl (hx.unique hy h)

/-- C106, floats: opposite angles wrap to opposite values (up to the sign of zero), except that odd multiples of π wrap to -π
from both sides; one of them makes the loops run forever exactly if the other does. -/
theorem C106_neg_float (h : f.Ok) (x : Flt f) (hx : x.Valid) :
    (Diverges (wrapPhase x) ∧ Diverges (wrapPhase x.neg)) ∨
    ∃ p r r' : Flt f, Returns MixedPi.pi p ∧ Returns (wrapPhase x) r ∧ Returns (wrapPhase x.neg) r' ∧
      (r = p.neg → r' = p.neg) ∧ (r ≠ p.neg → r'.Same r.neg) := by
  have hpb := piV_bounds h
  have hlim : limit f = 2 ^ (f.p + 3) := by unfold limit; rw [← zpow_natCast]; congr 1
  -- from the values to the floats
  have fin : ∀ {r r' : Flt f} {b b' : ℚ}, Is r b → Is r' b' →
      ((b = -piV f ∧ b' = -piV f) ∨ (b ≠ -piV f ∧ b' ≠ -piV f ∧ b' = -b)) →
      (r = (piF f).neg → r' = (piF f).neg) ∧ (r ≠ (piF f).neg → r'.Same r.neg) := by
    rintro r r' b b' hr hr' (⟨rfl, rfl⟩ | ⟨e1, e2, rfl⟩)
    · have n0 : -piV f ≠ 0 := by linarith
      exact ⟨fun _ => hr'.unique (is_pi h).neg n0, fun c => absurd (hr.unique (is_pi h).neg n0) c⟩
    · refine ⟨fun c => absurd ?_ e1, fun _ => same_of_is hr' hr.neg⟩
      rw [← hr.val, c]; exact (is_pi h).neg.val
  cases x with
  | nan =>
    refine .inr ⟨piF f, .nan, .nan, .of_eq rfl, C34_nan, C34_nan, fun c => ?_, fun _ => .inl rfl⟩
    obtain ⟨s, m, e⟩ := (is_pi h).neg.fin
    rw [e] at c; cases c
  | inf s =>
    refine .inl ⟨C34_diverges h _ hx (by intro s m e; cases e) (by simp), C34_diverges h _ ?_ (by intro s m e; cases e) (by simp [Flt.neg])⟩
    exact hx
  | fin s m =>
    have hi := is_of_valid hx
    by_cases hm : m ≤ 2 ^ (f.p + 3)
    · right
      have hm0 : 0 ≤ m := by obtain ⟨_, _, he, h0, _⟩ := hi; cases he; exact h0
      cases s
      · obtain ⟨r, r', b, b', h1, h2, h3, h4, h5⟩ := mirror_wrap h hi hi.neg (by show _ ≤ m; linarith) (by rw [hlim]; exact hm)
        exact ⟨piF f, r, r', .of_eq rfl, h1, h2, fin h3 h4 h5⟩
      · obtain ⟨r, r', b, b', h1, h2, h3, h4, h5⟩ := mirror_wrap h hi.neg (x' := .fin true m) (by rw [neg_neg]; exact hi)
          (by show _ ≤ - -m; linarith) (by rw [hlim]; show - -m ≤ _; linarith)
        refine ⟨piF f, r', r, .of_eq rfl, h2, h1, fin h4 h3 ?_⟩
        rcases h5 with h5 | ⟨e1, e2, e3⟩
        · exact .inl h5.symm
        · exact .inr ⟨e2, e1, by rw [e3, neg_neg]⟩
    · left
      have hbig : ∀ t, ∀ s' m', (Flt.fin t m : Flt f) = .fin s' m' → 2 ^ (f.p + 3) < m' := by
        intro t s' m' e; cases e; exact not_le.mp hm
      exact ⟨C34_diverges h _ hx (hbig s) (by simp), C34_diverges h _ hi.neg.valid (hbig (!s)) (by simp [Flt.neg])⟩

/-- A case of C106: both floats below are valid, and neither wraps to -π. -/
example : F32.Ok ∧ (Flt.fin false 100 : Flt F32).Valid :=
  ⟨⟨by decide, by decide, by decide⟩, ⟨100, 0, by decide, by decide, by norm_num [pow2], by norm_num⟩⟩

end Float
end MixedNum
