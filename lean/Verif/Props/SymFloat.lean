import Verif.Lemmas.FloatSym
import Verif.Lemmas.SinFloat
/-! # C91, C92: sign symmetry on floats -/

namespace MixedNum
variable {f : Format}
open Flt

/-! ## C91 -/

/-- C91: conjugation changes one sign bit, is its own inverse, and loses nothing - infinities and NaN included. -/
theorem C91_conj (z : Cartesian (Flt f)) :
    Returns z.conj ⟨z.re, z.im.neg⟩ ∧ Returns (do Cartesian.conj (← z.conj)) z := by
  refine ⟨.of_eq rfl, .of_eq ?_⟩
  obtain ⟨a, b⟩ := z
  show (pure (⟨a, b.neg.neg⟩ : Cartesian (Flt f)) : Prog _) = pure ⟨a, b⟩
  cases b <;> simp [Flt.neg]

/-- C91: the conjugate of a sum is the sum of the conjugates, bit for bit except that zeros may differ in sign. -/
theorem C91_add (z w : Cartesian (Flt f)) :
    ∃ c d : Cartesian (Flt f), Returns (do Cartesian.conj (← z.add w)) c ∧
      Returns (do Cartesian.add (← z.conj) (← w.conj)) d ∧ d.re = c.re ∧ d.im.Same c.im := by
  obtain ⟨a, b⟩ := z; obtain ⟨c, d⟩ := w
  refine ⟨⟨a.add c, (b.add d).neg⟩, ⟨a.add c, b.neg.add d.neg⟩, .of_eq rfl, .of_eq rfl, rfl, ?_⟩
  exact ((sgn_neg b).add (sgn_neg d)).opp

/-- C91: the conjugate of a product is the product of the conjugates, bit for bit except that zeros may differ in sign -
for every pair of floats, overflow, infinities and NaN included. -/
theorem C91_mul (z w : Cartesian (Flt f)) :
    ∃ c d : Cartesian (Flt f), Returns (do Cartesian.conj (← z.mul w)) c ∧
      Returns (do Cartesian.mul (← z.conj) (← w.conj)) d ∧ d.re.Same c.re ∧ d.im.Same c.im := by
  obtain ⟨a, b⟩ := z; obtain ⟨c, d⟩ := w
  refine ⟨⟨(a.mul c).sub (b.mul d), ((a.mul d).add (b.mul c)).neg⟩,
    ⟨(a.mul c).sub (b.neg.mul d.neg), (a.mul d.neg).add (b.neg.mul c)⟩, .of_eq rfl, .of_eq rfl, ?_, ?_⟩
  · have h : Sgn false (b.mul d) (b.neg.mul d.neg) := (sgn_neg b).mul (sgn_neg d)
    exact ((Sgn.refl (a.mul c)).sub h).same
  · have h1 : Sgn true (a.mul d) (a.mul d.neg) := (Sgn.refl a).mul (sgn_neg d)
    have h2 : Sgn true (b.mul c) (b.neg.mul c) := (sgn_neg b).mul (Sgn.refl c)
    exact (h1.add h2).opp

/-- C91: the product with the conjugate has as real part the same float as the sum of squares under the magnitude's root, and,
when the product of the parts does not overflow, imaginary part exactly zero. -/
theorem C91_norm (z : Cartesian (Flt f)) (h : ∃ s m, z.re.mul z.im = .fin s m) :
    ∃ (d : Cartesian (Flt f)) (q : Flt f) (s : Bool), Returns (do Cartesian.mul z (← z.conj)) d ∧
      Returns (do NumOps.add (← NumOps.mul z.re z.re) (← NumOps.mul z.im z.im)) q ∧ d.re.Same q ∧ d.im = .fin s 0 := by
  obtain ⟨a, b⟩ := z
  obtain ⟨s, m, h⟩ := h
  change a.mul b = .fin s m at h
  have h1 : Sgn true (b.mul b) (b.mul b.neg) := (Sgn.refl b).mul (sgn_neg b)
  have h2 : Sgn true (a.mul b) (a.mul b.neg) := (Sgn.refl a).mul (sgn_neg b)
  have hc : b.mul a = a.mul b := by
    cases a <;> cases b <;> simp [Flt.mul, Bool.xor_comm, _root_.mul_comm]
  have him : ∃ t, (a.mul b.neg).add (b.mul a) = .fin t 0 := by
    rw [hc, h]
    rw [h] at h2
    generalize a.mul b.neg = x at h2
    cases x with
    | nan => exact h2.elim
    | inf _ => exact h2.elim
    | fin t n =>
      refine ⟨t && s, ?_⟩
      show ofExact _ (_ + _) = _
      rw [h2.val, sg, if_pos rfl, neg_add_cancel]
      simp [ofExact]
  obtain ⟨t, him⟩ := him
  refine ⟨⟨(a.mul a).sub (b.mul b.neg), (a.mul b.neg).add (b.mul a)⟩, (a.mul a).add (b.mul b), t, .of_eq rfl, .of_eq rfl, ?_, him⟩
  have h3 : Sgn false (b.mul b) (b.mul b.neg).neg := by simpa using h1.neg_right
  exact ((Sgn.refl (a.mul a)).add h3).same

example : ∃ s m, (Flt.fin false 3 : Flt F32).mul (.fin true 4) = .fin s m :=
  (is_int ok_F32 true (n := -12) (by norm_num [F32])).fin.imp fun s h => h.imp fun m h => by
    rw [← h]; norm_num [Flt.mul, Flt.val]

/-! ## C92 -/

/-- The folded argument as a value. -/
theorem sinFold_val (x : Flt f) : sinFold x = pure
    (if x.lt ((piF f).div (ofExact false ((2:ℤ):ℚ))).neg then
      ((piF f).div (ofExact false ((2:ℤ):ℚ))).neg.sub (x.add ((piF f).div (ofExact false ((2:ℤ):ℚ))))
    else if ((piF f).div (ofExact false ((2:ℤ):ℚ))).lt x then
      ((piF f).div (ofExact false ((2:ℤ):ℚ))).sub (x.sub ((piF f).div (ofExact false ((2:ℤ):ℚ))))
    else x) := by
  set ph := (piF f).div (ofExact false ((2:ℤ):ℚ)) with hph
  show (if x.lt ph.neg = true then pure (ph.neg.sub (x.add ph))
    else if ph.lt x = true then pure (ph.sub (x.sub ph)) else pure x : Prog (Flt f)) = _
  split_ifs <;> rfl

/-- C92: the polynomial sine is odd, bit for bit except that zeros may differ in sign - for every float, at any distance from
zero, infinities and NaN included. -/
theorem C92_sin (hf : f.Wide) (x : Flt f) :
    ∃ r r' : Flt f, Returns (sin x) r ∧ Returns (sin x.neg) r' ∧ r'.Same r.neg := by
  set ph := (piF f).div (ofExact false ((2:ℤ):ℚ)) with hph
  have hpi : Is ph (piV f / 2) := half_is hf
  have hpos := piV_bounds hf.ok
  -- not beyond both ends
  have hexcl : x.lt ph.neg = true → ph.lt x = true → False := by
    obtain ⟨s, m, e, -, hv, -⟩ := hpi
    rw [e] at hv ⊢
    have hv' : (Flt.fin s m : Flt f).neg.val = -(piV f / 2) := by rw [← hv]; cases s <;> simp [Flt.neg, Flt.val]
    cases x with
    | nan => intro h _; exact absurd h Bool.false_ne_true
    | inf b => cases b <;> intro h h' <;> first | exact absurd h Bool.false_ne_true | exact absurd h' Bool.false_ne_true
    | fin b n =>
      intro h h'
      have h1 := of_decide_eq_true h; have h2 := of_decide_eq_true h'
      rw [hv] at h2
      rw [show (Flt.fin (!s) m : Flt f).val = -(piV f / 2) from hv'] at h1
      linarith
  have fold : ∃ y y', sinFold x = pure y ∧ sinFold x.neg = pure y' ∧ Sgn true y y' := by
    refine ⟨_, _, sinFold_val x, sinFold_val x.neg, ?_⟩
    rw [← hph]
    have e1 : x.neg.lt ph.neg = ph.lt x := (sgn_neg x).lt (sgn_neg ph)
    have e2 : ph.lt x.neg = x.lt ph.neg := (sgn_neg ph).symm.lt (sgn_neg x)
    rw [e1, e2]
    by_cases h1 : x.lt ph.neg = true
    · by_cases h2 : ph.lt x = true
      · exact (hexcl h1 h2).elim
      · rw [if_pos h1, if_neg h2, if_pos h1]
        exact (sgn_neg ph).symm.sub ((sgn_neg x).add (sgn_neg ph))
    · by_cases h2 : ph.lt x = true
      · rw [if_neg h1, if_pos h2, if_pos h2]
        refine (sgn_neg ph).sub ?_
        have : Sgn true (x.add ph.neg) (x.neg.add ph) := (sgn_neg x).add (sgn_neg ph).symm
        exact this
      · rw [if_neg h1, if_neg h2, if_neg h2, if_neg h1]; exact sgn_neg x
  obtain ⟨y, y', h1, h2, h3⟩ := fold
  have nz : ∀ n : ℤ, 0 < n → n < 2 ^ 24 → ∀ s, (ofExact false (n:ℚ) : Flt f) ≠ .fin s 0 := by
    intro n h0 h24 s e
    have := (lit_int (f := f) hf (n := n) (by rw [abs_of_pos h0]; exact h24.le)).val
    rw [e] at this
    have hn : (0:ℚ) < n := by exact_mod_cast h0
    cases s <;> simp [Flt.val] at this <;> linarith
  have term : ∀ (k : ℕ) (n : ℤ), k % 2 = 1 → 0 < n → n < 2 ^ 24 →
      Sgn true ((pow y k).div (ofExact false (n:ℚ))) ((pow y' k).div (ofExact false (n:ℚ))) := by
    intro k n hk h0 h24
    have := (h3.pow k).div (Sgn.refl (ofExact false (n:ℚ))) (nz n h0 h24)
    simpa [hk] using this
  have key := (((h3.sub (term 3 6 rfl (by norm_num) (by norm_num))).add (term 5 120 rfl (by norm_num) (by norm_num))).sub
    (term 7 5040 rfl (by norm_num) (by norm_num))).add (term 9 362880 rfl (by norm_num) (by norm_num))
  have run : ∀ z w : Flt f, sinFold z = pure w → sin z = pure ((((w.sub ((pow w 3).div (ofExact false ((6:ℤ):ℚ)))).add
      ((pow w 5).div (ofExact false ((120:ℤ):ℚ)))).sub ((pow w 7).div (ofExact false ((5040:ℤ):ℚ)))).add
      ((pow w 9).div (ofExact false ((362880:ℤ):ℚ)))) := by
    intro z w h
    unfold sin; rw [h]; rfl
  exact ⟨_, _, .of_eq (run _ _ h1), .of_eq (run _ _ h2), key.opp⟩

/-- C92: integer powers of `-x` and `x` agree up to the sign that the exponent's parity prescribes, for every float and every
exponent. -/
theorem C92_powi (x : Flt f) (e : ℤ) :
    ∃ r r' : Flt f, Returns (MixedPowi.powi x e) r ∧ Returns (MixedPowi.powi x.neg e) r' ∧
      (e % 2 = 0 → r'.Same r) ∧ (e % 2 = 1 → r'.Same r.neg) := by
  have hdiv : Sgn true ((ofExact false 1 : Flt f).div x) ((ofExact false 1 : Flt f).div x.neg) := by
    have h : ∃ s m, (ofExact false 1 : Flt f) = .fin s m ∨ (ofExact false 1 : Flt f) = .inf s := by
      unfold ofExact
      simp only [one_ne_zero, if_false]
      split
      · exact ⟨_, _, .inl rfl⟩
      · exact ⟨_, 0, .inr rfl⟩
    obtain ⟨s, m, h | h⟩ := h <;> rw [h]
    · cases x with
      | nan => trivial
      | inf t => simp [Flt.div, Flt.neg, Sgn]
      | fin t n =>
        by_cases hn : n = 0
        · subst hn
          by_cases hm : m = 0
          · simp [Flt.div, Flt.neg, Sgn, hm]
          · simp [Flt.div, Flt.neg, Sgn, hm]
        · simp only [Flt.div, Flt.neg, if_neg hn]
          refine sgn_ofExact true _ _ ?_
          rw [sg, if_pos rfl]
          cases t <;> simp [Flt.val, div_neg]
    · cases x with
      | nan => trivial
      | inf t => trivial
      | fin t n => simp [Flt.div, Flt.neg, Sgn]
  have key : ∀ y y' : Flt f, Sgn true y y' → ∀ k : ℕ, (k % 2 = 0 → (pow y' k).Same (pow y k)) ∧
      (k % 2 = 1 → (pow y' k).Same (pow y k).neg) := by
    intro y y' h k
    have := h.pow k
    constructor
    · intro hk; rw [hk] at this; exact Sgn.same this
    · intro hk; rw [hk] at this; exact Sgn.opp this
  have par : ∀ i : ℕ, i < 2 → e % 2 = i → e.natAbs % 2 = i := by intro i _ h; omega
  by_cases he : e < 0
  · refine ⟨_, _, .of_eq rfl, .of_eq rfl, ?_, ?_⟩ <;> intro h <;> simp only [if_pos he]
    · exact (key _ _ hdiv _).1 (par 0 (by norm_num) h)
    · exact (key _ _ hdiv _).2 (par 1 (by norm_num) h)
  · refine ⟨_, _, .of_eq rfl, .of_eq rfl, ?_, ?_⟩ <;> intro h <;> simp only [if_neg he]
    · exact (key _ _ (sgn_neg x) _).1 (par 0 (by norm_num) h)
    · exact (key _ _ (sgn_neg x) _).2 (par 1 (by norm_num) h)

/-- C92: the NIIRF root runs identically on `x` and `-x`. -/
theorem C92_sqrt (md : Mode) (x : Flt f) (n : ℕ) : niirf (.i32 md) x.neg n = niirf (.i32 md) x n := by
  unfold niirf
  have h1 : MixedCmp.beq x.neg (MixedZero.zero : Flt f) = MixedCmp.beq x MixedZero.zero := by
    cases x with
    | nan => rfl
    | inf _ => rfl
    | fin s m =>
      show decide ((Flt.fin (!s) m : Flt f).val = (Flt.fin false 0 : Flt f).val) =
        decide ((Flt.fin s m : Flt f).val = (Flt.fin false 0 : Flt f).val)
      cases s <;> simp [Flt.val]
  have h2 : (MixedAbs.abs x.neg : Prog (Flt f)) = MixedAbs.abs x := by
    show pure x.neg.abs = pure x.abs
    rw [(sgn_neg x).abs]
  rw [h1, h2]

/-- The polynomial arctangent as a value. -/
theorem atan2_run (y x : Flt f) : atan2Poly y x = pure
    (let num := x.mul y
     let k : Flt f := ofExact false (9/32)
     let p1 := num.div ((pow x 2).add (k.mul (pow y 2)))
     let p2 := num.div ((pow y 2).add (k.mul (pow x 2)))
     let ph := (piF f).div (ofExact false ((2:ℤ):ℚ))
     let d := y.abs.sub x.abs
     let z : Flt f := .fin false 0
     if y.beq z then (if MixedReal.isNegative x then piF f else z)
     else if MixedReal.isPositive y then
       if x.beq z then ph
       else if MixedReal.isPositive x then (if d.lt z then p1 else ph.sub p2)
       else (if z.lt d || z.beq d then ph.sub p2 else (piF f).add p1)
     else
       if x.beq z then (piF f).neg.div (ofExact false ((2:ℤ):ℚ))
       else if MixedReal.isPositive x then (if d.lt z then p1 else ph.neg.sub p2)
       else (if z.lt d || z.beq d then ph.neg.sub p2 else (piF f).neg.add p1)) := by
  have hz : (ofExact false 0 : Flt f) = .fin false 0 := by simp [ofExact]
  set ph := (piF f).div (ofExact false ((2:ℤ):ℚ)) with hph
  set p1 := (x.mul y).div ((pow x 2).add ((ofExact false (9/32) : Flt f).mul (pow y 2))) with hp1
  set p2 := (x.mul y).div ((pow y 2).add ((ofExact false (9/32) : Flt f).mul (pow x 2))) with hp2
  show (if y.beq (.fin false 0) = true then (if MixedReal.isNegative x = true then pure (piF f) else pure (.fin false 0))
     else if MixedReal.isPositive y = true then
       if x.beq (.fin false 0) = true then pure ph
       else if MixedReal.isPositive x = true then
         (if (y.abs.sub x.abs).lt (ofExact false 0) = true then pure p1 else pure (ph.sub p2))
       else (if ((Flt.fin false 0 : Flt f).lt (y.abs.sub x.abs) || (Flt.fin false 0 : Flt f).beq (y.abs.sub x.abs)) = true
         then pure (ph.sub p2) else pure ((piF f).add p1))
     else
       if x.beq (.fin false 0) = true then pure ((piF f).neg.div (ofExact false ((2:ℤ):ℚ)))
       else if MixedReal.isPositive x = true then
         (if (y.abs.sub x.abs).lt (.fin false 0) = true then pure p1 else pure (ph.neg.sub p2))
       else (if ((Flt.fin false 0 : Flt f).lt (y.abs.sub x.abs) || (Flt.fin false 0 : Flt f).beq (y.abs.sub x.abs)) = true
         then pure (ph.neg.sub p2) else pure ((piF f).neg.add p1)) : Prog (Flt f)) = _
  rw [hz]
  dsimp only
  split_ifs <;> rfl

theorem atan2_odd_pos (y x : Flt f) (h0 : y.beq (.fin false 0) = false) (hp : MixedReal.isPositive y = true) (hn : y ≠ .nan) :
    ∃ r r' : Flt f, atan2Poly y x = pure r ∧ atan2Poly y.neg x = pure r' ∧ Sgn true r r' := by
  refine ⟨_, _, atan2_run y x, atan2_run y.neg x, ?_⟩
  have e0 : y.neg.beq (.fin false 0) = false := by
    cases y with
    | nan => exact absurd rfl hn
    | inf _ => rfl
    | fin s m => cases s <;> simpa [Flt.beq, Flt.neg, Flt.val] using h0
  have e1 : MixedReal.isPositive y.neg = false := by
    cases y with
    | nan => exact absurd rfl hn
    | inf s => simpa [MixedReal.isPositive, Flt.neg] using hp
    | fin s m => simpa [MixedReal.isPositive, Flt.neg] using hp
  have e2 : pow y.neg 2 = pow y 2 := neg_mul_neg_flt y
  have e3 : y.neg.abs = y.abs := (sgn_neg y).abs
  have e4 : Sgn true (x.mul y) (x.mul y.neg) := (Sgn.refl x).mul (sgn_neg y)
  dsimp only
  rw [h0, e0, hp, e1, e2, e3]
  simp only [Bool.false_eq_true, if_false, if_true]
  split_ifs
  · exact (sgn_neg _).div_right _
  · exact e4.div_right _
  · exact (sgn_neg _).sub (e4.div_right _)
  · exact (sgn_neg _).sub (e4.div_right _)
  · exact (sgn_neg _).add (e4.div_right _)

/-- C92: the polynomial arctangent is odd in `y`, bit for bit except that zeros may differ in sign, for every `y` other than zero
and NaN and every `x`, infinities and NaN included. -/
theorem C92_atan2 (y x : Flt f) (h : y ≠ .nan) (h0 : ∀ s, y ≠ .fin s 0) :
    ∃ r r' : Flt f, Returns (atan2Poly y x) r ∧ Returns (atan2Poly y.neg x) r' ∧ r'.Same r.neg := by
  have hb : ∀ z : Flt f, (∀ s, z ≠ .fin s 0) → z.beq (.fin false 0) = false := by
    intro z hz
    cases z with
    | nan => rfl
    | inf _ => rfl
    | fin s m =>
      have : m ≠ 0 := fun e => hz s (by rw [e])
      cases s <;> simpa [Flt.beq, Flt.val] using this
  have hnn : y.neg.neg = y := by cases y <;> simp [Flt.neg]
  by_cases hp : MixedReal.isPositive y = true
  · obtain ⟨r, r', h1, h2, h3⟩ := atan2_odd_pos y x (hb y h0) hp h
    exact ⟨r, r', .of_eq h1, .of_eq h2, h3.opp⟩
  · have hp' : MixedReal.isPositive y.neg = true := by
      cases y with
      | nan => exact absurd rfl h
      | inf s => simpa [MixedReal.isPositive, Flt.neg] using hp
      | fin s m => simpa [MixedReal.isPositive, Flt.neg] using hp
    have hz : ∀ s, y.neg ≠ .fin s 0 := by
      intro s e
      cases y with
      | nan => cases e
      | inf s => cases e
      | fin t m => simp [Flt.neg] at e; exact h0 t (by rw [e.2])
    have hn : y.neg ≠ .nan := by cases y <;> simp_all [Flt.neg]
    obtain ⟨r, r', h1, h2, h3⟩ := atan2_odd_pos y.neg x (hb _ hz) hp' hn
    rw [hnn] at h2
    exact ⟨r', r, .of_eq h2, .of_eq h1, h3.symm.opp⟩

example : (Flt.fin false 3 : Flt F32) ≠ .nan ∧ ∀ s, (Flt.fin false 3 : Flt F32) ≠ .fin s 0 := by simp

/-- C92: at `y = -0` it is not odd: on the negative real axis both zeros give `π`. -/
theorem C92_atan2_zero (m : ℚ) :
    Returns (atan2Poly (.fin false 0) (.fin true m : Flt f)) (piF f) ∧ Returns (atan2Poly (.fin true 0) (.fin true m : Flt f)) (piF f) := by
  constructor <;> refine .of_eq ((atan2_run _ _).trans ?_) <;> simp [Flt.beq, Flt.val, MixedReal.isNegative]

/-- C92: the polynomial one-argument arctangent is odd on every float, NaN, infinities and zeros included. -/
theorem C92_atan (hf : f.Wide) (x : Flt f) :
    ∃ r r' : Flt f, Returns (atanPoly x) r ∧ Returns (atanPoly x.neg) r' ∧ r'.Same r.neg := by
  have run : ∀ y : Flt f, atanPoly y = atan2Poly y (ofExact false 1) := fun _ => rfl
  rw [run, run]
  have e := one_fin hf
  by_cases hn : x = .nan
  · subst hn
    refine ⟨.nan, .nan, .of_eq ?_, .of_eq ?_, .inl rfl⟩ <;>
    · refine (atan2_run _ _).trans ?_
      rw [e]
      have hs : ∀ z : Flt f, z.sub .nan = .nan := fun z => by cases z <;> rfl
      simp [Flt.beq, Flt.val, MixedReal.isPositive, Flt.neg, Flt.mul, Flt.div, Flt.abs, Flt.lt, hs]
  by_cases h0 : ∃ s, x = .fin s 0
  · obtain ⟨s, rfl⟩ := h0
    refine ⟨.fin false 0, .fin false 0, .of_eq ?_, .of_eq ?_, .inr ⟨_, _, rfl, rfl⟩⟩ <;>
    · refine (atan2_run _ _).trans ?_
      rw [e]
      simp [Flt.beq, Flt.val, MixedReal.isNegative, Flt.neg]
  · exact C92_atan2 x _ hn (fun s h => h0 ⟨s, h⟩)

end MixedNum
