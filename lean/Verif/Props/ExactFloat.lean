import Verif.Lemmas.FloatSym
import Verif.Lemmas.SinFloat
import Verif.Lemmas.Rounds
import Verif.Model.Complex
import Verif.Spec.Float
import Verif.Props.AddSub
import Verif.Lemmas.Run
import Verif.Lemmas.Case
/-! # C93, C94, C95: sign, constants, identities and comparison on floats -/

namespace MixedNum
variable {f : Format}
open Flt

theorem same_of_is {x y : Flt f} {v : ℚ} (hx : Is x v) (hy : Is y v) : x.Same y := by
  by_cases hv : v = 0
  · subst hv
    obtain ⟨s, m, rfl, -, h, -⟩ := hx
    obtain ⟨t, n, rfl, -, h', -⟩ := hy
    have e : m = 0 := by cases s <;> simpa [Flt.val] using h
    have e' : n = 0 := by cases t <;> simpa [Flt.val] using h'
    exact .inr ⟨s, t, by rw [e], by rw [e']⟩
  · exact .inl (hx.unique hy hv)

theorem Flt.Same.symm {x y : Flt f} (h : x.Same y) : y.Same x := by
  rcases h with rfl | ⟨s, t, rfl, rfl⟩
  · exact .inl rfl
  · exact .inr ⟨t, s, rfl, rfl⟩

theorem Flt.Same.trans {x y z : Flt f} (h : x.Same y) (h' : y.Same z) : x.Same z := by
  rcases h with rfl | ⟨s, t, rfl, rfl⟩
  · exact h'
  · rcases h' with rfl | ⟨_, u, _, rfl⟩
    · exact .inr ⟨_, _, rfl, rfl⟩
    · exact .inr ⟨_, _, rfl, rfl⟩

theorem neg_one_fin (hf : f.Wide) : (ofExact false ((-1:ℤ):ℚ) : Flt f) = .fin true 1 := by
  have h1 : Is (ofExact false ((-1:ℤ):ℚ) : Flt f) ((-1:ℤ):ℚ) := lit_int hf (by norm_num)
  have h2 := (lit_int (f := f) hf (n := 1) (by norm_num)).neg
  rw [show (((1:ℤ):ℚ)) = (1:ℚ) by norm_num, one_fin hf] at h2
  rw [show (((-1:ℤ):ℚ)) = (-1:ℚ) by norm_num] at h1
  have := h1.unique h2 (by norm_num)
  rw [show (((-1:ℤ):ℚ)) = (-1:ℚ) by norm_num, this]; rfl

theorem sign_run (hf : f.Wide) (x : Flt f) : sign x = pure (if x.lt (.fin false 0) then .fin true 1 else .fin false 1) := by
  have h0 : (ofExact false ((0:ℤ):ℚ) : Flt f) = .fin false 0 := by simp [ofExact]
  show (if x.lt (ofExact false ((0:ℤ):ℚ)) = true then pure (ofExact false ((-1:ℤ):ℚ)) else pure (ofExact false ((1:ℤ):ℚ)) : Prog (Flt f)) = _
  rw [h0, neg_one_fin hf, show (((1:ℤ):ℚ)) = (1:ℚ) by norm_num, one_fin hf]
  split_ifs <;> rfl

theorem mul_one_same (hf : f.Wide) (s : Bool) {x : Flt f} (hx : x.Valid) :
    ((.fin s 1 : Flt f).mul x).Same (if s then x.neg else x) := by
  cases x with
  | nan => cases s <;> exact .inl rfl
  | inf t => cases s <;> cases t <;> simp [Flt.mul, Flt.neg, Flt.Same]
  | fin t m =>
    have h := is_of_valid hx
    set v := (Flt.fin t m : Flt f).val
    cases s
    · refine same_of_is (v := v) ?_ h
      show Is (ofExact _ ((1:ℚ) * v)) v
      rw [one_mul]; exact is_exact hf.ok _ h.rep h.lt_max
    · refine same_of_is (v := -v) ?_ h.neg
      show Is (ofExact _ ((-1:ℚ) * v)) (-v)
      rw [neg_one_mul]; exact is_exact hf.ok _ h.neg.rep h.neg.lt_max

/-! ## C93 -/

/-- C93: `sign` returns `-1` exactly for the floats below zero and `1` for all others: zero of either sign and NaN included. -/
theorem C93_sign (hf : f.Wide) (x : Flt f) :
    ((x = .inf true ∨ x.IsFinite ∧ x.val < 0) → Returns (sign x) (.fin true 1)) ∧
    (¬(x = .inf true ∨ x.IsFinite ∧ x.val < 0) → Returns (sign x) (.fin false 1)) := by
  have key : x.lt (.fin false 0) = true ↔ x = .inf true ∨ x.IsFinite ∧ x.val < 0 := by
    cases x with
    | nan => simp [Flt.lt, Flt.IsFinite]
    | inf s => cases s <;> simp [Flt.lt, Flt.IsFinite]
    | fin s m => simp [Flt.lt, Flt.IsFinite, Flt.val]
  rw [← key]
  exact ⟨fun h => .of_eq (by rw [sign_run hf, if_pos h]), fun h => .of_eq (by rw [sign_run hf, if_neg h])⟩

/-- C93: every float is its sign times its absolute value, bit for bit except that zero may lose its sign. -/
theorem C93_sign_abs (hf : f.Wide) (x : Flt f) (hx : x.Valid) :
    ∃ r : Flt f, Returns (do NumOps.mul (← sign x) (← MixedAbs.abs x)) r ∧ r.Same x := by
  have hab : x.abs.Valid := by cases x <;> trivial
  refine ⟨_, .of_eq (by rw [sign_run hf]; rfl), ?_⟩
  by_cases h : x.lt (.fin false 0) = true
  · rw [if_pos h]
    refine (mul_one_same hf true hab).trans ?_
    rw [if_pos rfl]
    cases x with
    | nan => exact .inl rfl
    | inf s => cases s
               · cases h
               · exact .inl rfl
    | fin s m =>
      cases s
      · have := (is_of_valid hx)
        obtain ⟨_, m', e, h0, -⟩ := this
        cases e
        exact absurd h (by simpa [Flt.lt, Flt.val] using h0)
      · exact .inl rfl
  · rw [if_neg h]
    refine (mul_one_same hf false hab).trans ?_
    rw [if_neg Bool.false_ne_true]
    cases x with
    | nan => exact .inl rfl
    | inf s => cases s
               · exact .inl rfl
               · exact absurd rfl h
    | fin s m =>
      cases s
      · exact .inl rfl
      · have := (is_of_valid hx)
        obtain ⟨_, m', e, h0, -⟩ := this
        cases e
        have : m = 0 := le_antisymm (by simpa [Flt.lt, Flt.val] using h) h0
        rw [this]; exact .inr ⟨_, _, rfl, rfl⟩

example : (Flt.fin true 3 : Flt F32).Valid := ⟨3, 0, by decide, by decide, by norm_num [pow2], by norm_num [F32]⟩

/-- C93: the absolute value is exact, nonnegative, and idempotent; it clears the sign of zero and infinity and keeps NaN. -/
theorem C93_abs (x : Flt f) :
    Returns (MixedAbs.abs x) (match x with | .nan => .nan | .inf _ => .inf false | .fin _ m => .fin false m) ∧
    Returns (do MixedAbs.abs (← MixedAbs.abs x)) x.abs ∧ Returns (do MixedAbs.abs (← MixedNumSigned.neg x)) x.abs := by
  refine ⟨.of_eq ?_, .of_eq ?_, .of_eq ?_⟩ <;> cases x <;> rfl

/-- C93: the sign flag disagrees with `sign` exactly at negative zero (and perhaps at NaN, whose sign bit is unspecified). -/
theorem C93_flag (hf : f.Wide) (x : Flt f) (hx : x.Valid) :
    (x ≠ .nan → (MixedReal.isNegative x = true ↔ x = .fin true 0 ∨ Returns (sign x) (.fin true 1))) ∧
    (MixedReal.isPositive x = !(MixedReal.isNegative x)) := by
  refine ⟨fun hn => ?_, by cases x <;> simp [MixedReal.isPositive, MixedReal.isNegative]⟩
  have hr : Returns (sign x) (.fin true 1) ↔ x.lt (.fin false 0) = true := by
    rw [sign_run hf]
    constructor
    · intro h
      by_contra hc
      rw [if_neg hc] at h
      have := h.unique (.of_eq rfl : Returns (pure (.fin false 1 : Flt f)) _)
      simp at this
    · intro h; rw [if_pos h]; exact .of_eq rfl
  rw [hr]
  cases x with
  | nan => exact absurd rfl hn
  | inf s => cases s <;> simp [MixedReal.isNegative, Flt.lt]
  | fin s m =>
    obtain ⟨_, m', e, h0, -⟩ := is_of_valid hx
    cases e
    cases s
    · simpa [MixedReal.isNegative, Flt.lt, Flt.val] using h0
    · simp only [MixedReal.isNegative, Flt.lt, Flt.val, if_true, true_iff]
      rcases h0.eq_or_lt with h | h
      · left; rw [← h]
      · right; simpa using h

example := C93_flag wide_F32 (.fin true 3) (by is_float 3 0)

/-! ## C94 -/

theorem rnd_between {p : ℕ} {emin : ℤ} {lo hi P : ℚ} (h1 : rnd p emin lo = P) (h2 : rnd p emin hi = P) {x : ℝ}
    (hl : (lo:ℝ) ≤ x) (hh : x ≤ hi) {b : ℚ} (hb : Rep p emin b) : |(P:ℝ) - x| ≤ |(b:ℝ) - x| := by
  have a1 := rnd_nearest (p := p) (emin := emin) lo hb
  have a2 := rnd_nearest (p := p) (emin := emin) hi hb
  rw [h1] at a1; rw [h2] at a2
  have c1 : |(P:ℝ) - lo| ≤ |(b:ℝ) - lo| := by exact_mod_cast a1
  have c2 : |(P:ℝ) - hi| ≤ |(b:ℝ) - hi| := by exact_mod_cast a2
  rw [← sq_le_sq] at c1 c2 ⊢
  rcases lt_trichotomy (b:ℝ) P with h | h | h
  · have : 0 ≤ ((P:ℝ) - b) * (2 * lo - P - b) := by nlinarith
    have := nonneg_of_mul_nonneg_right this (by linarith)
    nlinarith
  · rw [h]
  · have : 0 ≤ ((b:ℝ) - P) * (P + b - 2 * hi) := by nlinarith
    have := nonneg_of_mul_nonneg_right this (by linarith)
    nlinarith

theorem rep_of_representable {b : ℚ} (h : Representable f b) : Rep f.p f.emin b := by
  obtain ⟨n, e, h1, h2, h3, -⟩ := h
  exact ⟨n, e, h2, by exact_mod_cast h1, h3⟩

/-- C94: `mixed_pi` of `f32` is 13176795/2^22, and no `f32` is nearer to π. -/
theorem C94_pi_f32 :
    Returns (MixedPi.pi : Prog (Flt F32)) (.fin false (13176795 / 4194304)) ∧
    ∀ b, Representable F32 b → |((13176795 / 4194304 : ℚ) : ℝ) - Real.pi| ≤ |(b:ℝ) - Real.pi| := by
  constructor
  · exact .of_eq (by show pure _ = pure _; congr 1; decide +kernel)
  · intro b hb
    have a := Real.pi_gt_d20; have c := Real.pi_lt_d20
    refine rnd_between (p := 24) (emin := -149) (lo := 3.14159265358979323846) (hi := 3.14159265358979323847)
      (by decide +kernel) (by decide +kernel) ?_ ?_ (rep_of_representable hb) <;> push_cast <;> norm_num at a c ⊢ <;> linarith

/-- C94: `mixed_pi` of `f64` is 884279719003555/2^48, and no `f64` is nearer to π. -/
theorem C94_pi_f64 :
    Returns (MixedPi.pi : Prog (Flt F64)) (.fin false (884279719003555 / 281474976710656)) ∧
    ∀ b, Representable F64 b → |((884279719003555 / 281474976710656 : ℚ) : ℝ) - Real.pi| ≤ |(b:ℝ) - Real.pi| := by
  constructor
  · exact .of_eq (by show pure _ = pure _; congr 1; decide +kernel)
  · intro b hb
    have a := Real.pi_gt_d20; have c := Real.pi_lt_d20
    refine rnd_between (p := 53) (emin := -1074) (lo := 3.14159265358979323846) (hi := 3.14159265358979323847)
      (by decide +kernel) (by decide +kernel) ?_ ?_ (rep_of_representable hb) <;> push_cast <;> norm_num at a c ⊢ <;> linarith

/-- C94: `mixed_tau` is exactly twice `mixed_pi`, on `f32` and `f64`, whether doubled by addition or multiplication, and no float
of the type is nearer to `2π`. -/
theorem C94_tau :
    (∃ t : Flt F32, Returns MixedPi.tau t ∧ Returns (do NumOps.add (← MixedPi.pi) (← MixedPi.pi)) t ∧
      Returns (do NumOps.mul (← MixedPi.pi) (← Lit.ofI32 2)) t ∧ ∀ b, Representable F32 b → |(t.val:ℝ) - 2 * Real.pi| ≤ |(b:ℝ) - 2 * Real.pi|) ∧
    ∃ t : Flt F64, Returns MixedPi.tau t ∧ Returns (do NumOps.add (← MixedPi.pi) (← MixedPi.pi)) t ∧
      Returns (do NumOps.mul (← MixedPi.pi) (← Lit.ofI32 2)) t ∧ ∀ b, Representable F64 b → |(t.val:ℝ) - 2 * Real.pi| ≤ |(b:ℝ) - 2 * Real.pi| := by
  have a := Real.pi_gt_d20; have c := Real.pi_lt_d20
  constructor
  · refine ⟨.fin false (13176795 / 2097152), .of_eq ?_, .of_eq ?_, .of_eq ?_, fun b hb => ?_⟩
    · show (pure _ : Prog (Flt F32)) = pure _; congr 1; decide +kernel
    · show (pure ((ofExact false 3.1415926535897932384626433832795028841971693993751058209749445923078164062 : Flt F32).add (ofExact false 3.1415926535897932384626433832795028841971693993751058209749445923078164062)) : Prog (Flt F32)) = pure _; congr 1; decide +kernel
    · show (pure ((ofExact false 3.1415926535897932384626433832795028841971693993751058209749445923078164062 : Flt F32).mul (ofExact false ((2:ℤ):ℚ))) : Prog (Flt F32)) = pure _; congr 1; decide +kernel
    · refine rnd_between (p := 24) (emin := -149) (lo := 6.28318530717958647692) (hi := 6.28318530717958647694)
        (by decide +kernel) (by decide +kernel) ?_ ?_ (rep_of_representable hb) <;> push_cast <;> norm_num at a c ⊢ <;> linarith
  · refine ⟨.fin false (884279719003555 / 140737488355328), .of_eq ?_, .of_eq ?_, .of_eq ?_, fun b hb => ?_⟩
    · show (pure _ : Prog (Flt F64)) = pure _; congr 1; decide +kernel
    · show (pure ((ofExact false 3.1415926535897932384626433832795028841971693993751058209749445923078164062 : Flt F64).add (ofExact false 3.1415926535897932384626433832795028841971693993751058209749445923078164062)) : Prog (Flt F64)) = pure _; congr 1; decide +kernel
    · show (pure ((ofExact false 3.1415926535897932384626433832795028841971693993751058209749445923078164062 : Flt F64).mul (ofExact false ((2:ℤ):ℚ))) : Prog (Flt F64)) = pure _; congr 1; decide +kernel
    · refine rnd_between (p := 53) (emin := -1074) (lo := 6.28318530717958647692) (hi := 6.28318530717958647694)
        (by decide +kernel) (by decide +kernel) ?_ ?_ (rep_of_representable hb) <;> push_cast <;> norm_num at a c ⊢ <;> linarith

theorem add_zero_same (hf : f.Wide) (s : Bool) {x : Flt f} (hx : x.Valid) :
    (x.add (.fin s 0)).Same x ∧ ((Flt.fin s 0 : Flt f).add x).Same x := by
  cases x with
  | nan => exact ⟨.inl rfl, .inl rfl⟩
  | inf t => exact ⟨.inl rfl, .inl rfl⟩
  | fin t m =>
    have h := is_of_valid hx
    set v := (Flt.fin t m : Flt f).val with hv
    have hz : (Flt.fin s 0 : Flt f).val = 0 := by cases s <;> simp [Flt.val]
    constructor
    · refine same_of_is (v := v) ?_ h
      show Is (ofExact _ (v + (Flt.fin s 0 : Flt f).val)) v
      rw [hz, add_zero]; exact is_exact hf.ok _ h.rep h.lt_max
    · refine same_of_is (v := v) ?_ h
      show Is (ofExact _ ((Flt.fin s 0 : Flt f).val + v)) v
      rw [hz, zero_add]; exact is_exact hf.ok _ h.rep h.lt_max

theorem mul_comm_flt (x y : Flt f) : x.mul y = y.mul x := by
  cases x <;> cases y <;> simp [Flt.mul, Bool.xor_comm, _root_.mul_comm]

theorem add_comm_flt (x y : Flt f) : x.add y = y.add x := by
  cases x <;> cases y <;> simp [Flt.add, Bool.and_comm, _root_.add_comm]
  split_ifs <;> simp_all

/-- C94: zero and one are identities on every float, bit for bit except that a zero may change sign. -/
theorem C94_identities (hf : f.Wide) (x : Flt f) (hx : x.Valid) :
    ∃ a b c d : Flt f, Returns (NumOps.add x MixedZero.zero) a ∧ Returns (NumOps.sub x MixedZero.zero) b ∧
      Returns (do NumOps.mul x (← MixedOne.one)) c ∧ Returns (do NumOps.div x (← MixedOne.one)) d ∧
      a.Same x ∧ b.Same x ∧ c.Same x ∧ d.Same x := by
  refine ⟨x.add (.fin false 0), x.sub (.fin false 0), x.mul (.fin false 1), x.div (.fin false 1), .of_eq rfl, .of_eq rfl,
    .of_eq ?_, .of_eq ?_, (add_zero_same hf false hx).1, (add_zero_same hf true hx).1, ?_, ?_⟩
  · show (pure (x.mul (ofExact false 1)) : Prog (Flt f)) = _; rw [one_fin hf]
  · show (pure (x.div (ofExact false 1)) : Prog (Flt f)) = _; rw [one_fin hf]
  · rw [mul_comm_flt]; exact mul_one_same hf false hx
  · cases x with
    | nan => exact .inl rfl
    | inf t => exact .inl (by simp [Flt.div])
    | fin t m =>
      have h := is_of_valid hx
      refine same_of_is ?_ h
      simp only [Flt.div, one_ne_zero, if_false]
      rw [show (Flt.fin false 1 : Flt f).val = 1 from rfl, div_one]
      exact is_exact hf.ok _ h.rep h.lt_max

example := C94_identities wide_F32 (.fin true 3) (by is_float 3 0)

/-- C94: arithmetic on floats commutes, NaN and infinities included, and so do complex addition and multiplication. -/
theorem C94_comm (x y : Flt f) (z w : Cartesian (Flt f)) :
    (NumOps.add x y : Prog (Flt f)) = NumOps.add y x ∧ (NumOps.mul x y : Prog (Flt f)) = NumOps.mul y x ∧
    z.add w = w.add z ∧ z.mul w = w.mul z := by
  refine ⟨?_, ?_, ?_, ?_⟩
  · show (pure (x.add y) : Prog (Flt f)) = pure (y.add x); rw [add_comm_flt]
  · show (pure (x.mul y) : Prog (Flt f)) = pure (y.mul x); rw [mul_comm_flt]
  · show (pure (⟨z.re.add w.re, z.im.add w.im⟩ : Cartesian (Flt f)) : Prog _) = pure ⟨w.re.add z.re, w.im.add z.im⟩
    rw [add_comm_flt z.re, add_comm_flt z.im]
  · show (pure (⟨(z.re.mul w.re).sub (z.im.mul w.im), (z.re.mul w.im).add (z.im.mul w.re)⟩ : Cartesian (Flt f)) : Prog _) =
      pure ⟨(w.re.mul z.re).sub (w.im.mul z.im), (w.re.mul z.im).add (w.im.mul z.re)⟩
    rw [mul_comm_flt z.re w.re, mul_comm_flt z.im w.im, mul_comm_flt z.re w.im, mul_comm_flt z.im w.re, add_comm_flt]

/-- C94: the complex zero and one are identities on complex numbers with finite parts. -/
theorem C94_complex (hf : f.Wide) (z : Cartesian (Flt f)) (h1 : z.re.Valid ∧ z.re.IsFinite) (h2 : z.im.Valid ∧ z.im.IsFinite) :
    ∃ a c : Cartesian (Flt f), Returns (z.add MixedZero.zero) a ∧ Returns (do z.mul (← MixedOne.one)) c ∧
      (a.re.Same z.re ∧ a.im.Same z.im) ∧ c.re.Same z.re ∧ c.im.Same z.im := by
  obtain ⟨x, y⟩ := z
  obtain ⟨hx, s, m, rfl⟩ := h1
  obtain ⟨hy, t, n, rfl⟩ := h2
  have hz : ∀ (u : Bool) (k : ℚ), ∃ w, (Flt.fin u k : Flt f).mul (.fin false 0) = .fin w 0 := by
    intro u k
    refine ⟨xor u false, ?_⟩
    show ofExact _ (_ * _) = _
    rw [show (Flt.fin false 0 : Flt f).val = 0 from rfl, mul_zero]; simp [ofExact]
  obtain ⟨w1, e1⟩ := hz t n
  obtain ⟨w2, e2⟩ := hz s m
  refine ⟨⟨_, _⟩, ⟨((Flt.fin s m).mul (.fin false 1)).sub ((Flt.fin t n).mul (.fin false 0)),
    ((Flt.fin s m).mul (.fin false 0)).add ((Flt.fin t n).mul (.fin false 1))⟩, .of_eq rfl, .of_eq ?_,
    ⟨(add_zero_same hf false hx).1, (add_zero_same hf false hy).1⟩, ?_, ?_⟩
  · rw [← one_fin hf]; rfl
  · dsimp only
    rw [e1]
    have h := mul_one_same hf false hx
    rw [mul_comm_flt] at h
    have hv : ((Flt.fin s m : Flt f).mul (.fin false 1)).Valid := by
      rcases h with h | ⟨_, _, h, -⟩
      · rw [h]; exact hx
      · rw [h]; exact is_zero.valid
    exact (add_zero_same hf (!w1) hv).1.trans h
  · dsimp only
    rw [e2]
    have h := mul_one_same hf false hy
    rw [mul_comm_flt] at h
    have hv : ((Flt.fin t n : Flt f).mul (.fin false 1)).Valid := by
      rcases h with h | ⟨_, _, h, -⟩
      · rw [h]; exact hy
      · rw [h]; exact is_zero.valid
    exact (add_zero_same hf w2 hv).2.trans h

example := C94_complex wide_F32 ⟨.fin true 3, .fin false (1 / 2)⟩ ⟨by is_float 3 0, _, _, rfl⟩ ⟨by is_float 1 (-1), _, _, rfl⟩

/-- C94: with an infinite part the complex one is not an identity: `(∞ + 0i) · 1` has a NaN imaginary part. -/
theorem C94_infinite (hf : f.Wide) :
    Returns (do Cartesian.mul ⟨.inf false, .fin false 0⟩ (← (MixedOne.one : Prog (Cartesian (Flt f))))) ⟨.inf false, .nan⟩ := by
  refine .of_eq ?_
  show (pure (⟨((Flt.inf false).mul (ofExact false 1)).sub ((Flt.fin false 0).mul (.fin false 0)),
    ((Flt.inf false).mul (.fin false 0)).add ((Flt.fin false 0).mul (ofExact false 1))⟩ : Cartesian (Flt f)) : Prog _) = _
  rw [one_fin hf]
  simp [Flt.mul, Flt.sub, Flt.add, Flt.neg, ofExact, Flt.val]

/-! ## C95 -/

/-- C95: `<`, `<=`, `==` on floats are those of the extended reals, whatever the signs of zeros. -/
theorem C95_order (x y : Flt f) (a b : EReal) (hx : x.MeansE a) (hy : y.MeansE b) :
    (MixedCmp.lt x y = true ↔ a < b) ∧ (MixedCmp.le x y = true ↔ a ≤ b) ∧ (MixedCmp.beq x y = true ↔ a = b) ∧
    partialCmp x y = some (cmp a b) := by
  have hlt : ∀ (x y : Flt f) (a b : EReal), x.MeansE a → y.MeansE b → (MixedCmp.lt x y = true ↔ a < b) := by
    intro x y a b hx hy
    show x.lt y = true ↔ _
    rcases hx with ⟨rfl, rfl⟩ | ⟨rfl, rfl⟩ | ⟨m, ⟨rfl, rfl⟩ | ⟨rfl, rfl⟩⟩ <;>
    rcases hy with ⟨rfl, rfl⟩ | ⟨rfl, rfl⟩ | ⟨n, ⟨rfl, rfl⟩ | ⟨rfl, rfl⟩⟩ <;>
    simp only [Flt.lt, Flt.val, EReal.bot_lt_coe, EReal.coe_lt_top, ← Rat.cast_neg, EReal.coe_lt_coe_iff, Rat.cast_lt,
      decide_eq_true_eq, if_true, Bool.false_eq_true, if_false, Bool.and_self, Bool.not_true, Bool.not_false, Bool.and_true,
      Bool.and_false, not_lt_bot, not_top_lt, lt_irrefl, bot_lt_top]
  have hbeq : MixedCmp.beq x y = true ↔ a = b := by
    show x.beq y = true ↔ _
    rcases hx with ⟨rfl, rfl⟩ | ⟨rfl, rfl⟩ | ⟨m, ⟨rfl, rfl⟩ | ⟨rfl, rfl⟩⟩ <;>
    rcases hy with ⟨rfl, rfl⟩ | ⟨rfl, rfl⟩ | ⟨n, ⟨rfl, rfl⟩ | ⟨rfl, rfl⟩⟩ <;>
    simp only [Flt.beq, Flt.val, EReal.coe_ne_bot, EReal.coe_ne_top, EReal.bot_ne_coe, EReal.top_ne_coe, ← Rat.cast_neg,
      EReal.coe_eq_coe_iff, Rat.cast_inj, decide_eq_true_eq, if_true, Bool.false_eq_true, if_false, beq_self_eq_true,
      bot_ne_top, top_ne_bot, reduceCtorEq, beq_iff_eq]
  have h1 := hlt x y a b hx hy; have h2 := hlt y x b a hy hx
  refine ⟨h1, ?_, hbeq, ?_⟩
  · show (MixedCmp.lt x y || MixedCmp.beq x y) = true ↔ _
    rw [Bool.or_eq_true, h1, hbeq, le_iff_lt_or_eq]
  · unfold partialCmp
    rcases lt_trichotomy a b with h | h | h
    · rw [if_neg (by rw [hbeq]; exact h.ne), if_pos (h1.mpr h), (cmp_eq_lt_iff _ _).mpr h]
    · rw [if_pos (hbeq.mpr h), (cmp_eq_eq_iff _ _).mpr h]
    · rw [if_neg (by rw [hbeq]; exact h.ne'), if_neg (by rw [h1]; exact h.not_gt),
        if_pos (h2.mpr h), (cmp_eq_gt_iff _ _).mpr h]

example : (Flt.fin true 0 : Flt F32).MeansE 0 ∧ (Flt.fin false 0 : Flt F32).MeansE 0 :=
  ⟨.inr (.inr ⟨0, .inr ⟨rfl, by simp⟩⟩), .inr (.inr ⟨0, .inl ⟨rfl, by simp⟩⟩)⟩

/-- C95: every float but NaN stands for exactly one extended real, so the previous theorem covers all of them. -/
theorem C95_means (x : Flt f) (hx : x ≠ .nan) : ∃! a : EReal, x.MeansE a := by
  cases x with
  | nan => exact absurd rfl hx
  | inf s => cases s <;> simp [Flt.MeansE]
  | fin s m => cases s <;> simp [Flt.MeansE]

example := C95_means (f := F32) (.inf true) (by decide)

/-- C95: NaN is incomparable with everything, itself included. -/
theorem C95_nan (x y : Flt f) (h : x = .nan ∨ y = .nan) :
    MixedCmp.lt x y = false ∧ MixedCmp.le x y = false ∧ MixedCmp.beq x y = false ∧ partialCmp x y = none := by
  rcases h with rfl | rfl
  · refine ⟨rfl, rfl, rfl, ?_⟩
    show (if _ then _ else _) = _
    cases y <;> rfl
  · cases x <;> exact ⟨rfl, rfl, rfl, rfl⟩

example := C95_nan (f := F32) (.fin false 3) .nan (.inr rfl)

/-- C95: complex numbers with float parts, none of them NaN, compare lexicographically by value; equality is part-wise. -/
theorem C95_complex (z w : Cartesian (Flt f)) (a b c d : EReal) (h1 : z.re.MeansE a) (h2 : z.im.MeansE b) (h3 : w.re.MeansE c)
    (h4 : w.im.MeansE d) :
    z.partialCmp w = some ((cmp a c).then (cmp b d)) ∧ (MixedCmp.lt z w = true ↔ a < c ∨ a = c ∧ b < d) ∧
    (MixedCmp.beq z w = true ↔ a = c ∧ b = d) := by
  obtain ⟨-, -, e1, e2⟩ := C95_order _ _ _ _ h1 h3
  obtain ⟨-, -, e3, e4⟩ := C95_order _ _ _ _ h2 h4
  have key : z.partialCmp w = some ((cmp a c).then (cmp b d)) := by
    unfold Cartesian.partialCmp
    rw [e2, e4]
    cases cmp a c <;> rfl
  refine ⟨key, ?_, ?_⟩
  · show (z.partialCmp w == some .lt) = true ↔ _
    rw [key, beq_iff_eq, Option.some.injEq, Ordering.then_eq_lt, cmp_eq_lt_iff, cmp_eq_eq_iff, cmp_eq_lt_iff]
  · show (MixedCmp.beq z.re w.re && MixedCmp.beq z.im w.im) = true ↔ _
    rw [Bool.and_eq_true, e1, e3]

example := C95_complex (f := F32) ⟨.fin true 3, .inf false⟩ ⟨.inf true, .fin false 2⟩ _ _ _ _ (.inr (.inr ⟨3, .inr ⟨rfl, rfl⟩⟩)) (.inr (.inl ⟨rfl, rfl⟩))
  (.inl ⟨rfl, rfl⟩) (.inr (.inr ⟨2, .inl ⟨rfl, rfl⟩⟩))

/-- C95: a NaN part makes complex numbers unequal, and incomparable unless the real parts already differ. -/
theorem C95_complex_nan (z w : Cartesian (Flt f)) :
    ((z.re = .nan ∨ w.re = .nan) → z.partialCmp w = none ∧ MixedCmp.beq z w = false) ∧
    ((z.im = .nan ∨ w.im = .nan) → MixedCmp.beq z w = false ∧ (MixedCmp.beq z.re w.re = true → z.partialCmp w = none) ∧
      (MixedCmp.beq z.re w.re = false → z.partialCmp w = partialCmp z.re w.re)) := by
  constructor
  · intro h
    obtain ⟨-, -, h3, h4⟩ := C95_nan _ _ h
    refine ⟨?_, ?_⟩
    · unfold Cartesian.partialCmp; rw [h4]
    · show (MixedCmp.beq z.re w.re && _) = false; rw [h3]; rfl
  · intro h
    obtain ⟨-, -, h3, h4⟩ := C95_nan _ _ h
    refine ⟨?_, fun e => ?_, fun e => ?_⟩
    · show (_ && MixedCmp.beq z.im w.im) = false; rw [h3, Bool.and_false]
    · unfold Cartesian.partialCmp; rw [h4]
      have : partialCmp z.re w.re = some .eq := by unfold partialCmp; rw [if_pos e]
      rw [this]
    · unfold Cartesian.partialCmp
      have : partialCmp z.re w.re ≠ some .eq := by
        unfold partialCmp; rw [if_neg (by rw [e]; exact Bool.false_ne_true)]
        split_ifs <;> simp
      split
      · next h => exact absurd h this
      · rfl

end MixedNum
