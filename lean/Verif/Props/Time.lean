import Verif.Props.Wrap
import Verif.Lemmas.TimeFloat
import Verif.Lemmas.Run
import Verif.Spec.Float
import Verif.Props.AddSub
import Verif.Lemmas.Case
/-! C135: how long the routines run. -/

namespace MixedNum

/-! ## Phase wrapping: linear in the argument -/

/-- C135, exact reals: one pass per turn. -/
theorem C135_wrap_real (x : ℝ) : ∃ (r : ℝ) (k : ℤ), -Real.pi ≤ r ∧ r < Real.pi ∧ r = x + k * (2 * Real.pi) ∧
    ∀ n, wrapPhase x n = if n ≤ k.natAbs then .timeout else .ok r := wrapReal.time x

section Fixed
variable {m : Mode} {s : Bool} {W F : ℕ}

/-- C135, signed fixed point: one pass per turn. -/
theorem C135_wrap_fixed (h : F + 4 ≤ W) (x : Fixed m true W F) : ∃ (p r : Fixed m true W F) (k : ℤ),
    Returns MixedPi.pi p ∧ -p.val ≤ r.val ∧ r.val < p.val ∧ r.val = x.val + k * (2 * p.val) ∧
      ∀ n, wrapPhase x n = if n ≤ k.natAbs then .timeout else .ok r := by
  let E := Fixed.wrapExact (m := m) (show F + 3 ≤ W by omega) (fun _ => h)
  obtain ⟨r, k, h1, h2, h3, h4⟩ := E.time x
  refine ⟨E.p, r, k, .of_eq E.pi_eq, ?_, ?_, ?_, h4⟩
  · have : -((E.p.val : ℤ) : ℝ) ≤ ((r.val : ℤ) : ℝ) := h1
    exact_mod_cast this
  · have : ((r.val : ℤ) : ℝ) < ((E.p.val : ℤ) : ℝ) := h2
    exact_mod_cast this
  · have : ((r.val : ℤ) : ℝ) = ((x.val : ℤ) : ℝ) + k * (2 * ((E.p.val : ℤ) : ℝ)) := h3
    exact_mod_cast this

/-- C135: wrapping the greatest 64-bit number with four fraction bits takes more than `2^56` passes, in either build. -/
theorem C135_wrap_slow : PassesAtLeast (wrapPhase (fx m true 64 4 (2 ^ 63 - 1))) (2 ^ 56) := by
  obtain ⟨p, r, k, hp, h1, h2, h3, h4⟩ := C135_wrap_fixed (m := m) (W := 64) (F := 4) (by norm_num) (fx m true 64 4 (2 ^ 63 - 1))
  have hp50 : p.val = 50 := by
    have : Returns (MixedPi.pi : Prog (Fixed m true 64 4)) (fx m true 64 4 50) := by
      cases m
      · exact .of_eq (by kernel_rfl)
      · exact .of_eq (by kernel_rfl)
    rw [hp.unique this]; rfl
  have hx : (fx m true 64 4 (2 ^ 63 - 1)).val = 2 ^ 63 - 1 := rfl
  rw [hx, hp50] at h3
  rw [hp50] at h2
  intro n hn
  rw [h4, if_pos]
  omega

/-! ## The square root: linear in the width -/

/-- C135, fixed point with overflow checks, any format: no loop of the square root makes more than half as many passes as
there are bits. -/
theorem C135_sqrt_fixed (hW : W ≤ 128) (md : Mode) (x : Fixed .checked s W F) (iters : ℕ) :
    PassesAtMost (niirf (.i32 md) x iters) ((W + 1) / 2) := by
  have hcn := Counter.upto_width md hW
  refine Fixed.freeOps.niirf hcn iters fun x' n h0 ha => ?_
  have h0 : x.val ≠ 0 := by simpa using h0
  refine Fixed.normalize_time hcn (.inl rfl) ?_
  change (if s then Fixed.fit |x.val| else pure x : Prog (Fixed .checked s W F)) n = .ok x' at ha
  cases s
  · simp only [Bool.false_eq_true, if_false, Prog.pure_apply] at ha
    cases ha
    have : 0 ≤ x.val := x.lo_le
    omega
  · rw [if_pos rfl] at ha
    rw [Fixed.val_of_fit (.inl rfl) ha]; exact abs_pos.mpr h0

/-- C135, fixed point without overflow checks: the same where 4 and the magnitude of the argument are representable. -/
theorem C135_sqrt_fixed_release (hW : W ≤ 128) (md : Mode) (h4 : InRange s W (4 * 2 ^ F)) (x : Fixed m s W F)
    (hx : InRange s W |x.val|) (iters : ℕ) : PassesAtMost (niirf (.i32 md) x iters) ((W + 1) / 2) := by
  have hcn := Counter.upto_width md hW
  refine Fixed.freeOps.niirf hcn iters fun x' n h0 ha => ?_
  have h0 : x.val ≠ 0 := by simpa using h0
  refine Fixed.normalize_time hcn (.inr (inRange_iff.mp h4)) ?_
  change (if s then Fixed.fit |x.val| else pure x : Prog (Fixed m s W F)) n = .ok x' at ha
  cases s
  · simp only [Bool.false_eq_true, if_false, Prog.pure_apply] at ha
    cases ha
    have : 0 ≤ x.val := x.lo_le
    omega
  · rw [if_pos rfl] at ha
    rw [Fixed.val_of_fit (.inr (inRange_iff.mp hx)) ha]; exact abs_pos.mpr h0

example := C135_sqrt_fixed_release (by decide) .checked (by decide) (fx .wrapping true 16 8 (-300)) (by decide) 2

/-! ## Sine and arctangent: no loops -/

/-- C135, signed fixed point: `sin` and `atan2` have no `while` loop. -/
theorem C135_loop_free_fixed (x y : Fixed m true W F) : LoopFree (sin x) ∧ LoopFree (atan2Poly y x) :=
  ⟨Fixed.freeOps.sin Fixed.freeSigned x, Fixed.freeOps.atan2 Fixed.freeSigned y x⟩

/-- Cases: -7.5 on 8 bits with four fraction bits takes one pass; the root of the smallest 16-bit number with ten fraction
bits is found with budget 9. -/
example : wrapPhase (fx .checked true 8 4 (-120)) 1 = .timeout := by decide +kernel
example : wrapPhase (fx .checked true 8 4 (-120)) 2 = .ok (fx .checked true 8 4 (-20)) := by decide +kernel
example : niirf (.i32 .checked) (fx .checked true 16 10 1) 2 9 ≠ .timeout :=
  C135_sqrt_fixed (by norm_num) .checked (fx .checked true 16 10 1) 2 9 (by norm_num)

end Fixed

/-! ## Floats -/

section Float
open Flt
variable {f : Format}

/-- C135, floats up to `2^p / 10`: the passes grow with the argument, six to seven per pass. -/
theorem C135_wrap_float (hf : f.Wide) (h60 : f.p ≤ 60) (x : Flt f) (hx : x.Valid) (hfin : x.IsFinite)
    (hm : |(x.val : ℝ)| ≤ 2 ^ f.p / 10) : ∃ (r : Flt f) (k : ℕ), 6 * (k:ℝ) ≤ |(x.val : ℝ)| + 16 / 5 ∧
      |(x.val : ℝ)| ≤ 7 * k + 16 / 5 ∧ ∀ n, wrapPhase x n = if n ≤ k then .timeout else .ok r := by
  have e1 : eta f = 1 / 2 ^ f.p := by unfold eta; rw [zpow_neg, zpow_natCast, one_div]
  obtain ⟨b, q, rfl⟩ := hfin
  exact wrap_time hf h60 (is_of_valid hx) (by
    rw [e1, ← mul_div_assoc, mul_one, div_le_iff₀ (by positivity)]; linarith)

example := C135_wrap_float wide_F32 (by decide) (.fin true 1000) (by is_float 1000 0) ⟨_, _, rfl⟩ (by norm_num [Flt.val, F32])

/-- C135: wrapping `2^49` in double precision takes at least `2^46` passes. -/
theorem C135_wrap_float_slow : PassesAtLeast (wrapPhase (.fin false (2 ^ 49) : Flt F64)) (2 ^ 46) := by
  have hv : (Flt.fin false (2 ^ 49) : Flt F64).Valid := ⟨1, 49, by norm_num, by norm_num, by rw [pow2]; norm_num [Int.toNat], by
    exact pow_lt_pow_right₀ (by norm_num) (by norm_num)⟩
  have e : (((Flt.fin false (2 ^ 49) : Flt F64).val : ℚ) : ℝ) = 2 ^ 49 := by simp [Flt.val]
  obtain ⟨r, k, -, h2, h3⟩ := C135_wrap_float wide_F64 (by norm_num) _ hv ⟨_, _, rfl⟩ (by
    rw [e, abs_of_pos (by positivity)]; norm_num)
  rw [e, abs_of_pos (by positivity)] at h2
  have hk : (2 ^ 46 : ℕ) ≤ k := by
    have : ((2 ^ 46 : ℕ) : ℝ) ≤ k := by
      by_contra hc
      rw [not_le] at hc
      norm_num at h2 hc
      have : (k:ℝ) < 70368744177664 := by exact_mod_cast hc
      linarith
    exact_mod_cast this
  intro n hn
  rw [h3, if_pos (by omega)]

/-- C135, floats other than infinities: the square root makes at most `max (-emin / 2) ((emax + 1) / 2)` passes. -/
theorem C135_sqrt_float (hf : f.Wide) (md : Mode) (x : Flt f) (hx : x.Valid) (h : ∀ b, x ≠ .inf b) (iters : ℕ) :
    PassesAtMost (niirf (.i32 md) x iters) (max ((-f.emin).toNat / 2) ((f.emax + 1) / 2)) := by
  have hcn := Counter.upto_i32 md (B := 2 ^ 30 + 1) (by norm_num)
  refine Flt.freeOps.niirf hcn iters fun x' n h0 ha => ?_
  have ha : x.abs = x' := by
    have : (Out.ok x.abs : Out (Flt f)) = .ok x' := ha
    simpa using this
  subst ha
  rcases x with _ | b | ⟨b, q⟩
  · -- NaN: both loops are left at once
    have hl : ∀ c : Flt f, MixedCmp.le c (.nan : Flt f) = false := by rintro (_ | _ | _) <;> rfl
    have e : ∀ n, niirfNormalize (.i32 md) (Flt.nan : Flt f) (n + 1) = .ok (.nan, 0) := by
      intro n
      unfold niirfNormalize
      rw [Prog.bind_apply_ok (a := (Flt.nan, 0))]
      · refine congrFun (whileGo_done ?_) _
        show (pure (MixedCmp.le (ofExact false 1) (.nan : Flt f)) : Prog Bool) = pure false
        rw [hl]
      · refine congrFun (whileGo_done ?_) _
        rfl
    refine ⟨fun n hn => ?_, fun n r hr => ?_⟩
    · obtain ⟨k, rfl⟩ : ∃ k, n = k + 1 := ⟨n - 1, by omega⟩
      show niirfNormalize (.i32 md) (Flt.nan : Flt f) (k + 1) ≠ _
      rw [e]; simp
    · rcases n with _ | n
      · cases hr
      · change niirfNormalize (.i32 md) (Flt.nan : Flt f) (n + 1) = _ at hr
        rw [e] at hr; cases hr; simp
  · exact absurd rfl (h b)
  · have hi := is_of_valid hx
    refine normalize_time hcn hf hi.abs (abs_pos.mpr fun e => ?_)
    rw [hi.val] at e
    have := hi.beq (is_zero (f := f))
    rw [e] at this
    have h0 : (Flt.fin b q : Flt f).beq (.fin false 0) = false := h0
    rw [this] at h0
    simp at h0

example := C135_sqrt_float wide_F32 .checked (.fin true 1000) (by is_float 1000 0) (fun _ => nofun) 2

/-- C135: 74 passes are enough in single precision and 537 in double precision. -/
theorem C135_sqrt_float_sizes (md : Mode) (iters : ℕ) :
    (∀ x : Flt F32, x.Valid → (∀ b, x ≠ .inf b) → PassesAtMost (niirf (.i32 md) x iters) 74) ∧
    (∀ x : Flt F64, x.Valid → (∀ b, x ≠ .inf b) → PassesAtMost (niirf (.i32 md) x iters) 537) :=
  ⟨fun x hx h => C135_sqrt_float wide_F32 md x hx h iters, fun x hx h => C135_sqrt_float wide_F64 md x hx h iters⟩

/-- C135, floats: `sin` and `atan2` have no `while` loop. -/
theorem C135_loop_free_float (x y : Flt f) : LoopFree (sin x) ∧ LoopFree (atan2Poly y x) :=
  ⟨Flt.freeOps.sin Flt.freeSigned x, Flt.freeOps.atan2 Flt.freeSigned y x⟩

end Float

/-! ## Powers: one multiplication per unit of the exponent -/

theorem count_loop (k c : ℕ) : powiLoop (⟨0⟩ : Count) k ⟨c⟩ = pure ⟨c + k⟩ := by
  induction k generalizing c with
  | zero => rfl
  | succ k ih =>
    rw [powiLoop]
    show powiLoop (⟨0⟩ : Count) k ⟨c + 0 + 1⟩ = _
    rw [ih]; congr 2; omega

/-- C135: `powi` makes one multiplication less than the exponent says. -/
theorem C135_powi (e : ℕ) : Returns (powi (⟨0⟩ : Count) e) ⟨e - 1⟩ := by
  unfold powi
  split_ifs with h
  · subst h; exact .of_eq rfl
  · rw [count_loop, Nat.zero_add]; exact .of_eq rfl

/-- C135: a negative exponent of `mixed_powi` on integers and fixed point costs `2^64 - |e| - 1` multiplications. -/
theorem C135_powi_negative (e : ℤ) (h0 : e < 0) (h1 : -2 ^ 31 ≤ e) :
    Returns (mixedPowiVia (⟨0⟩ : Count) e) ⟨2 ^ 64 - e.natAbs - 1⟩ := by
  have : usizeOfI32 e = 2 ^ 64 - e.natAbs := by unfold usizeOfI32; omega
  unfold mixedPowiVia
  rw [this]
  exact C135_powi _

/-- Cases: 2^10 takes nine multiplications, an exponent of -1 almost `2^64`. -/
example : Returns (powi (⟨0⟩ : Count) 10) ⟨9⟩ := C135_powi 10
example : Returns (mixedPowiVia (⟨0⟩ : Count) (-1)) ⟨18446744073709551614⟩ := C135_powi_negative (-1) (by norm_num) (by norm_num)

end MixedNum
