import Verif.Lemmas.FloatSqrtRun
import Verif.Props.AddSub
import Verif.Lemmas.Run
import Verif.Lemmas.Case
/-! # C70, C71: the NIIRF square root on floats -/

namespace MixedNum
variable {f : Format}
open Flt

/-- C70: on every finite non-zero float the routine returns a positive finite float close to the root of the
magnitude, and further iterations improve it down to a rounding floor. -/
theorem C70_accuracy (hf : f.Wide) (md : Mode) (x : Flt f) (hx : x.Valid) (s : Bool) (q : ℚ) (e : x = .fin s q) (hq : x.val ≠ 0)
    (n : ℕ) (hn : 2 ≤ n) :
    ∃ z : Flt f, Returns (niirf (.i32 md) x n) z ∧ z.Valid ∧ (∃ b m, z = .fin b m) ∧ 0 < z.val ∧
      |(z.val : ℝ) - Real.sqrt (|(x.val : ℝ)|)| ≤
        (995 / 1000000 / 10 ^ (n - 2) + 1 / 1000000) * Real.sqrt (|(x.val : ℝ)|) := by
  subst e
  obtain ⟨z, zq, h1, h2, h3, h4⟩ := niirf_flt (Counter.upto_i32 md (by norm_num)) hf (is_of_valid hx) hq n
  refine ⟨z, h1, h2.valid, h2.fin, ?_, by rw [h2.val]; exact h4 hn⟩
  have hp : 0 < Real.sqrt (|((Flt.fin s q : Flt f).val : ℝ)|) := Real.sqrt_pos.mpr (abs_pos.mpr (by exact_mod_cast hq))
  have := abs_le.mp h3
  rw [h2.val]
  have : (0:ℝ) < zq := by linarith
  exact_mod_cast this

example := C70_accuracy wide_F32 .checked (.fin true (3 / 2)) (by is_float 3 (-1)) _ _ rfl (by norm_num [Flt.val]) 3 (by decide)

/-- C70, the method as called (two iterations), single precision. -/
theorem C70_f32 (md : Mode) (x : Flt F32) (hx : x.Valid) (s : Bool) (q : ℚ) (e : x = .fin s q) (hq : x.val ≠ 0) :
    ∃ z : Flt F32, Returns (niirf (.i32 md) x 2) z ∧ z.Valid ∧
      |(z.val : ℝ) - Real.sqrt (|(x.val : ℝ)|)| ≤ 996 / 1000000 * Real.sqrt (|(x.val : ℝ)|) := by
  obtain ⟨z, h1, h2, -, -, h3⟩ := C70_accuracy wide_F32 md x hx s q e hq 2 le_rfl
  exact ⟨z, h1, h2, by norm_num at h3 ⊢; exact h3⟩

/-- C70, the method as called (two iterations), double precision. -/
theorem C70_f64 (md : Mode) (x : Flt F64) (hx : x.Valid) (s : Bool) (q : ℚ) (e : x = .fin s q) (hq : x.val ≠ 0) :
    ∃ z : Flt F64, Returns (niirf (.i32 md) x 2) z ∧ z.Valid ∧
      |(z.val : ℝ) - Real.sqrt (|(x.val : ℝ)|)| ≤ 996 / 1000000 * Real.sqrt (|(x.val : ℝ)|) := by
  obtain ⟨z, h1, h2, -, -, h3⟩ := C70_accuracy wide_F64 md x hx s q e hq 2 le_rfl
  exact ⟨z, h1, h2, by norm_num at h3 ⊢; exact h3⟩

example := C70_f64 .checked (.fin true (3 / 2)) (by is_float 3 (-1)) _ _ rfl (by norm_num [Flt.val])

/-- C70: both zeros give `+0`. -/
theorem C70_zero (md : Mode) (b : Bool) (n : ℕ) : Returns (niirf (.i32 md) (.fin b 0 : Flt f) n) (.fin false 0) := by
  refine .of_eq ?_
  unfold niirf
  have : MixedCmp.beq (.fin b 0 : Flt f) MixedZero.zero = true := by
    show decide (Flt.val (.fin b 0 : Flt f) = Flt.val (.fin false 0 : Flt f)) = true
    cases b <;> simp [Flt.val]
  rw [if_pos this]; rfl

example : ∃ z : Flt F32, Returns (niirf (.i32 .checked) (.fin true (5/4)) 2) z ∧ z.Valid ∧
    |(z.val : ℝ) - Real.sqrt (5/4)| ≤ 996 / 1000000 * Real.sqrt (5/4) := by
  have := C70_f32 .checked (.fin true (5/4)) ⟨5, -2, by norm_num, by norm_num, by rw [pow2_eq]; norm_num, by norm_num⟩ _ _ rfl
    (by norm_num [Flt.val])
  rwa [show ((Flt.fin true (5/4) : Flt F32).val : ℝ) = -(5/4) by norm_num [Flt.val], abs_neg,
    abs_of_pos (by norm_num : (0:ℝ) < 5/4)] at this

/-! ## C71 -/

/-- What the second loop of the normalisation does on infinity: dividing by four changes nothing, the counter goes up. -/
theorem inf_steps (hf : f.Wide) (c : Counter) (k : ℤ) :
    (do pure (MixedCmp.le (← Lit.ofF64 1) (Flt.inf false : Flt f)) : Prog Bool) = pure true ∧
    (do let j ← c.fit (k + 1); pure (← NumOps.div (Flt.inf false : Flt f) (← Lit.ofI32 4), j) : Prog (Flt f × ℤ)) =
      (do let j ← c.fit (k + 1); pure (Flt.inf false, j)) := by
  have l4 : Is (ofExact false ((4:ℤ):ℚ) : Flt f) 4 := by simpa using lit_small (f := f) hf (n := 4) (by norm_num) (by norm_num)
  have l1 : Is (ofExact false 1 : Flt f) 1 := by simpa using lit_small (f := f) hf (n := 1) (by norm_num) (by norm_num)
  constructor
  · show (pure (MixedCmp.le (ofExact false 1) (.inf false : Flt f)) : Prog Bool) = pure true
    obtain ⟨s, m, hs, -⟩ := l1
    rw [hs]; rfl
  · show (do let j ← c.fit (k + 1); pure (Flt.div (.inf false) (ofExact false ((4:ℤ):ℚ)), j) : Prog (Flt f × ℤ)) = _
    obtain ⟨s, m, hs, h0, hv, -⟩ := l4
    rw [hs] at hv ⊢
    cases s
    · rfl
    · have : -m = 4 := hv
      linarith

theorem inf_first (hf : f.Wide) :
    (do pure (MixedCmp.lt (Flt.inf false : Flt f) (← Lit.ofF64 (1/4))) : Prog Bool) = pure false := by
  have lq : Is (ofExact false (1/4) : Flt f) (1/4) := by
    have := lit_sixteenth (f := f) hf (n := 4) (by norm_num) (by norm_num); norm_num at this ⊢; exact this
  show (pure (Flt.lt (.inf false) (ofExact false (1/4))) : Prog Bool) = pure false
  obtain ⟨s, m, hs, -⟩ := lq
  rw [hs]; rfl

/-- The first `2^31 - 1` passes of the second loop in a debug build. -/
theorem inf_passes (hf : f.Wide) (j : ℕ) (hj : j < 2 ^ 31 - 1) :
    (do pure (MixedCmp.le (← Lit.ofF64 1) (Flt.inf false : Flt f)) : Prog Bool) = pure true ∧
    (do let k ← (Counter.i32 .checked).fit ((j:ℤ) + 1); pure (← NumOps.div (Flt.inf false : Flt f) (← Lit.ofI32 4), k) :
      Prog (Flt f × ℤ)) = pure (Flt.inf false, ((j + 1 : ℕ) : ℤ)) := by
  refine ⟨(inf_steps hf .exact j).1, (inf_steps hf (.i32 .checked) j).2.trans ?_⟩
  show (Counter.fit (.i32 .checked) ((j:ℤ) + 1) >>= fun j => pure ((Flt.inf false : Flt f), j)) = _
  rw [Counter.upto_i32 .checked (B := 2 ^ 31 - 1) (by norm_num) _ (by rw [abs_of_nonneg (by positivity)]; omega)]
  push_cast; rfl

/-- The pass after that. -/
theorem inf_last (hf : f.Wide) :
    (do let k ← (Counter.i32 .checked).fit (((2 ^ 31 - 1 : ℕ) : ℤ) + 1); pure (← NumOps.div (Flt.inf false : Flt f) (← Lit.ofI32 4), k) :
      Prog (Flt f × ℤ)) = Prog.fail .overflow := by
  refine (inf_steps hf (.i32 .checked) _).2.trans ?_
  have : Counter.fit (.i32 .checked) (((2 ^ 31 - 1 : ℕ) : ℤ) + 1) = Prog.fail .overflow := by
    unfold Counter.fit
    exact if_neg (by rw [fits_i32]; norm_num)
  show (Counter.fit (.i32 .checked) (((2 ^ 31 - 1 : ℕ) : ℤ) + 1) >>= fun j => pure ((Flt.inf false : Flt f), j)) = _
  rw [this, Prog.fail_bind]

/-- C71 is false: the routine never ends on the infinities in a release build. -/
theorem C71_counterexample (hf : f.Wide) (b : Bool) (n : ℕ) : Diverges (niirf (.i32 .wrapping) (.inf b : Flt f) n) := by
  unfold niirf
  have hb : MixedCmp.beq (.inf b : Flt f) MixedZero.zero = false := rfl
  rw [hb, if_neg Bool.false_ne_true]
  show Diverges (do let x_ ← pure (Flt.inf false); _)
  rw [pure_bind]
  refine Diverges.bind ?_
  unfold niirfNormalize
  refine whileLoop_done_diverges (inf_first hf) ?_
  refine whileLoop_diverges (fun s => s.1 = .inf false) ?_ _ rfl
  rintro ⟨y, k⟩ rfl
  exact ⟨(inf_steps hf .exact k).1, (.inf false, wrapInt true 32 (k + 1)), (inf_steps hf (.i32 .wrapping) k).2, rfl⟩

/-- C71 is false: in a debug build the counter overflows on the infinities, after `2^31` passes. -/
theorem C71_counterexample_debug (hf : f.Wide) (b : Bool) (n : ℕ) :
    Panics (niirf (.i32 .checked) (.inf b : Flt f) n) .overflow := by
  unfold niirf
  have hb : MixedCmp.beq (.inf b : Flt f) MixedZero.zero = false := rfl
  rw [hb, if_neg Bool.false_ne_true]
  show Panics (do let x_ ← pure (Flt.inf false); _) _
  rw [pure_bind]
  refine Panics.bind ?_
  unfold niirfNormalize
  refine Returns.bind_panics (a := (.inf false, 0)) (by exact whileLoop_done (inf_first hf)) ?_
  exact whileLoop_panics_after (N := 2 ^ 31 - 1) (fun j => (Flt.inf false, (j : ℤ))) (inf_passes hf) (inf_steps hf .exact 0).1
    (inf_last hf)

/-- C71: how long that takes. On the infinities in a debug build the routine is still looping with a budget of fewer than `2^31`
passes, and panics with any larger budget, whatever the number of iterations asked for. -/
theorem C71_counterexample_passes (hf : f.Wide) (b : Bool) (n N : ℕ) :
    niirf (.i32 .checked) (.inf b : Flt f) n N = if N < 2 ^ 31 then .timeout else .panic .overflow := by
  have hb : MixedCmp.beq (.inf b : Flt f) MixedZero.zero = false := rfl
  have bt : ∀ {α β : Type} {p : Prog α} (g : α → Prog β),
      p N = (if N < 2 ^ 31 then .timeout else .panic .overflow) → (p >>= g) N = if N < 2 ^ 31 then .timeout else .panic .overflow := by
    intro α β p g h
    show (match p N with | .ok a => g a N | .panic e => .panic e | .timeout => .timeout) = _
    rw [h]; split_ifs <;> rfl
  unfold niirf
  rw [hb, if_neg Bool.false_ne_true]
  show (do let x_ ← pure (Flt.inf false); _ : Prog (Flt f)) N = _
  rw [pure_bind]
  refine bt _ ?_
  unfold niirfNormalize
  cases N with
  | zero => exact bt _ rfl
  | succ N =>
    have bo : ∀ {α β : Type} {p : Prog α} (g : α → Prog β) (a : α), p (N + 1) = .ok a → (p >>= g) (N + 1) = g a (N + 1) := by
      intro α β p g a h
      show (match p (N + 1) with | .ok a => g a (N + 1) | .panic e => .panic e | .timeout => .timeout) = _
      rw [h]
    have first : ∀ (c1 : Flt f × ℤ → Prog Bool) (b1 : Flt f × ℤ → Prog (Flt f × ℤ)), c1 (.inf false, 0) = pure false →
        whileLoop c1 b1 (.inf false, 0) (N + 1) = .ok (.inf false, 0) := by
      intro c1 b1 h
      show whileGo c1 b1 (N + 1) (.inf false, 0) (N + 1) = _
      rw [whileGo_done h]; rfl
    refine (bo _ _ (first _ _ (inf_first hf))).trans ?_
    split_ifs with hN
    · exact whileLoop_busy (N := 2 ^ 31 - 1) (fun j => (Flt.inf false, (j : ℤ))) (inf_passes hf) (by omega)
    · exact whileLoop_panics_at (N := 2 ^ 31 - 1) (fun j => (Flt.inf false, (j : ℤ))) (inf_passes hf) (inf_steps hf .exact 0).1
        (inf_last hf) (by omega)

example := C71_counterexample_passes wide_F64 true 20 (10 ^ 9)

/-- C71: the square root of NaN is NaN. -/
theorem C71_nan_partial (md : Mode) (n : ℕ) : Returns (niirf (.i32 md) (.nan : Flt f) n) .nan := by
  -- every comparison with NaN is false, so both loops are skipped and NaN is passed on
  have hiter : ∀ k y, niirfIter (Flt.nan : Flt f) k y = pure (if k = 0 then y else .nan) := by
    intro k
    induction k with
    | zero => intro y; rfl
    | succ k ih =>
      intro y
      rw [niirfIter, if_neg (by omega)]
      obtain ⟨c, hc⟩ : ∃ c : Flt f, beta (Flt.nan : Flt f) = pure c := by
        refine ⟨ofExact false (f64Round 0.502930), ?_⟩
        unfold beta
        have hl : ∀ q : ℚ, (Lit.ofF64 q : Prog (Flt f)) = pure (ofExact false q) := fun _ => rfl
        have hn : ∀ c : Flt f, MixedCmp.lt (Flt.nan : Flt f) c = false := fun _ => rfl
        simp only [hl, pure_bind, hn, Bool.false_eq_true, if_false]
      have hs : ∀ c : Flt f, Flt.sub .nan c = (.nan : Flt f) := fun c => rfl
      have hm : Flt.mul c .nan = (.nan : Flt f) := by cases c <;> rfl
      have ha : ∀ c : Flt f, Flt.add .nan c = (.nan : Flt f) := fun c => rfl
      rw [hc, pure_bind, sq_flt, pure_bind]
      show (niirfIter (Flt.nan : Flt f) k (Flt.add (Flt.mul c (Flt.sub .nan (Flt.mul y y))) y)) = _
      rw [hs, hm, ha, ih, ite_self]
  have hm : ∀ c : Flt f, Flt.mul c .nan = (.nan : Flt f) := by rintro (_ | _ | _) <;> rfl
  unfold niirf
  have hb : MixedCmp.beq (.nan : Flt f) MixedZero.zero = false := rfl
  rw [hb, if_neg Bool.false_ne_true]
  show Returns (do let x_ ← pure Flt.nan; _) _
  rw [pure_bind]
  refine Returns.bind (a := (Flt.nan, 0)) ?_ ?_
  · exact Returns.bind (whileLoop_done rfl) (whileLoop_done (by
      show (pure (MixedCmp.le (ofExact false 1) (.nan : Flt f)) : Prog Bool) = pure false
      rcases (ofExact false 1 : Flt f) with _ | _ | _ <;> rfl))
  · show Returns (do
      let y ← niirfIter (Flt.nan : Flt f) (n - 1) (Flt.add (Flt.div (Flt.mul (ofExact false ((2:ℤ):ℚ)) .nan)
        (ofExact false ((3:ℤ):ℚ))) (ofExact false (f64Round 0.354167)))
      niirfDenormalize (.i32 md) y 0) _
    rw [hm, hiter, pure_bind]
    have : Flt.add (Flt.div .nan (ofExact false ((3:ℤ):ℚ))) (ofExact false (f64Round 0.354167)) = (.nan : Flt f) := rfl
    rw [this, ite_self]
    rw [denormalize_eq (Counter.upto_i32 md (B := 0) (by norm_num)) _ (by simp)]
    exact Returns.bind (whileLoop_done rfl) (.of_eq rfl)

/-- C71, the part that holds: every other float gives a result (NaN for NaN). -/
theorem C71_partial (hf : f.Wide) (md : Mode) (x : Flt f) (hx : x.Valid) (h : ∀ b, x ≠ .inf b) (n : ℕ) :
    ∃ z, Returns (niirf (.i32 md) x n) z ∧ z.Valid := by
  rcases x with _ | b | ⟨b, q⟩
  · exact ⟨.nan, C71_nan_partial md n, trivial⟩
  · exact absurd rfl (h b)
  · by_cases hq : (Flt.fin b q : Flt f).val = 0
    · have : q = 0 := by
        cases b
        · exact hq
        · have : -q = 0 := hq
          linarith
      subst this
      exact ⟨_, C70_zero md b n, (is_zero (f := f)).valid⟩
    · obtain ⟨z, zq, h1, h2, -⟩ := niirf_flt (Counter.upto_i32 md (by norm_num)) hf (is_of_valid hx) hq n
      exact ⟨z, h1, h2.valid⟩


example : ∃ z, Returns (niirf (.i32 .checked) (.nan : Flt F64) 2) z ∧ z.Valid := C71_partial wide_F64 _ .nan trivial (by simp) 2

end MixedNum
