import Verif.Lemmas.WrapFloat
import Verif.Props.AddSub
import Verif.Lemmas.Run
import Verif.Lemmas.Case
/-! # C34: phase wrapping on floats

The statement "terminates for every input" is false: once a turn is less than half a unit in the last place the
subtraction changes nothing. The theorems give the exact set of inputs for which the loops end, for every binary
format (`f32` and `f64` in particular). -/

namespace MixedNum
variable {f : Format}
open Flt

theorem wrapPhase_diverges_high {x : Flt f} (h1 : x.lt (piF f).neg = false) (h2 : MixedCmp.le (piF f) x = true)
    (h3 : x.sub (tauF f) = x) : Diverges (wrapPhase x) := by
  rw [wrapPhase_eq]
  have hd : Diverges (whileLoop (fun t => (pure (MixedCmp.le (piF f) t) : Prog Bool))
      (fun t => pure (t.sub (tauF f))) x) :=
    whileLoop_diverges (fun t => t = x) (by rintro t rfl; exact ⟨by rw [h2], _, rfl, h3⟩) x rfl
  intro n
  have hd := hd n
  rw [Prog.bind_def]
  cases n with
  | zero => rfl
  | succ n =>
    have e : whileLoop (fun t => (pure (t.lt (piF f).neg) : Prog Bool)) (fun t => pure (t.add (tauF f))) x (n + 1) =
        .ok x := by
      show whileGo _ _ (n + 1) x (n + 1) = _
      rw [whileGo_done (by rw [h1])]; rfl
    exact (Prog.bind_apply_ok e).trans hd

theorem wrapPhase_diverges_low {x : Flt f} (h1 : x.lt (piF f).neg = true) (h3 : x.add (tauF f) = x) :
    Diverges (wrapPhase x) := by
  rw [wrapPhase_eq]
  exact Diverges.bind
    (whileLoop_diverges (fun t => t = x) (by rintro t rfl; exact ⟨by rw [h1], _, rfl, h3⟩) x rfl)

/-- C34, the part that holds: from every float of magnitude at most `2^(p+3)` (`2^27` for `f32`, `2^56` for `f64`)
the loops end, with a float between -π and π. Missing for the full statement: larger magnitudes and infinities,
where it is false. -/
theorem C34_terminates_partial (h : f.Ok) (x : Flt f) (hx : x.Valid) (s : Bool) (m : ℚ) (e : x = .fin s m)
    (hm : m ≤ 2 ^ (f.p + 3)) :
    ∃ r p : Flt f, Returns (wrapPhase x) r ∧ (MixedPi.pi : Prog (Flt f)) = pure p ∧ r.Valid ∧
      MixedCmp.le p.neg r = true ∧ MixedCmp.lt r p = true := by
  subst e
  have hi := is_of_valid hx
  have hlim : limit f = 2 ^ (f.p + 3) := by
    unfold limit; rw [← zpow_natCast]; congr 1
  have hm0 : 0 ≤ m := by obtain ⟨_, _, he, h0, _⟩ := hi; cases he; exact h0
  have hv : -limit f ≤ Flt.val (.fin s m : Flt f) ∧ Flt.val (.fin s m : Flt f) ≤ limit f := by
    rw [hlim]; cases s
    · exact ⟨by show _ ≤ m; have : (0:ℚ) ≤ 2 ^ (f.p + 3) := by positivity
                linarith, hm⟩
    · exact ⟨by show _ ≤ -m; linarith, by show -m ≤ _; have : (0:ℚ) ≤ 2 ^ (f.p + 3) := by positivity
                                          linarith⟩
  obtain ⟨t, a, ht, hta, a1, a2⟩ := loop_up h hi hv.1 hv.2
  obtain ⟨r, b, hr, hrb, b1, b2⟩ := loop_down h hta a1 a2
  refine ⟨r, piF f, ?_, rfl, hrb.valid, ?_, ?_⟩
  · rw [wrapPhase_eq]; exact ht.bind hr
  · rw [(is_pi h).neg.le hrb]; exact decide_eq_true b1
  · rw [Flt.lt_def, hrb.lt (is_pi h)]; exact decide_eq_true b2

example := C34_terminates_partial ok_F32 (.fin true 1000) (by is_float 1000 0) _ _ rfl (by norm_num [F32])

/-- C34: NaN is returned unchanged. -/
theorem C34_nan : Returns (wrapPhase (Flt.nan : Flt f)) .nan := by
  rw [wrapPhase_eq]
  refine (whileLoop_done (by rfl)).bind (whileLoop_done ?_)
  show (pure (Flt.lt (piF f) .nan || Flt.beq (piF f) .nan) : Prog Bool) = _
  cases piF f <;> rfl

/-- C34 is false: the loops never end beyond `2^(p+3)` nor from an infinity. -/
theorem C34_diverges (h : f.Ok) (x : Flt f) (hx : x.Valid) (hbig : ∀ s m, x = .fin s m → 2 ^ (f.p + 3) < m)
    (hn : x ≠ .nan) : Diverges (wrapPhase x) := by
  have hpb := piV_bounds h
  have hl := limit_ge h
  obtain ⟨s', m', hp, -⟩ := (is_pi h)
  obtain ⟨s'', m'', ht, -⟩ := (is_tau h)
  cases x with
  | nan => exact absurd rfl hn
  | inf s =>
    cases s
    · refine wrapPhase_diverges_high ?_ ?_ ?_
      · rw [hp]; rfl
      · rw [hp]; rfl
      · rw [ht]; rfl
    · refine wrapPhase_diverges_low ?_ ?_
      · rw [hp]; rfl
      · rw [ht]; rfl
  | fin s m =>
    have hi := is_of_valid hx
    have hlim : limit f = 2 ^ (f.p + 3) := by unfold limit; rw [← zpow_natCast]; congr 1
    have hm := hbig s m rfl
    rw [← hlim] at hm
    cases s
    · have hi : Is (.fin false m : Flt f) m := hi
      refine wrapPhase_diverges_high ?_ ?_ (sub_stuck h hi hm)
      · rw [hi.lt (is_pi h).neg]; exact decide_eq_false (by linarith)
      · rw [(is_pi h).le hi]; exact decide_eq_true (by linarith)
    · have hi : Is (.fin true m : Flt f) (-m) := hi
      refine wrapPhase_diverges_low ?_ (add_stuck h hi (by linarith))
      rw [hi.lt (is_pi h).neg]; exact decide_eq_true (by linarith)

example := C34_diverges ok_F32 (.fin true (2 ^ 28)) (by is_float 1 28) (fun s m h => by cases h; norm_num [F32]) (by decide)

/-- C34: the exact set of `f32` inputs on which `wrap_phase` does not terminate. -/
theorem C34_f32 (x : Flt F32) (hx : x.Valid) :
    Diverges (wrapPhase x) ↔ (∃ s, x = .inf s) ∨ ∃ s m, x = .fin s m ∧ 2 ^ 27 < m := by
  constructor
  · intro hd
    cases x with
    | nan => exact absurd hd C34_nan.not_diverges
    | inf s => exact .inl ⟨s, rfl⟩
    | fin s m =>
      refine .inr ⟨s, m, rfl, ?_⟩
      by_contra hc
      obtain ⟨r, p, hr, -⟩ := C34_terminates_partial ok_F32 _ hx s m rfl (by simpa using hc)
      exact hr.not_diverges hd
  · rintro (⟨s, rfl⟩ | ⟨s, m, rfl, hm⟩)
    · exact C34_diverges ok_F32 _ hx (by simp) (by simp)
    · exact C34_diverges ok_F32 _ hx (by rintro _ _ ⟨⟩; exact hm) (by simp)

example := (C34_f32 (.fin true (2 ^ 28)) (by is_float 1 28)).mpr (.inr ⟨_, _, rfl, by norm_num⟩)

/-- C34: the exact set of `f64` inputs on which `wrap_phase` does not terminate. -/
theorem C34_f64 (x : Flt F64) (hx : x.Valid) :
    Diverges (wrapPhase x) ↔ (∃ s, x = .inf s) ∨ ∃ s m, x = .fin s m ∧ 2 ^ 56 < m := by
  constructor
  · intro hd
    cases x with
    | nan => exact absurd hd C34_nan.not_diverges
    | inf s => exact .inl ⟨s, rfl⟩
    | fin s m =>
      refine .inr ⟨s, m, rfl, ?_⟩
      by_contra hc
      obtain ⟨r, p, hr, -⟩ := C34_terminates_partial ok_F64 _ hx s m rfl (by simpa using hc)
      exact hr.not_diverges hd
  · rintro (⟨s, rfl⟩ | ⟨s, m, rfl, hm⟩)
    · exact C34_diverges ok_F64 _ hx (by simp) (by simp)
    · exact C34_diverges ok_F64 _ hx (by rintro _ _ ⟨⟩; exact hm) (by simp)

example := (C34_f64 (.inf true) trivial).mpr (.inl ⟨_, rfl⟩)

/-- C34: a finite witness, `1e9f32`. -/
theorem C34_counterexample : (Flt.fin false 1000000000 : Flt F32).Valid ∧
    Diverges (wrapPhase (Flt.fin false 1000000000 : Flt F32)) := by
  have hv : (Flt.fin false 1000000000 : Flt F32).Valid :=
    ⟨15625000, 6, by decide, by decide, by norm_num [pow2_eq], by norm_num⟩
  exact ⟨hv, (C34_f32 _ hv).mpr (.inr ⟨_, _, rfl, by norm_num⟩)⟩

example : (Flt.fin true 100 : Flt F32).Valid ∧ (100 : ℚ) ≤ 2 ^ (F32.p + 3) :=
  ⟨⟨100, 0, by decide, by decide, by norm_num [pow2], by norm_num⟩, by norm_num⟩

end MixedNum
