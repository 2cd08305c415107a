import Verif.Lemmas.FloatFin
import Verif.Model.Trig
/-! Phase wrapping on floats: the loops. -/

namespace MixedNum
namespace Flt
variable {f : Format}

/-- The decimal literal of `mixed_pi` (src/float_impl.rs:162-172). -/
def piDec : ℚ := 3.1415926535897932384626433832795028841971693993751058209749445923078164062

/-- The value of the type's π. -/
def piV (f : Format) : ℚ := rnd f.p f.emin piDec

/-- The float π. -/
def piF (f : Format) : Flt f := ofExact false piDec
/-- The float `2 * π`. -/
def tauF (f : Format) : Flt f := (ofExact false ((2:ℤ):ℚ)).mul (piF f)

theorem rep_small (h : f.Ok) {n : ℤ} {e : ℤ} (hn : |n| < 8) (he : -3 ≤ e) : Rep f.p f.emin (n * 2 ^ e) := by
  have := h.p; have := h.emin
  refine ⟨n, e, by omega, hn.trans_le ?_, rfl⟩
  calc (8:ℤ) = 2 ^ 3 := by norm_num
    _ ≤ 2 ^ f.p := pow_le_pow_right₀ (by norm_num) h.p

theorem piV_bounds (h : f.Ok) : 3 ≤ piV f ∧ piV f ≤ 7 / 2 := by
  have hp : 1 ≤ f.p := by have := h.p; omega
  constructor
  · refine rep_le_rnd hp (by unfold piDec; norm_num) ?_
    simpa using rep_small h (n := 3) (e := 0) (by norm_num) (by norm_num)
  · refine rnd_le_rep hp (by unfold piDec; norm_num) ?_
    have := rep_small h (n := 7) (e := -1) (by norm_num) (by norm_num)
    norm_num at this ⊢; exact this

theorem emin_lt (h : f.Ok) : f.emin ≤ -3 := by have := h.p; have := h.emin; omega

theorem is_pi (h : f.Ok) : Is (piF f) (piV f) := by
  have hp : 1 ≤ f.p := by have := h.p; omega
  refine is_ofExact hp _ (abs_rnd_lt hp (e := 2) ?_ (by have := emin_lt h; omega) (by have := h.emax; omega))
  unfold piDec; rw [abs_of_pos (by norm_num)]; norm_num

theorem is_tau (h : f.Ok) : Is (tauF f) (2 * piV f) := by
  have hp : 1 ≤ f.p := by have := h.p; omega
  have hb := piV_bounds h
  have h2 : rnd f.p f.emin ((2:ℤ):ℚ) = 2 := by
    rw [rnd_rep]
    · norm_num
    · simpa using rep_small h (n := 2) (e := 0) (by norm_num) (by norm_num)
  have is2 : Is (ofExact false ((2:ℤ):ℚ) : Flt f) 2 := by
    have := is_ofExact (f := f) hp false (q := ((2:ℤ):ℚ)) (abs_rnd_lt hp (e := 1) (by norm_num)
      (by have := emin_lt h; omega) (by have := h.emax; omega))
    rwa [h2] at this
  have hr : rnd f.p f.emin (2 * piV f) = 2 * piV f := rnd_rep (is_pi h).rep.two_mul
  have := is2.mul hp (is_pi h) (abs_rnd_lt hp (e := 3) (by rw [abs_of_pos (by linarith)]; norm_num; linarith)
    (by have := emin_lt h; omega) (by have := h.emax; omega))
  rwa [hr] at this

theorem wrapPhase_eq (x : Flt f) : wrapPhase x = (do
    let t ← whileLoop (fun t => (pure (t.lt (piF f).neg) : Prog Bool)) (fun t => pure (t.add (tauF f))) x
    whileLoop (fun t => (pure (MixedCmp.le (piF f) t) : Prog Bool)) (fun t => pure (t.sub (tauF f))) t) := rfl

/-- The largest magnitude from which the loops make progress. -/
def limit (f : Format) : ℚ := 2 ^ ((f.p : ℤ) + 3)

theorem limit_pos : 0 < limit f := two_zpow_pos _
theorem limit_ge (h : f.Ok) : 64 ≤ limit f := by
  have := h.p
  calc (64:ℚ) = 2 ^ (6:ℤ) := by norm_num
    _ ≤ _ := two_zpow_le (by omega)

/-- One subtraction of a turn: between -π and the old value, and strictly below it. -/
theorem step_down (h : f.Ok) {a : ℚ} (h1 : piV f ≤ a) (h2 : a ≤ limit f) :
    -piV f ≤ rnd f.p f.emin (a - 2 * piV f) ∧ rnd f.p f.emin (a - 2 * piV f) < a ∧
      |rnd f.p f.emin (a - 2 * piV f)| < 2 ^ f.emax := by
  have hp : 1 ≤ f.p := by have := h.p; omega
  have hb := piV_bounds h
  have hl := limit_ge h
  refine ⟨rep_le_rnd hp (by linarith) (is_pi h).rep.neg, ?_, ?_⟩
  · have hlt : |a - 2 * piV f| < 2 ^ ((3:ℤ) + f.p) := by
      rw [show (3:ℤ) + f.p = f.p + 3 by ring, abs_lt]; change -limit f < _ ∧ _ < limit f
      constructor <;> linarith
    have := abs_rnd_sub_le (p := f.p) (emin := f.emin) hlt (by have := emin_lt h; omega)
    have := (abs_le.mp this).2
    norm_num at this; linarith
  · refine abs_rnd_lt hp (e := f.p + 3) ?_ (by have := emin_lt h; omega) (by have := h.emax; omega)
    rw [abs_le]; change -limit f ≤ _ ∧ _ ≤ limit f; constructor <;> linarith

/-- Multiples of `2^emin` with `a < b`, both at least `-c`: the floor measure decreases. -/
theorem measure_lt {emin : ℤ} {p : ℕ} {a b c : ℚ} (ha : Rep p emin a) (hb : Rep p emin b) (hc : 0 ≤ a + c) (h : a < b) :
    ⌊(a + c) / 2 ^ emin⌋₊ < ⌊(b + c) / 2 ^ emin⌋₊ := by
  obtain ⟨k, hk⟩ := ha.units_emin
  obtain ⟨l, hl⟩ := hb.units_emin
  have hu := two_zpow_pos emin
  have hkl : k + 1 ≤ l := by
    have : (k:ℚ) < l := by
      rw [hk, hl] at h; exact lt_of_mul_lt_mul_right h hu.le
    exact_mod_cast this
  have hkl' : (k:ℚ) + 1 ≤ l := by exact_mod_cast hkl
  have hle : (a + c) / 2 ^ emin + 1 ≤ (b + c) / 2 ^ emin := by
    rw [hk, hl, add_div, add_div, mul_div_cancel_right₀ _ hu.ne', mul_div_cancel_right₀ _ hu.ne']; linarith
  have h0 : 0 ≤ (a + c) / 2 ^ emin := by positivity
  calc _ < ⌊(a + c) / 2 ^ emin⌋₊ + 1 := Nat.lt_succ_self _
    _ = ⌊(a + c) / 2 ^ emin + 1⌋₊ := (Nat.floor_add_one h0).symm
    _ ≤ _ := Nat.floor_mono hle

/-- The second loop from a value between -π and the limit. -/
theorem loop_down (h : f.Ok) {x : Flt f} {a : ℚ} (hx : Is x a) (h1 : -piV f ≤ a) (h2 : a ≤ limit f) :
    ∃ r b, Returns (whileLoop (fun t => (pure (MixedCmp.le (piF f) t) : Prog Bool)) (fun t => pure (t.sub (tauF f))) x) r ∧
      Is r b ∧ -piV f ≤ b ∧ b < piV f := by
  have hp : 1 ≤ f.p := by have := h.p; omega
  obtain ⟨r, hr, ⟨b, hb, hb1, _⟩, hrc⟩ := whileLoop_total
    (c := fun t => (pure (MixedCmp.le (piF f) t) : Prog Bool)) (b := fun t => pure (t.sub (tauF f)))
    (fun t => ∃ b, Is t b ∧ -piV f ≤ b ∧ b ≤ limit f) (fun t => ⌊(Flt.val t + piV f) / 2 ^ f.emin⌋₊) (by
      rintro t ⟨b, hb, hb1, hb2⟩
      rw [(is_pi h).le hb]
      by_cases hc : piV f ≤ b
      · right
        obtain ⟨s1, s2, s3⟩ := step_down h hc hb2
        have hs := hb.sub hp (is_tau h) s3
        refine ⟨by rw [decide_eq_true hc], _, rfl, ⟨_, hs, s1, by linarith⟩, ?_⟩
        rw [hs.val, hb.val]
        exact measure_lt hs.rep hb.rep (by linarith) s2
      · left; rw [decide_eq_false hc]) x ⟨a, hx, h1, h2⟩
  refine ⟨r, b, hr, hb, hb1, ?_⟩
  have := Prog.pure_inj hrc
  rw [(is_pi h).le hb] at this
  exact not_le.mp (of_decide_eq_false this)

/-- The first loop from a value above minus the limit. -/
theorem loop_up (h : f.Ok) {x : Flt f} {a : ℚ} (hx : Is x a) (h1 : -limit f ≤ a) (h2 : a ≤ limit f) :
    ∃ r b, Returns (whileLoop (fun t => (pure (t.lt (piF f).neg) : Prog Bool)) (fun t => pure (t.add (tauF f))) x) r ∧
      Is r b ∧ -piV f ≤ b ∧ b ≤ limit f := by
  have hp : 1 ≤ f.p := by have := h.p; omega
  have hpb := piV_bounds h
  have hl := limit_ge h
  obtain ⟨r, hr, ⟨b, hb, hb1, hb2⟩, hrc⟩ := whileLoop_total
    (c := fun t => (pure (t.lt (piF f).neg) : Prog Bool)) (b := fun t => pure (t.add (tauF f)))
    (fun t => ∃ b, Is t b ∧ -limit f ≤ b ∧ b ≤ limit f) (fun t => ⌊(-Flt.val t + limit f) / 2 ^ f.emin⌋₊) (by
      rintro t ⟨b, hb, hb1, hb2⟩
      rw [hb.lt (is_pi h).neg]
      by_cases hc : b < -piV f
      · right
        obtain ⟨s1, s2, s3⟩ := step_down h (a := -b) (by linarith) (by linarith)
        rw [show -b - 2 * piV f = -(b + 2 * piV f) by ring, rnd_neg] at s1 s2 s3
        rw [abs_neg] at s3
        have hs := hb.add hp (is_tau h) s3
        refine ⟨by rw [decide_eq_true hc], _, rfl, ⟨_, hs, by linarith, by linarith⟩, ?_⟩
        rw [hs.val, hb.val]
        exact measure_lt hs.rep.neg hb.rep.neg (by linarith) s2
      · left; rw [decide_eq_false hc]) x ⟨a, hx, h1, h2⟩
  refine ⟨r, b, hr, hb, ?_, hb2⟩
  have := Prog.pure_inj hrc
  rw [hb.lt (is_pi h).neg] at this
  exact not_lt.mp (of_decide_eq_false this)

/-- Beyond the limit subtracting a turn changes nothing. -/
theorem stuck (h : f.Ok) {a : ℚ} (ha : Rep f.p f.emin a) (h1 : limit f < a) : rnd f.p f.emin (a - 2 * piV f) = a := by
  have hpb := piV_bounds h
  have hl := limit_ge h
  have ha0 : 0 < a := by linarith
  -- the next number above the limit is at least 16 away
  have hua : 4 ≤ ulpExp f.p f.emin a := by
    have : (f.p : ℤ) + 3 ≤ ilog2 a := le_ilog2 ha0 h1.le
    unfold ulpExp; omega
  obtain ⟨k, hk⟩ := ha.units_of_le ha0 hua
  have hlk : limit f = ((2 ^ (f.p - 1) : ℤ) : ℚ) * 2 ^ (4:ℤ) := by
    have := h.p
    unfold limit
    rw [Int.cast_pow, Int.cast_ofNat, ← zpow_natCast (2:ℚ) (f.p - 1), ← two_zpow_add]; congr 1
    have : ((f.p - 1 : ℕ) : ℤ) = f.p - 1 := by omega
    omega
  have hk1 : (2 ^ (f.p - 1) : ℤ) + 1 ≤ k := by
    have : ((2 ^ (f.p - 1) : ℤ) : ℚ) < k := by
      rw [hk, hlk] at h1; exact lt_of_mul_lt_mul_right h1 (two_zpow_pos 4).le
    exact_mod_cast this
  have hk2 : ((2 ^ (f.p - 1) : ℤ) : ℚ) + 1 ≤ k := by exact_mod_cast hk1
  have h16 : limit f + 16 ≤ a := by
    rw [hk, hlk]; have : (2:ℚ) ^ (4:ℤ) = 16 := by norm_num
    rw [this]; linarith
  have hq0 : 0 < a - 2 * piV f := by linarith
  have huq : 4 ≤ ulpExp f.p f.emin (a - 2 * piV f) := by
    have : (f.p : ℤ) + 3 ≤ ilog2 (a - 2 * piV f) := le_ilog2 hq0 (by change limit f ≤ _; linarith)
    unfold ulpExp; omega
  have hule : ulpExp f.p f.emin (a - 2 * piV f) ≤ ulpExp f.p f.emin a := ulpExp_mono hq0 (by linarith)
  obtain ⟨l, hl'⟩ := ha.units_of_le ha0 hule
  have hu := two_zpow_pos (ulpExp f.p f.emin (a - 2 * piV f))
  have hu16 : (16:ℚ) ≤ 2 ^ ulpExp f.p f.emin (a - 2 * piV f) := by
    calc (16:ℚ) = 2 ^ (4:ℤ) := by norm_num
      _ ≤ _ := two_zpow_le huq
  rw [rnd_nonneg_eq hq0.le, roundTo_pos hq0]
  set u := (2:ℚ) ^ ulpExp f.p f.emin (a - 2 * piV f) with hudef
  have hdiv : (a - 2 * piV f) / u = l - 2 * piV f / u := by rw [sub_div]; congr 1; rw [div_eq_iff hu.ne', ← hl']
  have hd1 : 0 < 2 * piV f / u := div_pos (by linarith) hu
  have hd2 : 2 * piV f / u < 1 / 2 := by rw [div_lt_iff₀ hu]; linarith
  have hround : roundHalfEven ((a - 2 * piV f) / u) = l := by
    have h3 := roundHalfEven_le ((a - 2 * piV f) / u)
    have h4 := le_roundHalfEven ((a - 2 * piV f) / u)
    rw [hdiv] at h3 h4 ⊢
    have h5 : (roundHalfEven (l - 2 * piV f / u) : ℚ) < l + 1 := by linarith
    have h6 : (l:ℚ) - 1 < roundHalfEven (l - 2 * piV f / u) := by linarith
    have h5' : roundHalfEven (l - 2 * piV f / u) < l + 1 := by exact_mod_cast h5
    have h6' : l - 1 < roundHalfEven (l - 2 * piV f / u) := by exact_mod_cast h6
    omega
  rw [hround, ← hl']

/-- A float is determined by a nonzero value. -/
theorem Is.unique {x y : Flt f} {a : ℚ} (hx : Is x a) (hy : Is y a) (ha : a ≠ 0) : x = y := by
  obtain ⟨s, m, rfl, h1, h2, -, -⟩ := hx
  obtain ⟨t, n, rfl, h3, h4, -, -⟩ := hy
  rw [← h4] at h2 ha
  cases s <;> cases t <;> simp only [Flt.val, Bool.false_eq_true, if_true, if_false] at h2 ha
  · rw [h2]
  · exact absurd (by linarith : n = 0) (by simpa using ha)
  · exact absurd (by linarith : n = 0) ha
  · rw [neg_inj.mp h2]

theorem sub_stuck (h : f.Ok) {x : Flt f} {a : ℚ} (hx : Is x a) (h1 : limit f < a) : x.sub (tauF f) = x := by
  have hp : 1 ≤ f.p := by have := h.p; omega
  have hs := stuck h hx.rep h1
  have hi := hx.sub hp (is_tau h) (by rw [hs]; exact hx.lt_max)
  rw [hs] at hi
  exact hi.unique hx (by have := limit_pos (f := f); linarith)

theorem add_stuck (h : f.Ok) {x : Flt f} {a : ℚ} (hx : Is x a) (h1 : a < -limit f) : x.add (tauF f) = x := by
  have hp : 1 ≤ f.p := by have := h.p; omega
  have hs := stuck h hx.rep.neg (show limit f < -a by linarith)
  rw [show -a - 2 * piV f = -(a + 2 * piV f) by ring, rnd_neg, neg_inj] at hs
  have hi := hx.add hp (is_tau h) (by rw [hs]; exact hx.lt_max)
  rw [hs] at hi
  exact hi.unique hx (by have := limit_pos (f := f); linarith)

end Flt
end MixedNum
