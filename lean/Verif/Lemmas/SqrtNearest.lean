import Verif.Spec.SqrtNearest
import Verif.Lemmas.Rounds
import Verif.Lemmas.FloatSqrtTable
import Mathlib.Data.Set.Finite.Lattice
import Mathlib.Data.Finset.Max
/-! Correctly rounded square roots: the root of the rounded square, and that such a function exists. -/

namespace MixedNum
namespace Flt
variable {f : Format}

/-- The neighbours of a number of the format that is not a power of two are a unit in the last place away. -/
theorem neighbour {p : ℕ} {emin : ℤ} {a r : ℚ} (ha : 0 < a) (hr0 : 0 < r) (ra : Rep p emin a) (rr : Rep p emin r)
    (hn : (2:ℚ) ^ ilog2 a + 2 ^ ulpExp p emin a ≤ a) (h : |r - a| < 2 ^ ulpExp p emin a) : r = a := by
  obtain ⟨k, hk⟩ := ra.units ha
  have hlo := (abs_lt.mp h).1
  have hr : (2:ℚ) ^ ilog2 a ≤ r := by linarith
  have hu : ulpExp p emin a ≤ ulpExp p emin r := by
    have := le_ilog2 hr0 hr; unfold ulpExp; omega
  obtain ⟨l, hl⟩ := rr.units_of_le hr0 hu
  have hu0 := two_zpow_pos (ulpExp p emin a)
  set u := (2:ℚ) ^ ulpExp p emin a
  rw [hl, hk, ← sub_mul, abs_mul, abs_of_pos hu0] at h
  have h1 : |(l:ℚ) - k| < 1 := by
    by_contra hc
    have := mul_le_mul_of_nonneg_right (not_lt.mp hc) hu0.le
    linarith
  have h2 : |l - k| < 1 := by exact_mod_cast h1
  rw [hl, hk, show l = k by rw [← sub_eq_zero]; exact Int.abs_lt_one_iff.mp h2]

/-- A number of the format is a power of two, or at least a unit in the last place above one. -/
theorem power_or {p : ℕ} {emin : ℤ} {a : ℚ} (ha : 0 < a) (ra : Rep p emin a) (hn : ulpExp p emin a ≤ ilog2 a) :
    a = 2 ^ ilog2 a ∨ (2:ℚ) ^ ilog2 a + 2 ^ ulpExp p emin a ≤ a := by
  obtain ⟨k, hk⟩ := ra.units ha
  obtain ⟨d, hd⟩ := Int.le.dest hn
  have h1 := (ilog2_spec ha).1
  have e : (2:ℚ) ^ ilog2 a = ((2 ^ d : ℤ) : ℚ) * 2 ^ ulpExp p emin a := by
    rw [← hd, two_zpow_add, zpow_natCast]; push_cast; ring
  have hu0 := two_zpow_pos (ulpExp p emin a)
  rcases eq_or_lt_of_le h1 with h | h
  · exact .inl h.symm
  right
  set u := (2:ℚ) ^ ulpExp p emin a
  rw [e] at h ⊢
  rw [hk] at h ⊢
  have h2 : ((2 ^ d : ℤ) : ℚ) < k := lt_of_mul_lt_mul_right h hu0.le
  have h3 : (2:ℤ) ^ d + 1 ≤ k := by exact_mod_cast h2
  have h4 : ((2 ^ d : ℤ) : ℚ) + 1 ≤ k := by exact_mod_cast h3
  have := mul_le_mul_of_nonneg_right h4 hu0.le
  linarith

/-- The number of the format nearest to the root of the rounded square of `a` is `a`, in the normal range. -/
theorem root_of_square (hf : f.Wide) {a r : ℚ} (ha : 0 < a) (ra : Rep f.p f.emin a) (rr : Rep f.p f.emin r)
    (hlo : (2:ℚ) ^ (f.emin + f.p) ≤ a ^ 2)
    (h : |(r:ℝ) - √((rnd f.p f.emin (a ^ 2) : ℚ) : ℝ)| ≤ |(a:ℝ) - √((rnd f.p f.emin (a ^ 2) : ℚ) : ℝ)|) : r = a := by
  have hp := hf.p; have hmin := hf.emin
  have hil : (2:ℚ) ^ (f.emin + f.p) ≤ a := by
    by_contra hc
    push Not at hc
    have h1 : (2:ℚ) ^ (f.emin + f.p) ≤ 1 := by
      have := two_zpow_le (show f.emin + f.p ≤ 0 by omega); simpa using this
    nlinarith [two_zpow_pos (f.emin + f.p)]
  have hul : ulpExp f.p f.emin a = ilog2 a - (f.p - 1) := by
    have := le_ilog2 ha hil; unfold ulpExp; omega
  have aR : (0:ℝ) < a := by exact_mod_cast ha
  rcases power_or ha ra (by omega) with hpow | hn
  · -- a power of two: the square is exact
    have hr2 : Rep f.p f.emin (a ^ 2) := by
      have e : a ^ 2 = 2 ^ (2 * ilog2 a) := by
        conv_lhs => rw [hpow]
        rw [two_mul, two_zpow_add, sq]
      rw [e]
      refine Rep.zpow hf.one_le ?_
      rw [e] at hlo
      have : f.emin + f.p < 2 * ilog2 a + 1 := lt_of_two_zpow_lt (hlo.trans_lt (two_zpow_lt (by omega)))
      omega
    rw [rnd_rep hr2] at h
    push_cast at h
    rw [Real.sqrt_sq aR.le, sub_self, abs_zero] at h
    have := abs_nonpos_iff.mp h
    exact_mod_cast sub_eq_zero.mp this
  · have hq := abs_rnd_rel (p := f.p) (emin := f.emin) (q := a ^ 2) (by
      rw [abs_of_nonneg (sq_nonneg a)]
      exact (two_zpow_le (by omega)).trans hlo)
    rw [abs_of_nonneg (sq_nonneg a)] at hq
    set q := rnd f.p f.emin (a ^ 2)
    have hqR : |(q:ℝ) - (a:ℝ) ^ 2| ≤ (a:ℝ) ^ 2 * (2:ℝ) ^ (-(f.p:ℤ)) := by
      have := (Rat.cast_le (K := ℝ)).mpr hq
      push_cast at this; exact this
    set w : ℝ := (2:ℝ) ^ (-(f.p:ℤ)) with hw
    have w0 : 0 < w := by positivity
    have w1 : w ≤ 1 / 4 := by
      rw [hw, show (1:ℝ) / 4 = 2 ^ (-2:ℤ) by norm_num]
      exact zpow_le_zpow_right₀ (by norm_num) (by omega)
    -- the largest significand
    obtain ⟨k, hk⟩ := ra.units ha
    have hkp : k ≤ 2 ^ f.p - 1 := by
      have h2 := (ilog2_spec ha).2
      have e : (2:ℚ) ^ (ilog2 a + 1) = 2 ^ f.p * 2 ^ ulpExp f.p f.emin a := by
        rw [hul, ← zpow_natCast, ← two_zpow_add]; congr 1; omega
      rw [e] at h2
      have h3 : (k:ℚ) * 2 ^ ulpExp f.p f.emin a < 2 ^ f.p * 2 ^ ulpExp f.p f.emin a := by rw [← hk]; exact h2
      have h4 : (k:ℚ) < 2 ^ f.p := lt_of_mul_lt_mul_right h3 (two_zpow_pos _).le
      have : k < 2 ^ f.p := by exact_mod_cast h4
      omega
    have haw : (a:ℝ) * w ≤ (1 - w) * (2:ℝ) ^ ulpExp f.p f.emin a := by
      have e1 : (a:ℝ) = k * (2:ℝ) ^ ulpExp f.p f.emin a := by
        have : ((a:ℚ):ℝ) = ((k * 2 ^ ulpExp f.p f.emin a : ℚ) : ℝ) := by rw [← hk]
        push_cast at this; exact this
      have h1 : (k:ℝ) ≤ 2 ^ f.p - 1 := by exact_mod_cast hkp
      have h2 : (2:ℝ) ^ f.p * w = 1 := by
        rw [hw, zpow_neg, zpow_natCast]; field_simp
      have h3 : (k:ℝ) * w ≤ 1 - w := by nlinarith
      have u0 : (0:ℝ) < (2:ℝ) ^ ulpExp f.p f.emin a := by positivity
      have := mul_le_mul_of_nonneg_right h3 u0.le
      rw [e1]; linarith
    have hu0 : (0:ℝ) < (2:ℝ) ^ ulpExp f.p f.emin a := by positivity
    have hcast : ((2 ^ ulpExp f.p f.emin a : ℚ) : ℝ) = (2:ℝ) ^ ulpExp f.p f.emin a := by push_cast; rfl
    set u : ℝ := (2:ℝ) ^ ulpExp f.p f.emin a
    -- the root is less than half a unit from `a`
    have hq0 : (0:ℝ) ≤ q := by
      have := (abs_le.mp hqR).1; nlinarith [sq_nonneg (a:ℝ)]
    set s := √(q:ℝ)
    have hs2 : s ^ 2 = q := Real.sq_sqrt hq0
    have hs0 : 0 ≤ s := Real.sqrt_nonneg _
    have hsl : (1 - w) * a ≤ s := by
      refine Real.le_sqrt_of_sq_le ?_
      have := (abs_le.mp hqR).1
      nlinarith [sq_nonneg (a:ℝ), mul_pos w0 (mul_pos aR aR)]
    have hd : |s - a| * (2 - w) ≤ a * w := by
      have e : (s - a) * (s + a) = q - (a:ℝ) ^ 2 := by rw [← hs2]; ring
      have h1 : |s - a| * (s + a) ≤ (a:ℝ) ^ 2 * w := by
        rw [← abs_of_nonneg (show 0 ≤ s + a by linarith), ← abs_mul, e]; exact hqR
      have h2 : |s - a| * ((2 - w) * a) ≤ |s - a| * (s + a) :=
        mul_le_mul_of_nonneg_left (by linarith) (abs_nonneg _)
      have h3 : (|s - a| * (2 - w)) * a ≤ (a * w) * a := by linarith
      exact le_of_mul_le_mul_right h3 aR
    have hhalf : |s - a| < u / 2 := by
      by_contra hc
      have h1 := mul_le_mul_of_nonneg_right (not_lt.mp hc) (show 0 ≤ 2 - w by linarith)
      nlinarith
    have hra : |(r:ℝ) - a| < u := by
      have h1 := abs_sub_le (r:ℝ) s a
      rw [abs_sub_comm (a:ℝ) s] at h
      linarith
    have hraQ : |r - a| < 2 ^ ulpExp f.p f.emin a := by
      have : ((|r - a| : ℚ) : ℝ) < ((2 ^ ulpExp f.p f.emin a : ℚ) : ℝ) := by
        rw [hcast]; push_cast; exact hra
      exact_mod_cast this
    have hr : 0 < r := by
      have := (abs_lt.mp hraQ).1
      linarith [two_zpow_pos (ilog2 a)]
    exact neighbour ha hr ra rr hn hraQ

/-- The finite floats of a format, by value: finitely many multiples of the least subnormal. -/
theorem candidates (hf : f.Wide) : ∃ S : Finset (Flt f), S.Nonempty ∧ (∀ c ∈ S, c.Valid ∧ c.IsFinite) ∧
    ∀ b : Flt f, b.Valid → b.IsFinite → ∃ c ∈ S, c.val = b.val := by
  classical
  have hmin := hf.emin
  let N : ℤ := 2 ^ (f.emax - f.emin).toNat
  let c : ℤ → Flt f := fun k => .fin (decide (k < 0)) |(k:ℚ) * 2 ^ f.emin|
  have hu := two_zpow_pos f.emin
  have cval : ∀ k : ℤ, (c k).val = (k:ℚ) * 2 ^ f.emin := by
    intro k
    show (if decide (k < 0) = true then -|(k:ℚ) * 2 ^ f.emin| else |(k:ℚ) * 2 ^ f.emin|) = _
    by_cases hk : k < 0
    · have : (k:ℚ) * 2 ^ f.emin < 0 := mul_neg_of_neg_of_pos (by exact_mod_cast hk) hu
      rw [if_pos (decide_eq_true hk), abs_of_neg this, neg_neg]
    · have : 0 ≤ (k:ℚ) * 2 ^ f.emin := mul_nonneg (by exact_mod_cast not_lt.mp hk) hu.le
      rw [if_neg (by simpa using hk), abs_of_nonneg this]
  refine ⟨((Finset.Icc (-N) N).image c).filter Valid, ⟨c 0, ?_⟩, ?_, ?_⟩
  · refine Finset.mem_filter.mpr ⟨Finset.mem_image_of_mem _ (Finset.mem_Icc.mpr ⟨?_, ?_⟩), ?_⟩
    · have : 0 ≤ N := by positivity
      omega
    · positivity
    · refine Is.valid (v := 0) ⟨_, _, rfl, abs_nonneg _, by rw [cval]; simp, Rep.zero, ?_⟩
      rw [abs_zero]; positivity
  · intro b hb
    obtain ⟨h1, h2⟩ := Finset.mem_filter.mp hb
    obtain ⟨k, -, rfl⟩ := Finset.mem_image.mp h1
    exact ⟨h2, _, _, rfl⟩
  · rintro b vb ⟨s, m, rfl⟩
    have ib := is_of_valid vb
    obtain ⟨k, hk⟩ := ib.rep.units_emin
    have hlt := ib.lt_max
    refine ⟨c k, Finset.mem_filter.mpr ⟨Finset.mem_image_of_mem _ ?_, ?_⟩, by rw [cval, hk]⟩
    · rw [hk, abs_mul, abs_of_pos hu] at hlt
      have e : (2:ℚ) ^ f.emax = (N:ℚ) * 2 ^ f.emin := by
        have : ((f.emax - f.emin).toNat : ℤ) = f.emax - f.emin := Int.toNat_of_nonneg (by omega)
        show _ = (((2:ℤ) ^ (f.emax - f.emin).toNat : ℤ) : ℚ) * 2 ^ f.emin
        push_cast
        rw [← zpow_natCast, ← zpow_natCast, this, ← two_zpow_add]; congr 1; omega
      rw [e] at hlt
      have h3 : |(k:ℚ)| < N := lt_of_mul_lt_mul_right hlt hu.le
      have h4 : |k| < N := by exact_mod_cast h3
      have := abs_lt.mp h4
      exact Finset.mem_Icc.mpr ⟨by omega, by omega⟩
    · exact Is.valid (v := (Flt.fin s m : Flt f).val) ⟨_, _, rfl, abs_nonneg _, by rw [cval, hk], ib.rep, ib.lt_max⟩

/-- A correctly rounded root exists. -/
theorem sqrtNearest_exists (hf : f.Wide) : ∃ i : MixedSqrt (Flt f), @SqrtNearest f i := by
  classical
  obtain ⟨S, hne, h1, h2⟩ := candidates hf
  have key : ∀ x : Flt f, ∃ r ∈ S, ∀ b ∈ S, |(r.val : ℝ) - √(x.val : ℝ)| ≤ |(b.val : ℝ) - √(x.val : ℝ)| :=
    fun x => Finset.exists_min_image S (fun b => |(b.val : ℝ) - √(x.val : ℝ)|) hne
  choose r hr hb using key
  refine ⟨⟨fun x => pure (r x)⟩, fun x _ _ _ => ⟨r x, ⟨0, fun _ _ => rfl⟩, (h1 _ (hr x)).1, (h1 _ (hr x)).2, fun b vb fb => ?_⟩⟩
  obtain ⟨c, hc, e⟩ := h2 b vb fb
  rw [← e]; exact hb x c hc

end Flt
end MixedNum
