import Verif.Lemmas.RoundTo
import Verif.Lemmas.Float
/-! Finite floats, by value. -/

namespace MixedNum
namespace Flt
variable {f : Format}

/-- Sizes that every IEEE format has. -/
structure _root_.MixedNum.Format.Ok (f : Format) : Prop where
  p : 3 ≤ f.p
  emin : f.emin + f.p ≤ 0
  emax : f.p + 5 ≤ f.emax

theorem ok_F32 : F32.Ok := ⟨by decide, by decide, by decide⟩
theorem ok_F64 : F64.Ok := ⟨by decide, by decide, by decide⟩

/-- `x` is the finite float with value `v`. -/
def Is (x : Flt f) (v : ℚ) : Prop :=
  ∃ s m, x = .fin s m ∧ 0 ≤ m ∧ val x = v ∧ Rep f.p f.emin v ∧ |v| < 2 ^ f.emax

theorem Is.rep {x : Flt f} {v : ℚ} (h : Is x v) : Rep f.p f.emin v := by obtain ⟨_, _, _, _, _, h, _⟩ := h; exact h
theorem Is.lt_max {x : Flt f} {v : ℚ} (h : Is x v) : |v| < 2 ^ f.emax := by obtain ⟨_, _, _, _, _, _, h⟩ := h; exact h
theorem Is.val {x : Flt f} {v : ℚ} (h : Is x v) : Flt.val x = v := by obtain ⟨_, _, _, _, h, _⟩ := h; exact h
theorem Is.fin {x : Flt f} {v : ℚ} (h : Is x v) : ∃ s m, x = .fin s m := by obtain ⟨s, m, h, _⟩ := h; exact ⟨s, m, h⟩

theorem is_of_valid {s : Bool} {m : ℚ} (h : (Flt.fin s m : Flt f).Valid) :
    Is (.fin s m : Flt f) (Flt.val (.fin s m : Flt f)) := by
  obtain ⟨n, e, h1, h2, h3, h4⟩ := h
  have hm : 0 ≤ m := by rw [h3, pow2_eq]; have := two_zpow_pos e; positivity
  have hr : Rep f.p f.emin m := ⟨n, e, h2, by rw [abs_of_nonneg (by positivity)]; exact_mod_cast h1, by
    rw [h3, pow2_eq]; push_cast; rfl⟩
  refine ⟨s, m, rfl, hm, rfl, ?_, ?_⟩ <;> cases s
  · exact hr
  · exact hr.neg
  · show |m| < _; rwa [abs_of_nonneg hm]
  · show |-m| < _; rwa [abs_neg, abs_of_nonneg hm]

theorem Is.valid {x : Flt f} {v : ℚ} (h : Is x v) : x.Valid := by
  obtain ⟨s, m, rfl, h1, h2, h3, h4⟩ := h
  have hv : |v| = m := by
    rw [← h2]; cases s
    · exact abs_of_nonneg h1
    · show |-m| = m; rw [abs_neg, abs_of_nonneg h1]
  obtain ⟨n, e, h5, h6, h7⟩ := h3.abs
  rw [hv] at h7 h4
  have hn : 0 ≤ n := by
    by_contra hc
    have : (n:ℚ) < 0 := by exact_mod_cast not_le.mp hc
    have := mul_neg_of_neg_of_pos this (two_zpow_pos e)
    linarith
  refine ⟨n.toNat, e, ?_, h5, ?_, h4⟩
  · have := (abs_lt.mp h6).2
    have h8 : (n.toNat : ℤ) = n := Int.toNat_of_nonneg hn
    zify; rw [h8]; exact_mod_cast this
  · rw [h7, pow2_eq]; congr 1
    have h8 : (n.toNat : ℤ) = n := Int.toNat_of_nonneg hn
    rw [← Int.cast_natCast, h8]

theorem is_ofExact (hp : 1 ≤ f.p) (z : Bool) {q : ℚ} (h : |rnd f.p f.emin q| < 2 ^ f.emax) :
    Is (ofExact z q : Flt f) (rnd f.p f.emin q) := by
  unfold ofExact
  by_cases hq : q = 0
  · rw [if_pos hq]; subst hq
    refine ⟨z, 0, rfl, le_refl _, ?_, rep_rnd hp _, h⟩
    cases z <;> simp [Flt.val, rnd]
  · rw [if_neg hq]
    have hr := roundTo_nonneg (p := f.p) (emin := f.emin) (abs_nonneg q)
    rw [abs_rnd] at h
    simp only [if_pos h]
    refine ⟨_, _, rfl, hr, ?_, rep_rnd hp _, by rwa [abs_rnd]⟩
    unfold rnd Flt.val
    by_cases hn : q < 0 <;> simp [hn]

theorem Is.neg {x : Flt f} {v : ℚ} (h : Is x v) : Is x.neg (-v) := by
  obtain ⟨s, m, rfl, h1, h2, h3, h4⟩ := h
  refine ⟨!s, m, rfl, h1, ?_, h3.neg, by rwa [abs_neg]⟩
  rw [← h2]; cases s <;> simp [Flt.neg, Flt.val]

theorem Is.add (hp : 1 ≤ f.p) {x y : Flt f} {a b : ℚ} (hx : Is x a) (hy : Is y b)
    (h : |rnd f.p f.emin (a + b)| < 2 ^ f.emax) : Is (x.add y) (rnd f.p f.emin (a + b)) := by
  obtain ⟨s, m, rfl, _, rfl, _, _⟩ := hx
  obtain ⟨t, n, rfl, _, rfl, _, _⟩ := hy
  exact is_ofExact hp _ h

theorem Is.sub (hp : 1 ≤ f.p) {x y : Flt f} {a b : ℚ} (hx : Is x a) (hy : Is y b)
    (h : |rnd f.p f.emin (a - b)| < 2 ^ f.emax) : Is (x.sub y) (rnd f.p f.emin (a - b)) := by
  rw [sub_eq_add_neg] at h ⊢
  exact hx.add hp hy.neg h

theorem Is.mul (hp : 1 ≤ f.p) {x y : Flt f} {a b : ℚ} (hx : Is x a) (hy : Is y b)
    (h : |rnd f.p f.emin (a * b)| < 2 ^ f.emax) : Is (x.mul y) (rnd f.p f.emin (a * b)) := by
  obtain ⟨s, m, rfl, _, rfl, _, _⟩ := hx
  obtain ⟨t, n, rfl, _, rfl, _, _⟩ := hy
  exact is_ofExact hp _ h

theorem Is.lt {x y : Flt f} {a b : ℚ} (hx : Is x a) (hy : Is y b) : x.lt y = decide (a < b) := by
  obtain ⟨s, m, rfl, _, rfl, _, _⟩ := hx
  obtain ⟨t, n, rfl, _, rfl, _, _⟩ := hy
  rfl

theorem Is.le {x y : Flt f} {a b : ℚ} (hx : Is x a) (hy : Is y b) : MixedCmp.le x y = decide (a ≤ b) := by
  rw [le_def, hx.lt hy]
  obtain ⟨s, m, rfl, _, rfl, _, _⟩ := hx
  obtain ⟨t, n, rfl, _, rfl, _, _⟩ := hy
  show (decide _ || decide _) = _
  rw [← Bool.decide_or]; exact decide_eq_decide.mpr le_iff_lt_or_eq.symm

theorem abs_rnd_lt (hp : 1 ≤ f.p) {q : ℚ} {e : ℤ} (hq : |q| ≤ 2 ^ e) (h1 : f.emin ≤ e) (h2 : e < f.emax) :
    |rnd f.p f.emin q| < 2 ^ f.emax := by
  rw [abs_rnd]
  refine (roundTo_le_rep hp (abs_nonneg q) hq (Rep.zpow hp h1)).trans_lt ?_
  rw [← zpow_natCast (2:ℚ) f.emax]; exact two_zpow_lt h2

end Flt
end MixedNum
