import Verif.Lemmas.RoundTo
import Verif.Lemmas.FloatFin
import Verif.Lemmas.FloatSqrtTable
import Verif.Lemmas.WrapAcc
import Verif.Spec.Float
/-! Sums and differences of floats: multiples of the least subnormal, so no error from underflow; nearby numbers differ exactly. -/

namespace MixedNum
namespace Flt
variable {f : Format} {p : ℕ} {emin : ℤ}

/-- A small multiple of the least subnormal is representable. -/
theorem rep_of_grid {k : ℤ} (h : |k| < 2 ^ p) : Rep p emin (k * 2 ^ emin) := ⟨k, emin, le_refl _, h, rfl⟩

/-- Rounding a multiple of the least subnormal: the relative error is at most half a unit. -/
theorem rnd_grid (k : ℤ) : |rnd p emin (k * 2 ^ emin) - k * 2 ^ emin| ≤ 2 ^ (-(p:ℤ)) * |(k:ℚ) * 2 ^ emin| := by
  by_cases h : |k| < 2 ^ p
  · rw [rnd_rep (rep_of_grid h), sub_self, abs_zero]; positivity
  · rw [mul_comm (2 ^ (-(p:ℤ)) : ℚ)]
    have e : ((2:ℚ) ^ (p:ℤ)) ≤ |(k:ℚ)| := by rw [zpow_natCast]; exact_mod_cast not_lt.mp h
    refine (abs_rnd_rel ?_).trans (le_of_eq ?_)
    · rw [abs_mul, abs_of_pos (two_zpow_pos emin), show emin + p - 1 = (p - 1 : ℤ) + emin by ring, two_zpow_add]
      refine mul_le_mul_of_nonneg_right ((two_zpow_le (by omega)).trans e) (two_zpow_pos _).le
    · ring

theorem grid_add {a b : ℚ} (ha : Rep p emin a) (hb : Rep p emin b) : ∃ k : ℤ, a + b = k * 2 ^ emin := by
  obtain ⟨k, rfl⟩ := ha.units_emin; obtain ⟨l, rfl⟩ := hb.units_emin
  exact ⟨k + l, by push_cast; ring⟩

theorem grid_sub {a b : ℚ} (ha : Rep p emin a) (hb : Rep p emin b) : ∃ k : ℤ, a - b = k * 2 ^ emin := by
  obtain ⟨k, h⟩ := grid_add ha hb.neg; exact ⟨k, by rw [← h]; ring⟩

/-- A difference no larger than either number is representable (Sterbenz). -/
theorem rep_sub {a b : ℚ} (ha : Rep p emin a) (hb : Rep p emin b) (h1 : |a - b| ≤ |a|) (h2 : |a - b| ≤ |b|) :
    Rep p emin (a - b) := by
  obtain ⟨n, e, he, hn, rfl⟩ := ha
  obtain ⟨k, e', he', hk, rfl⟩ := hb
  have key : ∀ {n k e e' : ℤ} (_ : emin ≤ e) (_ : |n| < 2 ^ p) (_ : e ≤ e')
      (_ : |(n:ℚ) * 2 ^ e - k * 2 ^ e'| ≤ |(n:ℚ) * 2 ^ e|), Rep p emin ((n:ℚ) * 2 ^ e - k * 2 ^ e') := by
    intro n k e e' he hn hee h
    obtain ⟨d, rfl⟩ := Int.le.dest hee
    have q : (n:ℚ) * 2 ^ e - k * 2 ^ (e + d) = ((n - k * 2 ^ d : ℤ) : ℚ) * 2 ^ e := by
      rw [two_zpow_add, zpow_natCast]; push_cast; ring
    rw [q] at h ⊢
    refine ⟨_, e, he, ?_, rfl⟩
    rw [abs_mul, abs_mul] at h
    have h := le_of_mul_le_mul_right h (abs_pos.mpr (two_zpow_pos e).ne')
    have h : |n - k * 2 ^ d| ≤ |n| := by exact_mod_cast h
    omega
  rcases le_total e e' with h | h
  · exact key he hn h h1
  · have := key he' hk h (by rwa [abs_sub_comm])
    have := this.neg
    rwa [neg_sub] at this

theorem Is.sub_zero_iff (hp : 1 ≤ f.p) {x y : Flt f} {a b : ℚ} (hx : Is x a) (hy : Is y b) :
    (x.sub y).beq (.fin false 0) = true ↔ a = b := by
  obtain ⟨s, m, rfl⟩ := hx.fin; obtain ⟨t, n, rfl⟩ := hy.fin
  have e : (Flt.fin t n : Flt f).neg.val = -b := by rw [hy.neg.val]
  have e0 : (Flt.fin s m : Flt f).sub (.fin t n) = ofExact (s && !t) (a - b) := by
    show ofExact (s && !t) (Flt.val (.fin s m : Flt f) + Flt.val (Flt.fin t n : Flt f).neg) = _
    rw [e, hx.val, sub_eq_add_neg]
  rw [e0]
  constructor
  · intro h
    by_contra hab
    obtain ⟨k, hk⟩ := grid_sub hx.rep hy.rep
    have hk0 : k ≠ 0 := by rintro rfl; apply hab; have : a - b = 0 := by rw [hk]; simp
                           linarith
    have h0 : a - b ≠ 0 := sub_ne_zero.mpr hab
    have h1 : (2:ℚ) ^ f.emin ≤ |a - b| := by
      rw [hk, abs_mul, abs_of_pos (two_zpow_pos f.emin)]
      have : (1:ℚ) ≤ |(k:ℚ)| := by exact_mod_cast Int.one_le_abs hk0
      nlinarith [two_zpow_pos f.emin]
    have h2 := rep_le_roundTo hp (two_zpow_pos f.emin).le h1 (Rep.zpow hp (le_refl f.emin))
    rcases ofExact_cases hp (s && !t) (a - b) with h' | ⟨-, h'⟩
    · rw [h'.beq is_zero, decide_eq_true_eq] at h
      have h3 : roundTo f.p f.emin |a - b| = 0 := by rw [← abs_rnd, h, abs_zero]
      have := two_zpow_pos f.emin
      linarith
    · rw [h'] at h; cases h
  · rintro rfl
    rw [sub_self]
    rcases ofExact_cases hp (s && !t) (0:ℚ) with h' | ⟨h1, -⟩
    · rw [h'.beq is_zero, rnd_rep Rep.zero]; rfl
    · rw [rnd_rep Rep.zero, abs_zero] at h1; have : (0:ℚ) < 2 ^ f.emax := by positivity
      linarith

/-- The error of a finite difference. -/
theorem Is.sub_err (hf : f.Wide) {x y : Flt f} {a b : ℚ} (hx : Is x a) (hy : Is y b) (h : (x.sub y).IsFinite) :
    ∃ d, Is (x.sub y) d ∧ d = rnd f.p f.emin (a - b) ∧ |d - (a - b)| ≤ 2 ^ (-(f.p:ℤ)) * |a - b| := by
  obtain ⟨k, hk⟩ := grid_sub hx.rep hy.rep
  obtain ⟨s, m, rfl⟩ := hx.fin; obtain ⟨t, n, rfl⟩ := hy.fin
  have e : (Flt.fin t n : Flt f).neg.val = -b := by rw [hy.neg.val]
  have e0 : (Flt.fin s m : Flt f).sub (.fin t n) = ofExact (s && !t) (a - b) := by
    show ofExact (s && !t) (Flt.val (.fin s m : Flt f) + Flt.val (Flt.fin t n : Flt f).neg) = _
    rw [e, hx.val, sub_eq_add_neg]
  rw [e0] at h ⊢
  rcases ofExact_cases hf.one_le (s && !t) (a - b) with h' | ⟨-, h'⟩
  · exact ⟨_, h', rfl, by rw [hk]; exact rnd_grid k⟩
  · obtain ⟨_, _, h⟩ := h; rw [h'] at h; cases h

/-- The error of a finite sum. -/
theorem Is.add_err (hf : f.Wide) {x y : Flt f} {a b : ℚ} (hx : Is x a) (hy : Is y b) (h : (x.add y).IsFinite) :
    ∃ d, Is (x.add y) d ∧ d = rnd f.p f.emin (a + b) ∧ |d - (a + b)| ≤ 2 ^ (-(f.p:ℤ)) * |a + b| := by
  obtain ⟨k, hk⟩ := grid_add hx.rep hy.rep
  obtain ⟨s, m, rfl⟩ := hx.fin; obtain ⟨t, n, rfl⟩ := hy.fin
  have e0 : (Flt.fin s m : Flt f).add (.fin t n) = ofExact (s && t) (a + b) := by
    show ofExact (s && t) (Flt.val (.fin s m : Flt f) + Flt.val (Flt.fin t n : Flt f)) = _
    rw [hx.val, hy.val]
  rw [e0] at h ⊢
  rcases ofExact_cases hf.one_le (s && t) (a + b) with h' | ⟨-, h'⟩
  · exact ⟨_, h', rfl, by rw [hk]; exact rnd_grid k⟩
  · obtain ⟨_, _, h⟩ := h; rw [h'] at h; cases h

end Flt
end MixedNum
