import Verif.Lemmas.RndNearest
import Verif.Lemmas.RoundTie
/-! Two numbers of the format equally near: rounding takes the even one. -/

namespace MixedNum

theorem rnd_tie_units {p : ℕ} {emin : ℤ} {q : ℚ} (hq : 0 < q) (l : ℤ)
    (hne : (l:ℚ) * 2 ^ ulpExp p emin q ≠ rnd p emin q)
    (h : |rnd p emin q - q| = |(l:ℚ) * 2 ^ ulpExp p emin q - q|) :
    ∃ k : ℤ, rnd p emin q = 2 * k * |rnd p emin q - l * 2 ^ ulpExp p emin q| := by
  rw [rnd_nonneg_eq hq.le, roundTo_pos hq] at *
  set u := (2:ℚ) ^ ulpExp p emin q
  have hu : 0 < u := two_zpow_pos _
  set r := roundHalfEven (q / u) with hr
  have e : ∀ z : ℚ, z * u - q = (z - q / u) * u := by intro z; field_simp
  rw [e, e, abs_mul, abs_mul] at h
  have h := mul_right_cancel₀ (abs_pos.mpr hu.ne').ne' h
  have hlr : r ≠ l := by rintro h; exact hne (by rw [h])
  have hh := abs_roundHalfEven_sub (q / u)
  rw [← hr] at hh
  have hs : (r:ℚ) - q / u = -((l:ℚ) - q / u) := by
    rcases abs_eq_abs.mp h with h | h
    · exact absurd (by exact_mod_cast (by linarith : (r:ℚ) = l)) hlr
    · exact h
  have h1 : |(r:ℚ) - l| ≤ 1 := by
    rw [show (r:ℚ) - l = 2 * (r - q / u) by linarith, abs_mul, abs_two]; linarith
  have h2 : |r - l| = 1 := by
    have : |r - l| ≤ 1 := by exact_mod_cast h1
    have : 0 < |r - l| := abs_pos.mpr (sub_ne_zero.mpr hlr)
    omega
  have h3 : |(r:ℚ) - l| = 1 := by exact_mod_cast h2
  have h4 : |(r:ℚ) - q / u| = 1 / 2 := by
    rw [show (r:ℚ) - l = 2 * (r - q / u) by linarith, abs_mul, abs_two] at h3; linarith
  obtain ⟨k, hk⟩ := Int.dvd_of_emod_eq_zero (roundHalfEven_tie h4)
  refine ⟨k, ?_⟩
  rw [← sub_mul, abs_mul, h3, abs_of_pos hu, one_mul, hr, hk]; push_cast; rfl

/-- If another number of the format is as close to `q` as the rounded value, the rounded value is an even number of gaps. -/
theorem rnd_tie {p : ℕ} {emin : ℤ} (hp : 1 ≤ p) (q : ℚ) {b : ℚ} (hb : Rep p emin b) (hne : b ≠ rnd p emin q)
    (h : |rnd p emin q - q| = |b - q|) : ∃ k : ℤ, rnd p emin q = 2 * k * |rnd p emin q - b| := by
  have key : ∀ q : ℚ, 0 < q → ∀ b, Rep p emin b → b ≠ rnd p emin q → |rnd p emin q - q| = |b - q| →
      ∃ k : ℤ, rnd p emin q = 2 * k * |rnd p emin q - b| := by
    intro q hq b hb hne h
    have units : ∃ l : ℤ, b = l * 2 ^ ulpExp p emin q := by
      rcases le_or_gt ((2:ℚ) ^ ilog2 q) b with h0 | h0
      · have hb0 : 0 < b := (two_zpow_pos _).trans_le h0
        have : ulpExp p emin q ≤ ulpExp p emin b := by
          have := le_ilog2 hb0 h0; unfold ulpExp; omega
        exact hb.units_of_le hb0 this
      · have hs := (ilog2_spec hq).1
        rcases le_or_gt (ulpExp p emin q) (ilog2 q) with hu | hu
        · exfalso
          have e : (2:ℚ) ^ ilog2 q = ((2 ^ (ilog2 q - ulpExp p emin q).toNat : ℤ) : ℚ) * 2 ^ ulpExp p emin q := by
            rw [Int.cast_pow, Int.cast_ofNat, ← zpow_natCast, ← two_zpow_add]; congr 1; omega
          have := rnd_nearest_units (p := p) (emin := emin) hq (2 ^ (ilog2 q - ulpExp p emin q).toNat)
          rw [← e, h, abs_sub_comm, abs_of_pos (by linarith : 0 < q - b), abs_sub_comm, abs_of_nonneg (by linarith)] at this
          linarith
        · have : ulpExp p emin q = emin := by unfold ulpExp at hu ⊢; omega
          rw [this]; exact hb.units_emin
    obtain ⟨l, rfl⟩ := units
    exact rnd_tie_units hq l hne h
  rcases lt_trichotomy q 0 with hq | hq | hq
  · obtain ⟨k, hk⟩ := key (-q) (by linarith) (-b) hb.neg (by rw [rnd_neg]; simpa using hne) (by
      rw [rnd_neg, show -rnd p emin q - -q = -(rnd p emin q - q) by ring, show -b - -q = -(b - q) by ring, abs_neg, abs_neg]
      exact h)
    refine ⟨-k, ?_⟩
    rw [rnd_neg, show -rnd p emin q - -b = -(rnd p emin q - b) by ring, abs_neg] at hk
    push_cast; linarith
  · subst hq
    rw [rnd_rep Rep.zero] at *
    simp at h; exact absurd h.symm (by simpa using hne.symm ∘ Eq.symm)
  · exact key q hq b hb hne h
end MixedNum
