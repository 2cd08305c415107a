import Verif.Lemmas.WrapFloat
/-! Rounding picks a nearest number of the format. -/

namespace MixedNum

theorem roundHalfEven_nearest (y : ℚ) (l : ℤ) : |(roundHalfEven y : ℚ) - y| ≤ |(l:ℚ) - y| := by
  by_contra hc
  have hc := not_le.mp hc
  have h3 := roundHalfEven_le y
  have h4 := le_roundHalfEven y
  have h5 : |(roundHalfEven y : ℚ) - y| ≤ 1 / 2 := abs_le.mpr ⟨by linarith, by linarith⟩
  have h6 := abs_sub_abs_le_abs_sub ((roundHalfEven y : ℚ) - y) (l - y)
  have h7 : |(roundHalfEven y : ℚ) - l| < 1 := by
    calc |(roundHalfEven y : ℚ) - l| = |((roundHalfEven y : ℚ) - y) - (l - y)| := by congr 1; ring
      _ ≤ _ := abs_sub _ _
      _ < _ := by linarith
  have h8 : |roundHalfEven y - l| < 1 := by exact_mod_cast h7
  rw [Int.abs_lt_one_iff, sub_eq_zero] at h8
  rw [h8] at hc
  exact lt_irrefl _ hc

theorem rnd_nearest_units {p : ℕ} {emin : ℤ} {q : ℚ} (hq : 0 < q) (l : ℤ) :
    |rnd p emin q - q| ≤ |(l:ℚ) * 2 ^ ulpExp p emin q - q| := by
  rw [rnd_nonneg_eq hq.le, roundTo_pos hq]
  set u := (2:ℚ) ^ ulpExp p emin q
  have hu : 0 < u := two_zpow_pos _
  have e : ∀ z : ℚ, z * u - q = (z - q / u) * u := by intro z; field_simp
  rw [e, e, abs_mul, abs_mul]
  exact mul_le_mul_of_nonneg_right (roundHalfEven_nearest _ _) (abs_nonneg _)

/-- No number of the format is closer to `q` than the rounded value. -/
theorem rnd_nearest {p : ℕ} {emin : ℤ} (q : ℚ) {b : ℚ} (hb : Rep p emin b) : |rnd p emin q - q| ≤ |b - q| := by
  have key : ∀ q : ℚ, 0 < q → ∀ b, Rep p emin b → |rnd p emin q - q| ≤ |b - q| := by
    intro q hq b hb
    rcases le_or_gt ((2:ℚ) ^ ilog2 q) b with h | h
    · have hb0 : 0 < b := (two_zpow_pos _).trans_le h
      have : ulpExp p emin q ≤ ulpExp p emin b := by
        have := le_ilog2 hb0 h; unfold ulpExp; omega
      obtain ⟨l, hl⟩ := hb.units_of_le hb0 this
      rw [hl]; exact rnd_nearest_units hq l
    · have hs := (ilog2_spec hq).1
      have h1 : |b - q| = q - b := by rw [abs_sub_comm, abs_of_pos (by linarith)]
      rcases le_or_gt (ulpExp p emin q) (ilog2 q) with hu | hu
      · have e : (2:ℚ) ^ ilog2 q = ((2 ^ (ilog2 q - ulpExp p emin q).toNat : ℤ) : ℚ) * 2 ^ ulpExp p emin q := by
          rw [Int.cast_pow, Int.cast_ofNat, ← zpow_natCast, ← two_zpow_add]; congr 1; omega
        have := rnd_nearest_units (p := p) (emin := emin) hq (2 ^ (ilog2 q - ulpExp p emin q).toNat)
        rw [← e] at this
        refine this.trans ?_
        rw [h1, abs_sub_comm, abs_of_nonneg (by linarith)]; linarith
      · -- below the last place: only zero is smaller
        have hp0 : b ≤ 0 := by
          by_contra hc
          have hb0 := not_le.mp hc
          obtain ⟨k, hk⟩ := hb.units_emin
          have hpos := two_zpow_pos emin
          have hk0 : 0 < k := by
            rw [hk] at hb0
            exact_mod_cast ((mul_pos_iff_of_pos_right hpos).mp hb0 : (0:ℚ) < k)
          have hk1 : (1:ℚ) ≤ k := by exact_mod_cast hk0
          have : (2:ℚ) ^ emin ≤ b := by rw [hk]; exact le_mul_of_one_le_left hpos.le hk1
          have h5 := lt_of_two_zpow_lt (this.trans_lt h)
          unfold ulpExp at hu
          have hp : p = 0 := by
            by_contra hp
            omega
          subst hp
          obtain ⟨n, e, -, hn, rfl⟩ := hb
          have : n = 0 := by
            rw [pow_zero] at hn; exact Int.abs_lt_one_iff.mp hn
          rw [this] at hb0; simp at hb0
        have := rnd_nearest_units (p := p) (emin := emin) hq 0
        refine this.trans ?_
        rw [h1]; push_cast; rw [zero_mul, zero_sub, abs_neg, abs_of_pos hq]; linarith
  rcases lt_trichotomy q 0 with h | h | h
  · have := key (-q) (by linarith) (-b) hb.neg
    rw [rnd_neg, show -rnd p emin q - -q = -(rnd p emin q - q) by ring, show -b - -q = -(b - q) by ring, abs_neg, abs_neg] at this
    exact this
  · subst h; rw [rnd_rep Rep.zero]; simp
  · exact key q h b hb

namespace Flt
variable {f : Format}

/-- The next number above the limit is at least 16 away. -/
theorem above_limit (h : f.Ok) {a : ℚ} (ha : Rep f.p f.emin a) (h1 : limit f < a) : limit f + 16 ≤ a := by
  have hl := limit_ge h
  have ha0 : 0 < a := by linarith
  have hua : 4 ≤ ulpExp f.p f.emin a := by
    have : (f.p : ℤ) + 3 ≤ ilog2 a := le_ilog2 ha0 h1.le
    unfold ulpExp; omega
  obtain ⟨k, hk⟩ := ha.units_of_le ha0 hua
  have hlk : limit f = ((2 ^ (f.p - 1) : ℤ) : ℚ) * 2 ^ (4:ℤ) := by
    have := h.p
    unfold limit
    rw [Int.cast_pow, Int.cast_ofNat, ← zpow_natCast (2:ℚ) (f.p - 1), ← two_zpow_add]; congr 1
    have : ((f.p - 1 : ℕ) : ℤ) = f.p - 1 := by omega
    omega
  have hk1 : (2 ^ (f.p - 1) : ℤ) + 1 ≤ k := by
    have : ((2 ^ (f.p - 1) : ℤ) : ℚ) < k := by
      rw [hk, hlk] at h1; exact lt_of_mul_lt_mul_right h1 (two_zpow_pos 4).le
    exact_mod_cast this
  have hk2 : ((2 ^ (f.p - 1) : ℤ) : ℚ) + 1 ≤ k := by exact_mod_cast hk1
  rw [hk, hlk]; have : (2:ℚ) ^ (4:ℤ) = 16 := by norm_num
  rw [this]; linarith

theorem rep_limit (h : f.Ok) : Rep f.p f.emin (limit f) := by
  have := rep_small h (n := 1) (e := f.p + 3) (by norm_num) (by omega)
  rwa [Int.cast_one, one_mul] at this

/-- Adding less than 8 does not cross the limit, either way. -/
theorem rnd_limit (h : f.Ok) {a d : ℚ} (ha : Rep f.p f.emin a) (hd0 : 0 ≤ d) (hd : d < 8) :
    (a ≤ limit f → rnd f.p f.emin (a + d) ≤ limit f) ∧ (a < -limit f → rnd f.p f.emin (a + d) < -limit f) := by
  have hp : 1 ≤ f.p := by have := h.p; omega
  constructor
  · intro h1
    by_contra hc
    have h2 := above_limit h (rep_rnd hp _) (not_le.mp hc)
    have hm : rnd f.p f.emin (a + d) ≤ rnd f.p f.emin (limit f + d) := rnd_mono hp (by linarith)
    have := rnd_nearest (limit f + d) (rep_limit h)
    rw [show limit f - (limit f + d) = -d by ring, abs_neg, abs_of_nonneg hd0] at this
    have := (abs_le.mp this).2
    linarith
  · intro h1
    have h2 := above_limit h ha.neg (by linarith)
    have := rnd_nearest (a + d) ha
    rw [show a - (a + d) = -d by ring, abs_neg, abs_of_nonneg hd0] at this
    have := (abs_le.mp this).2
    linarith

end Flt
end MixedNum
