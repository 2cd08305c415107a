import Verif.Spec.Float
import Verif.Lemmas.RndTie
import Verif.Lemmas.WrapAcc
/-! Every arithmetic operation of the float model rounds correctly, overflow included. -/

namespace MixedNum
namespace Flt
variable {f : Format}

theorem representable_of_is {x : Flt f} {v : ℚ} (h : Is x v) : Representable f v := by
  obtain ⟨n, e, h1, h2, h3⟩ := h.rep
  exact ⟨n, e, h2, h1, h3, h.lt_max⟩

theorem _root_.MixedNum.Representable.rep {b : ℚ} (h : Representable f b) : Rep f.p f.emin b := by
  obtain ⟨n, e, h1, h2, h3, _⟩ := h; exact ⟨n, e, h2, h1, h3⟩

/-- The overflow threshold. -/
def threshold (f : Format) : ℚ := 2 ^ f.emax - 2 ^ ((f.emax : ℤ) - f.p - 1)

theorem maxFin_rep (hf : f.Wide) : Rep f.p f.emin (2 ^ f.emax - 2 ^ ((f.emax : ℤ) - f.p)) := by
  have hp := hf.p; have hmin := hf.emin; have hmax := hf.emax
  refine ⟨2 ^ f.p - 1, (f.emax : ℤ) - f.p, by omega, ?_, ?_⟩
  · have : (1:ℤ) ≤ 2 ^ f.p := one_le_pow₀ (by norm_num)
    rw [abs_of_nonneg (by linarith)]; linarith
  · push_cast
    rw [sub_mul, one_mul, ← zpow_natCast (2:ℚ) f.p, ← two_zpow_add, add_sub_cancel, zpow_natCast]

theorem half_step (f : Format) : (2:ℚ) ^ ((f.emax : ℤ) - f.p) = 2 * 2 ^ ((f.emax : ℤ) - f.p - 1) := by
  rw [show (f.emax : ℤ) - f.p = 1 + ((f.emax : ℤ) - f.p - 1) by ring, two_zpow_add, zpow_one]
  congr 2; ring

/-- Below the threshold nothing overflows. -/
theorem rnd_below (hf : f.Wide) {q : ℚ} (h : q < threshold f) : rnd f.p f.emin q < 2 ^ f.emax := by
  have hr := maxFin_rep hf
  have e := half_step f
  have hpos := two_zpow_pos ((f.emax : ℤ) - f.p - 1)
  unfold threshold at h
  rcases le_total q (2 ^ f.emax - 2 ^ ((f.emax : ℤ) - f.p)) with h1 | h1
  · have := rnd_le_rep hf.one_le h1 hr; linarith
  · have h2 := rnd_nearest q hr
    rw [abs_of_nonpos (by linarith : (2:ℚ) ^ f.emax - 2 ^ ((f.emax : ℤ) - f.p) - q ≤ 0)] at h2
    have h3 := (abs_le.mp h2).2
    linarith

theorem rnd_threshold (hf : f.Wide) : rnd f.p f.emin (threshold f) = 2 ^ f.emax := by
  have hp := hf.p; have hmin := hf.emin; have hmax := hf.emax
  have e := half_step f
  have hpos := two_zpow_pos ((f.emax : ℤ) - f.p - 1)
  have e2 : (2:ℚ) ^ f.emax = 2 ^ f.p * 2 ^ ((f.emax : ℤ) - f.p) := by
    rw [← zpow_natCast (2:ℚ) f.p, ← two_zpow_add, add_sub_cancel, zpow_natCast]
  have hp2 : (2:ℚ) ≤ 2 ^ f.p := by
    calc (2:ℚ) = 2 ^ 1 := by norm_num
      _ ≤ _ := pow_le_pow_right₀ (by norm_num) (by omega)
  have et : threshold f = (2 ^ f.p - 1 / 2) * 2 ^ ((f.emax : ℤ) - f.p) := by
    unfold threshold; rw [e2, e]; ring
  have hpos2 := two_zpow_pos ((f.emax : ℤ) - f.p)
  have ht0 : 0 < threshold f := by rw [et]; apply mul_pos _ hpos2; linarith
  rw [rnd_nonneg_eq ht0.le, roundTo_pos ht0]
  have hl : ilog2 (threshold f) = f.emax - 1 := by
    apply le_antisymm
    · have := ilog2_lt ht0 (e := f.emax) (by rw [zpow_natCast]; unfold threshold; linarith)
      omega
    · apply le_ilog2 ht0
      have : (2:ℚ) ^ ((f.emax:ℤ) - 1) * 2 = 2 ^ f.emax := by
        rw [← zpow_natCast (2:ℚ) f.emax, show (f.emax:ℤ) = ((f.emax:ℤ) - 1) + 1 by ring, two_zpow_add, zpow_one]
        congr 2; ring
      have h3 : 2 * (2 ^ f.p - 1 / 2 : ℚ) ≥ 2 ^ f.p := by linarith
      have := mul_le_mul_of_nonneg_right h3 hpos2.le
      rw [← e2] at this
      rw [et]; linarith
  have hu : ulpExp f.p f.emin (threshold f) = (f.emax:ℤ) - f.p := by unfold ulpExp; rw [hl]; omega
  rw [hu]
  have hd : threshold f / 2 ^ ((f.emax:ℤ) - f.p) = ((2 ^ f.p - 1 : ℤ) : ℚ) + 1 / 2 := by
    rw [et, mul_div_assoc, div_self hpos2.ne']; push_cast; ring
  have hr : roundHalfEven (((2 ^ f.p - 1 : ℤ) : ℚ) + 1 / 2) = 2 ^ f.p := by
    have hfl : (((2 ^ f.p - 1 : ℤ) : ℚ) + 1 / 2).floor = 2 ^ f.p - 1 := by
      show ⌊((2 ^ f.p - 1 : ℤ) : ℚ) + 1 / 2⌋ = _
      rw [Int.floor_eq_iff]; constructor <;> linarith
    unfold roundHalfEven
    simp only [hfl]
    rw [if_neg (by push_cast; linarith), if_neg (by push_cast; linarith), if_neg]
    · ring
    · have : (2:ℤ) ^ f.p = 2 * 2 ^ (f.p - 1) := by
        rw [← pow_succ']; congr 1; omega
      omega
  rw [hd, hr, e2]; push_cast; rfl

/-- The model's rounding is correct rounding. -/
theorem ofExact_rounds (hf : f.Wide) (z : Bool) (q : ℚ) : RoundsTo (ofExact z q : Flt f) q := by
  rcases lt_or_ge |q| (threshold f) with h | h
  · left
    have h1 : |rnd f.p f.emin q| < 2 ^ f.emax := by
      rw [abs_rnd, ← rnd_nonneg_eq (abs_nonneg q)]; exact rnd_below hf h
    have h2 := is_ofExact hf.one_le z h1
    refine ⟨h, h2.fin, ?_, ?_⟩
    · rw [h2.val]; exact representable_of_is h2
    · intro b hb; rw [h2.val]; exact ⟨rnd_nearest q hb.rep, rnd_tie hf.one_le q hb.rep⟩
  · right
    refine ⟨h, ?_⟩
    have h1 : (2:ℚ) ^ f.emax ≤ |rnd f.p f.emin q| := by
      rw [abs_rnd, ← rnd_nonneg_eq (abs_nonneg q), ← rnd_threshold hf]; exact rnd_mono hf.one_le h
    rcases ofExact_cases hf.one_le z q with h2 | ⟨-, h2⟩
    · exact absurd h2.lt_max (not_lt.mpr h1)
    · exact h2

end Flt
end MixedNum
