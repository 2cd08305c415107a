import Verif.Lemmas.FloatFin
import Verif.Lemmas.Word
/-! Conversions between floats and integers: truncation, exact integers. -/

namespace MixedNum

theorem truncQ_nonneg {q : ℚ} (h : 0 ≤ q) : PInt.truncQ q = ⌊q⌋ := by
  unfold PInt.truncQ
  rw [Int.tdiv_eq_ediv_of_nonneg (Rat.num_nonneg.mpr h), ← rat_floor, Rat.floor_def]

theorem truncQ_neg (q : ℚ) : PInt.truncQ (-q) = -PInt.truncQ q := by
  unfold PInt.truncQ
  rw [Rat.num_neg_eq_neg_num, Rat.den_neg_eq_den, Int.neg_tdiv]

theorem truncQ_intCast (n : ℤ) : PInt.truncQ n = n := by unfold PInt.truncQ; simp

/-- Truncation: toward zero, by less than one. -/
theorem truncQ_spec (q : ℚ) : |(PInt.truncQ q : ℚ)| ≤ |q| ∧ |q| < |(PInt.truncQ q : ℚ)| + 1 ∧ 0 ≤ q * PInt.truncQ q := by
  have pos : ∀ q : ℚ, 0 ≤ q → |(PInt.truncQ q : ℚ)| ≤ |q| ∧ |q| < |(PInt.truncQ q : ℚ)| + 1 ∧ 0 ≤ q * PInt.truncQ q := by
    intro q h
    have h0 : (0:ℚ) ≤ (⌊q⌋ : ℚ) := by exact_mod_cast Int.floor_nonneg.mpr h
    rw [truncQ_nonneg h, abs_of_nonneg h, abs_of_nonneg h0]
    exact ⟨Int.floor_le q, Int.lt_floor_add_one q, by positivity⟩
  rcases le_total 0 q with h | h
  · exact pos q h
  · have := pos (-q) (by linarith)
    rw [truncQ_neg] at this
    simpa using this

namespace Flt
variable {f : Format}

/-- Integers of at most `p` bits are numbers of the format. -/
theorem rep_int (hf : f.Ok) {n : ℤ} (h : |n| ≤ 2 ^ f.p) : Rep f.p f.emin n := by
  have := hf.emin; have := hf.p
  rcases h.eq_or_lt with h | h
  · have e2 : (2:ℤ) ^ f.p = 2 ^ (f.p - 1) * 2 := by rw [← pow_succ]; congr 1; omega
    have lt : (2:ℤ) ^ (f.p - 1) < 2 ^ f.p := pow_lt_pow_right₀ (by norm_num) (by omega)
    have hp : (0:ℤ) < 2 ^ (f.p - 1) := by positivity
    rcases abs_cases n with ⟨e, _⟩ | ⟨e, _⟩
    · refine ⟨2 ^ (f.p - 1), 1, by omega, by rwa [abs_of_pos hp], ?_⟩
      rw [← e, h, e2]; push_cast; ring
    · refine ⟨-2 ^ (f.p - 1), 1, by omega, by rwa [abs_neg, abs_of_pos hp], ?_⟩
      rw [show n = -(2 ^ f.p) by omega, e2]; push_cast; ring
  · exact ⟨n, 0, by omega, h, by simp⟩

theorem is_exact (hf : f.Ok) (z : Bool) {q : ℚ} (hr : Rep f.p f.emin q) (h : |q| < 2 ^ f.emax) :
    Is (ofExact z q : Flt f) q := by
  have := is_ofExact (f := f) (by have := hf.p; omega) z (q := q) (by rwa [rnd_rep hr])
  rwa [rnd_rep hr] at this

theorem is_int (hf : f.Ok) (z : Bool) {n : ℤ} (h : |n| ≤ 2 ^ f.p) : Is (ofExact z n : Flt f) n := by
  refine is_exact hf z (rep_int hf h) ?_
  have := hf.emax
  calc |(n:ℚ)| ≤ 2 ^ f.p := by exact_mod_cast h
    _ < 2 ^ f.emax := pow_lt_pow_right₀ (by norm_num) (by omega)

theorem toWord_is {s : Bool} {W : ℕ} {x : Flt f} {v : ℚ} (h : Is x v) :
    (toWord x : Word s W) = Word.saturate (PInt.truncQ v) := by
  obtain ⟨t, m, rfl, _, rfl, _⟩ := h; rfl

end Flt

theorem saturate_val {s : Bool} {W : ℕ} (n : ℤ) :
    (Word.saturate n : Word s W).val = if n < wlo s W then wlo s W else if whi s W ≤ n then whi s W - 1 else n := by
  have := wlo_lt_whi s W
  unfold Word.saturate
  by_cases h1 : n < wlo s W
  · rw [dif_neg (fun h => by have := h.1; omega), if_pos h1, if_pos h1]
  · by_cases h2 : whi s W ≤ n
    · rw [dif_neg (fun h => by have := h.2; omega), if_neg h1, if_neg h1, if_pos h2]
    · have h : Fits s W n := ⟨by omega, by omega⟩
      rw [dif_pos h, if_neg h1, if_neg h2]

theorem saturate_of_fits {s : Bool} {W : ℕ} {n : ℤ} (h : Fits s W n) : (Word.saturate n : Word s W).val = n := by
  unfold Word.saturate; rw [dif_pos h]

end MixedNum
