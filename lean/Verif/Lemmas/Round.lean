import Mathlib.Tactic.Linarith
import Mathlib.Tactic.Ring
import Mathlib.Tactic.NormNum
import Mathlib.Algebra.Order.Floor.Ring
import Mathlib.Data.Rat.Floor
import Verif.Model.Ieee
/-! Facts about rounding to the nearest integer. -/

namespace MixedNum

theorem rat_floor (q : ℚ) : q.floor = ⌊q⌋ := rfl

theorem roundHalfEven_eq (q : ℚ) : roundHalfEven q =
    if q - ⌊q⌋ < 1/2 then ⌊q⌋ else if 1/2 < q - ⌊q⌋ then ⌊q⌋ + 1 else if ⌊q⌋ % 2 = 0 then ⌊q⌋ else ⌊q⌋ + 1 := rfl

theorem roundHalfEven_cases (q : ℚ) :
    (roundHalfEven q = ⌊q⌋ ∧ q - ⌊q⌋ ≤ 1/2) ∨ (roundHalfEven q = ⌊q⌋ + 1 ∧ 1/2 ≤ q - ⌊q⌋) := by
  rw [roundHalfEven_eq]
  split_ifs with h1 h2 h3
  · exact .inl ⟨rfl, h1.le⟩
  · exact .inr ⟨rfl, h2.le⟩
  · exact .inl ⟨rfl, not_lt.mp h2⟩
  · exact .inr ⟨rfl, not_lt.mp h1⟩

theorem abs_roundHalfEven_sub (q : ℚ) : |(roundHalfEven q : ℚ) - q| ≤ 1/2 := by
  have hf := Int.floor_le q; have hl := Int.lt_floor_add_one q
  rw [abs_le]
  rcases roundHalfEven_cases q with ⟨h, h'⟩ | ⟨h, h'⟩ <;> rw [h] <;> push_cast <;> constructor <;> linarith

theorem roundHalfEven_le (q : ℚ) : (roundHalfEven q : ℚ) ≤ q + 1/2 := by
  have := (abs_le.mp (abs_roundHalfEven_sub q)).2; linarith
theorem le_roundHalfEven (q : ℚ) : q - 1/2 ≤ roundHalfEven q := by
  have := (abs_le.mp (abs_roundHalfEven_sub q)).1; linarith

@[simp] theorem roundHalfEven_intCast (n : ℤ) : roundHalfEven (n : ℚ) = n := by
  rw [roundHalfEven_eq]; simp

theorem roundHalfEven_mono {a b : ℚ} (h : a ≤ b) : roundHalfEven a ≤ roundHalfEven b := by
  have hfl : ⌊a⌋ ≤ ⌊b⌋ := Int.floor_mono h
  rcases eq_or_lt_of_le hfl with he | hlt
  · rw [roundHalfEven_eq, roundHalfEven_eq, he]
    split_ifs <;> first | omega | (exfalso; linarith)
  · have : roundHalfEven a ≤ ⌊a⌋ + 1 := by rcases roundHalfEven_cases a with ⟨h, _⟩ | ⟨h, _⟩ <;> omega
    have : ⌊b⌋ ≤ roundHalfEven b := by rcases roundHalfEven_cases b with ⟨h, _⟩ | ⟨h, _⟩ <;> omega
    omega

/-- An integer bound survives rounding. -/
theorem roundHalfEven_le_of_le {q : ℚ} {n : ℤ} (h : q ≤ n) : roundHalfEven q ≤ n := by
  simpa using roundHalfEven_mono h
theorem le_roundHalfEven_of_le {q : ℚ} {n : ℤ} (h : (n:ℚ) ≤ q) : n ≤ roundHalfEven q := by
  simpa using roundHalfEven_mono h

end MixedNum
