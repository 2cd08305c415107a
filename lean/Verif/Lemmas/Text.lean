import Verif.Spec.Text
import Verif.Model.Fmt
import Mathlib.Tactic.Linarith
/-! Printing and reading integers. -/

namespace MixedNum

theorem digits_isDigit (n : ℕ) : ∀ c ∈ Nat.toDigits 10 n, c.isDigit = true :=
  fun _ h => Nat.isDigit_of_mem_toDigits (b := 10) (n := n) (by norm_num) (by norm_num) h

theorem readInt_of_head {t : List Char} (h : t.head? ≠ some '-') :
    readInt t = ((Nat.ofDigitChars 10 (t.takeWhile Char.isDigit) 0 : ℤ), t.dropWhile Char.isDigit) := by
  unfold readInt
  split
  · simp at h
  · rfl

theorem readInt_minus (t : List Char) : readInt ('-' :: t) = (-(readInt t).1, (readInt t).2) := by
  rw [readInt]

theorem readInt_digits (n : ℕ) {r : List Char} (hr : ∀ c, r.head? = some c → c.isDigit = false) :
    readInt (Nat.toDigits 10 n ++ r) = ((n : ℤ), r) := by
  have hd := digits_isDigit n
  have h0 : (Nat.toDigits 10 n ++ r).head? ≠ some '-' := by
    cases hl : Nat.toDigits 10 n with
    | nil => exact absurd hl Nat.toDigits_ne_nil
    | cons c l =>
      intro he
      simp only [List.cons_append, List.head?_cons, Option.some.injEq] at he
      have := hd c (by rw [hl]; exact List.mem_cons_self)
      rw [he] at this; revert this; decide
  have hr' : r.takeWhile Char.isDigit = [] ∧ r.dropWhile Char.isDigit = r := by
    cases r with
    | nil => simp
    | cons c l => have := hr c rfl; simp [this]
  rw [readInt_of_head h0, List.takeWhile_append_of_pos hd, List.dropWhile_append_of_pos hd, hr'.1, hr'.2, List.append_nil,
    Nat.ofDigitChars_toDigits (by norm_num) (by norm_num)]

theorem readInt_decimalInt (n : ℤ) {r : List Char} (hr : ∀ c, r.head? = some c → c.isDigit = false) :
    readInt (decimalInt n ++ r) = (n, r) := by
  unfold decimalInt
  split
  · rw [List.cons_append, readInt_minus, readInt_digits _ hr]
    exact Prod.ext (by show -((n.natAbs : ℕ) : ℤ) = n; omega) rfl
  · rw [readInt_digits _ hr]; ext1 <;> simp; omega

end MixedNum
