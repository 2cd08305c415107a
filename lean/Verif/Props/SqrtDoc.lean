import Verif.Lemmas.SqrtTwo
import Verif.Model.Delegate
import Verif.Props.AddSub
import Verif.Lemmas.Run
/-! # C46: exactly where the documented accuracy of the square root is met with two iterations -/

namespace MixedNum
open Niirf

/-- C46, exactly where it holds: with two iterations the documented 5e-4 is met on the normalised range outside of four intervals, which
begin where the table changes at 7/16, 1/2, 9/16 and 5/8 and end at `a`, `b`, `c`, `d`. Missing compared to C46: the four intervals,
where it is false. -/
theorem C46_exact_partial : ∃ a b c d : ℝ, (0.4456 < a ∧ a < 0.446) ∧ (0.5113 < b ∧ b < 0.5116) ∧ (0.5718 < c ∧ c < 0.572) ∧
    (0.6288 < d ∧ d < 0.6291) ∧ ∀ x : ℝ, 1 / 4 ≤ x → x < 1 → ∃ y, Returns (niirf .exact x 2) y ∧
      (|y - Real.sqrt x| ≤ 5 / 10000 ↔
        ¬ ((7 / 16 ≤ x ∧ x < a) ∨ (1 / 2 ≤ x ∧ x < b) ∨ (9 / 16 ≤ x ∧ x < c) ∨ (5 / 8 ≤ x ∧ x < d))) := by
  obtain ⟨a, a1, a2, ha⟩ := two3
  obtain ⟨b, b1, b2, hb⟩ := two4
  obtain ⟨c, c1, c2, hc⟩ := two5
  obtain ⟨d, d1, d2, hd⟩ := two6
  have wa : 0.4456 < a ^ 2 ∧ a ^ 2 < 0.446 := by norm_num at a1 a2 ⊢; constructor <;> nlinarith
  have wb : 0.5113 < b ^ 2 ∧ b ^ 2 < 0.5116 := by norm_num at b1 b2 ⊢; constructor <;> nlinarith
  have wc : 0.5718 < c ^ 2 ∧ c ^ 2 < 0.572 := by norm_num at c1 c2 ⊢; constructor <;> nlinarith
  have wd : 0.6288 < d ^ 2 ∧ d ^ 2 < 0.6291 := by norm_num at d1 d2 ⊢; constructor <;> nlinarith
  refine ⟨a ^ 2, b ^ 2, c ^ 2, d ^ 2, wa, wb, wc, wd, fun x h1 h2 => ?_⟩
  obtain ⟨r, hr⟩ : ∃ r, r = Real.sqrt x := ⟨_, rfl⟩
  have hr0 : 0 ≤ r := hr ▸ Real.sqrt_nonneg x
  have hx : x = r ^ 2 := by rw [hr, Real.sq_sqrt (by linarith)]
  have hn := niirf_real h1 h2 (show |x| = x * 4 ^ (0:ℤ) by rw [abs_of_pos (by linarith)]; simp) 2
  rw [zpow_zero, mul_one] at hn
  refine ⟨_, hn, ?_⟩
  rw [← hr, hx]
  rw [hx] at h1 h2
  have wa2 := wa.2; have wb2 := wb.2; have wc2 := wc.2; have wd2 := wd.2
  norm_num at wa2 wb2 wc2 wd2
  clear hn hr hx wa wb wc wd a1 a2 b1 b2 c1 c2 d1 d2
  generalize a ^ 2 = A at *
  generalize b ^ 2 = B at *
  generalize c ^ 2 = C at *
  generalize d ^ 2 = D at *
  have low : r ^ 2 < 7 / 16 → |est (r ^ 2) 2 - r| ≤ 5 / 10000 := fun u => by
    rcases lt_or_ge (r ^ 2) (5 / 16) with g | g
    · exact two0 hr0 (by linarith) (by linarith)
    rcases lt_or_ge (r ^ 2) (6 / 16) with g | g
    · exact two1 hr0 (by linarith) (by linarith)
    · exact two2 hr0 (by linarith) (by linarith)
  have high : 11 / 16 ≤ r ^ 2 → |est (r ^ 2) 2 - r| ≤ 5 / 10000 := fun u => by
    rcases lt_or_ge (r ^ 2) (12 / 16) with g | g
    · exact two7 hr0 (by linarith) (by linarith)
    rcases lt_or_ge (r ^ 2) (13 / 16) with g | g
    · exact two8 hr0 (by linarith) (by linarith)
    rcases lt_or_ge (r ^ 2) (14 / 16) with g | g
    · exact two9 hr0 (by linarith) (by linarith)
    rcases lt_or_ge (r ^ 2) (15 / 16) with g | g
    · exact two10 hr0 (by linarith) (by linarith)
    · exact two11 hr0 (by linarith) (by linarith)
  rcases lt_or_ge (r ^ 2) (7 / 16) with g | g
  · refine iff_of_true (low g) ?_
    rintro (⟨p, q⟩ | ⟨p, q⟩ | ⟨p, q⟩ | ⟨p, q⟩) <;> linarith
  rcases lt_or_ge (r ^ 2) (8 / 16) with g' | g'
  · rw [ha r hr0 g g']
    refine ⟨?_, fun h => ?_⟩
    · rintro h (⟨p, q⟩ | ⟨p, q⟩ | ⟨p, q⟩ | ⟨p, q⟩) <;> linarith
    · by_contra k; exact h (.inl ⟨g, not_le.mp k⟩)
  clear g
  rcases lt_or_ge (r ^ 2) (9 / 16) with g | g
  · rw [hb r hr0 g' g]
    refine ⟨?_, fun h => ?_⟩
    · rintro h (⟨p, q⟩ | ⟨p, q⟩ | ⟨p, q⟩ | ⟨p, q⟩) <;> linarith
    · by_contra k; exact h (.inr (.inl ⟨by linarith, not_le.mp k⟩))
  clear g'
  rcases lt_or_ge (r ^ 2) (10 / 16) with g' | g'
  · rw [hc r hr0 g g']
    refine ⟨?_, fun h => ?_⟩
    · rintro h (⟨p, q⟩ | ⟨p, q⟩ | ⟨p, q⟩ | ⟨p, q⟩) <;> linarith
    · by_contra k; exact h (.inr (.inr (.inl ⟨g, not_le.mp k⟩)))
  clear g
  rcases lt_or_ge (r ^ 2) (11 / 16) with g | g
  · rw [hd r hr0 g' g]
    refine ⟨?_, fun h => ?_⟩
    · rintro h (⟨p, q⟩ | ⟨p, q⟩ | ⟨p, q⟩ | ⟨p, q⟩) <;> linarith
    · by_contra k; exact h (.inr (.inr (.inr ⟨by linarith, not_le.mp k⟩)))
  · refine iff_of_true (high g) ?_
    rintro (⟨p, q⟩ | ⟨p, q⟩ | ⟨p, q⟩ | ⟨p, q⟩) <;> linarith

/-- Both sides occur: the bound is met at 1/4 and missed at 7/16. -/
example : (∃ y, Returns (niirf .exact (1 / 4 : ℝ) 2) y ∧ |y - Real.sqrt (1 / 4)| ≤ 5 / 10000) ∧
    ∃ y, Returns (niirf .exact (7 / 16 : ℝ) 2) y ∧ ¬ |y - Real.sqrt (7 / 16)| ≤ 5 / 10000 := by
  obtain ⟨a, b, c, d, ha, hb, hc, hd, h⟩ := C46_exact_partial
  have ha := ha.1
  norm_num at ha
  obtain ⟨y, h1, h2⟩ := h (1 / 4) (by norm_num) (by norm_num)
  obtain ⟨z, h3, h4⟩ := h (7 / 16) (by norm_num) (by norm_num)
  refine ⟨⟨y, h1, h2.mpr ?_⟩, z, h3, fun g => h4.mp g (.inl ⟨le_rfl, by linarith⟩)⟩
  rintro (⟨p, q⟩ | ⟨p, q⟩ | ⟨p, q⟩ | ⟨p, q⟩) <;> linarith

/-- **C46 is false on the machine too**: the root of one half on doubles, on single floats and on `I16F16`, in both build modes; all three
results are below the root by more than 5e-4. -/
theorem C46_counterexample_machine (m : Mode) :
    Returns (Flt.mixedNiirf m (.fin false (1 / 2) : Flt F64)) (.fin false (6362736437481495 / 9007199254740992)) ∧
      Returns (Flt.mixedNiirf m (.fin false (1 / 2) : Flt F32)) (.fin false (46295 / 65536)) ∧
      Returns (Fixed.mixedNiirf (fx m true 32 16 (2 ^ 15))) (fx m true 32 16 46295) ∧
      (6362736437481495 / 9007199254740992 : ℝ) < Real.sqrt (1 / 2) - 5 / 10000 ∧
      (46295 / 65536 : ℝ) < Real.sqrt (1 / 2) - 5 / 10000 := by
  have h : (0.7071 : ℝ) < Real.sqrt (1 / 2) := Real.lt_sqrt_of_sq_lt (by norm_num)
  norm_num at h
  refine ⟨?_, ?_, ?_, by norm_num; linarith, by norm_num; linarith⟩
  · cases m <;> run 3
  · cases m <;> run 3
  · cases m <;> run 3

end MixedNum
