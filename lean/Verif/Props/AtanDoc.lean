import Verif.Props.Atan
import Verif.Model.Delegate
import Verif.Props.AddSub
import Verif.Lemmas.Run
import Verif.Lemmas.AtanRel
/-! # C41: exactly where the documented accuracy of atan2 is met -/

namespace MixedNum

theorem ratanErr_strictMono : StrictMonoOn ratanErr (Set.Icc 0 ratanTop) := by
  refine strictMonoOn_of_deriv_pos (convex_Icc _ _) continuous_ratanErr.continuousOn fun t ht => ?_
  rw [interior_Icc] at ht
  rw [deriv_ratanErr]
  have h0 := ht.1
  have h2 : t ^ 2 < 160 / 369 := by rw [← ratanTop_sq]; exact pow_lt_pow_left₀ ht.2 ht.1.le two_ne_zero
  have : 0 < 5 / 32 - 369 / 1024 * t ^ 2 := by linarith
  positivity

theorem ratanErr_strictAnti : StrictAntiOn ratanErr (Set.Ici ratanTop) := by
  refine strictAntiOn_of_deriv_neg (convex_Ici _) continuous_ratanErr.continuousOn fun t ht => ?_
  rw [interior_Ici] at ht
  rw [deriv_ratanErr]
  have h0 : 0 < t := ratanTop_pos.trans ht
  have h2 : 160 / 369 < t ^ 2 := by rw [← ratanTop_sq]; exact pow_lt_pow_left₀ ht ratanTop_pos.le two_ne_zero
  exact div_neg_of_neg_of_pos (mul_neg_of_pos_of_neg (by positivity) (by linarith)) (by positivity)

theorem lt_ratanTop : 0.6584 < ratanTop := by
  unfold ratanTop; rw [Real.lt_sqrt (by norm_num)]; norm_num

/-- The arctangent near one from the arctangent near zero. -/
theorem arctan_near_one {t : ℝ} (h0 : 0 < t) (h1 : t < 1) : Real.arctan t = Real.pi / 4 - Real.arctan ((1 - t) / (1 + t)) := by
  have h : t * ((1 - t) / (1 + t)) < 1 := by
    rw [mul_div_assoc', div_lt_one (by linarith)]; nlinarith
  have e := Real.arctan_add h
  have : (t + (1 - t) / (1 + t)) / (1 - t * ((1 - t) / (1 + t))) = 1 := by
    have : (1 + t) ≠ 0 := by linarith
    rw [div_eq_one_iff_eq (by linarith)]
    field_simp; ring
  rw [this, Real.arctan_one] at e
  linarith

/-- The documented bound in radians. -/
noncomputable def docBound : ℝ := 0.028 * (Real.pi / 180)

theorem err_values : ratanErr 0.2189 < docBound ∧ docBound < ratanErr 0.219 ∧ docBound < ratanErr 0.8925 ∧ ratanErr 0.8927 < docBound ∧
    -docBound < ratanErr 0.9162 ∧ ratanErr 0.9164 < -docBound := by
  have p1 := Real.pi_gt_d6; have p2 := Real.pi_lt_d6
  have f (t : ℝ) (h0 : 0 < t) (h1 : t < 1) := arctan_near_one h0 h1
  unfold ratanErr ratan docBound
  refine ⟨?_, ?_, ?_, ?_, ?_, ?_⟩
  · have := arctan_lower8 (t := 0.2189) (by norm_num); norm_num at this p1 p2 ⊢; linarith
  · have := arctan_upper7 (t := 0.219) (by norm_num); norm_num at this p1 p2 ⊢; linarith
  · rw [f 0.8925 (by norm_num) (by norm_num)]
    have := arctan_lower8 (t := (1 - 0.8925) / (1 + 0.8925)) (by norm_num); norm_num at this p1 p2 ⊢; linarith
  · rw [f 0.8927 (by norm_num) (by norm_num)]
    have := arctan_upper7 (t := (1 - 0.8927) / (1 + 0.8927)) (by norm_num); norm_num at this p1 p2 ⊢; linarith
  · rw [f 0.9162 (by norm_num) (by norm_num)]
    have := arctan_lower8 (t := (1 - 0.9162) / (1 + 0.9162)) (by norm_num); norm_num at this p1 p2 ⊢; linarith
  · rw [f 0.9164 (by norm_num) (by norm_num)]
    have := arctan_upper7 (t := (1 - 0.9164) / (1 + 0.9164)) (by norm_num); norm_num at this p1 p2 ⊢; linarith

/-- C41, exactly where it holds: with `r` the smaller coordinate over the larger (0 at the origin), the documented bound of 0.028 degrees is met
for `r ≤ a` and for `b ≤ r ≤ c` and nowhere else, and `a`, `b`, `c` are 0.2189, 0.8926 and 0.9163 to three places.
Missing for the full statement: the rest of the plane, where it is false. -/
theorem C41_exact_partial : ∃ a b c : ℝ, (0.2189 < a ∧ a < 0.219) ∧ (0.8925 < b ∧ b < 0.8927) ∧ (0.9162 < c ∧ c < 0.9164) ∧
    ∀ y x : ℝ, ∃ v, Returns (atan2Poly y x) v ∧ (|v - Complex.arg ⟨x, y⟩| ≤ 0.028 * (Real.pi / 180) ↔
      min |x| |y| / max |x| |y| ≤ a ∨ (b ≤ min |x| |y| / max |x| |y| ∧ min |x| |y| / max |x| |y| ≤ c)) := by
  obtain ⟨v1, v2, v3, v4, v5, v6⟩ := err_values
  have t1 := lt_ratanTop; have t2 := ratanTop_lt
  obtain ⟨a, ⟨a1, a2⟩, a3⟩ := intermediate_value_Icc (by norm_num : (0.2189:ℝ) ≤ 0.219) continuous_ratanErr.continuousOn ⟨v1.le, v2.le⟩
  obtain ⟨b, ⟨b1, b2⟩, b3⟩ := intermediate_value_Icc' (by norm_num : (0.8925:ℝ) ≤ 0.8927) continuous_ratanErr.continuousOn ⟨v4.le, v3.le⟩
  obtain ⟨c, ⟨c1, c2⟩, c3⟩ := intermediate_value_Icc' (by norm_num : (0.9162:ℝ) ≤ 0.9164) continuous_ratanErr.continuousOn ⟨v6.le, v5.le⟩
  have a1' : 0.2189 < a := lt_of_le_of_ne a1 (by rintro rfl; exact v1.ne a3)
  have a2' : a < 0.219 := lt_of_le_of_ne a2 (by rintro rfl; exact v2.ne' a3)
  have b1' : 0.8925 < b := lt_of_le_of_ne b1 (by rintro rfl; exact v3.ne' b3)
  have b2' : b < 0.8927 := lt_of_le_of_ne b2 (by rintro rfl; exact v4.ne b3)
  have c1' : 0.9162 < c := lt_of_le_of_ne c1 (by rintro rfl; exact v5.ne' c3)
  have c2' : c < 0.9164 := lt_of_le_of_ne c2 (by rintro rfl; exact v6.ne c3)
  refine ⟨a, b, c, ⟨a1', a2'⟩, ⟨b1', b2'⟩, ⟨c1', c2'⟩, fun y x => ?_⟩
  obtain ⟨v, hv, hA⟩ := atan2_real y x
  refine ⟨v, .of_eq hv, ?_⟩
  rw [hA.error]
  change _ ≤ docBound ↔ _
  have h0 := ratio_nonneg x y
  generalize min |x| |y| / max |x| |y| = r at h0 ⊢
  have d0 : 0 < docBound := by unfold docBound; have := Real.pi_pos; positivity
  have top : ratanTop ∈ Set.Ici ratanTop := Set.self_mem_Ici
  norm_num at t1 t2 a1 a2 b1 b2 c1 c2
  rcases le_total r ratanTop with hr | hr
  · have hp : 0 ≤ ratanErr r := by
      rw [← ratanErr_zero]
      exact ratanErr_mono ⟨le_rfl, ratanTop_pos.le⟩ ⟨h0, hr⟩ h0
    rw [abs_of_nonneg hp, ← a3, ratanErr_strictMono.le_iff_le ⟨h0, hr⟩ ⟨by linarith, by linarith⟩]
    exact ⟨.inl, fun h => h.resolve_right fun h => by linarith [h.1]⟩
  · rw [abs_le]
    nth_rw 1 [← c3]; rw [← b3]
    rw [ratanErr_strictAnti.le_iff_ge (show c ∈ Set.Ici ratanTop by simp only [Set.mem_Ici]; linarith) hr,
      ratanErr_strictAnti.le_iff_ge hr (show b ∈ Set.Ici ratanTop by simp only [Set.mem_Ici]; linarith)]
    exact ⟨fun h => .inr ⟨h.2, h.1⟩, fun h => (h.resolve_left fun h => by linarith).symm⟩

/-- All three cases occur: the bound is met for (10, 1) and (10, 9) and missed for (2, 1). -/
example : (∃ v, Returns (atan2Poly (1:ℝ) 10) v ∧ |v - Complex.arg ⟨10, 1⟩| ≤ 0.028 * (Real.pi / 180)) ∧
    (∃ v, Returns (atan2Poly (9:ℝ) 10) v ∧ |v - Complex.arg ⟨10, 9⟩| ≤ 0.028 * (Real.pi / 180)) ∧
    ∃ v, Returns (atan2Poly (1:ℝ) 2) v ∧ ¬ |v - Complex.arg ⟨2, 1⟩| ≤ 0.028 * (Real.pi / 180) := by
  obtain ⟨a, b, c, ha, hb, hc, h⟩ := C41_exact_partial
  norm_num at ha hb hc
  obtain ⟨v, h1, h2⟩ := h 1 10
  obtain ⟨w, h3, h4⟩ := h 9 10
  obtain ⟨u, h5, h6⟩ := h 1 2
  rw [abs_of_pos (by norm_num : (0:ℝ) < 10), abs_of_pos (by norm_num : (0:ℝ) < 1), min_eq_right (by norm_num), max_eq_left (by norm_num)] at h2
  rw [abs_of_pos (by norm_num : (0:ℝ) < 10), abs_of_pos (by norm_num : (0:ℝ) < 9), min_eq_right (by norm_num), max_eq_left (by norm_num)] at h4
  rw [abs_of_pos (by norm_num : (0:ℝ) < 2), abs_of_pos (by norm_num : (0:ℝ) < 1), min_eq_right (by norm_num), max_eq_left (by norm_num)] at h6
  refine ⟨⟨v, h1, h2.mpr (.inl (by linarith))⟩, ⟨w, h3, h4.mpr (.inr ⟨by linarith, by linarith⟩)⟩, u, h5, fun g => ?_⟩
  rcases h6.mp g with k | ⟨k, _⟩ <;> linarith

/-- **C41 is false on the machine too**: the angle of (1, 1) on doubles, on single floats and on `I16F16`, in both build modes; the results
are above the angle, 45 degrees, by more than a quarter of a degree. -/
theorem C41_counterexample_machine (m : Mode) :
    Returns (Flt.mixedAtan2Poly (.fin false 1 : Flt F64) (.fin false 1)) (.fin false (3559233164812443 / 4503599627370496)) ∧
      Returns (Flt.mixedAtan2Poly (.fin false 1 : Flt F32) (.fin false 1)) (.fin false (6629589 / 8388608)) ∧
      Returns (Fixed.mixedAtan2Poly (fx m true 32 16 (2 ^ 16)) (fx m true 32 16 (2 ^ 16))) (fx m true 32 16 51793) ∧
      45.25 * (Real.pi / 180) < (3559233164812443 / 4503599627370496 : ℝ) ∧ 45.25 * (Real.pi / 180) < (6629589 / 8388608 : ℝ) ∧
      45.25 * (Real.pi / 180) < (51793 / 2 ^ 16 : ℝ) := by
  have h := Real.pi_lt_d6
  norm_num at h
  refine ⟨by run 2, by run 2, ?_, by norm_num; linarith, by norm_num; linarith, by norm_num; linarith⟩
  cases m <;> run 2

end MixedNum
