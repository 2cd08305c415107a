import Verif.Props.Polar
import Verif.Props.Misc
import Verif.Props.FixedComplex
import Verif.Lemmas.FixedReal
/-! # C88: polar to Cartesian on fixed point -/

namespace MixedNum
variable {m : Mode} {W F : ℕ}
open Fixed

/-- The external CORDIC `sin`/`cos` pair (crate `cordic`, not modelled) returns on every angle between minus and plus the
type's π (which is within one unit in the last place plus `2^-52` of π), both within `ε`. -/
def FixedSinCosWithin (sc : Fixed m true W F → Prog (Fixed m true W F × Fixed m true W F)) (ε : ℝ) : Prop :=
  ∀ x : Fixed m true W F, |x.r| ≤ Real.pi + 1 / 2 ^ F + 1 / 2 ^ 52 →
    ∃ s c, Returns (sc x) (s, c) ∧ |s.r - Real.sin x.r| ≤ ε ∧ |c.r - Real.cos x.r| ≤ ε

/-- C88: with `K` integer bits, a magnitude that leaves room for the error of `sincos` converts without panic in either mode;
each part is the magnitude times the cosine/sine of the angle up to the error of `sincos`, the drift of the wrapping by the type's
π, and less than one unit in the last place. -/
theorem C88_accuracy {K : ℕ} (hK : F + K + 1 ≤ W) (h : F + 4 ≤ W) {ε : ℝ}
    (sc : Fixed m true W F → Prog (Fixed m true W F × Fixed m true W F)) (hs : FixedSinCosWithin sc ε)
    (q : Polar (Fixed m true W F)) (hm : |q.mag.r| * (1 + ε) + 1 / 2 ^ F < 2 ^ K) :
    ∃ c : Cartesian (Fixed m true W F), Returns (@ops.toCartesian _ _ _ _ _ _ ⟨sc⟩ q) c ∧
      |c.re.r - q.mag.r * Real.cos q.ang.r| ≤
        |q.mag.r| * (ε + (|q.ang.r| / 5 + 1 / 2) * (1 / 2 ^ F + 1 / 2 ^ 51)) + 1 / 2 ^ F ∧
      |c.im.r - q.mag.r * Real.sin q.ang.r| ≤
        |q.mag.r| * (ε + (|q.ang.r| / 5 + 1 / 2) * (1 / 2 ^ F + 1 / 2 ^ 51)) + 1 / 2 ^ F := by
  obtain ⟨M, x⟩ := q
  obtain ⟨p, r, hp, hp0, hr, l1, l2, k, hk⟩ := C30_wrap_fixed h x
  obtain ⟨p', hp', hpn⟩ := C58_pi (m := m) (s := true) (W := W) (F := F) (by omega)
  obtain rfl := hp.unique hp'
  have hu := u_pos F
  have hu1 := u_le_one F
  have e1 : (1:ℝ) / 2 ^ F = u F := rfl
  have epr : (p.val : ℝ) / 2 ^ F = p.r := rfl
  rw [div_div, mul_comm (2:ℝ) (2 ^ F), ← div_div, e1, epr] at hpn
  rw [e1] at hm
  change |M.r| * (1 + ε) + u F < 2 ^ K at hm
  have g := Real.pi_gt_d4; have g' := Real.pi_lt_d4
  have hpn' := abs_le.mp hpn
  have hp2 : (5:ℝ) / 2 ≤ p.r := by norm_num at *; linarith
  have hkr : r.r = x.r + k * (2 * p.r) := by
    have : (r.val:ℝ) = x.val + k * (2 * p.val) := by exact_mod_cast hk
    rw [r_eq, r_eq, r_eq, this]; ring
  have l1' : -p.r ≤ r.r := by
    have : (-p.val:ℝ) ≤ r.val := by exact_mod_cast l1
    rw [r_eq, r_eq]; nlinarith
  have l2' : r.r < p.r := by
    have : (r.val:ℝ) < p.val := by exact_mod_cast l2
    rw [r_eq, r_eq]; nlinarith
  have hr4 : |r.r| ≤ Real.pi + 1 / 2 ^ F + 1 / 2 ^ 52 := by
    rw [e1, abs_le]; constructor <;> linarith
  -- the number of turns and the drift
  have hkb : |(k:ℝ)| ≤ |x.r| / 5 + 1 / 2 := by
    have h1 : |(k:ℝ)| * (2 * p.r) ≤ |x.r| + p.r := by
      have h2 : (k:ℝ) * (2 * p.r) = r.r - x.r := by linarith
      have h3 : |(k:ℝ) * (2 * p.r)| = |(k:ℝ)| * (2 * p.r) := by rw [abs_mul, abs_of_pos (by linarith : 0 < 2 * p.r)]
      rw [← h3, h2]
      have := abs_sub r.r x.r
      have : |r.r| ≤ p.r := abs_le.mpr ⟨l1', l2'.le⟩
      linarith
    by_contra hc
    push Not at hc
    have h5 : (|x.r| / 5 + 1 / 2) * (2 * p.r) < |(k:ℝ)| * (2 * p.r) := mul_lt_mul_of_pos_right hc (by linarith)
    nlinarith [abs_nonneg x.r]
  have hd : |r.r - (x.r + k * (2 * Real.pi))| ≤ (|x.r| / 5 + 1 / 2) * (u F + 1 / 2 ^ 51) := by
    have : r.r - (x.r + k * (2 * Real.pi)) = k * (2 * (p.r - Real.pi)) := by rw [hkr]; ring
    rw [this, abs_mul]
    refine mul_le_mul hkb ?_ (abs_nonneg _) (by positivity)
    rw [abs_mul, abs_of_pos (by norm_num : (0:ℝ) < 2)]
    linarith
  obtain ⟨s, c, s1, s2, c2⟩ := hs r hr4
  set D := (|x.r| / 5 + 1 / 2) * (u F + 1 / 2 ^ 51) with hD
  have key : ∀ (t : Fixed m true W F) (T T' : ℝ), |T| ≤ 1 → |t.r - T| ≤ ε → |T - T'| ≤ D →
      ∃ v, NumOps.mul M t = pure v ∧ |v.r - M.r * T'| ≤ |M.r| * (ε + D) + u F := by
    intro t T T' hT h1 h2
    have h3 : |t.r| ≤ 1 + ε := by have := abs_sub_abs_le_abs_sub t.r T; linarith
    have h4 : |M.r * t.r| ≤ |M.r| * (1 + ε) := by rw [abs_mul]; exact mul_le_mul_of_nonneg_left h3 (abs_nonneg _)
    obtain ⟨v, v1, v2, v3⟩ := mul_exact hK (a := M) (b := t) (by linarith)
    refine ⟨v, v1, ?_⟩
    have h5 : |M.r * t.r - M.r * T'| ≤ |M.r| * (ε + D) := by
      rw [← mul_sub, abs_mul]
      exact mul_le_mul_of_nonneg_left ((abs_sub_le _ T _).trans (add_le_add h1 h2)) (abs_nonneg _)
    have h6 : |v.r - M.r * t.r| ≤ u F := by rw [abs_le]; constructor <;> linarith
    have := abs_sub_le v.r (M.r * t.r) (M.r * T')
    linarith
  obtain ⟨vr, a1, a2⟩ := key c _ (Real.cos x.r) (Real.abs_cos_le_one _) c2 (by
    rw [← Real.cos_add_int_mul_two_pi x.r k]; exact (Real.abs_cos_sub_cos_le _ _).trans hd)
  obtain ⟨vi, b1, b2⟩ := key s _ (Real.sin x.r) (Real.abs_sin_le_one _) s2 (by
    rw [← Real.sin_add_int_mul_two_pi x.r k]; exact (Real.abs_sin_sub_sin_le _ _).trans hd)
  refine ⟨⟨vr, vi⟩, hr.bind (s1.bind (.of_eq ?_)), a2, b2⟩
  show (NumOps.mul M c >>= fun re => NumOps.mul M s >>= fun im => pure (⟨re, im⟩ : Cartesian (Fixed m true W F))) = _
  rw [a1, b1]; rfl

/-- The hypotheses hold on 16 bits with 8 fractional bits of magnitude 2 and angle -7.8. -/
example (sc : Fixed .checked true 16 8 → Prog (Fixed .checked true 16 8 × Fixed .checked true 16 8)) (hs : FixedSinCosWithin sc (1 / 2 ^ 8)) :=
  C88_accuracy (K := 7) (by decide) (by decide) sc hs ⟨fx .checked true 16 8 512, fx .checked true 16 8 (-2000)⟩
    (by simp [Fixed.r, fx]; norm_num)

/-- A `sincos` as C88 assumes exists: the true values rounded down. -/
theorem fixedSinCosWithin_exists (h : F + 4 ≤ W) :
    ∃ sc : Fixed m true W F → Prog (Fixed m true W F × Fixed m true W F), FixedSinCosWithin sc (1 / 2 ^ F) := by
  have hu := u_pos F
  have hu1 := u_le_one F
  have hpu := pow_mul_u F
  have near : ∀ t : ℝ, |(⌊t * 2 ^ F⌋ : ℝ) * u F - t| ≤ u F := by
    intro t
    have h1 := Int.floor_le (t * 2 ^ F); have h2 := Int.lt_floor_add_one (t * 2 ^ F)
    have e : t = t * 2 ^ F * u F := by rw [mul_assoc, hpu, mul_one]
    rw [abs_le]; constructor <;> nlinarith
  have fits : ∀ t : ℝ, |t| ≤ 1 → Fits true W ⌊t * 2 ^ F⌋ := by
    intro t ht
    refine fits_of_abs (K := 3) (by omega) ?_
    have := abs_sub_abs_le_abs_sub ((⌊t * 2 ^ F⌋ : ℝ) * u F) t
    have := near t
    rw [show (2:ℝ) ^ 3 = 8 by norm_num]; linarith
  refine ⟨fun x => pure (mkv _ (fits _ (Real.abs_sin_le_one x.r)), mkv _ (fits _ (Real.abs_cos_le_one x.r))), ?_⟩
  intro x _
  refine ⟨_, _, .of_eq rfl, ?_, ?_⟩ <;> rw [r_eq, mkv_val] <;> exact near _

example : |(fx .checked true 16 8 512 : Fixed .checked true 16 8).r| * (1 + 1 / 2 ^ 8) + 1 / 2 ^ 8 < 2 ^ 7 := by
  have : (fx .checked true 16 8 512 : Fixed .checked true 16 8).r = 2 := by
    show ((512:ℤ):ℝ) / 2 ^ 8 = 2
    norm_num
  rw [this]; norm_num

end MixedNum
