import Verif.Model.Delegate
import Verif.Lemmas.FloatConv
import Verif.Lemmas.WrapFloat
import Verif.Spec.Float
import Mathlib.Data.Rat.Floor
import Verif.Props.AddSub
import Verif.Lemmas.Run
import Verif.Lemmas.Case
/-! # C96: floor and ceil on floats -/

namespace MixedNum
variable {f : Format}
open Flt

/-- A representable number of magnitude at least `2^p` is whole. -/
theorem rep_whole {p : ℕ} {emin : ℤ} {v : ℚ} (h : Rep p emin v) (hv : (2:ℚ) ^ p ≤ |v|) : ∃ n : ℤ, v = n := by
  obtain ⟨n, e, -, hn, rfl⟩ := h
  have he : 0 ≤ e := by
    by_contra hc
    have h1 : (2:ℚ) ^ e ≤ 1 := zpow_le_one_of_nonpos₀ (by norm_num) (by omega)
    have h2 := two_zpow_pos e
    rw [abs_mul, abs_of_pos h2] at hv
    have : |(n:ℚ)| * 2 ^ e ≤ |(n:ℚ)| * 1 := mul_le_mul_of_nonneg_left h1 (abs_nonneg _)
    have h3 : |(n:ℚ)| < 2 ^ p := by exact_mod_cast hn
    linarith
  refine ⟨n * 2 ^ e.toNat, ?_⟩
  push_cast
  rw [← zpow_natCast, Int.toNat_of_nonneg he]

theorem rat_ceil (v : ℚ) : v.ceil = ⌈v⌉ := by
  exact le_antisymm (Rat.ceil_le_iff.mpr (Int.le_ceil v)) (Int.ceil_le.mpr Rat.le_ceil)

theorem ofExact_neg (s : Bool) (q : ℚ) : (ofExact (!s) (-q) : Flt f) = (ofExact s q).neg := by
  unfold ofExact
  by_cases hq : q = 0
  · simp [hq, Flt.neg]
  · rw [if_neg (neg_ne_zero.mpr hq), if_neg hq]
    simp only [abs_neg]
    have e : decide (-q < 0) = !decide (q < 0) := by
      rcases lt_or_gt_of_ne hq with h | h
      · simp [h, h.le]
      · simp [h, h.le]
    rw [e]
    split_ifs <;> rfl

theorem is_floor (hf : f.Ok) (z : Bool) {v : ℚ} (h : Rep f.p f.emin v) (hm : |v| < 2 ^ f.emax) (n : ℤ)
    (h1 : |(n:ℚ) - v| < 1) : Is (ofExact z n : Flt f) n := by
  rcases le_or_gt ((2:ℚ) ^ f.p) |v| with hb | hb
  · obtain ⟨k, rfl⟩ := rep_whole h hb
    have : n = k := by
      have : |n - k| < 1 := by exact_mod_cast h1
      have := Int.abs_lt_one_iff.mp this
      omega
    subst this
    exact is_exact hf z h hm
  · refine is_int hf z ?_
    have h2 : |(n:ℚ)| < 2 ^ f.p + 1 := by
      have := abs_sub_abs_le_abs_sub (n:ℚ) v
      linarith
    have h3 : |n| < 2 ^ f.p + 1 := by exact_mod_cast h2
    omega

/-- C96: `mixed_floor` of a finite float is the largest whole number not above it, exactly, and it is a finite float. -/
theorem C96_floor (hf : f.Ok) (x : Flt f) (hx : x.Valid) (hfin : x.IsFinite) :
    ∃ r : Flt f, ∃ n : ℤ, Returns x.mixedFloor r ∧ r.Valid ∧ r.IsFinite ∧ r.val = n ∧ r.val ≤ x.val ∧ x.val < r.val + 1 := by
  obtain ⟨s, m, rfl⟩ := hfin
  have h := is_of_valid hx
  set v := (Flt.fin s m : Flt f).val with hv
  have e : v.floor = ⌊v⌋ := rfl
  have hl := Int.floor_le v; have hu := Int.lt_floor_add_one v
  have hr := is_floor hf s h.rep h.lt_max ⌊v⌋ (by rw [abs_lt]; constructor <;> linarith)
  refine ⟨_, ⌊v⌋, .of_eq rfl, ?_⟩
  dsimp only
  rw [← hv, e]
  refine ⟨hr.valid, hr.fin, hr.val, ?_, ?_⟩ <;> rw [hr.val] <;> assumption

example := C96_floor ok_F32 (.fin true (7 / 2)) (by is_float 7 (-1)) ⟨_, _, rfl⟩

/-- C96: `mixed_ceil` of a finite float is the smallest whole number not below it, exactly, and it is a finite float. -/
theorem C96_ceil (hf : f.Ok) (x : Flt f) (hx : x.Valid) (hfin : x.IsFinite) :
    ∃ r : Flt f, ∃ n : ℤ, Returns x.mixedCeil r ∧ r.Valid ∧ r.IsFinite ∧ r.val = n ∧ x.val ≤ r.val ∧ r.val < x.val + 1 := by
  obtain ⟨s, m, rfl⟩ := hfin
  have h := is_of_valid hx
  set v := (Flt.fin s m : Flt f).val with hv
  have e : v.ceil = ⌈v⌉ := rat_ceil v
  have hl := Int.le_ceil v; have hu := Int.ceil_lt_add_one v
  have hr := is_floor hf s h.rep h.lt_max ⌈v⌉ (by rw [abs_lt]; constructor <;> linarith)
  refine ⟨_, ⌈v⌉, .of_eq rfl, ?_⟩
  dsimp only
  rw [← hv, e]
  refine ⟨hr.valid, hr.fin, hr.val, ?_, ?_⟩ <;> rw [hr.val] <;> assumption

example : (Flt.fin true (5 / 2) : Flt F32).Valid ∧ (Flt.fin true (5 / 2) : Flt F32).IsFinite :=
  ⟨⟨5, -1, by decide, by decide, by norm_num [pow2], by norm_num [F32]⟩, _, _, rfl⟩

/-- C96: the two are mirror images, bit for bit, on every float. -/
theorem C96_mirror (x : Flt f) :
    ∃ r : Flt f, Returns x.mixedFloor r ∧ Returns x.neg.mixedCeil r.neg := by
  refine ⟨_, .of_eq rfl, .of_eq ?_⟩
  cases x with
  | nan => rfl
  | inf s => rfl
  | fin s m =>
    show (pure (ofExact (!s) ((Flt.fin (!s) m : Flt f).val.ceil : ℚ)) : Prog (Flt f)) =
      pure (ofExact s ((Flt.fin s m : Flt f).val.floor : ℚ)).neg
    congr 1
    have e : (Flt.fin (!s) m : Flt f).val = -(Flt.fin s m : Flt f).val := by cases s <;> simp [Flt.val]
    rw [e, rat_ceil, Int.ceil_neg, show (Flt.fin s m : Flt f).val.floor = ⌊(Flt.fin s m : Flt f).val⌋ from rfl]
    push_cast
    exact ofExact_neg s _

/-- C96: NaN, the infinities and whole numbers (the zeros with their signs included) are left alone, bit for bit. -/
theorem C96_fixed_points (hf : f.Ok) (x : Flt f) (hx : x.Valid) (h : x.IsFinite → ∃ n : ℤ, x.val = n) :
    Returns x.mixedFloor x ∧ Returns x.mixedCeil x := by
  cases x with
  | nan => exact ⟨.of_eq rfl, .of_eq rfl⟩
  | inf s => exact ⟨.of_eq rfl, .of_eq rfl⟩
  | fin s m =>
    obtain ⟨n, hn⟩ := h ⟨s, m, rfl⟩
    have key : (ofExact s (n:ℚ) : Flt f) = .fin s m := by
      have hi := is_of_valid hx
      by_cases h0 : n = 0
      · subst h0
        have : m = 0 := by cases s <;> simpa [Flt.val] using hn
        subst this; simp [ofExact]
      · rw [hn] at hi
        exact (is_exact hf s hi.rep hi.lt_max).unique hi (by exact_mod_cast h0)
    constructor <;> refine .of_eq ?_
    · show (pure (ofExact s (((Flt.fin s m : Flt f).val.floor : ℤ) : ℚ)) : Prog (Flt f)) = _
      rw [show (Flt.fin s m : Flt f).val.floor = ⌊(Flt.fin s m : Flt f).val⌋ from rfl, hn, Int.floor_intCast, key]
    · show (pure (ofExact s (((Flt.fin s m : Flt f).val.ceil : ℤ) : ℚ)) : Prog (Flt f)) = _
      rw [rat_ceil, hn, Int.ceil_intCast, key]

example := C96_fixed_points ok_F32 (.fin true 7) (by is_float 7 0) fun _ => ⟨-7, by norm_num [Flt.val]⟩

end MixedNum
