"""Generate lean/Verif/Lemmas/SqrtTable.lean: the acceleration table of the square root on fixed point."""
import os
from fractions import Fraction as Fr
vals = "961914 840332 782715 734869 691406 654297 622070 595215 573731 556152 516113 502930".split()
o = []
w = o.append
w("""import Verif.Lemmas.SqrtReal
import Verif.Lemmas.FixedReal
/-! The acceleration table of the NIIRF square root on fixed point. Generated by tools/gen_sqrt_fixed.py. -/

namespace MixedNum
namespace Fixed
variable {m : Mode} {s : Bool} {W F : ℕ}

/-- Stored integer of a literal. -/
def lit (F : ℕ) (q : ℚ) : ℤ := roundHalfEven (q * 2 ^ F)

theorem lit_bounds (F : ℕ) {q : ℚ} (h0 : 0 ≤ q) (h1 : q ≤ 1) : 0 ≤ lit F q ∧ lit F q ≤ 2 ^ F := by
  have hp : (0:ℚ) < 2 ^ F := by positivity
  constructor
  · exact le_roundHalfEven_of_le (by push_cast; positivity)
  · refine roundHalfEven_le_of_le ?_
    push_cast
    exact mul_le_of_le_one_left hp.le h1

theorem lit_eq (h : Fits s W (2 ^ F)) {q : ℚ} (h0 : 0 ≤ q) (h1 : q ≤ 1) :
    ∃ c : Fixed m s W F, Lit.ofF64 q = pure c ∧ c.val = lit F q := by
  obtain ⟨l, g⟩ := lit_bounds F h0 h1
  have hf := (fits_zero s W).between h l g
  exact ⟨mkv _ hf, fit_of_fits hf, rfl⟩

theorem f64_unit {q : ℚ} (h : |f64Round q - q| ≤ 1 / 10 ^ 15) (h0 : 1 / 100 ≤ q) (h1 : q ≤ 99 / 100) :
    0 ≤ f64Round q ∧ f64Round q ≤ 1 := by
  have := abs_le.mp h
  constructor <;> norm_num at this <;> linarith

/-- Stored integer of the table entry for the stored normalised argument `t`. -/
def bRaw (F : ℕ) (t : ℤ) : ℤ :=""")
for i, v in enumerate(vals):
    if i < 11: w(f"  {'else ' if i else ''}if t < lit F ({i+5} / 16) then lit F (f64Round 0.{v})")
    else: w(f"  else lit F (f64Round 0.{v})")
w("""
theorem beta_fixed (h : Fits s W (2 ^ F)) (x : Fixed m s W F) : ∃ c, beta x = pure c ∧ c.val = bRaw F x.val := by""")
for i, v in enumerate(vals):
    w(f"  obtain ⟨b{i}, e{i}, v{i}⟩ := lit_eq (m := m) h (q := f64Round 0.{v}) (f64_unit (Niirf.f64_close _ (by simp)) (by norm_num) (by norm_num)).1")
    w(f"    (f64_unit (Niirf.f64_close _ (by simp)) (by norm_num) (by norm_num)).2")
for i in range(11):
    w(f"  obtain ⟨t{i}, f{i}, w{i}⟩ := lit_eq (m := m) h (q := {i+5} / 16) (by norm_num) (by norm_num)")
w("  unfold beta bRaw")
w("  simp only ["+", ".join(f"e{i}" for i in range(12))+", "+", ".join(f"f{i}" for i in range(11))+", pure_bind, lt_def]")
for i in range(11):
    w(f"  by_cases g{i} : x.val < lit F ({i+5} / 16)")
    w(f"  · rw [if_pos (by rw [w{i}]; exact decide_eq_true g{i}), if_pos g{i}]; exact ⟨b{i}, rfl, v{i}⟩")
    w(f"  rw [if_neg (by rw [w{i}, decide_eq_false g{i}]; exact Bool.false_ne_true), if_neg g{i}]")
w("  exact ⟨b11, rfl, v11⟩")
w("""
theorem lit_close (F : ℕ) (q : ℚ) : |(lit F q : ℝ) * u F - (q : ℝ)| ≤ u F / 2 := by
  have h := abs_roundHalfEven_sub (q * 2 ^ F)
  have h' : |(lit F q : ℝ) - (q : ℝ) * 2 ^ F| ≤ 1 / 2 := by
    have := (Rat.cast_le (K := ℝ)).mpr h
    push_cast at this; exact this
  have hu := u_pos F
  have e : (lit F q : ℝ) * u F - (q : ℝ) = ((lit F q : ℝ) - (q : ℝ) * 2 ^ F) * u F := by
    rw [sub_mul, mul_assoc, pow_mul_u, mul_one]
  rw [e, abs_mul, abs_of_pos hu]
  calc _ ≤ 1 / 2 * u F := mul_le_mul_of_nonneg_right h' hu.le
    _ = _ := by ring

theorem lit_f64_close (F : ℕ) {q : ℚ} {c : ℝ} (h : |f64Round q - q| ≤ 1 / 10 ^ 15) (hc : (q : ℝ) = c) :
    |(lit F (f64Round q) : ℝ) * u F - c| ≤ u F / 2 + 1 / 10 ^ 15 := by
  have h1 := lit_close F (f64Round q)
  have h2 := Niirf.real_close h
  rw [← hc]
  calc _ = |((lit F (f64Round q) : ℝ) * u F - (f64Round q : ℚ)) + (((f64Round q : ℚ) : ℝ) - (q : ℝ))| := by
        congr 1; ring
    _ ≤ _ := (abs_add_le _ _).trans (add_le_add h1 h2)

theorem lit_sixteenth (hF : 4 ≤ F) (i : ℕ) : lit F (i / 16) = i * 2 ^ (F - 4) := by
  obtain ⟨G, rfl⟩ : ∃ G, F = G + 4 := ⟨F - 4, by omega⟩
  unfold lit
  rw [show ((i:ℚ) / 16 * 2 ^ (G + 4)) = ((i * 2 ^ G : ℤ) : ℚ) by push_cast; rw [pow_add]; ring,
    roundHalfEven_intCast]; simp

theorem lt_sixteenth (hF : 4 ≤ F) (i : ℕ) {t : ℤ} {r : ℝ} (hr : r ^ 2 = t * u F) :
    t < lit F (i / 16) ↔ r ^ 2 < i / 16 := by
  rw [lit_sixteenth hF, hr]
  obtain ⟨G, rfl⟩ : ∃ G, F = G + 4 := ⟨F - 4, by omega⟩
  have hp : (0:ℝ) < 2 ^ G := by positivity
  have e : (t:ℝ) * u (G + 4) = t / 2 ^ G / 16 := by unfold u; rw [pow_add]; field_simp; norm_num
  rw [e, div_lt_div_iff_of_pos_right (by norm_num), div_lt_iff₀ hp, Nat.add_sub_cancel]
  exact_mod_cast Iff.rfl

/-- With at least four fraction bits the right table entry is chosen. -/
theorem bRaw_close (hF : 4 ≤ F) {t : ℤ} {r : ℝ} (hr : r ^ 2 = t * u F) (h1 : 1 / 4 ≤ r ^ 2) (h2 : r ^ 2 < 1) :
    ∃ b, Niirf.Region r b ∧ |(bRaw F t : ℝ) * u F - b| ≤ u F / 2 + 1 / 10 ^ 15 := by
  have h1' : 4 / 16 ≤ r ^ 2 := le_trans (by norm_num) h1
  have h2' : r ^ 2 < 16 / 16 := lt_of_lt_of_le h2 (by norm_num)
  have key := fun i : ℕ => lt_sixteenth hF i hr""")
for i in range(11):
    w(f"  have k{i} : t < lit F ({i+5} / 16) ↔ r ^ 2 < {i+5} / 16 := by have := key {i+5}; push_cast at this; exact this")
w("  clear key")
for i, v in enumerate(vals):
    w(f"  have d{i} := lit_f64_close F (c := 0.{v}) (Niirf.f64_close 0.{v} (by simp)) (by norm_num)")
w("  unfold bRaw Niirf.Region")
for i, v in enumerate(vals):
    t = f"⟨(k{i}).mp g{i}, " if i < 11 else "⟨h2', "
    t += ("h1'" if i == 0 else f"not_lt.mp (mt (k{i-1}).mpr g{i-1})") + ", rfl⟩"
    if i < 11: t = ".inl " + t
    for _ in range(i): t = f".inr ({t})" if t[0] == '.' else f".inr {t}"
    if i < 11:
        w(f"  by_cases g{i} : t < lit F ({i+5} / 16)")
        w(f"  · rw [if_pos g{i}]; exact ⟨_, {t}, d{i}⟩")
        w(f"  rw [if_neg g{i}]")
    else:
        w(f"  exact ⟨_, {t}, d{i}⟩")
def rhe(q):
    f = q.numerator // q.denominator
    d = q - f
    return f + (1 if d > Fr(1,2) or (d == Fr(1,2) and f % 2) else 0)
def braw(F, t):
    for i in range(11):
        if t < rhe(Fr(i+5,16)*2**F): return rhe(Fr(int(vals[i]),10**6)*2**F)
    return rhe(Fr(int(vals[11]),10**6)*2**F)
w("""
/-- With two or three fraction bits the thresholds are rounded, and a neighbouring entry may be chosen. -/
theorem bRaw_rough (hF2 : 2 ≤ F) (hF4 : F < 4) {t : ℤ} {r : ℝ} (hr : r ^ 2 = t * u F) (h1 : 2 ^ F ≤ 4 * t)
    (h2 : t < 2 ^ F) : ∃ b, Niirf.Region r b ∧ |(bRaw F t : ℝ) * u F - b| ≤ 3 / 2 * u F := by
  unfold Niirf.Region
  obtain rfl | rfl : F = 2 ∨ F = 3 := by omega""")
for F in (2, 3):
    lo, hi = 2**F//4, 2**F
    ts = list(range(lo, hi))
    w("  · norm_num at h1 h2")
    w("    obtain " + " | ".join("rfl" for _ in ts) + " : " + " ∨ ".join(f"t = {t}" for t in ts) + " := by omega")
    for t in ts:
        i = (16*t)//2**F - 4
        b = braw(F, t)
        tm = "⟨by rw [hr]; unfold u; norm_num, by rw [hr]; unfold u; norm_num, rfl⟩"
        if i < 11: tm = ".inl " + tm
        for _ in range(i): tm = f".inr ({tm})" if tm[0] == '.' else f".inr {tm}"
        w(f"    · refine ⟨0.{vals[i]}, {tm}, ?_⟩")
        w(f"      rw [show bRaw {F} {t} = {b} by decide +kernel]; unfold u; rw [abs_le]; norm_num")
        assert abs(Fr(b,2**F) - Fr(int(vals[i]),10**6)) <= Fr(3,2)/2**F
w("""
end Fixed
end MixedNum""")
root = os.path.dirname(os.path.dirname(os.path.abspath(__file__)))
open(os.path.join(root, "lean/Verif/Lemmas/SqrtTable.lean"), "w").write("\n".join(o) + "\n")
