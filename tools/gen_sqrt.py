#!/usr/bin/env python3
"""Write lean/Verif/Lemmas/SqrtCore.lean: bounds on one pass of the NIIRF iteration, one lemma per region of the table."""
from fractions import Fraction as Fr
import math, os
B = ["0.961914","0.840332","0.782715","0.734869","0.691406","0.654297","0.622070","0.595215","0.573731","0.556152","0.516113","0.502930"]
def enc(lo, hi, D=100000):
    l = Fr(math.isqrt(int(lo*D*D)), D)
    h = Fr(1) if hi == 1 else Fr(math.isqrt(int(hi*D*D))+1, D)
    return l, h
def dec(q):
    assert 100000 % q.denominator == 0
    return f"{q.numerator*(100000//q.denominator)} / 100000"
out = ['''import Mathlib.Data.Real.Basic
import Mathlib.Analysis.Real.Sqrt
import Mathlib.Tactic.Linarith
import Mathlib.Tactic.Positivity
import Mathlib.Tactic.NormNum
/-! One pass of the NIIRF iteration on the normalised range, with decimal constants, as a function of the root `r`.
Generated by tools/gen_sqrt.py. -/

namespace MixedNum
namespace Niirf

/-- The start value. -/
noncomputable def y0 (r : ℝ) : ℝ := 2 / 3 * r ^ 2 + 354167 / 1000000
/-- The error after a pass with factor `b`, from the error `e`. -/
noncomputable def pass (b r e : ℝ) : ℝ := e * (1 - b * (2 * r + e))

/-- `r` is the root of a number in the region of the table where the factor is `b`. -/
def Region (r b : ℝ) : Prop :=
''']
regs = []
for i, b in enumerate(B):
    l, h = enc(Fr(i+4, 16), Fr(i+5, 16))
    regs.append(f"(r ^ 2 {'<' if True else ''} {i+5} / 16 ∧ {i+4} / 16 ≤ r ^ 2 ∧ b = {b})")
out.append("  " + " ∨\n  ".join(regs) + "\n\n")
for i, b in enumerate(B):
    l, h = enc(Fr(i+4, 16), Fr(i+5, 16))
    out.append(f'''theorem region{i} {{r : ℝ}} (h1 : {dec(l)} ≤ r) (h2 : r ≤ {dec(h)}) :
    |pass {b} r (y0 r - r)| ≤ 995 / 1000000 * r ∧ |pass {b} r (y0 r - r)| ≤ 71 / 100000 ∧
    ∀ e, |e| ≤ 21 / 1000 → |1 - {b} * (2 * r + e)| ≤ 97 / 1000 := by
  have a : 0 ≤ r - {dec(l)} := by linarith
  have b : 0 ≤ {dec(h)} - r := by linarith
  have p0 := pow_nonneg b 4
  have p1 := mul_nonneg a (pow_nonneg b 3)
  have p2 := mul_nonneg (pow_nonneg a 2) (pow_nonneg b 2)
  have p3 := mul_nonneg (pow_nonneg a 3) b
  have p4 := pow_nonneg a 4
  refine ⟨?_, ?_, fun e he => ?_⟩
  · unfold pass y0; rw [abs_le]; constructor <;> norm_num <;> linarith
  · unfold pass y0; rw [abs_le]; constructor <;> norm_num <;> linarith
  · have := abs_le.mp he
    rw [abs_le]; constructor <;> norm_num <;> linarith

''')
out.append('''/-- All regions together. -/
theorem region_all {r b : ℝ} (hr : 0 ≤ r) (h : Region r b) :
    (|pass b r (y0 r - r)| ≤ 995 / 1000000 * r ∧ |pass b r (y0 r - r)| ≤ 71 / 100000 ∧
    ∀ e, |e| ≤ 21 / 1000 → |1 - b * (2 * r + e)| ≤ 97 / 1000) ∧ 1 / 2 ≤ b ∧ b ≤ 97 / 100 := by
  have lo : ∀ c : ℝ, 0 ≤ c → c ^ 2 ≤ r ^ 2 → c ≤ r := fun c _ h => le_of_sq_le_sq h hr
  have hi : ∀ c : ℝ, 0 ≤ c → r ^ 2 ≤ c ^ 2 → r ≤ c := fun c hc h => le_of_sq_le_sq h hc
  rcases h with ''' + " | ".join(["⟨h2, h1, rfl⟩"]*12) + "\n")
for i, b in enumerate(B):
    out.append(f"  · exact ⟨region{i} (lo _ (by norm_num) (by linarith)) (hi _ (by norm_num) (by linarith)), by norm_num, by norm_num⟩\n")
out.append('''
end Niirf
end MixedNum
''')
s = "".join(out).replace("le_of_sq_le_sq h hr", "(sq_le_sq₀ ‹0 ≤ c› hr).mp h").replace("le_of_sq_le_sq h hc", "(sq_le_sq₀ hr hc).mp h")
open(os.path.join(os.path.dirname(os.path.dirname(os.path.abspath(__file__))), "lean/Verif/Lemmas/SqrtCore.lean"), "w").write(s)
