import Verif.Props.FixedComplex
import Verif.Lemmas.Run
import Verif.Props.AddSub
/-! # C125: associativity and distributivity on fixed point -/

namespace MixedNum
variable {s : Bool} {W F : ℕ}
open Fixed

/-- C125 is false: with one fraction bit, `1/2 (1/2 + 1/2)` is not `1/2 · 1/2 + 1/2 · 1/2`, and `(1/2 · 1/2) · 4` is not `1/2 · (1/2 · 4)`. -/
theorem C125_counterexample :
    let h : Cartesian (Fixed .checked true 8 1) := ⟨fx .checked true 8 1 1, fx .checked true 8 1 0⟩
    let q : Cartesian (Fixed .checked true 8 1) := ⟨fx .checked true 8 1 8, fx .checked true 8 1 0⟩
    let zero : Cartesian (Fixed .checked true 8 1) := ⟨fx .checked true 8 1 0, fx .checked true 8 1 0⟩
    let one : Cartesian (Fixed .checked true 8 1) := ⟨fx .checked true 8 1 2, fx .checked true 8 1 0⟩
    Returns (do h.mul (← h.add h)) h ∧ Returns (do (← h.mul h).add (← h.mul h)) zero ∧
    Returns (do (← h.mul h).mul q) zero ∧ Returns (do h.mul (← h.mul q)) one :=
  ⟨.of_eq rfl, .of_eq rfl, .of_eq rfl, .of_eq rfl⟩

theorem add_exact {a b c : Cartesian (Fixed .checked s W F)} (h : Returns (a.add b) c) :
    c.re.val = a.re.val + b.re.val ∧ c.im.val = a.im.val + b.im.val := by
  simp only [Cartesian.add, add_def] at h
  have k1 : Fits s W (a.re.val + b.re.val) := by
    by_contra hn; rw [fit_checked hn] at h; exact absurd h (by simp)
  rw [fit_of_fits k1, pure_bind] at h
  have k2 : Fits s W (a.im.val + b.im.val) := by
    by_contra hn; rw [fit_checked hn] at h; exact absurd h (by simp)
  rw [fit_of_fits k2, pure_bind] at h
  obtain rfl := returns_pure.mp h
  exact ⟨rfl, rfl⟩

theorem floor_add (x y : ℤ) : x / 2 ^ F + y / 2 ^ F ≤ (x + y) / 2 ^ F ∧ (x + y) / 2 ^ F ≤ x / 2 ^ F + y / 2 ^ F + 1 := by
  have hp : (0:ℤ) < 2 ^ F := by positivity
  generalize (2:ℤ) ^ F = P at *
  have a1 := Int.ediv_mul_le x hp.ne'
  have a2 := Int.lt_ediv_add_one_mul_self x hp
  have b1 := Int.ediv_mul_le y hp.ne'
  have b2 := Int.lt_ediv_add_one_mul_self y hp
  constructor
  · rw [Int.le_ediv_iff_mul_le hp]; linarith
  · rw [← Int.lt_add_one_iff, Int.ediv_lt_iff_lt_mul hp]; linarith

/-- **C125**, what holds of distributivity: the real parts of `z (w + v)` and `z w + z v` differ by at most one unit in the last place, the
imaginary part of the first is zero, one or two units above that of the second. Missing compared to C125: equality. -/
theorem C125_distrib_partial (z w v a c p q d : Cartesian (Fixed .checked s W F)) (ha : Returns (w.add v) a) (hc : Returns (z.mul a) c)
    (hp : Returns (z.mul w) p) (hq : Returns (z.mul v) q) (hd : Returns (p.add q) d) :
    |c.re.val - d.re.val| ≤ 1 ∧ d.im.val ≤ c.im.val ∧ c.im.val ≤ d.im.val + 2 := by
  obtain ⟨a1, a2⟩ := add_exact ha
  obtain ⟨d1, d2⟩ := add_exact hd
  obtain ⟨c1, c2⟩ := C73_checked_exact _ _ _ hc
  obtain ⟨p1, p2⟩ := C73_checked_exact _ _ _ hp
  obtain ⟨q1, q2⟩ := C73_checked_exact _ _ _ hq
  have e1 := floor_add (F := F) (z.re.val * w.re.val) (z.re.val * v.re.val)
  have e2 := floor_add (F := F) (z.im.val * w.im.val) (z.im.val * v.im.val)
  have e3 := floor_add (F := F) (z.re.val * w.im.val) (z.re.val * v.im.val)
  have e4 := floor_add (F := F) (z.im.val * w.re.val) (z.im.val * v.re.val)
  rw [c1, c2, d1, d2, p1, p2, q1, q2, a1, a2, mul_add, mul_add, mul_add, mul_add, abs_le]
  omega

example := C125_distrib_partial ⟨fx .checked true 16 4 17, fx .checked true 16 4 23⟩ ⟨fx .checked true 16 4 30, fx .checked true 16 4 50⟩
  ⟨fx .checked true 16 4 20, fx .checked true 16 4 (-30)⟩ ⟨fx .checked true 16 4 50, fx .checked true 16 4 20⟩ ⟨fx .checked true 16 4 25, fx .checked true 16 4 92⟩
  ⟨fx .checked true 16 4 (-40), fx .checked true 16 4 96⟩ ⟨fx .checked true 16 4 65, fx .checked true 16 4 (-4)⟩ ⟨fx .checked true 16 4 25, fx .checked true 16 4 92⟩
  (by run 0) (by run 0) (by run 0) (by run 0) (by run 0)

/-- **C125**, what holds of associativity: the parts of `(z w) v` and `z (w v)` differ by less than
`|v.re| + 2 |v.im| + |z.re| + 2 |z.im| + 2` (real part) or `2 |v.re| + |v.im| + 2 |z.re| + |z.im| + 2` (imaginary part) units in the last
place. Missing compared to C125: equality. -/
theorem C125_assoc_partial (z w v p c q d : Cartesian (Fixed .checked s W F)) (hp : Returns (z.mul w) p) (hc : Returns (p.mul v) c)
    (hq : Returns (w.mul v) q) (hd : Returns (z.mul q) d) :
    |c.re.r - d.re.r| < (|v.re.r| + 2 * |v.im.r| + |z.re.r| + 2 * |z.im.r| + 2) / 2 ^ F ∧
    |c.im.r - d.im.r| < (2 * |v.re.r| + |v.im.r| + 2 * |z.re.r| + |z.im.r| + 2) / 2 ^ F := by
  have hP : (0:ℝ) < 1 / 2 ^ F := by positivity
  obtain ⟨p1, p2, p3⟩ := C73_accuracy _ _ _ hp
  obtain ⟨c1, c2, c3⟩ := C73_accuracy _ _ _ hc
  obtain ⟨q1, q2, q3⟩ := C73_accuracy _ _ _ hq
  obtain ⟨d1, d2, d3⟩ := C73_accuracy _ _ _ hd
  rw [div_eq_mul_one_div (2:ℝ)] at p3 c3 q3 d3
  rw [div_eq_mul_one_div (_ + _ : ℝ), div_eq_mul_one_div (_ + _ : ℝ)]
  generalize (1:ℝ) / 2 ^ F = u at *
  obtain ⟨zr, hzr⟩ : ∃ x, x = z.re.r := ⟨_, rfl⟩
  obtain ⟨zi, hzi⟩ : ∃ x, x = z.im.r := ⟨_, rfl⟩
  obtain ⟨vr, hvr⟩ : ∃ x, x = v.re.r := ⟨_, rfl⟩
  obtain ⟨vi, hvi⟩ : ∃ x, x = v.im.r := ⟨_, rfl⟩
  rw [← hzr, ← hzi] at p1 p2 p3 d1 d2 d3 ⊢
  rw [← hvr, ← hvi] at c1 c2 c3 q1 q2 q3 ⊢
  obtain ⟨e1, he1⟩ : ∃ x, x = p.re.r - (zr * w.re.r - zi * w.im.r) := ⟨_, rfl⟩
  obtain ⟨e2, he2⟩ : ∃ x, x = p.im.r - (zr * w.im.r + zi * w.re.r) := ⟨_, rfl⟩
  obtain ⟨g1, hg1⟩ : ∃ x, x = q.re.r - (w.re.r * vr - w.im.r * vi) := ⟨_, rfl⟩
  obtain ⟨g2, hg2⟩ : ∃ x, x = q.im.r - (w.re.r * vi + w.im.r * vr) := ⟨_, rfl⟩
  rw [← he1] at p1; rw [← hg1] at q1
  have b2 : |e2| ≤ 2 * u := by rw [abs_le]; constructor <;> linarith
  have b4 : |g2| ≤ 2 * u := by rw [abs_le]; constructor <;> linarith
  have m1 : ∀ x e k : ℝ, |e| ≤ k * u → |e * x| ≤ |x| * (k * u) := fun x e k h => by
    rw [abs_mul, mul_comm]; exact mul_le_mul_of_nonneg_left h (abs_nonneg x)
  have p1 : |e1| ≤ 1 * u := by rw [one_mul]; exact p1.le
  have q1 : |g1| ≤ 1 * u := by rw [one_mul]; exact q1.le
  have n1 := abs_le.mp (m1 vr e1 1 p1)
  have n2 := abs_le.mp (m1 vi e2 2 b2)
  have n3 := abs_le.mp (m1 zr g1 1 q1)
  have n4 := abs_le.mp (m1 zi g2 2 b4)
  have n5 := abs_le.mp (m1 vi e1 1 p1)
  have n6 := abs_le.mp (m1 vr e2 2 b2)
  have n7 := abs_le.mp (m1 zi g1 1 q1)
  have n8 := abs_le.mp (m1 zr g2 2 b4)
  have s1 : p.re.r * vr - p.im.r * vi - (zr * q.re.r - zi * q.im.r) = e1 * vr - e2 * vi - g1 * zr + g2 * zi := by
    rw [he1, he2, hg1, hg2]; ring
  have s2 : p.re.r * vi + p.im.r * vr - (zr * q.im.r + zi * q.re.r) = e1 * vi + e2 * vr - g2 * zr - g1 * zi := by
    rw [he1, he2, hg1, hg2]; ring
  obtain ⟨c1, c1'⟩ := abs_lt.mp c1
  obtain ⟨d1, d1'⟩ := abs_lt.mp d1
  constructor
  · rw [abs_lt]; constructor <;> linarith
  · rw [abs_lt]; constructor <;> linarith

-- the hypotheses are met in I5F3: z = 1.5 + 0.5 i, w = 0.875 - 0.375 i, v = -1.25 + 2.125 i
example : ∃ a c p q d q' e g : Cartesian (Fixed .checked true 8 3),
    let z : Cartesian (Fixed .checked true 8 3) := ⟨fx .checked true 8 3 12, fx .checked true 8 3 4⟩
    let w : Cartesian (Fixed .checked true 8 3) := ⟨fx .checked true 8 3 7, fx .checked true 8 3 (-3)⟩
    let v : Cartesian (Fixed .checked true 8 3) := ⟨fx .checked true 8 3 (-10), fx .checked true 8 3 17⟩
    Returns (w.add v) a ∧ Returns (z.mul a) c ∧ Returns (z.mul w) p ∧ Returns (z.mul v) q ∧ Returns (p.add q) d ∧
    Returns (p.mul v) e ∧ Returns (w.mul v) q' ∧ Returns (z.mul q') g :=
  ⟨_, _, _, _, _, _, _, _, .of_eq rfl, .of_eq rfl, .of_eq rfl, .of_eq rfl, .of_eq rfl, .of_eq rfl, .of_eq rfl, .of_eq rfl⟩

end MixedNum
