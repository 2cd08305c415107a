import Verif.Spec.Fourier
import Verif.Props.Spectrum
import Verif.Props.Div
import Verif.Props.Mul
import Verif.Props.Accumulate
/-! # C177: the Fourier transform written with the crate's operators, there and back, on exact reals -/

namespace MixedNum
open Finset

/-- The sum of the `n` phasors of `h` turns in `n` samples. -/
theorem sum_turns (n : ℕ) (hn : 0 < n) (h : ℤ) :
    ∑ k ∈ range n, Complex.exp (2 * Real.pi * Complex.I * (h * k / n)) = if (n : ℤ) ∣ h then (n : ℂ) else 0 := by
  have n0 : (n : ℂ) ≠ 0 := by exact_mod_cast hn.ne'
  set q : ℂ := Complex.exp (2 * Real.pi * Complex.I * (h / n)) with hq
  have es : ∀ k ∈ range n, Complex.exp (2 * Real.pi * Complex.I * (h * k / n)) = q ^ k := by
    intro k _
    rw [hq, ← Complex.exp_nat_mul]; congr 1; ring
  rw [sum_congr rfl es]
  have qn : q ^ n = 1 := by
    rw [hq, ← Complex.exp_nat_mul, Complex.exp_eq_one_iff]
    exact ⟨h, by field_simp⟩
  split_ifs with hd
  · obtain ⟨d, hd⟩ := hd
    have : q = 1 := by
      rw [hq, hd, Complex.exp_eq_one_iff]
      exact ⟨d, by push_cast; field_simp⟩
    simp [this]
  · have hne : q ≠ 1 := by
      rw [hq]; intro h1
      obtain ⟨d, hd'⟩ := Complex.exp_eq_one_iff.mp h1
      refine hd ⟨d, ?_⟩
      rw [mul_comm (d : ℂ)] at hd'
      have h2 := mul_left_cancel₀ Complex.two_pi_I_ne_zero hd'
      rw [div_eq_iff n0] at h2
      have : (h : ℂ) = ((d * n : ℤ) : ℂ) := by rw [h2]; push_cast; ring
      rw [Int.cast_injective this, mul_comm]
    rw [geom_sum_eq hne, qn, sub_self, zero_div]

/-- Running a call for every entry of a list. -/
theorem mapM_returns {α β : Type} {p : α → Prog β} {g : α → β} (l : List α) (h : ∀ a ∈ l, Returns (p a) (g a)) :
    Returns (l.mapM p) (l.map g) := by
  induction l with
  | nil => exact .of_eq (by simp)
  | cons a l ih =>
    rw [List.mapM_cons, List.map_cons]
    exact (h a (by simp)).bind ((ih fun b hb => h b (by simp [hb])).bind (.of_eq rfl))

theorem toC_inj {a b : Cartesian ℝ} (h : a.toC = b.toC) : a = b := by
  obtain ⟨_, _⟩ := a; obtain ⟨_, _⟩ := b
  simpa [Cartesian.toC, Complex.ext_iff] using h

theorem sum_zipIdx {M : Type} [AddCommMonoid M] (xs : List (Cartesian ℝ)) (g : ℂ → ℕ → M) :
    (xs.zipIdx.map fun p => g p.1.toC p.2).sum = ∑ k ∈ range xs.length, g (entry xs k) k := by
  have e : xs.zipIdx.map (fun p => g p.1.toC p.2) = (List.range xs.length).map fun k => g (entry xs k) k := by
    refine List.ext_getElem (by simp) fun k h1 h2 => ?_
    have hk : k < xs.length := by simpa using h2
    simp [entry, hk]
  rw [e, Finset.sum_eq_multiset_sum, Finset.range_val, ← Multiset.coe_range, Multiset.map_coe, Multiset.sum_coe]

/-- One output of the transform or its inverse. -/
theorem turned_sum (d : ℝ) (j : ℕ) (xs : List (Cartesian ℝ)) :
    ∃ c, Returns (spectrum ⟨0, 0⟩ (turned d j xs)) c ∧
      c.toC = ∑ k ∈ range xs.length, entry xs k * Complex.exp (2 * Real.pi * Complex.I * (d * j * k / xs.length)) := by
  obtain ⟨c, c1, c2⟩ := C173_real ⟨0, 0⟩ (turned d j xs)
  refine ⟨c, c1, c2.trans ?_⟩
  have e0 : (⟨0, 0⟩ : Cartesian ℝ).toC = 0 := rfl
  rw [e0, zero_add, turned, List.map_map, ← sum_zipIdx xs fun z k => z * Complex.exp (2 * Real.pi * Complex.I * (d * j * k / xs.length))]
  congr 1
  refine List.map_congr_left fun p _ => ?_
  simp only [Function.comp, phasor, Complex.ofReal_one, one_mul]
  congr 2; push_cast; ring

/-- C177: entry `j` of the transform is `Σ_k x_k e^(-2πijk/n)`. -/
theorem C177_bins (xs : List (Cartesian ℝ)) :
    ∃ ys, Returns (transform xs) ys ∧ ys.length = xs.length ∧
      ∀ j < xs.length, entry ys j = ∑ k ∈ range xs.length, entry xs k * Complex.exp (-(2 * Real.pi * Complex.I * (j * k / xs.length))) := by
  choose g g1 g2 using fun j => turned_sum (-1) j xs
  refine ⟨_, mapM_returns _ fun j _ => g1 j, by simp, fun j hj => ?_⟩
  have : entry ((List.range xs.length).map g) j = (g j).toC := by simp [entry, hj]
  rw [this, g2]
  refine sum_congr rfl fun k _ => ?_
  congr 2; push_cast; ring

/-- C177: the inverse transform undoes the transform. -/
theorem C177_there_and_back (xs : List (Cartesian ℝ)) : Returns (do inverse (← transform xs)) xs := by
  obtain ⟨ys, y1, y2, y3⟩ := C177_bins xs
  refine y1.bind ?_
  have key : ∀ k ∈ List.range ys.length,
      Returns (do (← spectrum ⟨0, 0⟩ (turned 1 k ys)).divScalar (ys.length : ℝ)) (xs.getD k ⟨0, 0⟩) := by
    intro k hk
    rw [List.mem_range] at hk
    have hn : 0 < ys.length := by omega
    obtain ⟨c, c1, c2⟩ := turned_sum 1 k ys
    obtain ⟨w, w1, w2⟩ := C11_real c (ys.length : ℝ) (by exact_mod_cast hn.ne')
    have n0 : (ys.length : ℂ) ≠ 0 := by exact_mod_cast hn.ne'
    have : w = xs.getD k ⟨0, 0⟩ := by
      apply toC_inj
      change w.toC = entry xs k
      rw [w2, c2, Complex.ofReal_natCast, div_eq_iff n0, y2]
      rw [sum_congr rfl fun j hj => by rw [y3 j (mem_range.mp hj), sum_mul]]
      rw [sum_comm]
      have e : ∀ l ∈ range xs.length, ∑ j ∈ range xs.length,
          entry xs l * Complex.exp (-(2 * Real.pi * Complex.I * (j * l / xs.length))) * Complex.exp (2 * Real.pi * Complex.I * ((1 : ℝ) * k * j / xs.length))
            = if l = k then entry xs k * xs.length else 0 := by
        intro l hl
        rw [mem_range] at hl
        have e1 : ∀ j ∈ range xs.length, entry xs l * Complex.exp (-(2 * Real.pi * Complex.I * (j * l / xs.length))) *
            Complex.exp (2 * Real.pi * Complex.I * ((1 : ℝ) * k * j / xs.length)) =
            entry xs l * Complex.exp (2 * Real.pi * Complex.I * (((k : ℤ) - l : ℤ) * j / xs.length)) := by
          intro j _
          rw [mul_assoc, ← Complex.exp_add]; congr 2; push_cast; ring
        rw [sum_congr rfl e1, ← mul_sum, sum_turns xs.length (by omega)]
        by_cases h : l = k
        · subst h; simp
        · rw [if_neg h, if_neg, mul_zero]
          intro hd
          have := Int.eq_zero_of_abs_lt_dvd hd (by rw [abs_lt]; omega)
          omega
      rw [sum_congr rfl e, sum_ite_eq', if_pos (mem_range.mpr (by omega))]
    exact this ▸ c1.bind w1
  have := mapM_returns (g := fun k => xs.getD k ⟨0, 0⟩) _ key
  rwa [show (List.range ys.length).map (fun k => xs.getD k ⟨0, 0⟩) = xs from
    List.ext_getElem (by simp [y2]) fun k h1 h2 => by simp [h2]] at this

/-- C177: the transform multiplies the energy by the number of samples. -/
theorem C177_energy (xs : List (Cartesian ℝ)) :
    ∃ ys, Returns (transform xs) ys ∧ energy ys = xs.length * energy xs := by
  obtain ⟨ys, y1, y2, y3⟩ := C177_bins xs
  refine ⟨ys, y1, ?_⟩
  have en : ∀ zs : List (Cartesian ℝ), energy zs = ∑ k ∈ range zs.length, ‖entry zs k‖ ^ 2 := by
    intro zs
    rw [← sum_zipIdx zs fun z _ => ‖z‖ ^ 2, energy]
    congr 1
    refine List.ext_getElem (by simp) fun k h1 h2 => by simp
  rw [en, en, y2]
  rcases Nat.eq_zero_or_pos xs.length with h0 | hn
  · simp [h0]
  apply Complex.ofReal_injective
  push_cast
  have sq : ∀ z : ℂ, ((‖z‖ : ℂ)) ^ 2 = z * (starRingEnd ℂ) z := fun z => (Complex.mul_conj' z).symm
  have e1 : ∀ j ∈ range xs.length, ((‖entry ys j‖ : ℂ)) ^ 2 = ∑ k ∈ range xs.length, ∑ l ∈ range xs.length,
      entry xs k * (starRingEnd ℂ) (entry xs l) * Complex.exp (2 * Real.pi * Complex.I * (((l : ℤ) - k : ℤ) * j / xs.length)) := by
    intro j hj
    rw [sq, y3 j (mem_range.mp hj), map_sum, sum_mul_sum]
    refine sum_congr rfl fun k _ => sum_congr rfl fun l _ => ?_
    rw [map_mul, ← Complex.exp_conj]
    rw [show ∀ a b c d : ℂ, a * b * (c * d) = a * c * (b * d) from fun a b c d => by ring, ← Complex.exp_add]
    congr 2
    simp only [map_neg, map_mul, map_div₀, Complex.conj_I, Complex.conj_ofReal, map_natCast, map_ofNat]
    push_cast; ring
  rw [sum_congr rfl e1, sum_comm, mul_sum]
  refine sum_congr rfl fun k hk => ?_
  rw [mem_range] at hk
  rw [sum_comm]
  have e2 : ∀ l ∈ range xs.length, ∑ j ∈ range xs.length,
      entry xs k * (starRingEnd ℂ) (entry xs l) * Complex.exp (2 * Real.pi * Complex.I * (((l : ℤ) - k : ℤ) * j / xs.length)) =
      if l = k then entry xs k * (starRingEnd ℂ) (entry xs k) * xs.length else 0 := by
    intro l hl
    rw [mem_range] at hl
    rw [← mul_sum, sum_turns xs.length hn]
    by_cases h : l = k
    · subst h; simp
    · rw [if_neg h, if_neg, mul_zero]
      intro hd
      have := Int.eq_zero_of_abs_lt_dvd hd (by rw [abs_lt]; omega)
      omega
  rw [sum_congr rfl e2, sum_ite_eq', if_pos (mem_range.mpr hk), sq]
  ring

/-- C177: two blocks with the same transform are the same block. -/
theorem C177_faithful (xs ys : List (Cartesian ℝ)) {zs : List (Cartesian ℝ)} (hx : Returns (transform xs) zs) (hy : Returns (transform ys) zs) :
    xs = ys := by
  have key : ∀ ws : List (Cartesian ℝ), Returns (transform ws) zs → Returns (inverse zs) ws := by
    intro ws h
    obtain ⟨vs, v1, -⟩ := C177_bins ws
    cases h.unique v1
    obtain ⟨N, hN⟩ := C177_there_and_back ws
    obtain ⟨M, hM⟩ := h
    refine ⟨max N M, fun n hn => ?_⟩
    have := hN n (by omega)
    rw [Prog.bind_def] at this
    simpa [Prog.bind, hM n (by omega)] using this
  exact (key xs hx).unique (key ys hy)

/-- A block to which `C177_faithful` applies. -/
example : ∃ zs, Returns (transform [⟨1, 0⟩, ⟨0, 1⟩]) zs ∧ zs.length = 2 ∧ entry zs 0 = 1 + Complex.I := by
  obtain ⟨zs, h1, h2, h3⟩ := C177_bins [⟨1, 0⟩, ⟨0, 1⟩]
  refine ⟨zs, h1, h2, ?_⟩
  rw [h3 0 (by simp)]
  simp [sum_range_succ, entry, Cartesian.toC, Complex.ext_iff]

/-- Turning the input of a transform round by `s` places. -/
theorem sum_shift (n : ℕ) (hn : 0 < n) (y : ℕ → ℂ) (j s : ℕ) :
    ∑ k ∈ range n, y ((k + s) % n) * Complex.exp (-(2 * Real.pi * Complex.I * (j * k / n))) =
      Complex.exp (2 * Real.pi * Complex.I * (j * s / n)) * ∑ k ∈ range n, y k * Complex.exp (-(2 * Real.pi * Complex.I * (j * k / n))) := by
  have n0 : (n : ℂ) ≠ 0 := by exact_mod_cast hn.ne'
  have per : ∀ k : ℕ, Complex.exp (-(2 * Real.pi * Complex.I * (j * k / n))) =
      Complex.exp (2 * Real.pi * Complex.I * (j * s / n)) * Complex.exp (-(2 * Real.pi * Complex.I * (j * ((k + s) % n : ℕ) / n))) := by
    intro k
    rw [← Complex.exp_add, Complex.exp_eq_exp_iff_exists_int]
    have h := Nat.mod_add_div (k + s) n
    have h' : (k : ℂ) + s = ((k + s) % n : ℕ) + n * ((k + s) / n : ℕ) := by exact_mod_cast h.symm
    have h'' : (k : ℂ) = ((k + s) % n : ℕ) + n * ((k + s) / n : ℕ) - s := by rw [← h']; ring
    generalize (k + s) / n = q at h''
    refine ⟨-((j * q : ℕ) : ℤ), ?_⟩
    conv_lhs => rw [h'']
    push_cast
    field_simp
    ring
  rw [mul_sum]
  have e : ∀ k ∈ range n, y ((k + s) % n) * Complex.exp (-(2 * Real.pi * Complex.I * (j * k / n))) =
      (fun m => Complex.exp (2 * Real.pi * Complex.I * (j * s / n)) * (y m * Complex.exp (-(2 * Real.pi * Complex.I * (j * m / n))))) ((k + s) % n) := by
    intro k _
    rw [per k]; ring
  rw [sum_congr rfl e]
  refine sum_nbij (fun k => (k + s) % n) (fun k _ => mem_range.mpr (Nat.mod_lt _ hn)) ?_ ?_ fun _ _ => rfl
  · intro a ha b hb hab
    have ha : a < n := by simpa using ha
    have hb : b < n := by simpa using hb
    have := Nat.ModEq.add_right_cancel' s (show a + s ≡ b + s [MOD n] from hab)
    exact Nat.ModEq.eq_of_lt_of_lt this ha hb
  · intro m hm
    have hm : m < n := by simpa using hm
    have hs := Nat.mod_lt s hn
    refine ⟨(m + (n - s % n)) % n, by simpa using Nat.mod_lt _ hn, ?_⟩
    change ((m + (n - s % n)) % n + s) % n = m
    rw [Nat.mod_add_mod, ← Nat.add_mod_mod, show m + (n - s % n) + s % n = m + n by omega, Nat.add_mod_right, Nat.mod_eq_of_lt hm]

/-- A block of the entries given. -/
noncomputable def blockOf (n : ℕ) (g : ℕ → ℂ) : List (Cartesian ℝ) := (List.range n).map fun k => ⟨(g k).re, (g k).im⟩

theorem blockOf_length (n : ℕ) (g : ℕ → ℂ) : (blockOf n g).length = n := by simp [blockOf]
theorem entry_blockOf (n : ℕ) (g : ℕ → ℂ) {k : ℕ} (hk : k < n) : entry (blockOf n g) k = g k := by
  simp [entry, blockOf, hk, Cartesian.toC]

theorem block_ext {xs ys : List (Cartesian ℝ)} (hl : xs.length = ys.length) (h : ∀ k < xs.length, entry xs k = entry ys k) : xs = ys := by
  refine List.ext_getElem hl fun k h1 h2 => toC_inj ?_
  have := h k h1
  simpa [entry, h1, h2] using this

/-- A call for each pair of entries. -/
theorem zip_returns (p : Cartesian ℝ → Cartesian ℝ → Prog (Cartesian ℝ)) (g : ℂ → ℂ → ℂ)
    (hp : ∀ a b, ∃ c, Returns (p a b) c ∧ c.toC = g a.toC b.toC) (xs ys : List (Cartesian ℝ)) (hl : xs.length = ys.length) :
    ∃ zs, Returns ((xs.zip ys).mapM fun q => p q.1 q.2) zs ∧ zs.length = xs.length ∧
      ∀ k < xs.length, entry zs k = g (entry xs k) (entry ys k) := by
  choose c c1 c2 using hp
  refine ⟨_, mapM_returns _ fun q _ => c1 q.1 q.2, by simp [hl], fun k hk => ?_⟩
  have hk' : k < ys.length := hl ▸ hk
  simp [entry, hk, hk', c2]

/-- C177: turning the block round by `s` places multiplies bin `j` by the phasor of `j s` in `n` turns. -/
theorem C177_shift (xs : List (Cartesian ℝ)) (s : ℕ) :
    ∃ ys zs, Returns (transform xs) ys ∧ Returns (transform (xs.rotate s)) zs ∧
      ∀ j < xs.length, entry zs j = Complex.exp (2 * Real.pi * Complex.I * (j * s / xs.length)) * entry ys j := by
  obtain ⟨ys, y1, y2, y3⟩ := C177_bins xs
  obtain ⟨zs, z1, z2, z3⟩ := C177_bins (xs.rotate s)
  refine ⟨ys, zs, y1, z1, fun j hj => ?_⟩
  rw [List.length_rotate] at z3
  have hn : 0 < xs.length := by omega
  rw [y3 j hj, z3 j hj, ← sum_shift xs.length hn]
  refine sum_congr rfl fun k hk => ?_
  have hk : k < xs.length := by simpa using hk
  congr 1
  simp [entry, hk, Nat.mod_lt _ hn, List.getElem_rotate]

/-- C177: adding two blocks with `+` and transforming, or transforming and adding the bins with `+`, is the same. -/
theorem C177_linear (xs ys : List (Cartesian ℝ)) (hl : xs.length = ys.length) :
    ∃ zs, Returns (do transform (← (xs.zip ys).mapM fun q => q.1.add q.2)) zs ∧
      Returns (do let a ← transform xs; let b ← transform ys; (a.zip b).mapM fun q => q.1.add q.2) zs := by
  have hadd : ∀ a b : Cartesian ℝ, ∃ c, Returns (a.add b) c ∧ c.toC = a.toC + b.toC := fun a b => by
    obtain ⟨c, h1, h2⟩ := C164_real a [b]
    exact ⟨c, by simpa [addUp] using h1, by simpa using h2⟩
  obtain ⟨as, a1, a2, a3⟩ := C177_bins xs
  obtain ⟨bs, b1, b2, b3⟩ := C177_bins ys
  obtain ⟨ps, p1, p2, p3⟩ := zip_returns Cartesian.add (· + ·) hadd as bs (by omega)
  obtain ⟨qs, q1, q2, q3⟩ := zip_returns Cartesian.add (· + ·) hadd xs ys hl
  obtain ⟨zs, z1, z2, z3⟩ := C177_bins qs
  refine ⟨zs, q1.bind z1, a1.bind (b1.bind ?_)⟩
  have : zs = ps := by
    refine block_ext (by omega) fun j hj => ?_
    have hj : j < xs.length := by omega
    rw [p3 j (by omega), z3 j (by omega), a3 j hj, b3 j (by omega), q2, ← hl, ← sum_add_distrib]
    exact sum_congr rfl fun k hk => by rw [q3 k (mem_range.mp hk), add_mul]
  exact this ▸ p1

/-- C177: multiplying two transforms bin by bin with `*` and transforming back gives the cyclic convolution. -/
theorem C177_convolution (xs ys : List (Cartesian ℝ)) (hl : xs.length = ys.length) :
    ∃ zs, Returns (do let a ← transform xs; let b ← transform ys; inverse (← (a.zip b).mapM fun q => q.1.mul q.2)) zs ∧
      zs.length = xs.length ∧
      ∀ k < xs.length, entry zs k = ∑ l ∈ range xs.length, entry xs l * entry ys ((k + (xs.length - l)) % xs.length) := by
  obtain ⟨as, a1, a2, a3⟩ := C177_bins xs
  obtain ⟨bs, b1, b2, b3⟩ := C177_bins ys
  obtain ⟨ps, p1, p2, p3⟩ := zip_returns Cartesian.mul (· * ·) C02_real as bs (by omega)
  set n := xs.length with hn
  rw [← hl] at b3 b2
  set cs := blockOf n fun k => ∑ l ∈ range n, entry xs l * entry ys ((k + (n - l)) % n) with hcs
  have lc : cs.length = n := blockOf_length _ _
  refine ⟨cs, a1.bind (b1.bind (p1.bind ?_)), lc, fun k hk => entry_blockOf _ _ hk⟩
  obtain ⟨ds, d1, d2, d3⟩ := C177_bins cs
  rw [lc] at d2 d3
  have : ps = ds := by
    refine block_ext (by omega) fun j hj => ?_
    have hj : j < n := by omega
    have hn0 : 0 < n := by omega
    have n0 : (n : ℂ) ≠ 0 := by exact_mod_cast hn0.ne'
    rw [p3 j (by omega), d3 j hj, a3 j hj, b3 j hj]
    have e1 : ∀ k ∈ range n, entry cs k * Complex.exp (-(2 * Real.pi * Complex.I * (j * k / n))) = ∑ l ∈ range n,
        entry xs l * (entry ys ((k + (n - l)) % n) * Complex.exp (-(2 * Real.pi * Complex.I * (j * k / n)))) := by
      intro k hk
      rw [entry_blockOf n _ (mem_range.mp hk), sum_mul]
      exact sum_congr rfl fun l _ => mul_assoc _ _ _
    rw [sum_congr rfl e1, sum_comm, sum_mul]
    refine sum_congr rfl fun l hl' => ?_
    have hl' : l < n := by simpa using hl'
    rw [← mul_sum, sum_shift n hn0 (entry ys), mul_assoc]
    congr 2
    rw [Complex.exp_eq_exp_iff_exists_int]
    refine ⟨-j, ?_⟩
    push_cast [Nat.cast_sub hl'.le]
    field_simp
    ring
  rw [this]
  have back := C177_there_and_back cs
  obtain ⟨N, hN⟩ := back
  obtain ⟨M, hM⟩ := d1
  refine ⟨max N M, fun k hk => ?_⟩
  have := hN k (by omega)
  rw [Prog.bind_def] at this
  simpa [Prog.bind, hM k (by omega)] using this
/-- C177: the bins of a block without imaginary parts are conjugate in pairs. -/
theorem C177_real_input (xs : List (Cartesian ℝ)) (h : ∀ x ∈ xs, x.im = 0) :
    ∃ ys, Returns (transform xs) ys ∧ ∀ j, 0 < j → j < xs.length →
      Returns (ys.getD j ⟨0, 0⟩).conj (ys.getD (xs.length - j) ⟨0, 0⟩) := by
  obtain ⟨ys, y1, y2, y3⟩ := C177_bins xs
  refine ⟨ys, y1, fun j h0 hj => ?_⟩
  obtain ⟨c, c1, c2⟩ := C14_real (ys.getD j ⟨0, 0⟩)
  have : c = ys.getD (xs.length - j) ⟨0, 0⟩ := by
    apply toC_inj
    rw [c2]
    change (starRingEnd ℂ) (entry ys j) = entry ys (xs.length - j)
    have n0 : (xs.length : ℂ) ≠ 0 := by exact_mod_cast (show xs.length ≠ 0 by omega)
    rw [y3 j hj, y3 _ (by omega), map_sum]
    refine sum_congr rfl fun k hk => ?_
    have hk : k < xs.length := by simpa using hk
    have hr : (starRingEnd ℂ) (entry xs k) = entry xs k := by
      rw [Complex.conj_eq_iff_im]
      simpa [entry, hk, Cartesian.toC] using h xs[k] (by simp)
    rw [map_mul, hr, ← Complex.exp_conj]
    congr 1
    rw [Complex.exp_eq_exp_iff_exists_int]
    refine ⟨k, ?_⟩
    simp only [map_neg, map_mul, map_div₀, Complex.conj_I, Complex.conj_ofReal, map_natCast, map_ofNat]
    push_cast [Nat.cast_sub hj.le]
    field_simp
    ring
  exact this ▸ c1

/-- The convolution of two blocks: `(1 + 2t)(3 + 4t)` with `t² = 1`. -/
example : ∃ zs, Returns (do let a ← transform [⟨1, 0⟩, ⟨2, 0⟩]; let b ← transform [⟨3, 0⟩, ⟨4, 0⟩]; inverse (← (a.zip b).mapM fun q => q.1.mul q.2)) zs ∧
    entry zs 0 = 11 ∧ entry zs 1 = 10 := by
  obtain ⟨zs, h1, -, h3⟩ := C177_convolution [⟨1, 0⟩, ⟨2, 0⟩] [⟨3, 0⟩, ⟨4, 0⟩] rfl
  refine ⟨zs, h1, ?_, ?_⟩
  · rw [h3 0 (by simp)]; simp [sum_range_succ, entry, Cartesian.toC, Complex.ext_iff]; norm_num
  · rw [h3 1 (by simp)]; simp [sum_range_succ, entry, Cartesian.toC, Complex.ext_iff]; norm_num

end MixedNum
