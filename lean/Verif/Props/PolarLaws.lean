import Verif.Props.PolarOps
import Verif.Props.PolarOpsFloat
import Verif.Props.SymFloat
import Verif.Props.Undo
import Verif.Lemmas.PowFloat
import Verif.Lemmas.Run
import Verif.Props.AddSub
/-! # C152: laws of polar multiplication on machine numbers -/

namespace MixedNum
variable {m : Mode} {s : Bool} {W F : ℕ} {f : Format}

/-- Both fields of a polar result return. -/
theorem returns_polar {α : Type} {p q : Prog α} {t : Polar α}
    (h : Returns (p >>= fun x => q >>= fun y => pure ⟨x, y⟩) t) : Returns p t.mag ∧ Returns q t.ang := by
  obtain ⟨N, hN⟩ := h
  have key : ∀ n, N ≤ n → p n = .ok t.mag ∧ q n = .ok t.ang := by
    intro n hn
    obtain ⟨a, h1, h2⟩ := Prog.bind_ok_inv (hN n hn)
    obtain ⟨b, h3, h4⟩ := Prog.bind_ok_inv h2
    cases h4; exact ⟨h1, h3⟩
  exact ⟨⟨N, fun n hn => (key n hn).1⟩, ⟨N, fun n hn => (key n hn).2⟩⟩

theorem Polar.ext' {α : Type} {p q : Polar α} (h1 : p.mag = q.mag) (h2 : p.ang = q.ang) : p = q := by
  cases p; cases q; cases h1; cases h2; rfl

namespace PInt

theorem polar_zero {p q t : Polar (PInt m s W)} (h : p.mag.val = 0 ∨ q.mag.val = 0) (ht : Returns (p.mul q) t) :
    t.mag.val = 0 ∧ t.ang.val = 0 := by
  obtain ⟨z, hz, z0⟩ := PInt.lit_zero (m := m) (s := s) (W := W)
  have e : p.mul q = pure ⟨z, z⟩ := by
    rcases h with h | h <;> simp [Polar.mul, ops.mulPolar, hz, z0, h]
  rw [e, returns_pure] at ht
  subst ht; exact ⟨z0, z0⟩

theorem polar_eq (p q : Polar (PInt m s W)) (hp : p.mag.val ≠ 0) (hq : q.mag.val ≠ 0) : p.mul q = (do
      let re ← PInt.fit (p.mag.val * q.mag.val); let im ← PInt.fit (p.ang.val + q.ang.val)
      pure (⟨re, im⟩ : Polar (PInt m s W))) := by
  obtain ⟨z, hz, z0⟩ := PInt.lit_zero (m := m) (s := s) (W := W)
  simp [Polar.mul, ops.mulPolar, hz, z0, hp, hq]

theorem polar_mul {p q t : Polar (PInt m s W)} (hp : p.mag.val ≠ 0) (hq : q.mag.val ≠ 0) (ht : Returns (p.mul q) t) :
    Returns (PInt.fit (p.mag.val * q.mag.val)) t.mag ∧ Returns (PInt.fit (p.ang.val + q.ang.val)) t.ang := by
  rw [polar_eq p q hp hq] at ht
  exact returns_polar ht

theorem polar_ext {p q : Polar (PInt m s W)} (h1 : p.mag.val = q.mag.val) (h2 : p.ang.val = q.ang.val) : p = q :=
  Polar.ext' (PInt.ext h1) (PInt.ext h2)

end PInt

namespace Fixed

theorem polar_zero {p q t : Polar (Fixed m s W F)} (h : p.mag.val = 0 ∨ q.mag.val = 0) (ht : Returns (p.mul q) t) :
    t.mag.val = 0 ∧ t.ang.val = 0 := by
  obtain ⟨z, hz, z0⟩ := Fixed.lit_zero (m := m) (s := s) (W := W) (F := F)
  have e : p.mul q = pure ⟨z, z⟩ := by
    rcases h with h | h <;> simp [Polar.mul, ops.mulPolar, hz, z0, h]
  rw [e, returns_pure] at ht
  subst ht; exact ⟨z0, z0⟩

theorem polar_eq (p q : Polar (Fixed m s W F)) (hp : p.mag.val ≠ 0) (hq : q.mag.val ≠ 0) : p.mul q = (do
      let re ← Fixed.fit (p.mag.val * q.mag.val / 2 ^ F); let im ← Fixed.fit (p.ang.val + q.ang.val)
      pure (⟨re, im⟩ : Polar (Fixed m s W F))) := by
  obtain ⟨z, hz, z0⟩ := Fixed.lit_zero (m := m) (s := s) (W := W) (F := F)
  simp [Polar.mul, ops.mulPolar, hz, z0, hp, hq]

theorem polar_mul {p q t : Polar (Fixed m s W F)} (hp : p.mag.val ≠ 0) (hq : q.mag.val ≠ 0) (ht : Returns (p.mul q) t) :
    Returns (Fixed.fit (p.mag.val * q.mag.val / 2 ^ F)) t.mag ∧ Returns (Fixed.fit (p.ang.val + q.ang.val)) t.ang := by
  rw [polar_eq p q hp hq] at ht
  exact returns_polar ht

/-- The magnitude of a product, zero or not. -/
theorem polar_mag (hW : 0 < W) {p q t : Polar (Fixed .checked s W F)} (ht : Returns (p.mul q) t) :
    t.mag.val = p.mag.val * q.mag.val / 2 ^ F := by
  by_cases hp : p.mag.val = 0
  · rw [(polar_zero (.inl hp) ht).1, hp]; simp
  by_cases hq : q.mag.val = 0
  · rw [(polar_zero (.inr hq) ht).1, hq]; simp
  exact (returns_fit hW (polar_mul hp hq ht).1).2 rfl

end Fixed

/-! ## Associativity -/

/-- C152, integers, either mode: the two ways to multiply three polar numbers agree, as long as no product of non-zero magnitudes
wraps round to zero on the way. -/
theorem C152_assoc_int_release (hW : 0 < W) (p q r a b c d : Polar (PInt m s W)) (ha : Returns (p.mul q) a) (hc : Returns (a.mul r) c)
    (hb : Returns (q.mul r) b) (hd : Returns (p.mul b) d) (h1 : p.mag.val ≠ 0 → q.mag.val ≠ 0 → a.mag.val ≠ 0)
    (h2 : q.mag.val ≠ 0 → r.mag.val ≠ 0 → b.mag.val ≠ 0) : c = d := by
  by_cases hp : p.mag.val = 0
  · obtain ⟨a1, -⟩ := PInt.polar_zero (.inl hp) ha
    obtain ⟨c1, c2⟩ := PInt.polar_zero (.inl a1) hc
    obtain ⟨d1, d2⟩ := PInt.polar_zero (.inl hp) hd
    exact PInt.polar_ext (by rw [c1, d1]) (by rw [c2, d2])
  by_cases hq : q.mag.val = 0
  · obtain ⟨a1, -⟩ := PInt.polar_zero (.inr hq) ha
    obtain ⟨b1, -⟩ := PInt.polar_zero (.inl hq) hb
    obtain ⟨c1, c2⟩ := PInt.polar_zero (.inl a1) hc
    obtain ⟨d1, d2⟩ := PInt.polar_zero (.inr b1) hd
    exact PInt.polar_ext (by rw [c1, d1]) (by rw [c2, d2])
  by_cases hr : r.mag.val = 0
  · obtain ⟨b1, -⟩ := PInt.polar_zero (.inr hr) hb
    obtain ⟨c1, c2⟩ := PInt.polar_zero (.inr hr) hc
    obtain ⟨d1, d2⟩ := PInt.polar_zero (.inr b1) hd
    exact PInt.polar_ext (by rw [c1, d1]) (by rw [c2, d2])
  obtain ⟨a1, a2⟩ := PInt.polar_mul hp hq ha
  obtain ⟨b1, b2⟩ := PInt.polar_mul hq hr hb
  obtain ⟨c1, c2⟩ := PInt.polar_mul (h1 hp hq) hr hc
  obtain ⟨d1, d2⟩ := PInt.polar_mul hp (h2 hq hr) hd
  obtain ⟨a1, -⟩ := PInt.returns_fit hW a1; obtain ⟨a2, -⟩ := PInt.returns_fit hW a2
  obtain ⟨b1, -⟩ := PInt.returns_fit hW b1; obtain ⟨b2, -⟩ := PInt.returns_fit hW b2
  obtain ⟨c1, -⟩ := PInt.returns_fit hW c1; obtain ⟨c2, -⟩ := PInt.returns_fit hW c2
  obtain ⟨d1, -⟩ := PInt.returns_fit hW d1; obtain ⟨d2, -⟩ := PInt.returns_fit hW d2
  refine PInt.polar_ext (eq_of_modEq_of_fits hW c.mag.fits d.mag.fits ?_) (eq_of_modEq_of_fits hW c.ang.fits d.ang.fits ?_)
  · refine (c1.trans (a1.mul_right _)).trans (Int.ModEq.symm ?_)
    rw [mul_assoc]; exact d1.trans (b1.mul_left _)
  · refine (c2.trans (a2.add_right _)).trans (Int.ModEq.symm ?_)
    rw [add_assoc]; exact d2.trans (b2.add_left _)

example := C152_assoc_int_release (by decide) ⟨i .wrapping true 8 3, i .wrapping true 8 4⟩ ⟨i .wrapping true 8 100, i .wrapping true 8 90⟩
  ⟨i .wrapping true 8 (-1), i .wrapping true 8 100⟩ ⟨i .wrapping true 8 44, i .wrapping true 8 94⟩ ⟨i .wrapping true 8 (-100), i .wrapping true 8 (-66)⟩
  ⟨i .wrapping true 8 (-44), i .wrapping true 8 (-62)⟩ ⟨i .wrapping true 8 (-44), i .wrapping true 8 (-62)⟩ (by run 0) (by run 0) (by run 0) (by run 0)
  (by decide) (by decide)

example := C152_assoc_int_release (by norm_num) ⟨i .wrapping true 8 3, i .wrapping true 8 100⟩ ⟨i .wrapping true 8 5, i .wrapping true 8 100⟩
  ⟨i .wrapping true 8 7, i .wrapping true 8 1⟩ ⟨i .wrapping true 8 15, i .wrapping true 8 (-56)⟩ ⟨i .wrapping true 8 35, i .wrapping true 8 101⟩ 
  ⟨i .wrapping true 8 105, i .wrapping true 8 (-55)⟩ ⟨i .wrapping true 8 105, i .wrapping true 8 (-55)⟩ (by run 10) (by run 10) (by run 10) (by run 10) (by decide) (by decide)

/-- C152, integers with overflow checks: if both ways to multiply three polar numbers return they agree. -/
theorem C152_assoc_int (hW : 0 < W) (p q r a b c d : Polar (PInt .checked s W)) (ha : Returns (p.mul q) a) (hc : Returns (a.mul r) c)
    (hb : Returns (q.mul r) b) (hd : Returns (p.mul b) d) : c = d :=
  C152_assoc_int_release hW p q r a b c d ha hc hb hd
    (fun hp hq => by rw [(PInt.returns_fit hW (PInt.polar_mul hp hq ha).1).2 rfl]; exact mul_ne_zero hp hq)
    (fun hq hr => by rw [(PInt.returns_fit hW (PInt.polar_mul hq hr hb).1).2 rfl]; exact mul_ne_zero hq hr)

example := C152_assoc_int (by decide) ⟨i .checked true 8 3, i .checked true 8 4⟩ ⟨i .checked true 8 10, i .checked true 8 90⟩
  ⟨i .checked true 8 (-1), i .checked true 8 (-100)⟩ ⟨i .checked true 8 30, i .checked true 8 94⟩ ⟨i .checked true 8 (-10), i .checked true 8 (-10)⟩
  ⟨i .checked true 8 (-30), i .checked true 8 (-6)⟩ ⟨i .checked true 8 (-30), i .checked true 8 (-6)⟩ (by run 0) (by run 0) (by run 0) (by run 0)

/-- C152: in a release build a product that wraps round to zero forgets its angle one multiplication later: with magnitudes
16, 16, 3 of 8 bits, one way gives (0, 0), the other (0, 6). -/
theorem C152_assoc_counterexample :
    let p : Polar (PInt .wrapping true 8) := ⟨i .wrapping true 8 16, i .wrapping true 8 1⟩
    let q : Polar (PInt .wrapping true 8) := ⟨i .wrapping true 8 16, i .wrapping true 8 2⟩
    let r : Polar (PInt .wrapping true 8) := ⟨i .wrapping true 8 3, i .wrapping true 8 3⟩
    Returns (do (← p.mul q).mul r) ⟨i .wrapping true 8 0, i .wrapping true 8 0⟩ ∧
    Returns (do p.mul (← q.mul r)) ⟨i .wrapping true 8 0, i .wrapping true 8 6⟩ := by
  refine ⟨?_, ?_⟩ <;> run 0

/-- C152, fixed point with overflow checks: the magnitudes agree up to 1 + (|p| + |r|) units in the last place, and the angles
exactly unless a product of non-zero magnitudes was rounded to zero. -/
theorem C152_assoc_fixed (hW : 0 < W) (p q r a b c d : Polar (Fixed .checked s W F)) (ha : Returns (p.mul q) a)
    (hc : Returns (a.mul r) c) (hb : Returns (q.mul r) b) (hd : Returns (p.mul b) d) :
    |c.mag.val - d.mag.val| * 2 ^ F ≤ 2 ^ F + |p.mag.val| + |r.mag.val| ∧
    ((p.mag.val ≠ 0 → q.mag.val ≠ 0 → a.mag.val ≠ 0) → (q.mag.val ≠ 0 → r.mag.val ≠ 0 → b.mag.val ≠ 0) → c.ang = d.ang) := by
  constructor
  · have ma := Fixed.polar_mag hW ha; have mb := Fixed.polar_mag hW hb
    have mc := Fixed.polar_mag hW hc; have md := Fixed.polar_mag hW hd
    have hP : (0:ℤ) < 2 ^ F := by positivity
    generalize (2:ℤ) ^ F = P at *
    have fl : ∀ x y : ℤ, x = y / P → x * P ≤ y ∧ y < x * P + P := fun x y e => by
      rw [e]; exact ⟨Int.ediv_mul_le _ hP.ne', by have := Int.lt_ediv_add_one_mul_self y hP; linarith [add_mul (y / P) 1 P]⟩
    obtain ⟨a1, a2⟩ := fl _ _ ma; obtain ⟨b1, b2⟩ := fl _ _ mb
    obtain ⟨c1, c2⟩ := fl _ _ mc; obtain ⟨d1, d2⟩ := fl _ _ md
    generalize p.mag.val = p' at *; generalize q.mag.val = q' at *; generalize r.mag.val = r' at *
    generalize a.mag.val = a' at *; generalize b.mag.val = b' at *; generalize c.mag.val = c' at *; generalize d.mag.val = d' at *
    -- the rounding of the inner products, carried through
    have e1 : |p' * q' * r' - a' * P * r'| ≤ P * |r'| := by
      rw [← sub_mul, abs_mul]
      exact mul_le_mul_of_nonneg_right (abs_le.mpr ⟨by linarith, by linarith⟩) (abs_nonneg _)
    have e2 : |p' * (q' * r') - p' * (b' * P)| ≤ P * |p'| := by
      rw [← mul_sub, abs_mul, mul_comm]
      exact mul_le_mul_of_nonneg_right (abs_le.mpr ⟨by linarith, by linarith⟩) (abs_nonneg _)
    obtain ⟨e1, e1'⟩ := abs_le.mp e1; obtain ⟨e2, e2'⟩ := abs_le.mp e2
    have g1 : (c' - d') * P * P ≤ (P + |p'| + |r'|) * P := by nlinarith
    have g2 : (d' - c') * P * P ≤ (P + |p'| + |r'|) * P := by nlinarith
    have g1 := le_of_mul_le_mul_right g1 hP; have g2 := le_of_mul_le_mul_right g2 hP
    rcases abs_cases (c' - d') with ⟨h, -⟩ | ⟨h, -⟩ <;> rw [h]
    · exact g1
    · rw [neg_sub]; exact g2
  · intro h1 h2
    refine Fixed.ext ?_
    by_cases hp : p.mag.val = 0
    · obtain ⟨a1, -⟩ := Fixed.polar_zero (.inl hp) ha
      rw [(Fixed.polar_zero (.inl a1) hc).2, (Fixed.polar_zero (.inl hp) hd).2]
    by_cases hq : q.mag.val = 0
    · obtain ⟨a1, -⟩ := Fixed.polar_zero (.inr hq) ha
      obtain ⟨b1, -⟩ := Fixed.polar_zero (.inl hq) hb
      rw [(Fixed.polar_zero (.inl a1) hc).2, (Fixed.polar_zero (.inr b1) hd).2]
    by_cases hr : r.mag.val = 0
    · obtain ⟨b1, -⟩ := Fixed.polar_zero (.inr hr) hb
      rw [(Fixed.polar_zero (.inr hr) hc).2, (Fixed.polar_zero (.inr b1) hd).2]
    have a2 := (Fixed.returns_fit hW (Fixed.polar_mul hp hq ha).2).2 rfl
    have b2 := (Fixed.returns_fit hW (Fixed.polar_mul hq hr hb).2).2 rfl
    have c2 := (Fixed.returns_fit hW (Fixed.polar_mul (h1 hp hq) hr hc).2).2 rfl
    have d2 := (Fixed.returns_fit hW (Fixed.polar_mul hp (h2 hq hr) hd).2).2 rfl
    omega

example := C152_assoc_fixed (by decide) ⟨fx .checked true 16 4 30, fx .checked true 16 4 50⟩ ⟨fx .checked true 16 4 20, fx .checked true 16 4 (-30)⟩
  ⟨fx .checked true 16 4 25, fx .checked true 16 4 (-90)⟩ ⟨fx .checked true 16 4 37, fx .checked true 16 4 20⟩ ⟨fx .checked true 16 4 31, fx .checked true 16 4 (-120)⟩
  ⟨fx .checked true 16 4 57, fx .checked true 16 4 (-70)⟩ ⟨fx .checked true 16 4 58, fx .checked true 16 4 (-70)⟩ (by run 0) (by run 0) (by run 0) (by run 0)

/-! ## Conjugation -/

/-- C152, integers, either mode: if the conjugates of both factors and of the product return, the product of the conjugates returns
and is the conjugate of the product. -/
theorem C152_conj_int (hW : 0 < W) (p q p' q' a c : Polar (PInt m true W)) (hp : Returns p.conj p') (hq : Returns q.conj q')
    (ha : Returns (p.mul q) a) (hc : Returns a.conj c) : Returns (p'.mul q') c := by
  have cj : ∀ {x y : Polar (PInt m true W)}, Returns x.conj y → y.mag = x.mag ∧ Returns (PInt.fit (-x.ang.val)) y.ang := by
    intro x y h
    have e : x.conj = ((pure x.mag : Prog (PInt m true W)) >>= fun u => PInt.fit (-x.ang.val) >>= fun v => pure ⟨u, v⟩) := rfl
    rw [e] at h
    obtain ⟨h1, h2⟩ := returns_polar h
    exact ⟨(returns_pure.mp h1).symm, h2⟩
  obtain ⟨p1, p2⟩ := cj hp; obtain ⟨q1, q2⟩ := cj hq; obtain ⟨c1, c2⟩ := cj hc
  obtain ⟨p2, p3⟩ := PInt.returns_fit hW p2; obtain ⟨q2, q3⟩ := PInt.returns_fit hW q2; obtain ⟨c2, c3⟩ := PInt.returns_fit hW c2
  by_cases hz : p.mag.val = 0 ∨ q.mag.val = 0
  · obtain ⟨a1, a2⟩ := PInt.polar_zero hz ha
    obtain ⟨z, hz', z0⟩ := PInt.lit_zero (m := m) (s := true) (W := W)
    have e : p'.mul q' = pure ⟨z, z⟩ := by
      rcases hz with h | h <;> simp [Polar.mul, ops.mulPolar, hz', z0, h, p1, q1]
    rw [a2, neg_zero] at c2
    refine .of_eq (e.trans (congrArg pure (PInt.polar_ext ?_ ?_)))
    · rw [c1]; show z.val = _; rw [z0, a1]
    · show z.val = _
      exact eq_of_modEq_of_fits hW z.fits c.ang.fits (by rw [z0]; exact c2.symm)
  · push Not at hz
    obtain ⟨a1, a2⟩ := PInt.polar_mul hz.1 hz.2 ha
    obtain ⟨a1, a1'⟩ := PInt.returns_fit hW a1; obtain ⟨a2, a2'⟩ := PInt.returns_fit hW a2
    refine .of_eq ?_
    rw [PInt.polar_eq p' q' (by rw [p1]; exact hz.1) (by rw [q1]; exact hz.2),
      PInt.fit_eq hW c.mag (by rw [p1, q1, c1]; exact a1.symm) (fun h => by rw [p1, q1, c1]; exact (a1' h).symm),
      PInt.fit_eq hW c.ang (n := p'.ang.val + q'.ang.val)
        ((p2.add q2).trans (by rw [← neg_add]; exact (a2.neg.symm).trans c2.symm))
        (fun h => by rw [p3 h, q3 h, c3 h, a2' h]; ring)]
    rfl

example := C152_conj_int (by decide) ⟨i .checked true 8 3, i .checked true 8 4⟩ ⟨i .checked true 8 5, i .checked true 8 (-9)⟩
  ⟨i .checked true 8 3, i .checked true 8 (-4)⟩ ⟨i .checked true 8 5, i .checked true 8 9⟩ ⟨i .checked true 8 15, i .checked true 8 (-5)⟩
  ⟨i .checked true 8 15, i .checked true 8 5⟩ (by run 0) (by run 0) (by run 0) (by run 0)

/-- C152, fixed point, either mode. -/
theorem C152_conj_fixed (hW : 0 < W) (p q p' q' a c : Polar (Fixed m true W F)) (hp : Returns p.conj p') (hq : Returns q.conj q')
    (ha : Returns (p.mul q) a) (hc : Returns a.conj c) : Returns (p'.mul q') c := by
  have cj : ∀ {x y : Polar (Fixed m true W F)}, Returns x.conj y → y.mag = x.mag ∧ Returns (Fixed.fit (-x.ang.val)) y.ang := by
    intro x y h
    have e : x.conj = ((pure x.mag : Prog (Fixed m true W F)) >>= fun u => Fixed.fit (-x.ang.val) >>= fun v => pure ⟨u, v⟩) := rfl
    rw [e] at h
    obtain ⟨h1, h2⟩ := returns_polar h
    exact ⟨(returns_pure.mp h1).symm, h2⟩
  obtain ⟨p1, p2⟩ := cj hp; obtain ⟨q1, q2⟩ := cj hq; obtain ⟨c1, c2⟩ := cj hc
  obtain ⟨p2, p3⟩ := Fixed.returns_fit hW p2; obtain ⟨q2, q3⟩ := Fixed.returns_fit hW q2; obtain ⟨c2, c3⟩ := Fixed.returns_fit hW c2
  by_cases hz : p.mag.val = 0 ∨ q.mag.val = 0
  · obtain ⟨a1, a2⟩ := Fixed.polar_zero hz ha
    obtain ⟨z, hz', z0⟩ := Fixed.lit_zero (m := m) (s := true) (W := W) (F := F)
    have e : p'.mul q' = pure ⟨z, z⟩ := by
      rcases hz with h | h <;> simp [Polar.mul, ops.mulPolar, hz', z0, h, p1, q1]
    rw [a2, neg_zero] at c2
    refine .of_eq (e.trans (congrArg pure (Polar.ext' (Fixed.ext ?_) (Fixed.ext ?_))))
    · rw [c1]; show z.val = _; rw [z0, a1]
    · show z.val = _
      exact eq_of_modEq_of_fits hW z.fits c.ang.fits (by rw [z0]; exact c2.symm)
  · push Not at hz
    obtain ⟨a1, a2⟩ := Fixed.polar_mul hz.1 hz.2 ha
    obtain ⟨a1, a1'⟩ := Fixed.returns_fit hW a1; obtain ⟨a2, a2'⟩ := Fixed.returns_fit hW a2
    refine .of_eq ?_
    rw [Fixed.polar_eq p' q' (by rw [p1]; exact hz.1) (by rw [q1]; exact hz.2),
      Fixed.fit_eq hW c.mag (by rw [p1, q1, c1]; exact a1.symm) (fun h => by rw [p1, q1, c1]; exact (a1' h).symm),
      Fixed.fit_eq hW c.ang (n := p'.ang.val + q'.ang.val)
        ((p2.add q2).trans (by rw [← neg_add]; exact (a2.neg.symm).trans c2.symm))
        (fun h => by rw [p3 h, q3 h, c3 h, a2' h]; ring)]
    rfl

example := C152_conj_fixed (by decide) ⟨fx .checked true 16 4 30, fx .checked true 16 4 50⟩ ⟨fx .checked true 16 4 20, fx .checked true 16 4 (-30)⟩
  ⟨fx .checked true 16 4 30, fx .checked true 16 4 (-50)⟩ ⟨fx .checked true 16 4 20, fx .checked true 16 4 30⟩ ⟨fx .checked true 16 4 37, fx .checked true 16 4 20⟩
  ⟨fx .checked true 16 4 37, fx .checked true 16 4 (-20)⟩ (by run 0) (by run 0) (by run 0) (by run 0)

/-- C152, all floats, NaN and infinities included: the conjugate of a product is the product of the conjugates, bit for bit but for
the signs of zeros. -/
theorem C152_conj_float (p q : Polar (Flt f)) :
    ∃ c d : Polar (Flt f), Returns (do Polar.conj (← p.mul q)) c ∧ Returns (do Polar.mul (← p.conj) (← q.conj)) d ∧
      d.mag = c.mag ∧ d.ang.Same c.ang := by
  obtain ⟨a, b⟩ := p; obtain ⟨c, d⟩ := q
  have e1 : ∀ x y : Polar (Flt f), x.mul y = if x.mag.beq (.fin false 0) || y.mag.beq (.fin false 0) then pure ⟨.fin false 0, .fin false 0⟩
      else pure ⟨x.mag.mul y.mag, x.ang.add y.ang⟩ := by
    intro x y
    show ops.mulPolar x y = _
    unfold ops.mulPolar
    rw [lit_zero_flt, pure_bind]; rfl
  by_cases h : a.beq (.fin false 0) || c.beq (.fin false 0)
  · refine ⟨⟨.fin false 0, .fin true 0⟩, ⟨.fin false 0, .fin false 0⟩, .of_eq ?_, .of_eq ?_, rfl, ?_⟩
    · rw [e1, if_pos h]; rfl
    · show Polar.mul (⟨a, b.neg⟩ : Polar (Flt f)) ⟨c, d.neg⟩ = _
      rw [e1, if_pos h]
    · exact .inr ⟨false, true, rfl, rfl⟩
  · refine ⟨⟨a.mul c, (b.add d).neg⟩, ⟨a.mul c, b.neg.add d.neg⟩, .of_eq ?_, .of_eq ?_, rfl, ?_⟩
    · rw [e1, if_neg h]; rfl
    · show Polar.mul (⟨a, b.neg⟩ : Polar (Flt f)) ⟨c, d.neg⟩ = _
      rw [e1, if_neg h]
    · exact ((Flt.sgn_neg b).add (Flt.sgn_neg d)).opp

/-! ## Scaling -/

/-- C152, integers with overflow checks: scaling a factor by a non-zero number scales the product. -/
theorem C152_scale_int (hW : 0 < W) (p q a b c d : Polar (PInt .checked s W)) (t : PInt .checked s W) (ht : t.val ≠ 0)
    (ha : Returns (p.mulScalar t) a) (hc : Returns (a.mul q) c) (hb : Returns (p.mul q) b) (hd : Returns (b.mulScalar t) d) : c = d := by
  have sc : ∀ {x y : Polar (PInt .checked s W)}, Returns (x.mulScalar t) y → y.mag.val = x.mag.val * t.val ∧ y.ang = x.ang := by
    intro x y h
    have e : x.mulScalar t = (PInt.fit (x.mag.val * t.val) >>= fun u => (pure x.ang : Prog (PInt .checked s W)) >>= fun v => pure ⟨u, v⟩) := rfl
    rw [e] at h
    obtain ⟨h1, h2⟩ := returns_polar h
    exact ⟨(PInt.returns_fit hW h1).2 rfl, (returns_pure.mp h2).symm⟩
  obtain ⟨a1, a2⟩ := sc ha; obtain ⟨d1, d2⟩ := sc hd
  by_cases hz : p.mag.val = 0 ∨ q.mag.val = 0
  · obtain ⟨b1, b2⟩ := PInt.polar_zero hz hb
    obtain ⟨c1, c2⟩ := PInt.polar_zero (by rcases hz with h | h; exact .inl (by rw [a1, h, zero_mul]); exact .inr h) hc
    exact PInt.polar_ext (by rw [c1, d1, b1, zero_mul]) (by rw [c2, d2, b2])
  · push Not at hz
    obtain ⟨b1, b2⟩ := PInt.polar_mul hz.1 hz.2 hb
    obtain ⟨c1, c2⟩ := PInt.polar_mul (by rw [a1]; exact mul_ne_zero hz.1 ht) hz.2 hc
    have b1 := (PInt.returns_fit hW b1).2 rfl; have b2 := (PInt.returns_fit hW b2).2 rfl
    have c1 := (PInt.returns_fit hW c1).2 rfl; have c2 := (PInt.returns_fit hW c2).2 rfl
    exact PInt.polar_ext (by rw [c1, d1, b1, a1]; ring) (by rw [c2, d2, b2, a2])

example := C152_scale_int (by decide) ⟨i .checked true 8 3, i .checked true 8 4⟩ ⟨i .checked true 8 5, i .checked true 8 (-9)⟩
  ⟨i .checked true 8 (-6), i .checked true 8 4⟩ ⟨i .checked true 8 15, i .checked true 8 (-5)⟩ ⟨i .checked true 8 (-30), i .checked true 8 (-5)⟩
  ⟨i .checked true 8 (-30), i .checked true 8 (-5)⟩ (i .checked true 8 (-2)) (by decide) (by run 0) (by run 0) (by run 0) (by run 0)

/-! ## Floats -/

open Flt in
/-- C152, floats: both ways to multiply three polar numbers have a magnitude within two roundings of the exact product and an angle
within 2.1 2^-p (|a| + |b| + |c|) of the exact sum, if the products stay in the normal range and no sum overflows. -/
theorem C152_assoc_float (hf : f.Wide) (p q r : Polar (Flt f)) (v1 : p.mag.Valid) (v2 : q.mag.Valid) (v3 : r.mag.Valid)
    (w1 : p.ang.Valid) (w2 : q.ang.Valid) (w3 : r.ang.Valid) (f1 : p.mag.IsFinite) (f2 : q.mag.IsFinite) (f3 : r.mag.IsFinite)
    (g1 : p.ang.IsFinite) (g2 : q.ang.IsFinite) (g3 : r.ang.IsFinite) (M A : ℚ) (hM : M = p.mag.val * q.mag.val * r.mag.val)
    (hA : A = p.ang.val + q.ang.val + r.ang.val) (lo : (2:ℚ) ^ (f.emin + f.p) ≤ |p.mag.val * q.mag.val|)
    (hi : 2 * |p.mag.val * q.mag.val| ≤ 2 ^ f.emax) (lo' : (2:ℚ) ^ (f.emin + f.p) ≤ |q.mag.val * r.mag.val|)
    (hi' : 2 * |q.mag.val * r.mag.val| ≤ 2 ^ f.emax) (loM : (2:ℚ) ^ (f.emin + f.p) ≤ |M|) (hiM : 2 * |M| ≤ 2 ^ f.emax)
    (o1 : (p.ang.add q.ang).IsFinite) (o2 : (q.ang.add r.ang).IsFinite) (o3 : ((p.ang.add q.ang).add r.ang).IsFinite)
    (o4 : (p.ang.add (q.ang.add r.ang)).IsFinite) :
    ∃ c d : Polar (Flt f), Returns (do (← p.mul q).mul r) c ∧ Returns (do p.mul (← q.mul r)) d ∧
      |c.mag.val - M| ≤ ((1 + 1 / 2 ^ f.p) ^ 2 - 1) * |M| ∧ |d.mag.val - M| ≤ ((1 + 1 / 2 ^ f.p) ^ 2 - 1) * |M| ∧
      |c.ang.val - A| ≤ 21 / 10 / 2 ^ f.p * (|p.ang.val| + |q.ang.val| + |r.ang.val|) ∧
      |d.ang.val - A| ≤ 21 / 10 / 2 ^ f.p * (|p.ang.val| + |q.ang.val| + |r.ang.val|) := by
  have hu : uq f = 1 / 2 ^ f.p := by unfold uq; rw [zpow_neg, zpow_natCast, one_div]
  have hu0 := uq_pos (f := f); have hu1 := uq_le hf
  have hpos : (0:ℚ) < 2 ^ (f.emin + f.p) := two_zpow_pos _
  have i1 := Flt.is_of_finite f1 v1; have i2 := Flt.is_of_finite f2 v2; have i3 := Flt.is_of_finite f3 v3
  have j1 := Flt.is_of_finite g1 w1; have j2 := Flt.is_of_finite g2 w2; have j3 := Flt.is_of_finite g3 w3
  have n12 : p.mag.val * q.mag.val ≠ 0 := abs_pos.mp (hpos.trans_le lo)
  have n23 : q.mag.val * r.mag.val ≠ 0 := abs_pos.mp (hpos.trans_le lo')
  have nM : M ≠ 0 := abs_pos.mp (hpos.trans_le loM)
  obtain ⟨np, nq⟩ := mul_ne_zero_iff.mp n12
  have nr := (mul_ne_zero_iff.mp n23).2
  have k0 : (1 + uq f) ^ (0 + 0) ≤ 4 / 3 := by norm_num
  have k1 : (1 + uq f) ^ (0 + 0 + 1 + 0) ≤ 4 / 3 := by norm_num at hu1 ⊢; linarith
  have k1' : (1 + uq f) ^ (0 + (0 + 0 + 1)) ≤ 4 / 3 := by norm_num at hu1 ⊢; linarith
  have r12 := i1.rel.mul hf i2.rel k0 lo hi
  have r23 := i2.rel.mul hf i3.rel k0 lo' hi'
  have rc := r12.mul hf i3.rel k1 (by rw [← hM]; exact loM) (by rw [← hM]; exact hiM)
  have rd := i1.rel.mul hf r23 k1' (by rw [← mul_assoc, ← hM]; exact loM) (by rw [← mul_assoc, ← hM]; exact hiM)
  rw [← hM] at rc; rw [← mul_assoc, ← hM] at rd
  -- products are not zero
  have nz : ∀ {x : Flt f} {B : ℚ} {k : ℕ}, Rel x B k → (1 + uq f) ^ k ≤ 4 / 3 → B ≠ 0 → ∃ v, Is x v ∧ v ≠ 0 := by
    rintro x B k ⟨v, hv, e⟩ hk hB
    refine ⟨v, hv, ?_⟩
    rintro rfl
    rw [zero_sub, abs_neg] at e
    have := abs_pos.mpr hB
    nlinarith
  obtain ⟨v12, h12, n12'⟩ := nz r12 (by norm_num at hu1 ⊢; linarith) n12
  obtain ⟨v23, h23, n23'⟩ := nz r23 (by norm_num at hu1 ⊢; linarith) n23
  have mk : ∀ x y : Polar (Flt f), x.mag.IsFinite → y.mag.IsFinite → x.mag.val ≠ 0 → y.mag.val ≠ 0 →
      x.mul y = pure ⟨x.mag.mul y.mag, x.ang.add y.ang⟩ := by
    intro x y a b c d
    show ops.mulPolar x y = _
    unfold ops.mulPolar
    rw [lit_zero_flt, pure_bind]
    have e1 : MixedCmp.beq x.mag (.fin false 0 : Flt f) = false := by
      show x.mag.beq _ = _; rw [beq_zero_flt a, decide_eq_false c]
    have e2 : MixedCmp.beq y.mag (.fin false 0 : Flt f) = false := by
      show y.mag.beq _ = _; rw [beq_zero_flt b, decide_eq_false d]
    rw [e1, e2]; rfl
  -- angles
  have ang : ∀ {x y z : Flt f} {a b c : ℚ}, Is x a → Is y b → Is z c → (x.add y).IsFinite → ((x.add y).add z).IsFinite →
      |((x.add y).add z).val - (a + b + c)| ≤ 21 / 10 * uq f * (|a| + |b| + |c|) := by
    intro x y z a b c hx hy hz h1 h2
    obtain ⟨d, hd, -, e1⟩ := hx.add_err hf hy h1
    obtain ⟨e, he, -, e2⟩ := hd.add_err hf hz h2
    rw [he.val]
    have t1 := abs_add_le a b
    have t2 : |d + c| ≤ |a| + |b| + |c| + uq f * (|a| + |b|) := by
      calc |d + c| = |(d - (a + b)) + (a + b + c)| := by congr 1; ring
        _ ≤ uq f * |a + b| + |a + b + c| := (abs_add_le _ _).trans (add_le_add e1 le_rfl)
        _ ≤ _ := by
          have := abs_add_three a b c
          have := mul_le_mul_of_nonneg_left t1 hu0.le
          linarith
    have t3 : |e - (a + b + c)| ≤ uq f * |d + c| + uq f * |a + b| := by
      calc |e - (a + b + c)| = |(e - (d + c)) + (d - (a + b))| := by congr 1; ring
        _ ≤ _ := (abs_add_le _ _).trans (add_le_add e2 e1)
    have t4 := mul_le_mul_of_nonneg_left t2 hu0.le
    have t5 := mul_le_mul_of_nonneg_left t1 hu0.le
    have pa := abs_nonneg a; have pb := abs_nonneg b; have pc := abs_nonneg c
    have t6 : uq f * (uq f * (|a| + |b|)) ≤ uq f * (1 / 10 * (|a| + |b|)) := by
      refine mul_le_mul_of_nonneg_left (mul_le_mul_of_nonneg_right ?_ (by positivity)) hu0.le
      norm_num at hu1 ⊢; linarith
    have t7 := mul_nonneg hu0.le pc
    nlinarith
  have a1 := ang j1 j2 j3 o1 o3
  have a2 := ang (x := q.ang) (y := r.ang) (z := p.ang) j2 j3 j1 o2 (by rw [Flt.add_comm]; exact o4)
  have mag : ∀ {x : Flt f}, Rel x M 2 → |x.val - M| ≤ ((1 + 1 / 2 ^ f.p) ^ 2 - 1) * |M| := by
    rintro x ⟨v, hv, e⟩
    rw [hv.val, ← hu]; exact e
  refine ⟨⟨(p.mag.mul q.mag).mul r.mag, (p.ang.add q.ang).add r.ang⟩, ⟨p.mag.mul (q.mag.mul r.mag), p.ang.add (q.ang.add r.ang)⟩,
    .of_eq ?_, .of_eq ?_, mag rc, mag rd, ?_, ?_⟩
  · rw [mk p q f1 f2 np nq, pure_bind]
    exact mk _ _ h12.fin f3 (by show (p.mag.mul q.mag).val ≠ 0; rw [h12.val]; exact n12') nr
  · rw [mk q r f2 f3 nq nr, pure_bind]
    exact mk _ _ f1 h23.fin np (by show (q.mag.mul r.mag).val ≠ 0; rw [h23.val]; exact n23')
  · rw [hA, show (21:ℚ) / 10 / 2 ^ f.p = 21 / 10 * uq f by rw [hu]; ring]; exact a1
  · rw [hA, show (21:ℚ) / 10 / 2 ^ f.p = 21 / 10 * uq f by rw [hu]; ring,
      show p.ang.val + q.ang.val + r.ang.val = q.ang.val + r.ang.val + p.ang.val by ring,
      show |p.ang.val| + |q.ang.val| + |r.ang.val| = |q.ang.val| + |r.ang.val| + |p.ang.val| by ring,
      Flt.add_comm p.ang]
    exact a2

/-- Three polar integers, both ways; a fixed-point product and its conjugate. -/
example :
    let p : Polar (PInt .checked true 8) := ⟨i .checked true 8 3, i .checked true 8 1⟩
    let q : Polar (PInt .checked true 8) := ⟨i .checked true 8 (-5), i .checked true 8 2⟩
    let r : Polar (PInt .checked true 8) := ⟨i .checked true 8 8, i .checked true 8 (-7)⟩
    Returns (do (← p.mul q).mul r) ⟨i .checked true 8 (-120), i .checked true 8 (-4)⟩ ∧
    Returns (do p.mul (← q.mul r)) ⟨i .checked true 8 (-120), i .checked true 8 (-4)⟩ := by
  refine ⟨?_, ?_⟩ <;> run 0

/-- Fixed point with 8 fraction bits: conjugates of two factors of magnitude 1.5 and 2.25. -/
example :
    let p : Polar (Fixed .checked true 16 8) := ⟨fx .checked true 16 8 384, fx .checked true 16 8 100⟩
    let q : Polar (Fixed .checked true 16 8) := ⟨fx .checked true 16 8 576, fx .checked true 16 8 (-30)⟩
    Returns p.conj ⟨fx .checked true 16 8 384, fx .checked true 16 8 (-100)⟩ ∧
    Returns q.conj ⟨fx .checked true 16 8 576, fx .checked true 16 8 30⟩ ∧
    Returns (p.mul q) ⟨fx .checked true 16 8 864, fx .checked true 16 8 70⟩ ∧
    Returns (Polar.conj (⟨fx .checked true 16 8 864, fx .checked true 16 8 70⟩ : Polar (Fixed .checked true 16 8)))
      ⟨fx .checked true 16 8 864, fx .checked true 16 8 (-70)⟩ := by
  refine ⟨?_, ?_, ?_, ?_⟩ <;> run 0

/-- Magnitudes 3, 5, 2 and angles 1, 2, -7 in `f32`: the hypotheses of `C152_assoc_float`. -/
example : (2:ℚ) ^ (F32.emin + F32.p) ≤ |(3:ℚ) * 5 * 2| ∧ 2 * |(3:ℚ) * 5 * 2| ≤ 2 ^ F32.emax ∧
    (Flt.fin true 7 : Flt F32).Valid ∧ (((Flt.fin false 1 : Flt F32).add (.fin false 2)).add (.fin true 7)).IsFinite :=
  ⟨by norm_num [F32], by norm_num [F32], ⟨7, 0, by decide, by decide, by norm_num [pow2_eq], by norm_num⟩,
    ⟨true, 4, by kernel_rfl⟩⟩

end MixedNum
