import Verif.Lemmas.Run
import Verif.Lemmas.SumExact
import Verif.Props.AddSub
/-!
# C143 — Subtraction undoes addition
-/

namespace MixedNum
variable {m : Mode} {s : Bool} {W F : ℕ} {f : Format}

theorem PInt.returns_fit {n : ℤ} {c : PInt m s W} (hW : 0 < W) (h : Returns (PInt.fit n) c) :
    c.val ≡ n [ZMOD 2 ^ W] ∧ (m = .checked → c.val = n) := by
  by_cases hn : Fits s W n
  · rw [PInt.fit_of_fits hn, returns_pure] at h
    subst h; exact ⟨rfl, fun _ => rfl⟩
  · cases m
    · rw [PInt.fit_checked hn] at h; exact absurd h returns_fail
    · rw [PInt.fit_wrapping, returns_pure] at h
      subst h; exact ⟨wrapInt_modEq hW n, fun h => nomatch h⟩

theorem Fixed.returns_fit {n : ℤ} {c : Fixed m s W F} (hW : 0 < W) (h : Returns (Fixed.fit n) c) :
    c.val ≡ n [ZMOD 2 ^ W] ∧ (m = .checked → c.val = n) := by
  by_cases hn : Fits s W n
  · rw [Fixed.fit_of_fits hn, returns_pure] at h
    subst h; exact ⟨rfl, fun _ => rfl⟩
  · cases m
    · rw [Fixed.fit_checked hn] at h; exact absurd h returns_fail
    · rw [Fixed.fit_wrapping, returns_pure] at h
      subst h; exact ⟨wrapInt_modEq hW n, fun h => nomatch h⟩

theorem PInt.fit_eq {n : ℤ} (hW : 0 < W) (c : PInt m s W) (h : n ≡ c.val [ZMOD 2 ^ W]) (h' : m = .checked → n = c.val) :
    (PInt.fit n : Prog (PInt m s W)) = pure c := by
  cases m
  · have e := h' rfl; subst e; exact PInt.fit_of_fits c.fits
  · rw [PInt.fit_wrapping]
    exact congrArg pure (PInt.ext (eq_of_modEq_of_fits hW (fits_wrapInt s W n) c.fits ((wrapInt_modEq hW n).trans h)))

theorem Fixed.fit_eq {n : ℤ} (hW : 0 < W) (c : Fixed m s W F) (h : n ≡ c.val [ZMOD 2 ^ W]) (h' : m = .checked → n = c.val) :
    (Fixed.fit n : Prog (Fixed m s W F)) = pure c := by
  cases m
  · have e := h' rfl; subst e; exact Fixed.fit_of_fits c.fits
  · rw [Fixed.fit_wrapping]
    exact congrArg pure (Fixed.ext (eq_of_modEq_of_fits hW (fits_wrapInt s W n) c.fits ((wrapInt_modEq hW n).trans h)))

/-- Both parts of a sum or difference return. -/
theorem returns_pair {α : Type} {p q : Prog α} {t : Cartesian α}
    (h : Returns (p >>= fun x => q >>= fun y => pure ⟨x, y⟩) t) : Returns p t.re ∧ Returns q t.im := by
  obtain ⟨N, hN⟩ := h
  have key : ∀ n, N ≤ n → p n = .ok t.re ∧ q n = .ok t.im := by
    intro n hn
    obtain ⟨a, h1, h2⟩ := Prog.bind_ok_inv (hN n hn)
    obtain ⟨b, h3, h4⟩ := Prog.bind_ok_inv h2
    cases h4; exact ⟨h1, h3⟩
  exact ⟨⟨N, fun n hn => (key n hn).1⟩, ⟨N, fun n hn => (key n hn).2⟩⟩

/-- C143, integers: if `z + w` returns, taking `w` off again returns `z`, also after a wrap-around. -/
theorem C143_int_add (hW : 0 < W) (z w t : Cartesian (PInt m s W)) (h : Returns (z.add w) t) : Returns (t.sub w) z := by
  obtain ⟨h1, h2⟩ := returns_pair h
  obtain ⟨a1, a2⟩ := PInt.returns_fit hW h1
  obtain ⟨b1, b2⟩ := PInt.returns_fit hW h2
  have e1 := PInt.fit_eq hW z.re (n := t.re.val - w.re.val) (by simpa using a1.sub_right w.re.val) (fun h => by rw [a2 h]; ring)
  have e2 := PInt.fit_eq hW z.im (n := t.im.val - w.im.val) (by simpa using b1.sub_right w.im.val) (fun h => by rw [b2 h]; ring)
  exact .of_eq (by unfold Cartesian.sub; rw [PInt.sub_def, PInt.sub_def, e1, e2]; rfl)

example := C143_int_add (by decide) ⟨i .checked true 8 3, i .checked true 8 (-5)⟩ ⟨i .checked true 8 3, i .checked true 8 5⟩ ⟨i .checked true 8 6, i .checked true 8 0⟩ (by run 0)

/-- C143, integers: if `z - w` returns, adding `w` again returns `z`. -/
theorem C143_int_sub (hW : 0 < W) (z w t : Cartesian (PInt m s W)) (h : Returns (z.sub w) t) : Returns (t.add w) z := by
  obtain ⟨h1, h2⟩ := returns_pair h
  obtain ⟨a1, a2⟩ := PInt.returns_fit hW h1
  obtain ⟨b1, b2⟩ := PInt.returns_fit hW h2
  have e1 := PInt.fit_eq hW z.re (n := t.re.val + w.re.val) (by simpa using a1.add_right w.re.val) (fun h => by rw [a2 h]; ring)
  have e2 := PInt.fit_eq hW z.im (n := t.im.val + w.im.val) (by simpa using b1.add_right w.im.val) (fun h => by rw [b2 h]; ring)
  exact .of_eq (by unfold Cartesian.add; rw [PInt.add_def, PInt.add_def, e1, e2]; rfl)

example := C143_int_sub (by decide) ⟨i .wrapping false 8 3, i .wrapping false 8 7⟩ ⟨i .wrapping false 8 4, i .wrapping false 8 5⟩
  ⟨i .wrapping false 8 255, i .wrapping false 8 2⟩ (by run 0)

/-- C143, fixed point: if `z + w` returns, taking `w` off again returns `z`, also after a wrap-around. -/
theorem C143_fixed_add (hW : 0 < W) (z w t : Cartesian (Fixed m s W F)) (h : Returns (z.add w) t) : Returns (t.sub w) z := by
  obtain ⟨h1, h2⟩ := returns_pair h
  obtain ⟨a1, a2⟩ := Fixed.returns_fit hW h1
  obtain ⟨b1, b2⟩ := Fixed.returns_fit hW h2
  have e1 := Fixed.fit_eq hW z.re (n := t.re.val - w.re.val) (by simpa using a1.sub_right w.re.val) (fun h => by rw [a2 h]; ring)
  have e2 := Fixed.fit_eq hW z.im (n := t.im.val - w.im.val) (by simpa using b1.sub_right w.im.val) (fun h => by rw [b2 h]; ring)
  exact .of_eq (by unfold Cartesian.sub; rw [Fixed.sub_def, Fixed.sub_def, e1, e2]; rfl)

example := C143_fixed_add (by decide) ⟨fx .checked true 8 4 3, fx .checked true 8 4 (-5)⟩ ⟨fx .checked true 8 4 3, fx .checked true 8 4 5⟩
  ⟨fx .checked true 8 4 6, fx .checked true 8 4 0⟩ (by run 0)

/-- C143, fixed point: if `z - w` returns, adding `w` again returns `z`. -/
theorem C143_fixed_sub (hW : 0 < W) (z w t : Cartesian (Fixed m s W F)) (h : Returns (z.sub w) t) : Returns (t.add w) z := by
  obtain ⟨h1, h2⟩ := returns_pair h
  obtain ⟨a1, a2⟩ := Fixed.returns_fit hW h1
  obtain ⟨b1, b2⟩ := Fixed.returns_fit hW h2
  have e1 := Fixed.fit_eq hW z.re (n := t.re.val + w.re.val) (by simpa using a1.add_right w.re.val) (fun h => by rw [a2 h]; ring)
  have e2 := Fixed.fit_eq hW z.im (n := t.im.val + w.im.val) (by simpa using b1.add_right w.im.val) (fun h => by rw [b2 h]; ring)
  exact .of_eq (by unfold Cartesian.add; rw [Fixed.add_def, Fixed.add_def, e1, e2]; rfl)

example := C143_fixed_sub (by decide) ⟨fx .wrapping false 8 4 3, fx .wrapping false 8 4 7⟩ ⟨fx .wrapping false 8 4 4, fx .wrapping false 8 4 5⟩
  ⟨fx .wrapping false 8 4 255, fx .wrapping false 8 4 2⟩ (by run 0)

/-- C143, integers: a difference is zero exactly for equal numbers, in both builds. -/
theorem C143_int_zero (hW : 0 < W) (z w : Cartesian (PInt m s W)) : Returns (z.sub w) MixedZero.zero ↔ z = w := by
  constructor
  · intro h
    have h' := C143_int_sub hW z w _ h
    have e : Cartesian.add MixedZero.zero w = pure w := by
      unfold Cartesian.add
      rw [PInt.add_def, PInt.add_def,
        PInt.fit_eq hW w.re (n := (MixedZero.zero : Cartesian (PInt m s W)).re.val + w.re.val) (by show (0:ℤ) + _ ≡ _ [ZMOD _]; rw [zero_add]) (fun _ => zero_add _),
        PInt.fit_eq hW w.im (n := (MixedZero.zero : Cartesian (PInt m s W)).im.val + w.im.val) (by show (0:ℤ) + _ ≡ _ [ZMOD _]; rw [zero_add]) (fun _ => zero_add _)]
      rfl
    rw [e, returns_pure] at h'; exact h'.symm
  · rintro rfl
    have e : ∀ x : PInt m s W, (NumOps.sub x x : Prog (PInt m s W)) = pure MixedZero.zero := fun x => by
      rw [PInt.sub_def, sub_self]; exact PInt.fit_of_fits (fits_zero s W)
    exact .of_eq (by unfold Cartesian.sub; rw [e, e]; rfl)

/-- C143, fixed point: a difference is zero exactly for equal numbers, in both builds. -/
theorem C143_fixed_zero (hW : 0 < W) (z w : Cartesian (Fixed m s W F)) : Returns (z.sub w) MixedZero.zero ↔ z = w := by
  constructor
  · intro h
    have h' := C143_fixed_sub hW z w _ h
    have e : Cartesian.add MixedZero.zero w = pure w := by
      unfold Cartesian.add
      rw [Fixed.add_def, Fixed.add_def,
        Fixed.fit_eq hW w.re (n := (MixedZero.zero : Cartesian (Fixed m s W F)).re.val + w.re.val) (by show (0:ℤ) + _ ≡ _ [ZMOD _]; rw [zero_add]) (fun _ => zero_add _),
        Fixed.fit_eq hW w.im (n := (MixedZero.zero : Cartesian (Fixed m s W F)).im.val + w.im.val) (by show (0:ℤ) + _ ≡ _ [ZMOD _]; rw [zero_add]) (fun _ => zero_add _)]
      rfl
    rw [e, returns_pure] at h'; exact h'.symm
  · rintro rfl
    have e : ∀ x : Fixed m s W F, (NumOps.sub x x : Prog (Fixed m s W F)) = pure MixedZero.zero := fun x => by
      rw [Fixed.sub_def, sub_self]; exact Fixed.fit_of_fits (fits_zero s W)
    exact .of_eq (by unfold Cartesian.sub; rw [e, e]; rfl)

/-- A wrap-around on the way: 100 + 100 is -56 in `i8`, and -56 - 100 is 100 again. -/
example : Returns (Cartesian.add ⟨i .wrapping true 8 100, i .wrapping true 8 0⟩ ⟨i .wrapping true 8 100, i .wrapping true 8 1⟩)
      ⟨i .wrapping true 8 (-56), i .wrapping true 8 1⟩ ∧
    Returns (Cartesian.sub ⟨i .wrapping true 8 (-56), i .wrapping true 8 1⟩ ⟨i .wrapping true 8 100, i .wrapping true 8 1⟩)
      ⟨i .wrapping true 8 100, i .wrapping true 8 0⟩ :=
  ⟨.of_eq rfl, .of_eq rfl⟩

/-! ### Floats -/

theorem Flt.is_of_finite {x : Flt f} (h : x.IsFinite) (hv : x.Valid) : Flt.Is x x.val := by
  obtain ⟨s, m, rfl⟩ := h; exact Flt.is_of_valid hv

theorem Flt.sub_zero_finite {x y : Flt f} (h : (x.sub y).beq (.fin false 0) = true) : x.IsFinite ∧ y.IsFinite := by
  cases x <;> cases y
  case fin.fin => exact ⟨⟨_, _, rfl⟩, ⟨_, _, rfl⟩⟩
  case inf.inf a b => cases a <;> cases b <;> cases h
  all_goals cases h

/-- C143, floats: a difference is zero only of equal numbers (subnormal numbers see to that), and on finite numbers exactly of
equal ones. -/
theorem C143_float_zero (hp : 1 ≤ f.p) (z w t : Cartesian (Flt f)) (hz : z.re.Valid ∧ z.im.Valid) (hw : w.re.Valid ∧ w.im.Valid)
    (ht : Returns (z.sub w) t) :
    (MixedCmp.beq t MixedZero.zero = true → MixedCmp.beq z w = true) ∧
    (z.re.IsFinite → z.im.IsFinite → w.re.IsFinite → w.im.IsFinite → MixedCmp.beq z w = true → MixedCmp.beq t MixedZero.zero = true) := by
  obtain ⟨x, y⟩ := z; obtain ⟨x', y'⟩ := w
  have e : t = ⟨x.sub x', y.sub y'⟩ := (returns_pure.mp ht).symm
  subst e
  have key : ∀ {x y : Flt f}, x.Valid → y.Valid → x.IsFinite → y.IsFinite →
      ((x.sub y).beq (.fin false 0) = true ↔ x.beq y = true) := by
    intro x y h1 h2 h3 h4
    have k1 := Flt.is_of_finite h3 h1
    have k2 := Flt.is_of_finite h4 h2
    rw [k1.sub_zero_iff hp k2, k1.beq k2, decide_eq_true_eq]
  simp only [MixedCmp.beq, Bool.and_eq_true]
  constructor
  · rintro ⟨h1, h2⟩
    have f1 := Flt.sub_zero_finite h1
    have f2 := Flt.sub_zero_finite h2
    exact ⟨(key hz.1 hw.1 f1.1 f1.2).mp h1, (key hz.2 hw.2 f2.1 f2.2).mp h2⟩
  · rintro f1 f2 f3 f4 ⟨h1, h2⟩
    exact ⟨(key hz.1 hw.1 f1 f3).mpr h1, (key hz.2 hw.2 f2 f4).mpr h2⟩

/-- On infinities it is not: they equal themselves, but their difference is NaN. -/
example : Returns (Cartesian.sub ⟨.inf false, .fin false 0⟩ ⟨.inf false, .fin false 0⟩ : Prog (Cartesian (Flt F32))) ⟨.nan, .fin false 0⟩ ∧
    MixedCmp.beq (⟨.inf false, .fin false 0⟩ : Cartesian (Flt F32)) ⟨.inf false, .fin false 0⟩ = true :=
  ⟨.of_eq (congrArg (pure : Cartesian (Flt F32) → Prog _) (by decide +kernel)), by decide +kernel⟩

/-- The least subnormal and its double differ by the least subnormal, not by zero. -/
example : Returns (Cartesian.sub ⟨.fin false (2 / 2 ^ 149), .fin false 0⟩ ⟨.fin false (1 / 2 ^ 149), .fin false 0⟩ : Prog (Cartesian (Flt F32)))
    ⟨.fin false (1 / 2 ^ 149), .fin false 0⟩ :=
  .of_eq (congrArg (pure : Cartesian (Flt F32) → Prog _) (by decide +kernel))

/-- Two numbers whose difference is no larger than either (they have the same sign and are within a factor of two). -/
def Nearby (x y : Flt f) : Prop := |x.val - y.val| ≤ |x.val| ∧ |x.val - y.val| ≤ |y.val|

theorem Flt.sub_nearby (hf : f.Wide) {x y : Flt f} (hx : x.IsFinite ∧ x.Valid) (hy : y.IsFinite ∧ y.Valid) (h : Nearby x y) :
    (x.sub y).IsFinite ∧ (x.sub y).val = x.val - y.val ∧ ((x.sub y).add y).IsFinite ∧ ((x.sub y).add y).val = x.val := by
  have k1 := Flt.is_of_finite hx.1 hx.2
  have k2 := Flt.is_of_finite hy.1 hy.2
  have hr := Flt.rep_sub k1.rep k2.rep h.1 h.2
  have e := rnd_rep hr
  have d := k1.sub hf.one_le k2 (by rw [e]; exact h.1.trans_lt k1.lt_max)
  rw [e] at d
  have e' := rnd_rep (p := f.p) (emin := f.emin) (q := x.val - y.val + y.val) (by rw [sub_add_cancel]; exact k1.rep)
  have d' := d.add hf.one_le k2 (by rw [e', sub_add_cancel]; exact k1.lt_max)
  rw [e', sub_add_cancel] at d'
  exact ⟨d.fin, d.val, d'.fin, d'.val⟩

/-- C143, floats: the difference of numbers within a factor of two of one another is exact, and adding the second again gives the
first. -/
theorem C143_float_nearby (hf : f.Wide) (z w : Cartesian (Flt f)) (h1 : z.re.IsFinite ∧ z.re.Valid) (h2 : z.im.IsFinite ∧ z.im.Valid)
    (h3 : w.re.IsFinite ∧ w.re.Valid) (h4 : w.im.IsFinite ∧ w.im.Valid) (h5 : Nearby z.re w.re) (h6 : Nearby z.im w.im) :
    ∃ t r, Returns (z.sub w) t ∧ t.re.val = z.re.val - w.re.val ∧ t.im.val = z.im.val - w.im.val ∧
      Returns (t.add w) r ∧ r.re.val = z.re.val ∧ r.im.val = z.im.val ∧
      t.re.IsFinite ∧ t.im.IsFinite ∧ r.re.IsFinite ∧ r.im.IsFinite := by
  obtain ⟨a1, a2, a3, a4⟩ := Flt.sub_nearby hf h1 h3 h5
  obtain ⟨b1, b2, b3, b4⟩ := Flt.sub_nearby hf h2 h4 h6
  exact ⟨_, _, .of_eq rfl, a2, b2, .of_eq rfl, a4, b4, a1, b1, a3, b3⟩

/-- A case: 1.5 and 1 are nearby. -/
example : Nearby (.fin false (3 / 2) : Flt F32) (.fin false 1) := by constructor <;> norm_num [Flt.val, abs_le]

/-- One part of `(z + w) - w`. -/
theorem Flt.add_sub_near (hf : f.Wide) {x y : Flt f} (hx : x.IsFinite ∧ x.Valid) (hy : y.IsFinite ∧ y.Valid)
    (h1 : (x.add y).IsFinite) (h2 : ((x.add y).sub y).IsFinite) :
    |((x.add y).sub y).val - x.val| ≤ 2 ^ (-(f.p:ℤ)) * (3 * |x.val| + 2 * |y.val|) := by
  have k1 := Flt.is_of_finite hx.1 hx.2
  have k2 := Flt.is_of_finite hy.1 hy.2
  obtain ⟨a, ha, -, ea⟩ := k1.add_err hf k2 h1
  obtain ⟨b, hb, -, eb⟩ := ha.sub_err hf k2 h2
  rw [hb.val]
  have u0 : (0:ℚ) < 2 ^ (-(f.p:ℤ)) := two_zpow_pos _
  have u1 : (2:ℚ) ^ (-(f.p:ℤ)) ≤ 1 := by
    rw [show (1:ℚ) = 2 ^ (0:ℤ) by simp]; exact two_zpow_le (by omega)
  have t1 : |a - y.val| ≤ |x.val| + |a - (x.val + y.val)| := by
    rw [show a - y.val = x.val + (a - (x.val + y.val)) by ring]; exact abs_add_le _ _
  have t2 : |b - x.val| ≤ |b - (a - y.val)| + |a - (x.val + y.val)| := by
    rw [show b - x.val = (b - (a - y.val)) + (a - (x.val + y.val)) by ring]; exact abs_add_le _ _
  have t3 := abs_add_le x.val y.val
  set u := (2:ℚ) ^ (-(f.p:ℤ))
  have s1 : |a - (x.val + y.val)| ≤ u * (|x.val| + |y.val|) := ea.trans (mul_le_mul_of_nonneg_left t3 u0.le)
  have s2 : |b - (a - y.val)| ≤ u * (|x.val| + (|x.val| + |y.val|)) := by
    refine eb.trans (mul_le_mul_of_nonneg_left (t1.trans (add_le_add_right (s1.trans ?_) _)) u0.le)
    exact mul_le_of_le_one_left (by positivity) u1
  linarith

/-- C143, floats: `(z + w) - w` is `z` within `2^-p` of three times `z` and twice `w`, part by part. -/
theorem C143_float_add (hf : f.Wide) (z w t r : Cartesian (Flt f)) (h1 : z.re.IsFinite ∧ z.re.Valid) (h2 : z.im.IsFinite ∧ z.im.Valid)
    (h3 : w.re.IsFinite ∧ w.re.Valid) (h4 : w.im.IsFinite ∧ w.im.Valid) (ht : Returns (z.add w) t) (hr : Returns (t.sub w) r)
    (h5 : t.re.IsFinite ∧ t.im.IsFinite) (h6 : r.re.IsFinite ∧ r.im.IsFinite) :
    |r.re.val - z.re.val| ≤ 2 ^ (-(f.p:ℤ)) * (3 * |z.re.val| + 2 * |w.re.val|) ∧
    |r.im.val - z.im.val| ≤ 2 ^ (-(f.p:ℤ)) * (3 * |z.im.val| + 2 * |w.im.val|) := by
  obtain ⟨x, y⟩ := z; obtain ⟨x', y'⟩ := w
  have e : t = ⟨x.add x', y.add y'⟩ := (returns_pure.mp ht).symm
  subst e
  have e : r = ⟨(x.add x').sub x', (y.add y').sub y'⟩ := (returns_pure.mp hr).symm
  subst e
  exact ⟨Flt.add_sub_near hf h1 h3 h5.1 h6.1, Flt.add_sub_near hf h2 h4 h5.2 h6.2⟩

example := C143_float_add (f := F32) ⟨by decide, by decide, by decide, by decide, by decide⟩ ⟨.fin false 3, .fin true 4⟩ ⟨.fin true 4, .fin false 3⟩ ⟨.fin true 1, .fin true 1⟩ ⟨.fin false 3, .fin true 4⟩
  ⟨⟨_, _, rfl⟩, ⟨3, 0, by decide, by decide, by norm_num [pow2_eq], by norm_num⟩⟩ ⟨⟨_, _, rfl⟩, ⟨4, 0, by decide, by decide, by norm_num [pow2_eq], by norm_num⟩⟩ ⟨⟨_, _, rfl⟩, ⟨4, 0, by decide, by decide, by norm_num [pow2_eq], by norm_num⟩⟩ ⟨⟨_, _, rfl⟩, ⟨3, 0, by decide, by decide, by norm_num [pow2_eq], by norm_num⟩⟩ (by run 10) (by run 10) ⟨⟨_, _, rfl⟩, _, _, rfl⟩ ⟨⟨_, _, rfl⟩, _, _, rfl⟩

/-- It need not be `z`: `(1 + 2^24) - 2^24` is 0 in `f32`. -/
theorem C143_float_lossy : let c : ℚ → Cartesian (Flt F32) := fun q => ⟨.fin false q, .fin false 0⟩
    Returns ((c 1).add (c (2 ^ 24))) (c (2 ^ 24)) ∧ Returns ((c (2 ^ 24)).sub (c (2 ^ 24))) (c 0) := by
  intro c
  exact ⟨.of_eq (congrArg (pure : Cartesian (Flt F32) → Prog _) (by decide +kernel)),
    .of_eq (congrArg (pure : Cartesian (Flt F32) → Prog _) (by decide +kernel))⟩

end MixedNum
