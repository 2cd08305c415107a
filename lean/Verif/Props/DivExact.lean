import Verif.Lemmas.SqrtFixed
import Verif.Props.FixedComplex
/-! # C113: complex division on integers and fixed point, exactly

Division reads only the real part `c` of the divisor (C07), so the quotient is that by `c + ci`: its parts are `(a+b)/(2c)`
and `(b-a)/(2c)`. -/

namespace MixedNum
variable {m : Mode} {s : Bool} {W F : ℕ}

namespace PInt

theorem sq_eq (x : PInt m s W) : MixedPowi.powi x 2 = fit (x.val * x.val) := by
  show powi x (usizeOfI32 2) = _
  have e : usizeOfI32 2 = 2 := by decide
  rw [e, powi, if_neg (by norm_num), powiLoop]
  show (do let t ← NumOps.mul x x; powiLoop x 0 t) = _
  rw [mul_def]
  simp only [powiLoop, bind_pure]

end PInt

theorem tdiv_cancel (x : ℤ) {c : ℤ} (hc : c ≠ 0) : (x * c).tdiv (c * c + c * c) = x.tdiv (2 * c) := by
  rcases lt_or_gt_of_ne hc with h | h
  · rw [show x * c = -x * -c by ring, show c * c + c * c = -(2 * c) * -c by ring,
      Int.mul_tdiv_mul_of_pos_left _ _ (by omega), Int.neg_tdiv, Int.tdiv_neg, neg_neg]
  · rw [show c * c + c * c = 2 * c * c by ring, Int.mul_tdiv_mul_of_pos_left _ _ h]

theorem abs_tdiv_le (x d : ℤ) : |x.tdiv d| ≤ |x| := by
  rw [Int.abs_eq_natAbs, Int.abs_eq_natAbs, Int.natAbs_tdiv]
  exact_mod_cast Nat.div_le_self _ _

/-- Dividing by something other than a unit stays in range. -/
theorem fits_tdiv {x d : ℤ} (hx : Fits s W x) (hd : 2 ≤ d) : Fits s W (x.tdiv d) := by
  rcases le_total 0 x with h | h
  · refine (fits_zero s W).between hx (Int.tdiv_nonneg h (by omega)) ?_
    rw [Int.tdiv_eq_ediv_of_nonneg h]; exact Int.ediv_le_self _ h
  · refine hx.between (fits_zero s W) ?_ (by
      have := Int.tdiv_nonneg (a := -x) (b := d) (by omega) (by omega)
      rw [Int.neg_tdiv] at this; omega)
    have := abs_tdiv_le x d
    rw [abs_of_nonpos h] at this
    have := neg_abs_le (x.tdiv d)
    omega

/-! ## Integers -/

/-- C113, integers with overflow checks. -/
theorem C113_int_checked (z w : Cartesian (PInt .checked s W)) :
    let a := z.re.val
    let b := z.im.val
    let c := w.re.val
    let P := InRange s W (a * c) ∧ InRange s W (b * c) ∧ InRange s W (a * c + b * c) ∧ InRange s W (c * c) ∧
      InRange s W (c * c + c * c) ∧ InRange s W (b * c - a * c)
    (c = 0 → Panics (z.div w) .divByZero) ∧
    (c ≠ 0 → P → ∃ q, Returns (z.div w) q ∧ q.re.val = (a + b).tdiv (2 * c) ∧ q.im.val = (b - a).tdiv (2 * c)) ∧
    (¬ P → Panics (z.div w) .overflow) := by
  intro a b c P
  have run : z.div w = (do
      let p1 ← (PInt.fit (a * c) : Prog (PInt .checked s W))
      let p2 ← (PInt.fit (b * c) : Prog (PInt .checked s W))
      let p3 ← (PInt.fit (p1.val + p2.val) : Prog (PInt .checked s W))
      let p4 ← (PInt.fit (c * c) : Prog (PInt .checked s W))
      let p5 ← (PInt.fit (c * c) : Prog (PInt .checked s W))
      let p6 ← (PInt.fit (p4.val + p5.val) : Prog (PInt .checked s W))
      let re ← NumOps.div p3 p6
      let p1 ← (PInt.fit (b * c) : Prog (PInt .checked s W))
      let p2 ← (PInt.fit (a * c) : Prog (PInt .checked s W))
      let p3 ← (PInt.fit (p1.val - p2.val) : Prog (PInt .checked s W))
      let p4 ← (PInt.fit (c * c) : Prog (PInt .checked s W))
      let p5 ← (PInt.fit (c * c) : Prog (PInt .checked s W))
      let p6 ← (PInt.fit (p4.val + p5.val) : Prog (PInt .checked s W))
      let im ← NumOps.div p3 p6
      pure ⟨re, im⟩) := by
    simp only [Cartesian.div, PInt.sq_eq, PInt.mul_def, PInt.add_def, PInt.sub_def]; rfl
  have hcc : c ≠ 0 → 2 ≤ c * c + c * c := by
    intro hc; have := mul_self_pos.mpr hc; omega
  simp only [P, inRange_iff]
  rw [run]
  refine ⟨fun hc => .of_eq ?_, fun hc h => ?_, fun h => .of_eq ?_⟩
  · have f0 := fits_zero s W
    simp only [hc, mul_zero]
    simp only [PInt.fit_of_fits f0, pure_bind, PInt.mkv_val, add_zero, PInt.div_def, if_true, Prog.fail_bind]
  · obtain ⟨h1, h2, h3, h4, h5, h6⟩ := h
    have hd := hcc hc
    have d1 : ∀ x : PInt .checked s W, ∀ h : Fits s W (x.val.tdiv (c * c + c * c)),
        NumOps.div x (PInt.mkv (c * c + c * c) h5) = pure (PInt.mkv _ h) := by
      intro x h
      rw [PInt.div_def, if_neg (by rw [PInt.mkv_val]; omega), dif_pos (by rw [PInt.mkv_val]; exact h)]; rfl
    refine ⟨⟨PInt.mkv _ (fits_tdiv h3 hd), PInt.mkv _ (fits_tdiv h6 hd)⟩, .of_eq ?_, ?_, ?_⟩
    · simp only [PInt.fit_of_fits h1, PInt.fit_of_fits h2, PInt.fit_of_fits h4, pure_bind, PInt.mkv_val,
        PInt.fit_of_fits h3, PInt.fit_of_fits h5, PInt.fit_of_fits h6]
      rw [d1 (PInt.mkv _ h3) (fits_tdiv h3 hd), pure_bind, d1 (PInt.mkv _ h6) (fits_tdiv h6 hd), pure_bind]
      rfl
    · rw [PInt.mkv_val, ← add_mul, tdiv_cancel _ hc]
    · rw [PInt.mkv_val, ← sub_mul, tdiv_cancel _ hc]
  · by_cases h1 : Fits s W (a * c)
    swap; · rw [PInt.fit_checked h1, Prog.fail_bind]
    by_cases h2 : Fits s W (b * c)
    swap; · rw [PInt.fit_of_fits h1, pure_bind, PInt.fit_checked h2, Prog.fail_bind]
    rw [PInt.fit_of_fits h1, PInt.fit_of_fits h2, pure_bind, pure_bind, PInt.mkv_val, PInt.mkv_val]
    by_cases h3 : Fits s W (a * c + b * c)
    swap; · rw [PInt.fit_checked h3, Prog.fail_bind]
    rw [PInt.fit_of_fits h3, pure_bind]
    by_cases h4 : Fits s W (c * c)
    swap; · rw [PInt.fit_checked h4, Prog.fail_bind]
    rw [PInt.fit_of_fits h4]
    simp only [pure_bind, PInt.mkv_val]
    by_cases h5 : Fits s W (c * c + c * c)
    swap; · rw [PInt.fit_checked h5, Prog.fail_bind]
    have hc : c ≠ 0 := by
      rintro hc
      refine h ⟨h1, h2, h3, h4, h5, ?_⟩
      rw [hc, mul_zero, mul_zero, sub_zero]; exact fits_zero s W
    have hd := hcc hc
    rw [PInt.fit_of_fits h5, pure_bind, PInt.div_def, if_neg (by rw [PInt.mkv_val]; omega),
      dif_pos (by rw [PInt.mkv_val, PInt.mkv_val]; exact fits_tdiv h3 hd), pure_bind]
    by_cases h6 : Fits s W (b * c - a * c)
    swap; · rw [PInt.fit_checked h6, Prog.fail_bind]
    exact absurd ⟨h1, h2, h3, h4, h5, h6⟩ h

theorem fits_tdiv_neg {x d : ℤ} (hx : Fits true W x) (hd : d ≤ -2) : Fits true W (x.tdiv d) := by
  have h1 := abs_tdiv_le x d
  have h2 : 2 * |x.tdiv d| ≤ |x| := by
    have := Int.tdiv_mul_add_tmod x d
    rw [Int.abs_eq_natAbs, Int.abs_eq_natAbs, Int.natAbs_tdiv]
    have : 2 * (x.natAbs / d.natAbs) ≤ x.natAbs := by
      calc 2 * (x.natAbs / d.natAbs) ≤ d.natAbs * (x.natAbs / d.natAbs) := Nat.mul_le_mul_right _ (by omega)
        _ ≤ x.natAbs := Nat.mul_div_le _ _
    exact_mod_cast this
  have hP : (0:ℤ) < 2 ^ (W - 1) := by positivity
  have hx : -(2 ^ (W - 1)) ≤ x ∧ x < 2 ^ (W - 1) := hx
  show -(2 ^ (W - 1)) ≤ x.tdiv d ∧ x.tdiv d < 2 ^ (W - 1)
  have h3 : |x| ≤ 2 ^ (W - 1) := abs_le.mpr ⟨hx.1, hx.2.le⟩
  have h4 := le_abs_self (x.tdiv d)
  have h5 := neg_abs_le (x.tdiv d)
  have h6 := abs_nonneg (x.tdiv d)
  constructor <;> omega

/-- C113, integers without overflow checks: a divisor whose doubled square is a multiple of `2^W` panics although it is not
zero; otherwise the numerators and the denominator are reduced before the division. -/
theorem C113_int_wrapping (hW : 0 < W) (z w : Cartesian (PInt .wrapping s W)) :
    let a := z.re.val
    let b := z.im.val
    let c := w.re.val
    ((2:ℤ) ^ W ∣ 2 * c ^ 2 → Panics (z.div w) .divByZero) ∧
    (¬ (2:ℤ) ^ W ∣ 2 * c ^ 2 → ∃ q n n' d, Returns (z.div w) q ∧ IsReduction s W ((a + b) * c) n ∧
      IsReduction s W ((b - a) * c) n' ∧ IsReduction s W (2 * c ^ 2) d ∧ q.re.val = n.tdiv d ∧ q.im.val = n'.tdiv d) := by
  intro a b c
  set A := wrapInt s W (a * c) with hA
  set B := wrapInt s W (b * c) with hB
  set C := wrapInt s W (c * c) with hC
  set n := wrapInt s W (A + B) with hn
  set n' := wrapInt s W (B - A) with hn'
  set d := wrapInt s W (C + C) with hd
  have eA := wrapInt_modEq (s := s) hW (a * c)
  have eB := wrapInt_modEq (s := s) hW (b * c)
  have eC := wrapInt_modEq (s := s) hW (c * c)
  have en : n ≡ (a + b) * c [ZMOD 2 ^ W] := by
    rw [add_mul]; exact (wrapInt_modEq hW _).trans (eA.add eB)
  have en' : n' ≡ (b - a) * c [ZMOD 2 ^ W] := by
    rw [sub_mul]; exact (wrapInt_modEq hW _).trans (eB.sub eA)
  have ed : d ≡ 2 * c ^ 2 [ZMOD 2 ^ W] := by
    rw [show 2 * c ^ 2 = c * c + c * c by ring]; exact (wrapInt_modEq hW _).trans (eC.add eC)
  have run : z.div w = (do
      let re ← NumOps.div (PInt.mkv n (fits_wrapInt ..)) (PInt.mkv d (fits_wrapInt ..))
      let im ← NumOps.div (PInt.mkv n' (fits_wrapInt ..)) (PInt.mkv d (fits_wrapInt ..))
      pure ⟨re, im⟩) := by
    simp only [Cartesian.div, PInt.sq_eq, PInt.mul_def, PInt.add_def, PInt.sub_def, PInt.fit_wrapping, pure_bind, PInt.mkv_val]
    rfl
  have fd : Fits s W d := fits_wrapInt _ _ _
  have key : d = 0 ↔ (2:ℤ) ^ W ∣ 2 * c ^ 2 := by
    constructor
    · intro h; rw [h] at ed; exact Int.modEq_zero_iff_dvd.mp ed.symm
    · intro h; exact eq_of_modEq_of_fits hW fd (fits_zero s W) (ed.trans (Int.modEq_zero_iff_dvd.mpr h))
  rw [run]
  refine ⟨fun h => .of_eq ?_, fun h => ?_⟩
  · rw [PInt.div_def, if_pos (by rw [PInt.mkv_val]; exact key.mpr h), Prog.fail_bind]
  · have d0 : d ≠ 0 := fun h' => h (key.mp h')
    have d2 : (2:ℤ) ∣ d := by
      have : d ≡ 2 * c ^ 2 [ZMOD 2] := ed.of_dvd (dvd_pow_self 2 (by omega))
      exact Int.modEq_zero_iff_dvd.mp (this.trans (Int.modEq_zero_iff_dvd.mpr (Dvd.intro _ rfl)))
    have hfit : ∀ x, Fits s W x → Fits s W (x.tdiv d) := by
      intro x hx
      rcases lt_or_gt_of_ne d0 with h0 | h0
      · cases s
        · exact absurd fd.1 (by show ¬ (0 ≤ d); omega)
        · exact fits_tdiv_neg hx (by omega)
      · exact fits_tdiv hx (by omega)
    have d1 : ∀ x : PInt .wrapping s W, ∀ h : Fits s W (x.val.tdiv d),
        NumOps.div x (PInt.mkv d fd) = pure (PInt.mkv _ h) := by
      intro x h
      rw [PInt.div_def, if_neg (by rw [PInt.mkv_val]; exact d0), dif_pos (by rw [PInt.mkv_val]; exact h)]; rfl
    have fn : Fits s W n := fits_wrapInt _ _ _
    have fn' : Fits s W n' := fits_wrapInt _ _ _
    refine ⟨⟨PInt.mkv _ (hfit n fn), PInt.mkv _ (hfit n' fn')⟩, n, n', d, .of_eq ?_, ⟨inRange_iff.mpr fn, en⟩,
      ⟨inRange_iff.mpr fn', en'⟩, ⟨inRange_iff.mpr fd, ed⟩, rfl, rfl⟩
    rw [d1 (PInt.mkv n fn) (hfit n fn), pure_bind, d1 (PInt.mkv n' fn') (hfit n' fn'), pure_bind]
    rfl

/-- C113: in release builds dividing by 65536 on `i32` is a division by zero. -/
example (z : Cartesian (PInt .wrapping true 32)) : Panics (z.div ⟨i _ _ _ 65536, i _ _ _ 0⟩) .divByZero :=
  (C113_int_wrapping (by norm_num) z ⟨i _ _ _ 65536, i _ _ _ 0⟩).1 (by decide)

example : ∃ q, Returns (Cartesian.div ⟨i .checked true 8 7, i _ _ _ (-20)⟩ ⟨i _ _ _ (-3), i _ _ _ 5⟩) q ∧
    q.re.val = 2 ∧ q.im.val = 4 :=
  (C113_int_checked ⟨i .checked true 8 7, i _ _ _ (-20)⟩ ⟨i _ _ _ (-3), i _ _ _ 5⟩).2.1 (by decide) (by decide)

/-! ## Fixed point -/

/-- C113, fixed point with overflow checks: which arguments return, and with what. -/
theorem C113_fixed_checked (z w : Cartesian (Fixed .checked s W F)) :
    let ac := z.re.val * w.re.val / 2 ^ F
    let bc := z.im.val * w.re.val / 2 ^ F
    let cc := w.re.val * w.re.val / 2 ^ F
    let P := InRange s W ac ∧ InRange s W bc ∧ InRange s W (ac + bc) ∧ InRange s W cc ∧ InRange s W (2 * cc)
    let Q := InRange s W (((ac + bc) * 2 ^ F).tdiv (2 * cc)) ∧ InRange s W (bc - ac) ∧
      InRange s W (((bc - ac) * 2 ^ F).tdiv (2 * cc))
    (¬ P → Panics (z.div w) .overflow) ∧
    (P → cc = 0 → Panics (z.div w) .divByZero) ∧
    (P → cc ≠ 0 → ¬ Q → Panics (z.div w) .overflow) ∧
    (P → cc ≠ 0 → Q → ∃ q, Returns (z.div w) q ∧ q.re.val = ((ac + bc) * 2 ^ F).tdiv (2 * cc) ∧
      q.im.val = ((bc - ac) * 2 ^ F).tdiv (2 * cc)) := by
  intro ac bc cc P Q
  have run : z.div w = (do
      let p1 ← (Fixed.fit ac : Prog (Fixed .checked s W F))
      let p2 ← (Fixed.fit bc : Prog (Fixed .checked s W F))
      let p3 ← (Fixed.fit (p1.val + p2.val) : Prog (Fixed .checked s W F))
      let p4 ← (Fixed.fit cc : Prog (Fixed .checked s W F))
      let p5 ← (Fixed.fit cc : Prog (Fixed .checked s W F))
      let p6 ← (Fixed.fit (p4.val + p5.val) : Prog (Fixed .checked s W F))
      let re ← NumOps.div p3 p6
      let p1 ← (Fixed.fit bc : Prog (Fixed .checked s W F))
      let p2 ← (Fixed.fit ac : Prog (Fixed .checked s W F))
      let p3 ← (Fixed.fit (p1.val - p2.val) : Prog (Fixed .checked s W F))
      let p4 ← (Fixed.fit cc : Prog (Fixed .checked s W F))
      let p5 ← (Fixed.fit cc : Prog (Fixed .checked s W F))
      let p6 ← (Fixed.fit (p4.val + p5.val) : Prog (Fixed .checked s W F))
      let im ← NumOps.div p3 p6
      pure ⟨re, im⟩) := by
    simp only [Cartesian.div, Fixed.sq_eq, Fixed.mul_def, Fixed.add_def, Fixed.sub_def]; rfl
  simp only [P, Q, inRange_iff, two_mul]
  rw [run]
  have pre : Fits s W ac → Fits s W bc → Fits s W (ac + bc) → Fits s W cc → Fits s W (cc + cc) → ∀ e,
      (cc = 0 → e = Prog.fail .divByZero) →
      (cc ≠ 0 → (do
        let re ← (Fixed.fit (((ac + bc) * 2 ^ F).tdiv (cc + cc)) : Prog (Fixed .checked s W F))
        let p3 ← (Fixed.fit (bc - ac) : Prog (Fixed .checked s W F))
        let im ← (Fixed.fit ((p3.val * 2 ^ F).tdiv (cc + cc)) : Prog (Fixed .checked s W F))
        pure (⟨re, im⟩ : Cartesian (Fixed .checked s W F))) = e) → z.div w = e := by
    intro h1 h2 h3 h4 h5 e e0 e1
    have dv : ∀ x : Fixed .checked s W F, NumOps.div x (Fixed.mkv (cc + cc) h5) =
        if cc = 0 then Prog.fail .divByZero else Fixed.fit ((x.val * 2 ^ F).tdiv (cc + cc)) := by
      intro x
      rw [Fixed.div_def, Fixed.mkv_val]
      by_cases hc : cc = 0
      · rw [if_pos hc, if_pos (by omega)]
      · rw [if_neg hc, if_neg (by omega)]
    rw [run]
    simp only [Fixed.fit_of_fits h1, Fixed.fit_of_fits h2, Fixed.fit_of_fits h4, pure_bind, Fixed.mkv_val,
      Fixed.fit_of_fits h3, Fixed.fit_of_fits h5, dv]
    by_cases hc : cc = 0
    · rw [if_pos hc, Prog.fail_bind, e0 hc]
    · simp only [if_neg hc]; exact e1 hc
  rw [← run]
  refine ⟨fun h => .of_eq ?_, fun ⟨h1, h2, h3, h4, h5⟩ hc => .of_eq ?_, fun ⟨h1, h2, h3, h4, h5⟩ hc h => .of_eq ?_,
    fun ⟨h1, h2, h3, h4, h5⟩ hc ⟨h6, h7, h8⟩ => ?_⟩
  · rw [run]
    by_cases h1 : Fits s W ac
    swap; · rw [Fixed.fit_checked h1, Prog.fail_bind]
    by_cases h2 : Fits s W bc
    swap; · rw [Fixed.fit_of_fits h1, pure_bind, Fixed.fit_checked h2, Prog.fail_bind]
    rw [Fixed.fit_of_fits h1, Fixed.fit_of_fits h2, pure_bind, pure_bind, Fixed.mkv_val, Fixed.mkv_val]
    by_cases h3 : Fits s W (ac + bc)
    swap; · rw [Fixed.fit_checked h3, Prog.fail_bind]
    rw [Fixed.fit_of_fits h3, pure_bind]
    by_cases h4 : Fits s W cc
    swap; · rw [Fixed.fit_checked h4, Prog.fail_bind]
    rw [Fixed.fit_of_fits h4]
    simp only [pure_bind, Fixed.mkv_val]
    by_cases h5 : Fits s W (cc + cc)
    swap; · rw [Fixed.fit_checked h5, Prog.fail_bind]
    exact absurd ⟨h1, h2, h3, h4, h5⟩ h
  · exact pre h1 h2 h3 h4 h5 _ (fun _ => rfl) (fun h => absurd hc h)
  · refine pre h1 h2 h3 h4 h5 _ (fun h => absurd h hc) (fun _ => ?_)
    by_cases h6 : Fits s W (((ac + bc) * 2 ^ F).tdiv (cc + cc))
    swap; · rw [Fixed.fit_checked h6, Prog.fail_bind]
    rw [Fixed.fit_of_fits h6, pure_bind]
    by_cases h7 : Fits s W (bc - ac)
    swap; · rw [Fixed.fit_checked h7, Prog.fail_bind]
    rw [Fixed.fit_of_fits h7, pure_bind, Fixed.mkv_val]
    by_cases h8 : Fits s W (((bc - ac) * 2 ^ F).tdiv (cc + cc))
    swap; · rw [Fixed.fit_checked h8, Prog.fail_bind]
    exact absurd ⟨h6, h7, h8⟩ h
  · refine ⟨⟨Fixed.mkv _ h6, Fixed.mkv _ h8⟩, .of_eq (pre h1 h2 h3 h4 h5 _ (fun h => absurd h hc) (fun _ => ?_)), rfl, rfl⟩
    rw [Fixed.fit_of_fits h6, pure_bind, Fixed.fit_of_fits h7, pure_bind, Fixed.mkv_val, Fixed.fit_of_fits h8, pure_bind]

theorem tdiv_close (n : ℤ) {d : ℤ} (hd : 0 < d) : |((n.tdiv d : ℤ) : ℝ) - n / d| < 1 := by
  have hd' : (0:ℝ) < d := by exact_mod_cast hd
  have h := Int.tmod_add_mul_tdiv n d
  have h1 : |n.tmod d| < d := by
    have := Int.natAbs_tmod n d
    rw [Int.abs_eq_natAbs]
    have h2 : n.natAbs % d.natAbs < d.natAbs := Nat.mod_lt _ (by omega)
    omega
  have h' : (n:ℝ) = (n.tmod d : ℤ) + d * (n.tdiv d : ℤ) := by exact_mod_cast h.symm
  have e : ((n.tdiv d : ℤ) : ℝ) - n / d = -((n.tmod d : ℤ) : ℝ) / d := by
    rw [h']; field_simp; ring
  rw [e, abs_div, abs_neg, abs_of_pos hd', div_lt_one hd']
  exact_mod_cast h1

/-- C113, fixed point with overflow checks: where division returns, each part is close to the quotient by `c + ci`. -/
theorem C113_fixed_accuracy (z w q : Cartesian (Fixed .checked s W F)) (h : Returns (z.div w) q) :
    1 / 2 ^ F ≤ w.re.r ^ 2 ∧
    |q.re.r - (z.re.r + z.im.r) / (2 * w.re.r)| ≤
      (1 + 2 * (1 + |(z.re.r + z.im.r) / (2 * w.re.r)|) / w.re.r ^ 2) / 2 ^ F ∧
    |q.im.r - (z.im.r - z.re.r) / (2 * w.re.r)| ≤
      (1 + 2 * (1 + |(z.im.r - z.re.r) / (2 * w.re.r)|) / w.re.r ^ 2) / 2 ^ F := by
  obtain ⟨k1, k2, k3, k4⟩ := C113_fixed_checked z w
  set ac := z.re.val * w.re.val / 2 ^ F with hac
  set bc := z.im.val * w.re.val / 2 ^ F with hbc
  set cc := w.re.val * w.re.val / 2 ^ F with hcc
  have hP : (0:ℤ) < 2 ^ F := by positivity
  have hp : (0:ℝ) < 2 ^ F := by positivity
  have hP' := not_imp_comm.mp k1 (fun hh => h.not_panics hh)
  have hc : cc ≠ 0 := fun hc => h.not_panics (k2 hP' hc)
  have hQ := not_imp_comm.mp (k3 hP' hc) (fun hh => h.not_panics hh)
  obtain ⟨q', hq', e1, e2⟩ := k4 hP' hc hQ
  obtain rfl := h.unique hq'
  have cpos : 0 < cc := lt_of_le_of_ne (Int.ediv_nonneg (mul_self_nonneg _) hP.le) (Ne.symm hc)
  have fa := floor_real (F := F) (z.re.val * w.re.val)
  have fb := floor_real (F := F) (z.im.val * w.re.val)
  have fc := floor_real (F := F) (w.re.val * w.re.val)
  rw [← hac] at fa; rw [← hbc] at fb; rw [← hcc] at fc
  have c1 : (1:ℝ) ≤ cc := by exact_mod_cast cpos
  push_cast at fa fb fc
  have er : ∀ x : Fixed .checked s W F, (x.val : ℝ) = x.r * 2 ^ F := fun x => by
    show (x.val : ℝ) = x.val / 2 ^ F * 2 ^ F; field_simp
  rw [er z.re, er w.re] at fa
  rw [er z.im, er w.re] at fb
  rw [er w.re] at fc
  have ea : z.re.r * 2 ^ F * (w.re.r * 2 ^ F) / 2 ^ F = z.re.r * w.re.r * 2 ^ F := by field_simp
  have eb : z.im.r * 2 ^ F * (w.re.r * 2 ^ F) / 2 ^ F = z.im.r * w.re.r * 2 ^ F := by field_simp
  have ec : w.re.r * 2 ^ F * (w.re.r * 2 ^ F) / 2 ^ F = w.re.r ^ 2 * 2 ^ F := by field_simp
  rw [ea] at fa; rw [eb] at fb; rw [ec] at fc
  have hsq : 1 / 2 ^ F ≤ w.re.r ^ 2 := by
    rw [div_le_iff₀ hp]; linarith
  have hw : w.re.r ≠ 0 := by
    intro h0; rw [h0] at hsq
    have : (0:ℝ) < 1 / 2 ^ F := by positivity
    norm_num at hsq; linarith
  -- the common argument for both parts
  have key : ∀ (N : ℤ) (x y : ℝ), y = 2 * w.re.r ^ 2 * x → |(N:ℝ) - y * 2 ^ F| ≤ 2 →
      |((((N * 2 ^ F).tdiv (2 * cc) : ℤ) : ℝ)) / 2 ^ F - x| ≤ (1 + 2 * (1 + |x|) / w.re.r ^ 2) / 2 ^ F := by
    intro N x y hy hN
    have t := tdiv_close (N * 2 ^ F) (d := 2 * cc) (by omega)
    push_cast at t
    set T := (((N * 2 ^ F).tdiv (2 * cc) : ℤ) : ℝ)
    have hw2 : 0 < w.re.r ^ 2 := by positivity
    have hcc2 : w.re.r ^ 2 * 2 ^ F ≤ 2 * cc := by linarith
    have hx0 := abs_nonneg x
    have g : |(N:ℝ) * 2 ^ F / (2 * cc) - x * 2 ^ F| ≤ 2 * (1 + |x|) / w.re.r ^ 2 := by
      have hd : (0:ℝ) < 2 * cc := by linarith
      have e : (N:ℝ) * 2 ^ F / (2 * cc) - x * 2 ^ F = (N - 2 * cc * x) * 2 ^ F / (2 * cc) := by field_simp
      rw [e, abs_div, abs_mul, abs_of_pos hd, abs_of_pos hp, div_le_div_iff₀ hd hw2]
      have h1 : |(N:ℝ) - 2 * cc * x| ≤ 2 * (1 + |x|) := by
        have e2 : (N:ℝ) - 2 * cc * x = (N - y * 2 ^ F) + 2 * x * (w.re.r ^ 2 * 2 ^ F - cc) := by rw [hy]; ring
        rw [e2]
        refine (abs_add_le _ _).trans ?_
        have : |2 * x * (w.re.r ^ 2 * 2 ^ F - cc)| ≤ 2 * |x| := by
          rw [abs_mul, abs_mul, abs_of_pos (by norm_num : (0:ℝ) < 2), abs_of_nonneg (by linarith : 0 ≤ w.re.r ^ 2 * 2 ^ F - cc)]
          have : w.re.r ^ 2 * 2 ^ F - cc ≤ 1 := by linarith
          nlinarith
        linarith
      calc |(N:ℝ) - 2 * cc * x| * 2 ^ F * w.re.r ^ 2 = |(N:ℝ) - 2 * cc * x| * (w.re.r ^ 2 * 2 ^ F) := by ring
        _ ≤ 2 * (1 + |x|) * (2 * cc) := mul_le_mul h1 hcc2 (by positivity) (by positivity)
    have e3 : T / 2 ^ F - x = ((T - N * 2 ^ F / (2 * cc)) + (N * 2 ^ F / (2 * cc) - x * 2 ^ F)) / 2 ^ F := by field_simp; ring
    rw [e3, abs_div, abs_of_pos hp]
    refine div_le_div_of_nonneg_right ((abs_add_le _ _).trans ?_) hp.le
    linarith
  refine ⟨hsq, ?_, ?_⟩
  · show |(q.re.val : ℝ) / 2 ^ F - _| ≤ _
    rw [e1]
    refine key _ _ ((z.re.r + z.im.r) * w.re.r) (by field_simp) ?_
    push_cast; rw [abs_le]; constructor <;> linarith
  · show |(q.im.val : ℝ) / 2 ^ F - _| ≤ _
    rw [e2]
    refine key _ _ ((z.im.r - z.re.r) * w.re.r) (by field_simp) ?_
    push_cast; rw [abs_le]; constructor <;> linarith

/-- C113: on `FixedI16<U8>` a divisor below 1/16 is treated as zero. -/
example : Panics (Cartesian.div ⟨fx .checked true 16 8 256, fx _ _ _ _ 0⟩ ⟨fx _ _ _ _ 15, fx _ _ _ _ 0⟩) .divByZero :=
  (C113_fixed_checked ⟨fx .checked true 16 8 256, fx _ _ _ _ 0⟩ ⟨fx _ _ _ _ 15, fx _ _ _ _ 0⟩).2.1 (by decide) (by decide)

example : ∃ q, Returns (Cartesian.div ⟨fx .checked true 16 8 300, fx _ _ _ _ 70⟩ ⟨fx _ _ _ _ 512, fx _ _ _ _ 1⟩) q ∧
    q.re.val = 92 ∧ q.im.val = -57 :=
  (C113_fixed_checked ⟨fx .checked true 16 8 300, fx _ _ _ _ 70⟩ ⟨fx _ _ _ _ 512, fx _ _ _ _ 1⟩).2.2.2 (by decide) (by decide)
    (by decide)

end MixedNum
