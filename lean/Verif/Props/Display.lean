import Verif.Lemmas.Text
import Verif.Props.Conv
import Verif.Lemmas.WrapInst
import Verif.Props.AddSub
import Verif.Lemmas.Run
/-! # C60–C62: formatting -/

namespace MixedNum
variable {m : Mode} {s : Bool} {W F : ℕ}

theorem PInt.lt_zero (x : PInt m s W) : MixedCmp.lt x MixedZero.zero = decide (x.val < 0) := rfl

/-- The absolute value computed by `write_complex!`, on integers. -/
theorem PInt.absPart_nonneg {x : PInt m s W} (h : 0 ≤ x.val) :
    (fmtAbs x : Prog (PInt m s W)) = pure x := by
  rw [fmtAbs, PInt.lt_zero, if_neg (by simpa using h)]

theorem PInt.absPart_neg {x : PInt m s W} (h : x.val < 0) :
    (fmtAbs x : Prog (PInt m s W)) =
      PInt.fit (-x.val) := by
  rw [fmtAbs, PInt.lt_zero, if_pos (by simpa using h), PInt.sub_def]; simp

theorem signed_of_neg {x : PInt m s W} (h : x.val < 0) : s = true := by
  cases s with
  | true => rfl
  | false => have := x.fits.1; simp [wlo] at this; omega

theorem fits_neg_of_ne_min {x : PInt m s W} (h : x.val < 0) (hm : x.val ≠ -(2 ^ (W - 1))) : Fits s W (-x.val) := by
  have hs := signed_of_neg h; subst hs
  have h1 := x.fits.1; have h2 := x.fits.2
  rw [show wlo true W = -(2 ^ (W - 1)) from rfl] at h1
  refine Fixed.fits_signed.mpr ⟨?_, ?_⟩ <;> have : (0:ℤ) < 2 ^ (W - 1) := by positivity
  all_goals omega

/-- Off the smallest signed value the absolute value is computed exactly. -/
theorem PInt.absPart {x : PInt m s W} (hm : x.val ≠ -(2 ^ (W - 1)) ∨ s = false) :
    ∃ a : PInt m s W, fmtAbs x = pure a ∧
      a.val = |x.val| := by
  by_cases h : x.val < 0
  · have hm : x.val ≠ -(2 ^ (W - 1)) := by
      rcases hm with hm | hm
      · exact hm
      · rw [signed_of_neg h] at hm; cases hm
    refine ⟨PInt.mkv _ (fits_neg_of_ne_min h hm), ?_, ?_⟩
    · rw [PInt.absPart_neg h, PInt.fit_of_fits (fits_neg_of_ne_min h hm)]
    · rw [PInt.mkv_val, abs_of_neg h]
  · push Not at h
    exact ⟨x, PInt.absPart_nonneg h, (abs_of_nonneg h).symm⟩

theorem not_fits_neg_min {x : PInt m true W} (h : x.val = -(2 ^ (W - 1))) : ¬ Fits true W (-x.val) := by
  rw [Fixed.fits_signed]; rintro ⟨_, h2⟩; omega

theorem PInt.absPart_cases (x : PInt m s W) :
    (∃ a : PInt m s W, fmtAbs x = pure a) ∨
    (fmtAbs x : Prog (PInt m s W)) =
      Prog.fail .overflow := by
  by_cases h : x.val < 0
  · rw [PInt.absPart_neg h]
    by_cases hf : Fits s W (-x.val)
    · exact .inl ⟨_, PInt.fit_of_fits hf⟩
    · cases m with
      | checked => exact .inr (PInt.fit_checked hf)
      | wrapping => exact .inl ⟨_, PInt.fit_wrapping _⟩
  · exact .inl ⟨_, PInt.absPart_nonneg (not_lt.mp h)⟩

theorem displayInt_inv {z : Cartesian (PInt m s W)} {t : List Char} (h : Returns (displayInt z) t) :
    ∃ a b : PInt m s W,
      Returns (fmtAbs z.re) a ∧
      Returns (fmtAbs z.im) b ∧
      t = fmtComplex true {} (fmtReIm {} [] (decide (z.re.val < 0)) (decide (z.im.val < 0)) (decimalInt a.val)
        (decimalInt b.val)) := by
  unfold displayInt writeComplex at h
  rcases PInt.absPart_cases z.re with ⟨a, ha⟩ | ha
  · rcases PInt.absPart_cases z.im with ⟨b, hb⟩ | hb
    · rw [ha, hb, pure_bind, pure_bind, returns_pure] at h
      exact ⟨a, b, .of_eq ha, .of_eq hb, h.symm⟩
    · rw [ha, hb, pure_bind, Prog.fail_bind] at h; exact absurd h returns_fail
  · rw [ha, Prog.fail_bind] at h; exact absurd h returns_fail

theorem writeComplex_of {α : Type} [MixedCmp α] [MixedZero α] [NumOps α] (std : Bool) (f : FmtSpec) (pre : List Char)
    (render : Option ℕ → α → List Char) (z : Cartesian α) (a b : α)
    (ha : fmtAbs z.re = pure a)
    (hb : fmtAbs z.im = pure b) :
    writeComplex std f pre render z = pure (fmtComplex std f (fmtReIm f pre (MixedCmp.lt z.re MixedZero.zero)
      (MixedCmp.lt z.im MixedZero.zero) (render f.precision a) (render f.precision b))) := by
  unfold writeComplex; rw [ha, hb]; rfl

theorem fmtReIm_layout (f : FmtSpec) (pre : List Char) (n n' : Bool) (a b : List Char) :
    fmtReIm f pre n n' a b = (layout f.signPlus n n' (if f.alternate then String.ofList pre else "") (String.ofList a)
      (String.ofList b)).toList := by
  unfold fmtReIm layout
  cases n <;> cases n' <;> cases f.signPlus <;> cases f.alternate <;> simp

theorem fmtComplex_padded (f : FmtSpec) (t : List Char) : IsPadded (f.width.getD 0) t (fmtComplex true f t) := by
  unfold fmtComplex
  cases f.width with
  | none => exact ⟨0, by simp, by simp⟩
  | some w => exact ⟨w - t.length, by simp, by simp; omega⟩

/-! ## C61 -/

/-- C61 for any component type, given the absolute values of the parts. -/
theorem C61_layout {α : Type} [MixedCmp α] [MixedZero α] [NumOps α] (f : FmtSpec) (pre : List Char)
    (render : Option ℕ → α → List Char) (z : Cartesian α) (a b : α)
    (ha : fmtAbs z.re = pure a)
    (hb : fmtAbs z.im = pure b) :
    let text := (layout f.signPlus (MixedCmp.lt z.re MixedZero.zero) (MixedCmp.lt z.im MixedZero.zero)
      (if f.alternate then String.ofList pre else "") (String.ofList (render f.precision a))
      (String.ofList (render f.precision b))).toList
    Returns (writeComplex false f pre render z) text ∧
    ∃ t, Returns (writeComplex true f pre render z) t ∧ IsPadded (f.width.getD 0) text t := by
  intro text
  have e := fmtReIm_layout f pre (MixedCmp.lt z.re MixedZero.zero) (MixedCmp.lt z.im MixedZero.zero)
    (render f.precision a) (render f.precision b)
  refine ⟨.of_eq ?_, _, .of_eq (writeComplex_of true f pre render z a b ha hb), ?_⟩
  · rw [writeComplex_of false f pre render z a b ha hb, e]; rfl
  · rw [e]; exact fmtComplex_padded f _

example := C61_layout {} [] (fun _ => decimal none) (⟨i .checked true 8 (-3), i .checked true 8 4⟩ : Cartesian (PInt .checked true 8)) (i .checked true 8 3)
  (i .checked true 8 4) rfl rfl

/-- C61, integers: `a` and `b` are the absolute values of the parts. -/
theorem C61_int (f : FmtSpec) (pre : List Char) (render : Option ℕ → PInt m s W → List Char)
    (z : Cartesian (PInt m s W)) (h : (z.re.val ≠ -(2 ^ (W - 1)) ∧ z.im.val ≠ -(2 ^ (W - 1))) ∨ s = false) :
    ∃ a b : PInt m s W, a.val = |z.re.val| ∧ b.val = |z.im.val| ∧
    let text := (layout f.signPlus (decide (z.re.val < 0)) (decide (z.im.val < 0))
      (if f.alternate then String.ofList pre else "") (String.ofList (render f.precision a))
      (String.ofList (render f.precision b))).toList
    Returns (writeComplex false f pre render z) text ∧
    ∃ t, Returns (writeComplex true f pre render z) t ∧ IsPadded (f.width.getD 0) text t := by
  obtain ⟨a, ha, ea⟩ := PInt.absPart (x := z.re) (h.imp_left And.left)
  obtain ⟨b, hb, eb⟩ := PInt.absPart (x := z.im) (h.imp_left And.right)
  exact ⟨a, b, ea, eb, C61_layout f pre render z a b ha hb⟩

example := C61_int (m := .checked) (s := true) (W := 8) { width := some 8 } [] (fun _ x => (toString x.val).toList)
  ⟨i .checked true 8 (-12), i .checked true 8 7⟩ (by decide)

/-- C61, exact reals. -/
theorem C61_real (f : FmtSpec) (pre : List Char) (render : Option ℕ → ℝ → List Char) (z : Cartesian ℝ) :
    let text := (layout f.signPlus (MixedCmp.lt z.re 0) (MixedCmp.lt z.im 0)
      (if f.alternate then String.ofList pre else "") (String.ofList (render f.precision |z.re|))
      (String.ofList (render f.precision |z.im|))).toList
    Returns (writeComplex false f pre render z) text ∧
    ∃ t, Returns (writeComplex true f pre render z) t ∧ IsPadded (f.width.getD 0) text t := by
  have key : ∀ x : ℝ, fmtAbs x = pure |x| := by
    intro x
    by_cases h : x < 0
    · simp [fmtAbs, h, abs_of_neg h]
    · simp [fmtAbs, h, abs_of_nonneg (not_lt.mp h)]
  exact C61_layout f pre render z _ _ (key _) (key _)

example : Returns (writeComplex true { width := some 8, signPlus := true, alternate := true } "0x".toList
    (fun _ x => decimalInt x.val) (⟨i .checked true 8 5, i .checked true 8 (-7)⟩ : Cartesian (PInt .checked true 8)))
    "+0x5-0x7i".toList := .of_eq (by rfl)
example : Returns (writeComplex true { width := some 7 } [] (fun _ x => decimalInt x.val)
    (⟨i .checked true 8 (-5), i .checked true 8 7⟩ : Cartesian (PInt .checked true 8))) "  -5+7i".toList := .of_eq (by rfl)

/-! ## C60 -/

/-- What the text of a part says: the value, except that without overflow checks the smallest value of a signed type
is printed with its sign twice. -/
def shown (s : Bool) (W : ℕ) (n : ℤ) : ℤ := if s = true ∧ n = -(2 ^ (W - 1)) then 2 ^ (W - 1) else n

theorem shown_inj {a b : PInt m s W} (h : shown s W a.val = shown s W b.val) : a = b := by
  have hp : (0:ℤ) < 2 ^ (W - 1) := by positivity
  have ha := a.fits; have hb := b.fits
  apply PInt.ext
  cases s with
  | false => simpa [shown] using h
  | true =>
    rw [Fixed.fits_signed] at ha hb
    unfold shown at h
    split_ifs at h with h1 h2 h2 <;> omega

/-- What the sign and the text of the absolute value read as. -/
theorem readInt_part (hW : 0 < W) (x : PInt m s W) (a : PInt m s W)
    (ha : Returns (fmtAbs x : Prog (PInt m s W)) a) :
    (if x.val < 0 then -a.val else a.val) = shown s W x.val := by
  by_cases h : x.val < 0
  · rw [if_pos h]
    rw [PInt.absPart_neg h] at ha
    have hs := signed_of_neg h; subst hs
    by_cases hm : x.val = -(2 ^ (W - 1))
    · have hn := not_fits_neg_min hm
      cases m with
      | checked => rw [PInt.fit_checked hn] at ha; exact absurd ha returns_fail
      | wrapping =>
        rw [PInt.fit_wrapping, returns_pure] at ha
        rw [← ha]
        show -(wrapInt true W (-x.val)) = _
        rw [hm, neg_neg, wrapInt_neg_min hW, shown, if_pos ⟨rfl, rfl⟩]; ring
    · have hf := fits_neg_of_ne_min h hm
      rw [PInt.fit_of_fits hf, returns_pure] at ha
      rw [← ha, PInt.mkv_val, shown, if_neg (by tauto)]; ring
  · rw [if_neg h]
    rw [PInt.absPart_nonneg (not_lt.mp h), returns_pure] at ha
    rw [← ha, shown, if_neg]
    rintro ⟨_, h'⟩; have : (0:ℤ) < 2 ^ (W - 1) := by positivity
    omega

/-- The text reads back as the number that was shown, in both modes. -/
theorem C60_reads (hW : 0 < W) (z : Cartesian (PInt m s W)) (t : List Char) (h : Returns (displayInt z) t) :
    readCartesian t = some (shown s W z.re.val, shown s W z.im.val) := by
  obtain ⟨a, b, ha, hb, h⟩ := displayInt_inv h
  have e1 := readInt_part hW _ _ ha
  have e2 := readInt_part hW _ _ hb
  rw [h, ← e1, ← e2]
  have hi : ∀ c, (['i'] : List Char).head? = some c → c.isDigit = false := by rintro c h; cases h; rfl
  have hp : ∀ r, ∀ c, ('+' :: r : List Char).head? = some c → c.isDigit = false := by rintro r c h; cases h; rfl
  have hn : ∀ r, ∀ c, ('-' :: r : List Char).head? = some c → c.isDigit = false := by rintro r c h; cases h; rfl
  simp only [fmtComplex, fmtReIm]
  by_cases h1 : z.re.val < 0 <;> by_cases h2 : z.im.val < 0 <;>
    simp [h1, h2, readCartesian, readInt_minus, readInt_decimalInt _ (hp _), readInt_decimalInt _ (hn _),
      readInt_decimalInt _ hi]

example := C60_reads (m := .checked) (s := true) (W := 8) (by decide) ⟨i .checked true 8 (-12), i .checked true 8 7⟩ "-12+7i".toList (by run 0)

/-- C60: away from the smallest signed value the text reads back as the number itself. -/
theorem C60_round_trip (hW : 0 < W) (z : Cartesian (PInt m s W))
    (hz : (z.re.val ≠ -(2 ^ (W - 1)) ∧ z.im.val ≠ -(2 ^ (W - 1))) ∨ s = false) :
    ∃ t, Returns (displayInt z) t ∧ readCartesian t = some (z.re.val, z.im.val) := by
  obtain ⟨a, b, _, _, -, t, ht, -⟩ := C61_int {} [] decimal z hz
  refine ⟨t, ht, ?_⟩
  rw [C60_reads hW z t ht]
  rcases hz with ⟨h1, h2⟩ | rfl
  · simp [shown, h1, h2]
  · simp [shown]

example := C60_round_trip (m := .checked) (s := true) (W := 8) (by decide) ⟨i .checked true 8 (-12), i .checked true 8 7⟩ (by decide)

/-- C60: in checked builds whatever is printed reads back as the number. -/
theorem C60_checked (hW : 0 < W) (z : Cartesian (PInt .checked s W)) (t : List Char) (h : Returns (displayInt z) t) :
    readCartesian t = some (z.re.val, z.im.val) := by
  obtain ⟨a, b, ha, hb, -⟩ := displayInt_inv h
  have key : ∀ x a : PInt .checked s W, Returns (fmtAbs x : Prog (PInt .checked s W)) a → shown s W x.val = x.val := by
    intro x a ha
    unfold shown
    split_ifs with hx
    · exfalso
      obtain ⟨rfl, hx⟩ := hx
      have hneg : x.val < 0 := by rw [hx]; have : (0:ℤ) < 2 ^ (W - 1) := by positivity
                                  omega
      rw [PInt.absPart_neg hneg, PInt.fit_checked (not_fits_neg_min hx)] at ha
      exact absurd ha returns_fail
    · rfl
  rw [C60_reads hW z t h, key _ _ ha, key _ _ hb]

example := C60_checked (s := true) (W := 8) (by decide) ⟨i .checked true 8 (-12), i .checked true 8 7⟩ "-12+7i".toList (by run 0)

/-- C60: different numbers never print alike, in either mode, the smallest value included. -/
theorem C60_injective (hW : 0 < W) (z w : Cartesian (PInt m s W)) (t : List Char)
    (hz : Returns (displayInt z) t) (hw : Returns (displayInt w) t) : z = w := by
  have h := (C60_reads hW z t hz).symm.trans (C60_reads hW w t hw)
  simp only [Option.some.injEq, Prod.mk.injEq] at h
  rcases z with ⟨zr, zi⟩; rcases w with ⟨wr, wi⟩
  exact congrArg₂ Cartesian.mk (shown_inj h.1) (shown_inj h.2)

example : Returns (displayInt ⟨i .checked true 8 (-12), i .checked true 8 105⟩) "-12+105i".toList := .of_eq (by rfl)

/-! ## C62 -/

/-- C62 is false: printing panics when a part is the smallest value (overflow checks on). -/
theorem C62_counterexample (std : Bool) (f : FmtSpec) (pre : List Char)
    (render : Option ℕ → PInt .checked true W → List Char) (z : Cartesian (PInt .checked true W))
    (h : z.re.val = -(2 ^ (W - 1)) ∨ z.im.val = -(2 ^ (W - 1))) :
    Panics (writeComplex std f pre render z) .overflow := by
  have key : ∀ x : PInt .checked true W, x.val = -(2 ^ (W - 1)) →
      (fmtAbs x : Prog (PInt .checked true W)) =
        Prog.fail .overflow := by
    intro x hx
    have hneg : x.val < 0 := by rw [hx]; have : (0:ℤ) < 2 ^ (W - 1) := by positivity
                                omega
    rw [PInt.absPart_neg hneg, PInt.fit_checked (not_fits_neg_min hx)]
  by_cases hr : z.re.val = -(2 ^ (W - 1))
  · refine .of_eq ?_; unfold writeComplex; rw [key _ hr]; rfl
  · obtain ⟨a, ha, -⟩ := PInt.absPart (x := z.re) (.inl hr)
    refine .of_eq ?_; unfold writeComplex; rw [ha, key _ (h.resolve_left hr)]; rfl

/-- C62, the part that holds: every other value of a signed type, and every unsigned value, is printed.
Missing for the full statement: a part equal to the smallest value with overflow checks on, where it is false. -/
theorem C62_partial (std : Bool) (f : FmtSpec) (pre : List Char) (render : Option ℕ → PInt m s W → List Char)
    (z : Cartesian (PInt m s W)) (h : (z.re.val ≠ -(2 ^ (W - 1)) ∧ z.im.val ≠ -(2 ^ (W - 1))) ∨ s = false) :
    ∃ t, Returns (writeComplex std f pre render z) t := by
  obtain ⟨a, b, _, _, h1, t, h2, _⟩ := C61_int f pre render z h
  cases std
  · exact ⟨_, h1⟩
  · exact ⟨_, h2⟩

example := C62_partial (m := .checked) (s := true) (W := 8) true { width := some 8 } [] (fun _ x => (toString x.val).toList)
  ⟨i .checked true 8 (-12), i .checked true 8 7⟩ (by decide)

/-- C62: without overflow checks nothing panics. -/
theorem C62_wrapping (std : Bool) (f : FmtSpec) (pre : List Char) (render : Option ℕ → PInt .wrapping s W → List Char)
    (z : Cartesian (PInt .wrapping s W)) : ∃ t, Returns (writeComplex std f pre render z) t := by
  have key : ∀ x : PInt .wrapping s W, ∃ a : PInt .wrapping s W,
      fmtAbs x = pure a := by
    intro x
    unfold fmtAbs
    split
    · exact ⟨_, by rw [PInt.sub_def, PInt.fit_wrapping]⟩
    · exact ⟨_, rfl⟩
  obtain ⟨a, ha⟩ := key z.re
  obtain ⟨b, hb⟩ := key z.im
  exact ⟨_, .of_eq (writeComplex_of std f pre render z a b ha hb)⟩

example : Panics (displayInt ⟨i .checked true 8 (-128), i .checked true 8 0⟩) .overflow := .of_eq (by rfl)
example : Returns (displayInt ⟨i .wrapping true 8 (-128), i .wrapping true 8 0⟩) "--128+0i".toList := .of_eq (by rfl)

end MixedNum
