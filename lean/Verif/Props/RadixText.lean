import Verif.Props.Display
import Verif.Model.Derive
import Mathlib.Tactic.IntervalCases
import Verif.Props.AddSub
import Verif.Lemmas.Run
/-! # C116, C117: hexadecimal, octal and binary text; `Debug` and `Default` -/

namespace MixedNum
variable {m : Mode} {s : Bool} {W : ℕ}

theorem digitValue_digit (r : Radix) {d : ℕ} (hd : d < r.base) : digitValue (r.digit d) = some d := by
  cases r <;> simp only [Radix.base] at hd <;> interval_cases d <;> decide

theorem isDigitOf_digit (r : Radix) {d : ℕ} (hd : d < r.base) : isDigitOf r.base (r.digit d) = true := by
  unfold isDigitOf
  rw [digitValue_digit r hd]
  simpa using hd

theorem base_pos (r : Radix) : 1 < r.base := by cases r <;> decide

theorem text_digits (r : Radix) (n : ℕ) : ∀ c ∈ r.text n, isDigitOf r.base c = true := by
  intro c hc
  unfold Radix.text at hc
  split at hc
  · have : c = '0' := by simpa using hc
    subst this
    cases r <;> decide
  · obtain ⟨d, hd, rfl⟩ := List.mem_map.mp hc
    exact isDigitOf_digit r (Nat.digits_lt_base (base_pos r) (List.mem_reverse.mp hd))

theorem text_ne_nil (r : Radix) (n : ℕ) : r.text n ≠ [] := by
  unfold Radix.text
  split
  · simp
  · simpa using (Nat.digits_ne_nil_iff_ne_zero.mpr (by assumption))

theorem text_value (r : Radix) (n : ℕ) :
    (r.text n).foldl (fun n c => r.base * n + (digitValue c).getD 0) 0 = n := by
  unfold Radix.text
  split
  · subst n; rfl
  · have key : ∀ l : List ℕ, (∀ d ∈ l, d < r.base) →
        (l.reverse.map r.digit).foldl (fun n c => r.base * n + (digitValue c).getD 0) 0 = Nat.ofDigits r.base l := by
      intro l
      induction l with
      | nil => intro _; rfl
      | cons d l ih =>
        intro h
        rw [List.reverse_cons, List.map_append, List.foldl_append, ih fun e he => h e (List.mem_cons_of_mem _ he)]
        simp only [List.map_cons, List.map_nil, List.foldl_cons, List.foldl_nil]
        rw [digitValue_digit r (h d List.mem_cons_self), Nat.ofDigits_cons]
        simp
        ring
    rw [key _ fun d hd => Nat.digits_lt_base (base_pos r) hd, Nat.ofDigits_digits]

theorem readNat_text (r : Radix) (pre : List Char) (n : ℕ) {rest : List Char}
    (hr : ∀ c, rest.head? = some c → isDigitOf r.base c = false) :
    readNat r.base pre (pre ++ (r.text n ++ rest)) = some (n, rest) := by
  have hr' : rest.takeWhile (isDigitOf r.base) = [] ∧ rest.dropWhile (isDigitOf r.base) = rest := by
    cases rest with
    | nil => simp
    | cons c l => have := hr c rfl; simp [this]
  have hd := text_digits r n
  unfold readNat
  rw [if_pos (List.isPrefixOf_iff_prefix.mpr (List.prefix_append ..))]
  simp only [List.drop_left]
  rw [List.takeWhile_append_of_pos hd, List.dropWhile_append_of_pos hd, hr'.1, hr'.2, List.append_nil, if_neg (text_ne_nil r n),
    text_value]

/-- The bits of the absolute value, in both modes: with overflow checks off the smallest value has the right bits. -/
theorem absPart_bits (hW : 0 < W) {x a : PInt m s W} (ha : Returns (fmtAbs x : Prog (PInt m s W)) a) :
    (a.val % 2 ^ W).toNat = x.val.natAbs := by
  have hp : (2:ℤ) ^ W = 2 * 2 ^ (W - 1) := by
    obtain ⟨k, rfl⟩ : ∃ k, W = k + 1 := ⟨W - 1, by omega⟩
    rw [pow_succ, show k + 1 - 1 = k by omega]; ring
  have h0 : (0:ℤ) < 2 ^ (W - 1) := by positivity
  have e : a.val % 2 ^ W = |x.val| % 2 ^ W := by
    by_cases h : x.val < 0
    · rw [PInt.absPart_neg h] at ha
      rw [abs_of_neg h]
      by_cases hf : Fits s W (-x.val)
      · rw [PInt.fit_of_fits hf, returns_pure] at ha
        rw [← ha]; rfl
      · cases m with
        | checked => rw [PInt.fit_checked hf] at ha; exact absurd ha returns_fail
        | wrapping =>
          rw [PInt.fit_wrapping, returns_pure] at ha
          rw [← ha]
          exact wrapInt_modEq hW _
    · rw [PInt.absPart_nonneg (not_lt.mp h), returns_pure] at ha
      rw [← ha, abs_of_nonneg (not_lt.mp h)]
  have b : |x.val| < 2 ^ W := by
    have := x.fits
    cases s with
    | true => rw [Fixed.fits_signed] at this; rw [abs_lt]; constructor <;> omega
    | false => have h1 := this.1; have h2 := this.2; simp only [wlo, whi] at h1 h2; rw [abs_lt]; simp at h1 h2; constructor <;> omega
  rw [e, Int.emod_eq_of_lt (abs_nonneg _) b, Int.abs_eq_natAbs, Int.toNat_natCast]

theorem readRadix_layout (r : Radix) (f : FmtSpec) (neg neg' : Bool) (a b : ℕ) :
    readRadix r.base (if f.alternate then r.pre else []) (fmtReIm f r.pre neg neg' (r.text a) (r.text b)) =
      some (if neg then -(a : ℤ) else a, if neg' then -(b : ℤ) else b) := by
  set pre : List Char := if f.alternate then r.pre else [] with hpre
  have hi : ∀ c, (['i'] : List Char).head? = some c → isDigitOf r.base c = false := by rintro c h; cases h; cases r <;> decide
  have hp : ∀ t, ∀ c, ('+' :: t : List Char).head? = some c → isDigitOf r.base c = false := by
    rintro t c h; cases h; cases r <;> decide
  have hn : ∀ t, ∀ c, ('-' :: t : List Char).head? = some c → isDigitOf r.base c = false := by
    rintro t c h; cases h; cases r <;> decide
  -- the first character after an absent sign is a digit
  obtain ⟨c, l, hc, hcd⟩ : ∃ c l, pre ++ r.text a = c :: l ∧ isDigitOf r.base c = true := by
    rcases hx : r.text a with _ | ⟨c, l⟩
    · exact absurd hx (text_ne_nil r a)
    · have hcd := text_digits r a c (by rw [hx]; exact List.mem_cons_self)
      rw [hpre]
      cases f.alternate
      · exact ⟨c, l, rfl, hcd⟩
      · cases r
        · exact ⟨'0', 'x' :: (c :: l), rfl, by decide⟩
        · exact ⟨'0', 'x' :: (c :: l), rfl, by decide⟩
        · exact ⟨'0', 'o' :: (c :: l), rfl, by decide⟩
        · exact ⟨'0', 'b' :: (c :: l), rfl, by decide⟩
  have c1 : c ≠ '-' := by rintro rfl; revert hcd; cases r <;> decide
  have c2 : c ≠ '+' := by rintro rfl; revert hcd; cases r <;> decide
  have c3 : c ≠ ' ' := by rintro rfl; revert hcd; cases r <;> decide
  have hs (t : List Char) : readSign (c :: t) = (false, c :: t) := by
    unfold readSign
    split
    · rename_i h; exact absurd (List.cons.inj h).1 c1
    · rename_i h; exact absurd (List.cons.inj h).1 c2
    · rfl
  have first (t : List Char) : readSign (((if neg then ['-'] else if f.signPlus then ['+'] else []) ++ (pre ++ r.text a ++ t)).dropWhile (· == ' ')) =
      (neg, pre ++ (r.text a ++ t)) := by
    rw [← List.append_assoc pre]
    cases neg
    · cases f.signPlus
      · simp only [Bool.false_eq_true, if_false, List.nil_append]
        rw [hc, List.cons_append, List.dropWhile_cons_of_neg (by simpa using c3), hs]
      · rfl
    · rfl
  have second : readSign ((if neg' then ['-'] else ['+']) ++ (pre ++ r.text b ++ ['i'])) = (neg', pre ++ (r.text b ++ ['i'])) := by
    rw [← List.append_assoc pre]
    cases neg' <;> rfl
  have head : ∀ c, ((if neg' then ['-'] else ['+']) ++ (pre ++ r.text b ++ ['i'])).head? = some c → isDigitOf r.base c = false := by
    cases neg'
    · exact hp _
    · exact hn _
  have e : fmtReIm f r.pre neg neg' (r.text a) (r.text b) = (if neg then ['-'] else if f.signPlus then ['+'] else []) ++
      (pre ++ r.text a ++ ((if neg' then ['-'] else ['+']) ++ (pre ++ r.text b ++ ['i']))) := by
    unfold fmtReIm
    cases neg' <;> simp [hpre]
  unfold readRadix
  rw [e, first]
  simp only [readNat_text r pre a head, Option.bind_eq_bind, Option.bind_some, second, readNat_text r pre b hi, if_true]

/-- What is printed, taken apart. -/
theorem displayRadix_inv {r : Radix} {std : Bool} {f : FmtSpec} {z : Cartesian (PInt m s W)} {t : List Char}
    (h : Returns (displayRadix r std f z) t) : ∃ a b : PInt m s W, Returns (fmtAbs z.re) a ∧ Returns (fmtAbs z.im) b ∧
      t = fmtComplex std f (fmtReIm f r.pre (decide (z.re.val < 0)) (decide (z.im.val < 0)) (r.render f.precision a)
        (r.render f.precision b)) := by
  unfold displayRadix writeComplex at h
  rcases PInt.absPart_cases z.re with ⟨a, ha⟩ | ha
  · rcases PInt.absPart_cases z.im with ⟨b, hb⟩ | hb
    · rw [ha, hb, pure_bind, pure_bind, returns_pure] at h
      exact ⟨a, b, .of_eq ha, .of_eq hb, h.symm⟩
    · rw [ha, hb, pure_bind, Prog.fail_bind] at h; exact absurd h returns_fail
  · rw [ha, Prog.fail_bind] at h; exact absurd h returns_fail

/-- C116: in both modes and under every flag, whatever `{:x}`, `{:X}`, `{:o}` and `{:b}` print reads back as the number, the
smallest value included. -/
theorem C116_reads (hW : 0 < W) (r : Radix) (std : Bool) (f : FmtSpec) (z : Cartesian (PInt m s W)) (t : List Char)
    (h : Returns (displayRadix r std f z) t) :
    readRadix r.base (if f.alternate then r.pre else []) t = some (z.re.val, z.im.val) := by
  obtain ⟨a, b, ha, hb, rfl⟩ := displayRadix_inv h
  have pad (u : List Char) (pre : List Char) : readRadix r.base pre (fmtComplex std f u) = readRadix r.base pre u := by
    unfold fmtComplex
    cases std
    · rfl
    · cases f.width with
      | none => rfl
      | some w =>
        show readRadix r.base pre (List.replicate (w - u.length) ' ' ++ u) = _
        unfold readRadix
        rw [List.dropWhile_append_of_pos (by intro c hc; rw [List.eq_of_mem_replicate hc]; rfl)]
  rw [pad]
  unfold Radix.render
  rw [absPart_bits hW ha, absPart_bits hW hb, readRadix_layout]
  have sg (x : ℤ) : (if decide (x < 0) = true then -((x.natAbs : ℕ) : ℤ) else (x.natAbs : ℕ)) = x := by
    by_cases hx : x < 0
    · rw [if_pos (by simpa using hx)]; omega
    · rw [if_neg (by simpa using hx)]; omega
  rw [sg, sg]

example := C116_reads (by decide) .binary false {} ⟨i .wrapping true 8 (-128), i .wrapping true 8 5⟩ "-10000000+101i".toList (by run 0)

/-- C116: without overflow checks every number is printed; with them every number without a part of the smallest value is. -/
theorem C116_returns (r : Radix) (std : Bool) (f : FmtSpec) (z : Cartesian (PInt m s W))
    (h : m = .wrapping ∨ ((z.re.val ≠ -(2 ^ (W - 1)) ∧ z.im.val ≠ -(2 ^ (W - 1))) ∨ s = false)) :
    ∃ t, Returns (displayRadix r std f z) t := by
  rcases h with rfl | h
  · exact C62_wrapping std f r.pre r.render z
  · exact C62_partial std f r.pre r.render z h

example := C116_returns .octal false {} ⟨i .checked true 8 (-127), i .checked true 8 5⟩ (.inr (.inl (by decide)))

/-- C116: different numbers never print alike under the same flags. -/
theorem C116_injective (hW : 0 < W) (r : Radix) (std : Bool) (f : FmtSpec) (z w : Cartesian (PInt m s W)) (t : List Char)
    (hz : Returns (displayRadix r std f z) t) (hw : Returns (displayRadix r std f w) t) : z = w := by
  have h := (C116_reads hW r std f z t hz).symm.trans (C116_reads hW r std f w t hw)
  simp only [Option.some.injEq, Prod.mk.injEq] at h
  rcases z with ⟨zr, zi⟩; rcases w with ⟨wr, wi⟩
  exact congrArg₂ Cartesian.mk (PInt.ext h.1) (PInt.ext h.2)

example := C116_injective (by decide) .binary false {} ⟨i .wrapping true 8 (-128), i .wrapping true 8 5⟩ ⟨i .wrapping true 8 (-128), i .wrapping true 8 5⟩
  "-10000000+101i".toList (by run 0) (by run 0)

/-- Every character is padding, a sign, the final `i`, a character of the prefix or a digit. -/
theorem displayRadix_chars {r : Radix} {std : Bool} {f : FmtSpec} {z : Cartesian (PInt m s W)} {t : List Char}
    (h : Returns (displayRadix r std f z) t) : ∀ c ∈ t, c ∈ [' ', '-', '+', 'i'] ∨ c ∈ r.pre ∨ ∃ d < r.base, c = r.digit d := by
  obtain ⟨a, b, -, -, rfl⟩ := displayRadix_inv h
  have dg : ∀ n, ∀ c ∈ r.text n, ∃ d < r.base, c = r.digit d := by
    intro n c hc
    unfold Radix.text at hc
    split at hc
    · refine ⟨0, (base_pos r).trans' one_pos, ?_⟩
      rw [List.mem_singleton.mp hc]; cases r <;> decide
    · obtain ⟨d, hd, rfl⟩ := List.mem_map.mp hc
      exact ⟨d, Nat.digits_lt_base (base_pos r) (List.mem_reverse.mp hd), rfl⟩
  have core : ∀ n k, ∀ c ∈ fmtReIm f r.pre (decide (z.re.val < 0)) (decide (z.im.val < 0)) (r.text n) (r.text k),
      c ∈ [' ', '-', '+', 'i'] ∨ c ∈ r.pre ∨ ∃ d < r.base, c = r.digit d := by
    intro n k c hc
    have one : ∀ x ∈ [' ', '-', '+', 'i'], ∀ c ∈ [x], c ∈ [' ', '-', '+', 'i'] ∨ c ∈ r.pre ∨ ∃ d < r.base, c = r.digit d :=
      fun x hx c hc => .inl (by rw [List.mem_singleton.mp hc]; exact hx)
    have app : ∀ {u v : List Char}, (∀ c ∈ u, c ∈ [' ', '-', '+', 'i'] ∨ c ∈ r.pre ∨ ∃ d < r.base, c = r.digit d) →
        (∀ c ∈ v, c ∈ [' ', '-', '+', 'i'] ∨ c ∈ r.pre ∨ ∃ d < r.base, c = r.digit d) →
        ∀ c ∈ u ++ v, c ∈ [' ', '-', '+', 'i'] ∨ c ∈ r.pre ∨ ∃ d < r.base, c = r.digit d :=
      fun hu hv c hc => (List.mem_append.mp hc).elim (hu c) (hv c)
    have dt : ∀ n, ∀ c ∈ r.text n, c ∈ [' ', '-', '+', 'i'] ∨ c ∈ r.pre ∨ ∃ d < r.base, c = r.digit d :=
      fun n c hc => .inr (.inr (dg n c hc))
    have pr : ∀ c ∈ (if f.alternate then r.pre else []), c ∈ [' ', '-', '+', 'i'] ∨ c ∈ r.pre ∨ ∃ d < r.base, c = r.digit d := by
      intro c hc
      split at hc
      · exact .inr (.inl hc)
      · simp at hc
    have sg : ∀ c ∈ (if decide (z.re.val < 0) then ['-'] else if f.signPlus then ['+'] else []),
        c ∈ [' ', '-', '+', 'i'] ∨ c ∈ r.pre ∨ ∃ d < r.base, c = r.digit d := by
      intro c hc
      split at hc
      · exact one '-' (by decide) c hc
      · split at hc
        · exact one '+' (by decide) c hc
        · simp at hc
    revert c
    unfold fmtReIm
    simp only []
    split
    · exact app (app (app (app (app (app sg pr) (dt n)) (one '-' (by decide))) pr) (dt k)) (one 'i' (by decide))
    · exact app (app (app (app (app (app sg pr) (dt n)) (one '+' (by decide))) pr) (dt k)) (one 'i' (by decide))
  intro c hc
  unfold fmtComplex at hc
  have pad : ∀ (w : ℕ) (u : List Char), (∀ c ∈ u, c ∈ [' ', '-', '+', 'i'] ∨ c ∈ r.pre ∨ ∃ d < r.base, c = r.digit d) →
      c ∈ List.replicate w ' ' ++ u → c ∈ [' ', '-', '+', 'i'] ∨ c ∈ r.pre ∨ ∃ d < r.base, c = r.digit d := by
    intro w u hu hc
    rcases List.mem_append.mp hc with hc | hc
    · left; rw [List.eq_of_mem_replicate hc]; decide
    · exact hu c hc
  cases std
  · exact core _ _ c hc
  · cases hw : f.width with
    | none => rw [hw] at hc; exact core _ _ c hc
    | some w => rw [hw] at hc; exact pad _ _ (core _ _) hc

/-- C116, format by format: `{:x}` and `{:X}` are base 16 with prefix `0x`, the one without capital letters, the other without small
ones but for the prefix and the final `i`; `{:o}` is base 8 with prefix `0o`, `{:b}` base 2 with prefix `0b`. -/
theorem C116_formats (hW : 0 < W) (std : Bool) (f : FmtSpec) (z : Cartesian (PInt m s W)) (t : List Char) :
    (Returns (displayRadix .lowerHex std f z) t →
      readRadix 16 (if f.alternate then "0x".toList else []) t = some (z.re.val, z.im.val) ∧ ∀ c ∈ t, c.isUpper = false) ∧
    (Returns (displayRadix .upperHex std f z) t →
      readRadix 16 (if f.alternate then "0x".toList else []) t = some (z.re.val, z.im.val) ∧
      ∀ c ∈ t, c.isLower = true → c = 'x' ∨ c = 'i') ∧
    (Returns (displayRadix .octal std f z) t → readRadix 8 (if f.alternate then "0o".toList else []) t = some (z.re.val, z.im.val)) ∧
    (Returns (displayRadix .binary std f z) t →
      readRadix 2 (if f.alternate then "0b".toList else []) t = some (z.re.val, z.im.val)) := by
  refine ⟨fun h => ⟨C116_reads hW _ std f z t h, fun c hc => ?_⟩, fun h => ⟨C116_reads hW _ std f z t h, fun c hc => ?_⟩,
    fun h => C116_reads hW _ std f z t h, fun h => C116_reads hW _ std f z t h⟩
  · rcases displayRadix_chars h c hc with h | h | ⟨d, hd, rfl⟩
    · clear hc; revert c; decide
    · clear hc; revert c; decide
    · simp only [Radix.base] at hd
      interval_cases d <;> decide
  · rcases displayRadix_chars h c hc with h | h | ⟨d, hd, rfl⟩
    · clear hc; revert c; decide
    · clear hc; revert c; decide
    · simp only [Radix.base] at hd
      interval_cases d <;> decide

example : Returns (displayRadix .upperHex true { width := some 12, alternate := true } ⟨i .checked true 8 (-90), i .checked true 8 15⟩)
    "  -0x5A+0xFi".toList := .of_eq (by rfl)
example : Returns (displayRadix .binary false {} ⟨i .wrapping true 8 (-128), i .wrapping true 8 5⟩) "-10000000+101i".toList :=
  .of_eq (by rfl)

/-! ## C117 -/

/-- Where the two texts of a derived `Debug` start and end. -/
theorem debugStruct_inj {name f1 f2 : List Char} {alt : Bool} {a b c d : List Char} (ha : ',' ∉ a) (hc : ',' ∉ c)
    (h : debugStruct name f1 f2 alt a b = debugStruct name f1 f2 alt c d) : a = c ∧ b = d := by
  have key : ∀ (a c u v : List Char), ',' ∉ a → ',' ∉ c → a ++ ',' :: u = c ++ ',' :: v → a = c ∧ u = v := by
    intro a
    induction a with
    | nil =>
      rintro (_ | ⟨x, c⟩) u v - hc h
      · exact ⟨rfl, (List.cons.inj h).2⟩
      · exact absurd (List.cons.inj h).1 (fun e => hc (e ▸ List.mem_cons_self))
    | cons x a ih =>
      rintro (_ | ⟨y, c⟩) u v ha hc h
      · exact absurd (List.cons.inj h).1 (fun e => ha (e ▸ List.mem_cons_self))
      · obtain ⟨e1, e2⟩ := List.cons.inj (show x :: (a ++ ',' :: u) = y :: (c ++ ',' :: v) from h)
        obtain ⟨e3, e4⟩ := ih c u v (fun e => ha (List.mem_cons_of_mem _ e)) (fun e => hc (List.mem_cons_of_mem _ e)) e2
        exact ⟨by rw [e1, e3], e4⟩
  unfold debugStruct at h
  cases alt
  · simp only [Bool.false_eq_true, if_false, List.append_assoc, List.append_cancel_left_eq] at h
    obtain ⟨e1, e2⟩ := key a c (' ' :: (f2 ++ (": ".toList ++ (b ++ " }".toList)))) (' ' :: (f2 ++ (": ".toList ++ (d ++ " }".toList)))) ha hc h
    exact ⟨e1, by simpa using e2⟩
  · simp only [if_true, List.append_assoc, List.append_cancel_left_eq] at h
    obtain ⟨e1, e2⟩ := key a c ("\n    ".toList ++ (f2 ++ (": ".toList ++ (b ++ ",\n}".toList))))
      ("\n    ".toList ++ (f2 ++ (": ".toList ++ (d ++ ",\n}".toList)))) ha hc h
    exact ⟨e1, by simpa using e2⟩

/-- C117: the texts `{:?}` and `{:#?}` of a complex number determine it, if the texts of the parts do and contain no comma. -/
theorem C117_debug {α : Type} (render : α → List Char) (hinj : Function.Injective render) (hr : ∀ x, ',' ∉ render x) (alt : Bool) :
    Function.Injective (debugCartesian alt render) ∧ Function.Injective (debugPolar alt render) := by
  constructor
  · rintro ⟨a, b⟩ ⟨c, d⟩ h
    obtain ⟨h1, h2⟩ := debugStruct_inj (hr _) (hr _) h
    exact congrArg₂ Cartesian.mk (hinj h1) (hinj h2)
  · rintro ⟨a, b⟩ ⟨c, d⟩ h
    obtain ⟨h1, h2⟩ := debugStruct_inj (hr _) (hr _) h
    exact congrArg₂ Polar.mk (hinj h1) (hinj h2)

/-- C117: the layout, in the words of the standard library. -/
theorem C117_layout {α : Type} (render : α → List Char) (z : Cartesian α) (p : Polar α) :
    debugCartesian false render z =
      ("Cartesian { re: " ++ String.ofList (render z.re) ++ ", im: " ++ String.ofList (render z.im) ++ " }").toList ∧
    debugPolar false render p =
      ("Polar { mag: " ++ String.ofList (render p.mag) ++ ", ang: " ++ String.ofList (render p.ang) ++ " }").toList := by
  constructor
  · simp [debugCartesian, debugStruct]
  · simp [debugPolar, debugStruct]

/-- C117: the layout of `{:#?}`, one field to a line. -/
theorem C117_pretty {α : Type} (render : α → List Char) (z : Cartesian α) (p : Polar α) :
    debugCartesian true render z =
      ("Cartesian {\n    re: " ++ String.ofList (render z.re) ++ ",\n    im: " ++ String.ofList (render z.im) ++ ",\n}").toList ∧
    debugPolar true render p =
      ("Polar {\n    mag: " ++ String.ofList (render p.mag) ++ ",\n    ang: " ++ String.ofList (render p.ang) ++ ",\n}").toList := by
  constructor
  · simp [debugCartesian, debugStruct]
  · simp [debugPolar, debugStruct]

/-- C117 on integers. -/
theorem C117_int (alt : Bool) : Function.Injective (debugCartesian alt (decimal none : PInt m s W → List Char)) ∧
    Function.Injective (debugPolar alt (decimal none : PInt m s W → List Char)) := by
  refine C117_debug _ (fun a b h => ?_) (fun x => ?_) alt
  · have h2 : ∀ c, ([] : List Char).head? = some c → c.isDigit = false := by rintro c h; cases h
    have e1 := readInt_decimalInt a.val h2
    have e2 := readInt_decimalInt b.val h2
    rw [List.append_nil] at e1 e2
    have h : decimalInt a.val = decimalInt b.val := h
    rw [h, e2] at e1
    exact PInt.ext (Prod.mk.inj e1).1.symm
  · have hd : ∀ n : ℕ, ',' ∉ Nat.toDigits 10 n := fun n hc => by
      have := digits_isDigit n _ hc
      revert this; decide
    show ',' ∉ decimalInt x.val
    unfold decimalInt
    split
    · intro hc
      rcases List.mem_cons.mp hc with h | h
      · revert h; decide
      · exact hd _ h
    · exact hd _

/-- C117: the default value is zero, in both forms and for every component type. -/
theorem C117_default {F : ℕ} {f : Format} :
    (RustDefault.default : Cartesian (PInt m s W)) = MixedZero.zero ∧ (RustDefault.default : Polar (PInt m s W)) = MixedZero.zero ∧
    (RustDefault.default : Cartesian (Fixed m s W F)) = MixedZero.zero ∧ (RustDefault.default : Polar (Fixed m s W F)) = MixedZero.zero ∧
    (RustDefault.default : Cartesian (Flt f)) = MixedZero.zero ∧ (RustDefault.default : Polar (Flt f)) = MixedZero.zero :=
  ⟨rfl, rfl, rfl, rfl, rfl, rfl⟩

example : debugCartesian false (decimal none) (⟨i .checked true 8 (-3), i .checked true 8 4⟩ : Cartesian (PInt .checked true 8)) =
    "Cartesian { re: -3, im: 4 }".toList := by rfl
example : debugPolar true (decimal none) (⟨i .checked true 8 (-3), i .checked true 8 4⟩ : Polar (PInt .checked true 8)) =
    "Polar {\n    mag: -3,\n    ang: 4,\n}".toList := by rfl

end MixedNum
