import Verif.Lemmas.Run
import Verif.Props.Undo
import Verif.Props.Mul
import Verif.Props.Div
import Verif.Props.ScalarFixed
import Verif.Props.AddSub
/-!
# C144 — Dividing by a real undoes multiplying by it
-/

namespace MixedNum
variable {m : Mode} {s s' : Bool} {W W' F : ℕ} {f g : Format} {α : Type} [MixedCmp α] [MixedZero α]

/-! ### Integers -/

/-- C144, integers in a debug build: a product by `r` that returns, divided by `r`, is the number one started from. `r` may be of any
scalar type; `c` is what it converts to. -/
theorem C144_int [Conv α (PInt .checked s W)] (hW : 0 < W) (z t : Cartesian (PInt .checked s W)) (r : α) (c : PInt .checked s W)
    (h0 : MixedCmp.beq r MixedZero.zero = false) (hc : Conv.fromNum r = pure c) (hn : c.val ≠ 0) (h : Returns (z.mulScalar r) t) :
    Returns (t.divScalar r) z := by
  rw [C09_generic z r c hc] at h
  obtain ⟨h1, h2⟩ := returns_pair h
  have a := (PInt.returns_fit hW h1).2 rfl
  have b := (PInt.returns_fit hW h2).2 rfl
  have e : ∀ {x y : PInt .checked s W}, y.val = x.val * c.val → (NumOps.div y c : Prog (PInt .checked s W)) = pure x := by
    intro x y h
    have e : y.val.tdiv c.val = x.val := by rw [h]; exact Int.mul_tdiv_cancel _ hn
    rw [PInt.div_def, if_neg hn, dif_pos (by rw [e]; exact x.fits)]
    exact congrArg pure (PInt.ext e)
  exact .of_eq (by rw [C11_nonzero t r c h0 hc, e a, e b]; rfl)

example := C144_int (by decide) ⟨i .checked true 8 3, i .checked true 8 (-5)⟩ ⟨i .checked true 8 21, i .checked true 8 (-35)⟩ (i .checked true 16 7)
  (i .checked true 8 7) rfl rfl (by decide) (by run 0)

/-- In a release build the product may have wrapped: 100 * 2 is -56 in `i8`, and half of that is -28. -/
theorem C144_int_wrapping : Returns (Cartesian.mulScalar ⟨i .wrapping true 8 100, i .wrapping true 8 0⟩ (i .wrapping true 8 2))
      ⟨i .wrapping true 8 (-56), i .wrapping true 8 0⟩ ∧
    Returns (Cartesian.divScalar ⟨i .wrapping true 8 (-56), i .wrapping true 8 0⟩ (i .wrapping true 8 2))
      ⟨i .wrapping true 8 (-28), i .wrapping true 8 0⟩ :=
  ⟨.of_eq rfl, .of_eq rfl⟩

/-- C144, integers, the other order: `(z / r) * r` always returns, and what is lost is the remainder, part by part. -/
theorem C144_int_div [Conv α (PInt m s W)] (z t : Cartesian (PInt m s W)) (r : α) (c : PInt m s W)
    (h0 : MixedCmp.beq r MixedZero.zero = false) (hc : Conv.fromNum r = pure c) (h : Returns (z.divScalar r) t) :
    ∃ w, Returns (t.mulScalar r) w ∧ w.re.val = z.re.val - z.re.val.tmod c.val ∧ w.im.val = z.im.val - z.im.val.tmod c.val := by
  rw [C11_nonzero z r c h0 hc] at h
  obtain ⟨h1, h2⟩ := returns_pair h
  have key : ∀ {x y : PInt m s W}, Returns (NumOps.div x c) y →
      ∃ w : PInt m s W, (NumOps.mul y c : Prog (PInt m s W)) = pure w ∧ w.val = x.val - x.val.tmod c.val := by
    intro x y h
    by_cases hn : c.val = 0
    · rw [PInt.div_def, if_pos hn] at h; exact absurd h returns_fail
    · by_cases hf : Fits s W (x.val.tdiv c.val)
      · rw [PInt.div_def, if_neg hn, dif_pos hf, returns_pure] at h
        have e : y.val = x.val.tdiv c.val := by rw [← h]; rfl
        have e' : y.val * c.val = x.val - x.val.tmod c.val := by
          rw [e]; have := Int.mul_tdiv_add_tmod x.val c.val; linarith
        have hr : Fits s W (x.val - x.val.tmod c.val) := by
          have q := x.fits
          have q0 := fits_zero s W
          have : (0 ≤ x.val - x.val.tmod c.val ∧ x.val - x.val.tmod c.val ≤ x.val) ∨
              (x.val ≤ x.val - x.val.tmod c.val ∧ x.val - x.val.tmod c.val ≤ 0) := by
            have h1 : (x.val.tmod c.val).natAbs ≤ x.val.natAbs := by rw [Int.natAbs_tmod]; exact Nat.mod_le _ _
            rcases le_total 0 x.val with hx | hx
            · have := Int.tmod_nonneg c.val hx; omega
            · have := Int.tmod_nonneg c.val (a := -x.val) (by omega)
              rw [Int.neg_tmod] at this; omega
          unfold Fits at *; omega
        exact ⟨PInt.mkv _ hr, by rw [PInt.mul_def, e', PInt.fit_of_fits hr], rfl⟩
      · rw [PInt.div_def, if_neg hn, dif_neg hf] at h; exact absurd h returns_fail
  obtain ⟨a, ea, va⟩ := key h1
  obtain ⟨b, eb, vb⟩ := key h2
  exact ⟨⟨a, b⟩, .of_eq (by rw [C09_generic t r c hc, ea, eb]; rfl), va, vb⟩
-- 17 - 8 i by 5 and times 5: 15 - 5 i
example : ∃ t, Returns (Cartesian.divScalar ⟨i .checked true 8 17, i .checked true 8 (-8)⟩ (i .checked true 16 5)) t ∧
    Returns (t.mulScalar (i .checked true 16 5)) ⟨i .checked true 8 15, i .checked true 8 (-5)⟩ :=
  ⟨⟨i .checked true 8 3, i .checked true 8 (-1)⟩, .of_eq rfl, .of_eq rfl⟩

/-! ### Fixed point -/

/-- C144, fixed point by an integer, in a debug build: a product that returns, divided by the integer, is the number one started from. -/
theorem C144_fixed_int (hW : 0 < W) (z t : Cartesian (Fixed .checked s W F)) (n : PInt .checked s' W') (h0 : n.val ≠ 0)
    (h : Returns (z.mulScalar n) t) : Returns (t.divScalar n) z := by
  by_cases hr : InRange s W (n.val * 2 ^ F)
  swap
  · exact absurd (C124_int_panics z n hr).1 h.not_panics
  have hp : (2:ℤ) ^ F ≠ 0 := by positivity
  have hc := fromNum_int (m := .checked) n hr
  rw [C09_generic z n _ hc] at h
  obtain ⟨h1, h2⟩ := returns_pair h
  have a := (Fixed.returns_fit hW h1).2 rfl
  have b := (Fixed.returns_fit hW h2).2 rfl
  simp only [Fixed.mkv_val, ← mul_assoc, Int.mul_ediv_cancel _ hp] at a b
  have e : ∀ {x y : Fixed .checked s W F}, y.val = x.val * n.val →
      (NumOps.div y (Fixed.mkv _ (inRange_iff.mp hr)) : Prog (Fixed .checked s W F)) = pure x := by
    intro x y h
    rw [Fixed.div_def, Fixed.mkv_val, if_neg (mul_ne_zero h0 hp), Int.mul_tdiv_mul_of_pos_left _ _ (by positivity), h,
      Int.mul_tdiv_cancel _ h0]
    exact Fixed.fit_of_fits x.fits
  exact .of_eq (by rw [C11_nonzero t n _ (by simp [h0]) hc, e a, e b]; rfl)

example := C144_fixed_int (by decide) ⟨fx .checked true 16 4 3, fx .checked true 16 4 (-5)⟩ ⟨fx .checked true 16 4 21, fx .checked true 16 4 (-35)⟩
  (i .checked true 16 7) (by decide) (by run 0)

/-- One part of `(z * r) / r`: the truncated product is off by less than a unit, the quotient by `1 / |r|` of that and less than a
unit of its own. -/
theorem fixed_mul_div (F : ℕ) (x : ℤ) {c : ℤ} (hc : c ≠ 0) :
    |((((x * c / 2 ^ F) * 2 ^ F).tdiv c : ℤ) : ℝ) - x| < 2 ^ F / |(c:ℝ)| + 1 := by
  have hp : (0:ℤ) < 2 ^ F := by positivity
  have hcr : (0:ℝ) < |(c:ℝ)| := abs_pos.mpr (by exact_mod_cast hc)
  set t := x * c / 2 ^ F with ht
  have h1 : (t:ℝ) * 2 ^ F ≤ x * c := by exact_mod_cast Int.ediv_mul_le (x * c) hp.ne'
  have h2 : (x:ℝ) * c < (t + 1) * 2 ^ F := by exact_mod_cast Int.lt_ediv_add_one_mul_self (x * c) hp
  have h3 := Fixed.abs_tdiv_sub (t * 2 ^ F) hc
  push_cast at h3
  have h4 : |(t:ℝ) * 2 ^ F / c - x| < 2 ^ F / |(c:ℝ)| := by
    rw [show (t:ℝ) * 2 ^ F / c - x = (t * 2 ^ F - x * c) / c by
      field_simp [show (c:ℝ) ≠ 0 from abs_pos.mp hcr], abs_div]
    refine div_lt_div_of_pos_right ?_ hcr
    rw [abs_lt]; constructor <;> linarith [show (0:ℝ) < 2 ^ F by positivity]
  have := abs_add_le ((((t * 2 ^ F).tdiv c : ℤ) : ℝ) - t * 2 ^ F / c) (t * 2 ^ F / c - x)
  rw [sub_add_sub_cancel] at this
  linarith

/-- One part of `(z / r) * r`. -/
theorem fixed_div_mul (F : ℕ) (x : ℤ) {c : ℤ} (hc : c ≠ 0) :
    |(((x * 2 ^ F).tdiv c * c / 2 ^ F : ℤ) : ℝ) - x| < |(c:ℝ)| / 2 ^ F + 1 := by
  have hp : (0:ℤ) < 2 ^ F := by positivity
  have hpr : (0:ℝ) < 2 ^ F := by positivity
  have hcr : (0:ℝ) < |(c:ℝ)| := abs_pos.mpr (by exact_mod_cast hc)
  have h3 := Fixed.abs_tdiv_sub (x * 2 ^ F) hc
  push_cast at h3
  set n := (x * 2 ^ F).tdiv c with hn
  set t := n * c / 2 ^ F with ht
  have h1 : (t:ℝ) * 2 ^ F ≤ n * c := by exact_mod_cast Int.ediv_mul_le (n * c) hp.ne'
  have h2 : (n:ℝ) * c < (t + 1) * 2 ^ F := by exact_mod_cast Int.lt_ediv_add_one_mul_self (n * c) hp
  have h4 : |(n:ℝ) * c - x * 2 ^ F| < |(c:ℝ)| := by
    rw [show (n:ℝ) * c - x * 2 ^ F = (n - x * 2 ^ F / c) * c by
      field_simp [show (c:ℝ) ≠ 0 from abs_pos.mp hcr], abs_mul]
    exact (mul_lt_mul_of_pos_right h3 hcr).trans_eq (one_mul _)
  have h5 : |((t:ℝ) - x) * 2 ^ F| < |(c:ℝ)| + 2 ^ F := by
    obtain ⟨h5, h6⟩ := abs_lt.mp h4
    rw [abs_lt]; constructor <;> linarith
  rw [abs_mul, abs_of_pos hpr] at h5
  rw [show |(c:ℝ)| / 2 ^ F + 1 = (|(c:ℝ)| + 2 ^ F) / 2 ^ F by field_simp, lt_div_iff₀ hpr]
  exact h5

theorem Fixed.abs_r (c : Fixed m s W F) : |c.r| = |(c.val:ℝ)| / 2 ^ F := by
  rw [Fixed.r, abs_div, abs_of_pos (show (0:ℝ) < 2 ^ F by positivity)]

/-- C144, fixed point in a debug build: `(z * r) / r`, if it returns, is `z` within `1 / |r| + 1` units in the last place, part by part.
`r` may be of any scalar type; `c` is what it converts to. -/
theorem C144_fixed [Conv α (Fixed .checked s W F)] (hW : 0 < W) (z t w : Cartesian (Fixed .checked s W F)) (r : α)
    (c : Fixed .checked s W F) (h0 : MixedCmp.beq r MixedZero.zero = false) (hc : Conv.fromNum r = pure c)
    (h : Returns (z.mulScalar r) t) (h' : Returns (t.divScalar r) w) :
    |w.re.r - z.re.r| < (1 / |c.r| + 1) / 2 ^ F ∧ |w.im.r - z.im.r| < (1 / |c.r| + 1) / 2 ^ F := by
  have hp : (0:ℝ) < 2 ^ F := by positivity
  rw [C09_generic z r c hc] at h
  rw [C11_nonzero t r c h0 hc] at h'
  obtain ⟨h1, h2⟩ := returns_pair h
  obtain ⟨h3, h4⟩ := returns_pair h'
  have hn : c.val ≠ 0 := by
    intro hn; rw [Fixed.div_def, if_pos hn] at h3; exact absurd h3 returns_fail
  rw [Fixed.div_def, if_neg hn] at h3 h4
  have key : ∀ {x y v : Fixed .checked s W F}, Returns (NumOps.mul x c) y → Returns (Fixed.fit ((y.val * 2 ^ F).tdiv c.val)) v →
      |v.r - x.r| < (1 / |c.r| + 1) / 2 ^ F := by
    intro x y v h h'
    have e := (Fixed.returns_fit hW h).2 rfl
    have e' := (Fixed.returns_fit hW h').2 rfl
    have := fixed_mul_div F x.val hn
    rw [← e, ← e'] at this
    rw [Fixed.abs_r, Fixed.r, Fixed.r, ← sub_div, abs_div, abs_of_pos hp, one_div_div]
    exact div_lt_div_of_pos_right this hp
  exact ⟨key h1 h3, key h2 h4⟩

example := C144_fixed (by decide) ⟨fx .checked true 16 4 3, fx .checked true 16 4 5⟩ ⟨fx .checked true 16 4 21, fx .checked true 16 4 35⟩
  ⟨fx .checked true 16 4 3, fx .checked true 16 4 5⟩ (i .checked true 8 7) (fx .checked true 16 4 112) rfl rfl (by run 0) (by run 0)

/-- C144, fixed point in a debug build: `(z / r) * r`, if it returns, is `z` within `|r| + 1` units in the last place, part by part. -/
theorem C144_fixed_div [Conv α (Fixed .checked s W F)] (hW : 0 < W) (z t w : Cartesian (Fixed .checked s W F)) (r : α)
    (c : Fixed .checked s W F) (h0 : MixedCmp.beq r MixedZero.zero = false) (hc : Conv.fromNum r = pure c)
    (h : Returns (z.divScalar r) t) (h' : Returns (t.mulScalar r) w) :
    |w.re.r - z.re.r| < (|c.r| + 1) / 2 ^ F ∧ |w.im.r - z.im.r| < (|c.r| + 1) / 2 ^ F := by
  have hp : (0:ℝ) < 2 ^ F := by positivity
  rw [C11_nonzero z r c h0 hc] at h
  rw [C09_generic t r c hc] at h'
  obtain ⟨h1, h2⟩ := returns_pair h
  obtain ⟨h3, h4⟩ := returns_pair h'
  have hn : c.val ≠ 0 := by
    intro hn; rw [Fixed.div_def, if_pos hn] at h1; exact absurd h1 returns_fail
  rw [Fixed.div_def, if_neg hn] at h1 h2
  have key : ∀ {x y v : Fixed .checked s W F}, Returns (Fixed.fit ((x.val * 2 ^ F).tdiv c.val)) y → Returns (NumOps.mul y c) v →
      |v.r - x.r| < (|c.r| + 1) / 2 ^ F := by
    intro x y v h h'
    have e := (Fixed.returns_fit hW h).2 rfl
    have e' := (Fixed.returns_fit hW h').2 rfl
    have := fixed_div_mul F x.val hn
    rw [← e, ← e'] at this
    rw [Fixed.abs_r, Fixed.r, Fixed.r, ← sub_div, abs_div, abs_of_pos hp]
    exact div_lt_div_of_pos_right this hp
  exact ⟨key h1 h3, key h2 h4⟩

/-- The bounds are not idle: 15/16 + 5/16 i in I12F4 times and by 3/16 gives 10/16 + 0 i. -/
example : let r : Flt F32 := .fin false (3 / 16)
    ∃ t, Returns (Cartesian.mulScalar ⟨fx .checked true 16 4 15, fx .checked true 16 4 5⟩ r) t ∧
      Returns (t.divScalar r) ⟨fx .checked true 16 4 10, fx .checked true 16 4 0⟩ :=
  ⟨⟨fx .checked true 16 4 2, fx .checked true 16 4 0⟩,
    by run 0, by run 0⟩

/-! ### Floats -/

/-- The error of a finite product. -/
theorem Flt.Is.mul_err (hf : f.Wide) {x y : Flt f} {a b : ℚ} (hx : Flt.Is x a) (hy : Flt.Is y b) (h : (x.mul y).IsFinite) :
    Flt.Is (x.mul y) (rnd f.p f.emin (a * b)) := by
  obtain ⟨s, m, rfl⟩ := hx.fin; obtain ⟨t, n, rfl⟩ := hy.fin
  have e0 : (Flt.fin s m : Flt f).mul (.fin t n) = Flt.ofExact (xor s t) (a * b) := by
    show Flt.ofExact (xor s t) (Flt.val (.fin s m : Flt f) * Flt.val (Flt.fin t n : Flt f)) = _
    rw [hx.val, hy.val]
  rw [e0] at h ⊢
  rcases Flt.ofExact_cases hf.one_le (xor s t) (a * b) with h' | ⟨-, h'⟩
  · exact h'
  · obtain ⟨_, _, h⟩ := h; rw [h'] at h; cases h

/-- The error of a finite quotient. -/
theorem Flt.Is.div_err (hf : f.Wide) {x y : Flt f} {a b : ℚ} (hx : Flt.Is x a) (hy : Flt.Is y b) (hb : b ≠ 0)
    (h : (x.div y).IsFinite) : Flt.Is (x.div y) (rnd f.p f.emin (a / b)) := by
  obtain ⟨s, m, rfl⟩ := hx.fin; obtain ⟨t, n, rfl⟩ := hy.fin
  have hn : n ≠ 0 := by
    rintro rfl; apply hb; rw [← hy.val]; cases t <;> simp [Flt.val]
  have e0 : (Flt.fin s m : Flt f).div (.fin t n) = Flt.ofExact (xor s t) (a / b) := by
    show (if n = 0 then _ else Flt.ofExact (xor s t) (Flt.val (.fin s m : Flt f) / Flt.val (Flt.fin t n : Flt f))) = _
    rw [if_neg hn, hx.val, hy.val]
  rw [e0] at h ⊢
  rcases Flt.ofExact_cases hf.one_le (xor s t) (a / b) with h' | ⟨-, h'⟩
  · exact h'
  · obtain ⟨_, _, h⟩ := h; rw [h'] at h; cases h

/-- Zero, or large enough that rounding to the format keeps all the digits. -/
def NormalOrZero (f : Format) (q : ℚ) : Prop := q = 0 ∨ (2:ℚ) ^ (f.emin + f.p - 1) ≤ |q|

theorem NormalOrZero.err {q : ℚ} (h : NormalOrZero f q) : |rnd f.p f.emin q - q| ≤ |q| * 2 ^ (-(f.p:ℤ)) := by
  rcases h with rfl | h
  · rw [rnd_rep Rep.zero]; simp
  · exact abs_rnd_rel h

/-- Two roundings. -/
theorem two_roundings {x p q : ℚ} (h1 : |p - x| ≤ |x| * 2 ^ (-(f.p:ℤ)))
    (h2 : |q - p| ≤ |p| * 2 ^ (-(f.p:ℤ)) + 2 ^ f.emin / 2) : |q - x| ≤ 3 * |x| * 2 ^ (-(f.p:ℤ)) + 2 ^ f.emin / 2 := by
  have u0 : (0:ℚ) < 2 ^ (-(f.p:ℤ)) := two_zpow_pos _
  have u1 : (2:ℚ) ^ (-(f.p:ℤ)) ≤ 1 := by
    rw [show (1:ℚ) = 2 ^ (0:ℤ) by simp]; exact two_zpow_le (by omega)
  set u := (2:ℚ) ^ (-(f.p:ℤ))
  have h3 : |p| ≤ 2 * |x| := by
    have := abs_add_le (p - x) x
    rw [sub_add_cancel] at this
    have := mul_le_of_le_one_right (abs_nonneg x) u1
    linarith
  have h4 := mul_le_mul_of_nonneg_right h3 u0.le
  have := abs_add_le (q - p) (p - x)
  rw [sub_add_sub_cancel] at this
  linarith

/-- C144, floats: `(z * r) / r` is `z` within three units of relative error `2^-p` and half a subnormal unit, where the products do not
underflow and nothing overflows. -/
theorem C144_float [Conv α (Flt f)] (hf : f.Wide) (z t w : Cartesian (Flt f)) (r : α) (c : Flt f)
    (h0 : MixedCmp.beq r MixedZero.zero = false) (hc : Conv.fromNum r = pure c) (hn : c.val ≠ 0) (hcv : c.IsFinite ∧ c.Valid)
    (h1 : z.re.IsFinite ∧ z.re.Valid) (h2 : z.im.IsFinite ∧ z.im.Valid)
    (n1 : NormalOrZero f (z.re.val * c.val)) (n2 : NormalOrZero f (z.im.val * c.val))
    (h : Returns (z.mulScalar r) t) (h' : Returns (t.divScalar r) w) (h3 : t.re.IsFinite ∧ t.im.IsFinite)
    (h4 : w.re.IsFinite ∧ w.im.IsFinite) :
    |w.re.val - z.re.val| ≤ 3 * |z.re.val| * 2 ^ (-(f.p:ℤ)) + 2 ^ f.emin / 2 ∧
    |w.im.val - z.im.val| ≤ 3 * |z.im.val| * 2 ^ (-(f.p:ℤ)) + 2 ^ f.emin / 2 := by
  rw [C09_generic z r c hc] at h
  rw [C11_nonzero t r c h0 hc] at h'
  obtain ⟨x, y⟩ := z
  have e : t = ⟨x.mul c, y.mul c⟩ := (returns_pure.mp h).symm
  subst e
  have e : w = ⟨(x.mul c).div c, (y.mul c).div c⟩ := (returns_pure.mp h').symm
  subst e
  have kc := Flt.is_of_finite hcv.1 hcv.2
  have key : ∀ {x : Flt f}, x.IsFinite ∧ x.Valid → NormalOrZero f (x.val * c.val) → (x.mul c).IsFinite → ((x.mul c).div c).IsFinite →
      |((x.mul c).div c).val - x.val| ≤ 3 * |x.val| * 2 ^ (-(f.p:ℤ)) + 2 ^ f.emin / 2 := by
    intro x hx hn' k1 k2
    have d1 := (Flt.is_of_finite hx.1 hx.2).mul_err hf kc k1
    have d2 := d1.div_err hf kc hn k2
    rw [d2.val]
    refine two_roundings ?_ (abs_rnd_le _)
    have := hn'.err
    rw [show rnd f.p f.emin (x.val * c.val) / c.val - x.val = (rnd f.p f.emin (x.val * c.val) - x.val * c.val) / c.val by
      field_simp, abs_div, div_le_iff₀ (abs_pos.mpr hn)]
    rw [abs_mul] at this; linarith
  exact ⟨key h1 n1 h3.1 h4.1, key h2 n2 h3.2 h4.2⟩

example := C144_float (f := F32) (α := Flt F32) ⟨by decide, by decide, by decide, by decide, by decide⟩ ⟨.fin false 3, .fin true 4⟩ ⟨.fin true 12, .fin false 16⟩ ⟨.fin false 3, .fin true 4⟩ (.fin true 4) (.fin true 4)
  (by decide +kernel) (by kernel_rfl) (by norm_num [Flt.val]) ⟨⟨_, _, rfl⟩, ⟨4, 0, by decide, by decide, by norm_num [pow2_eq], by norm_num⟩⟩ ⟨⟨_, _, rfl⟩, ⟨3, 0, by decide, by decide, by norm_num [pow2_eq], by norm_num⟩⟩ ⟨⟨_, _, rfl⟩, ⟨4, 0, by decide, by decide, by norm_num [pow2_eq], by norm_num⟩⟩
  (.inr (by norm_num [Flt.val, F32])) (.inr (by norm_num [Flt.val, F32])) (by run 10) (by run 10) ⟨⟨_, _, rfl⟩, _, _, rfl⟩ ⟨⟨_, _, rfl⟩, _, _, rfl⟩

/-- C144, floats, the other order: `(z / r) * r`. -/
theorem C144_float_div [Conv α (Flt f)] (hf : f.Wide) (z t w : Cartesian (Flt f)) (r : α) (c : Flt f)
    (h0 : MixedCmp.beq r MixedZero.zero = false) (hc : Conv.fromNum r = pure c) (hn : c.val ≠ 0) (hcv : c.IsFinite ∧ c.Valid)
    (h1 : z.re.IsFinite ∧ z.re.Valid) (h2 : z.im.IsFinite ∧ z.im.Valid)
    (n1 : NormalOrZero f (z.re.val / c.val)) (n2 : NormalOrZero f (z.im.val / c.val))
    (h : Returns (z.divScalar r) t) (h' : Returns (t.mulScalar r) w) (h3 : t.re.IsFinite ∧ t.im.IsFinite)
    (h4 : w.re.IsFinite ∧ w.im.IsFinite) :
    |w.re.val - z.re.val| ≤ 3 * |z.re.val| * 2 ^ (-(f.p:ℤ)) + 2 ^ f.emin / 2 ∧
    |w.im.val - z.im.val| ≤ 3 * |z.im.val| * 2 ^ (-(f.p:ℤ)) + 2 ^ f.emin / 2 := by
  rw [C11_nonzero z r c h0 hc] at h
  rw [C09_generic t r c hc] at h'
  obtain ⟨x, y⟩ := z
  have e : t = ⟨x.div c, y.div c⟩ := (returns_pure.mp h).symm
  subst e
  have e : w = ⟨(x.div c).mul c, (y.div c).mul c⟩ := (returns_pure.mp h').symm
  subst e
  have kc := Flt.is_of_finite hcv.1 hcv.2
  have key : ∀ {x : Flt f}, x.IsFinite ∧ x.Valid → NormalOrZero f (x.val / c.val) → (x.div c).IsFinite → ((x.div c).mul c).IsFinite →
      |((x.div c).mul c).val - x.val| ≤ 3 * |x.val| * 2 ^ (-(f.p:ℤ)) + 2 ^ f.emin / 2 := by
    intro x hx hn' k1 k2
    have d1 := (Flt.is_of_finite hx.1 hx.2).div_err hf kc hn k1
    have d2 := d1.mul_err hf kc k2
    rw [d2.val]
    refine two_roundings ?_ (abs_rnd_le _)
    have := hn'.err
    rw [show rnd f.p f.emin (x.val / c.val) * c.val - x.val = (rnd f.p f.emin (x.val / c.val) - x.val / c.val) * c.val by
      field_simp, abs_mul]
    refine (mul_le_mul_of_nonneg_right this (abs_nonneg _)).trans (le_of_eq ?_)
    rw [abs_div]; field_simp [abs_pos.mpr hn]
  exact ⟨key h1 n1 h3.1 h4.1, key h2 n2 h3.2 h4.2⟩

example := C144_float_div (f := F32) (α := Flt F32) ⟨by decide, by decide, by decide, by decide, by decide⟩ ⟨.fin false 3, .fin true 4⟩ ⟨.fin true (3 / 4), .fin false 1⟩ ⟨.fin false 3, .fin true 4⟩ (.fin true 4) (.fin true 4)
  (by decide +kernel) (by kernel_rfl) (by norm_num [Flt.val]) ⟨⟨_, _, rfl⟩, ⟨4, 0, by decide, by decide, by norm_num [pow2_eq], by norm_num⟩⟩ ⟨⟨_, _, rfl⟩, ⟨3, 0, by decide, by decide, by norm_num [pow2_eq], by norm_num⟩⟩ ⟨⟨_, _, rfl⟩, ⟨4, 0, by decide, by decide, by norm_num [pow2_eq], by norm_num⟩⟩
  (.inr (by norm_num [Flt.val, F32])) (.inr (by norm_num [Flt.val, F32])) (by run 10) (by run 10) ⟨⟨_, _, rfl⟩, _, _, rfl⟩ ⟨⟨_, _, rfl⟩, _, _, rfl⟩

/-- Neither is `z` in general: in `f32`, `(1 / 41) * 41` falls short of 1 by `2^-24`. -/
theorem C144_float_lossy : let c : ℚ → Cartesian (Flt F32) := fun q => ⟨.fin false q, .fin false 0⟩
    ∃ t, Returns ((c 1).divScalar (Flt.fin false 41 : Flt F32)) t ∧ Returns (t.mulScalar (Flt.fin false 41 : Flt F32)) (c (1 - 1 / 2 ^ 24)) ∧
      NormalOrZero F32 (1 / 41) := by
  intro c
  refine ⟨c (3273603 / 2 ^ 27), .of_eq (congrArg (pure : Cartesian (Flt F32) → Prog _) (by decide +kernel)),
    .of_eq (congrArg (pure : Cartesian (Flt F32) → Prog _) (by decide +kernel)), .inr ?_⟩
  norm_num [F32]

end MixedNum
