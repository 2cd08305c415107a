import Verif.Props.FloatConv
import Verif.Props.ExactFloat
import Verif.Props.AddSub
import Verif.Lemmas.Run
import Verif.Lemmas.Case
/-! # C130: conversions and arithmetic preserve the order -/

namespace MixedNum
variable {m : Mode} {s s' : Bool} {W W' F : ℕ} {f g : Format}
open Flt

/-- `f` takes `x <= y` to `f(x) <= f(y)`, as the types' own `<=` has it, where it returns. -/
def Mono {α β : Type} [MixedCmp α] [MixedCmp β] (h : α → Prog β) : Prop :=
  ∀ x y a b, MixedCmp.le x y = true → Returns (h x) a → Returns (h y) b → MixedCmp.le a b = true

theorem le_fin {a b : Flt f} (ha : a.IsFinite) (hb : b.IsFinite) : MixedCmp.le a b = true ↔ a.val ≤ b.val := by
  obtain ⟨s, x, rfl⟩ := ha; obtain ⟨t, y, rfl⟩ := hb
  show (decide _ || decide _) = true ↔ _
  rw [Bool.or_eq_true, decide_eq_true_iff, decide_eq_true_iff, le_iff_lt_or_eq]

theorem le_inf (a : Flt f) (h : a ≠ .nan) : MixedCmp.le a (.inf false) = true := by
  cases a with
  | nan => exact absurd rfl h
  | inf s => cases s <;> rfl
  | fin s q => rfl

theorem inf_le (a : Flt f) (h : a ≠ .nan) : MixedCmp.le (.inf true) a = true := by
  cases a with
  | nan => exact absurd rfl h
  | inf s => cases s <;> rfl
  | fin s q => rfl

theorem ofExact_ne_nan (z : Bool) (q : ℚ) : (ofExact z q : Flt f) ≠ .nan := by
  unfold ofExact; intro h
  split at h
  · cases h
  · dsimp only at h; split at h <;> cases h

/-- Rounding preserves order, overflow included. -/
theorem ofExact_mono (hp : 1 ≤ f.p) (z w : Bool) {q r : ℚ} (h : q ≤ r) :
    MixedCmp.le (ofExact z q : Flt f) (ofExact w r) = true := by
  have hm := rnd_mono (emin := f.emin) hp h
  have e0 : rnd f.p f.emin 0 = 0 := by simp [rnd, roundTo]
  have pos : (0:ℚ) < 2 ^ f.emax := by positivity
  have nn : ∀ {q : ℚ}, ¬q < 0 → 0 ≤ rnd f.p f.emin q := fun h => by
    have := rnd_mono (emin := f.emin) hp (not_lt.mp h); rwa [e0] at this
  have np : ∀ {q : ℚ}, q < 0 → rnd f.p f.emin q ≤ 0 := fun h => by
    have := rnd_mono (emin := f.emin) hp h.le; rwa [e0] at this
  rcases ofExact_cases hp z q with h1 | ⟨h1, e1⟩ <;> rcases ofExact_cases hp w r with h2 | ⟨h2, e2⟩
  · rw [le_fin h1.fin h2.fin, h1.val, h2.val]; exact hm
  · by_cases hr : r < 0
    · rw [abs_of_nonpos (np hr)] at h2
      have := neg_le_abs (rnd f.p f.emin q)
      have := h1.lt_max
      linarith
    · rw [e2, decide_eq_false hr]; exact le_inf _ (ofExact_ne_nan _ _)
  · by_cases hq : q < 0
    · rw [e1, decide_eq_true hq]; exact inf_le _ (ofExact_ne_nan _ _)
    · rw [abs_of_nonneg (nn hq)] at h1
      have := le_abs_self (rnd f.p f.emin r)
      have := h2.lt_max
      linarith
  · rw [e1, e2]
    by_cases hq : q < 0
    · rw [decide_eq_true hq]; exact inf_le _ (by simp)
    · rw [decide_eq_false hq, decide_eq_false (not_lt.mpr ((not_lt.mp hq).trans h))]; rfl

/-- The order of floats: by value, infinities at the ends, NaN nowhere. -/
theorem le_cases {x y : Flt f} (h : MixedCmp.le x y = true) :
    x = .inf true ∧ y ≠ .nan ∨ y = .inf false ∧ x ≠ .nan ∨ ∃ s p t q, x = .fin s p ∧ y = .fin t q ∧
      (Flt.fin s p : Flt f).val ≤ (Flt.fin t q : Flt f).val := by
  cases x with
  | nan => cases y <;> cases h
  | inf s =>
    cases y with
    | nan => cases s <;> cases h
    | inf t => cases s <;> cases t <;> simp_all [MixedCmp.le, Flt.lt, Flt.beq]
    | fin t q =>
      cases s
      · cases h
      · exact .inl ⟨rfl, by simp⟩
  | fin s p =>
    cases y with
    | nan => cases h
    | inf t =>
      cases t
      · exact .inr (.inl ⟨rfl, by simp⟩)
      · cases h
    | fin t q => exact .inr (.inr ⟨s, p, t, q, rfl, rfl, (le_fin ⟨_, _, rfl⟩ ⟨_, _, rfl⟩).mp h⟩)

/-! ## Conversions -/

/-- C130: to floats, from integers, floats and fixed point, overflow to infinity included. -/
theorem C130_to_float (hf : f.Wide) : Mono (Conv.fromNum : PInt m s W → Prog (Flt f)) ∧ Mono (Conv.toNum : PInt m s W → Prog (Flt f)) ∧
    Mono (Conv.fromNum : Flt g → Prog (Flt f)) ∧ Mono (Conv.toNum : Flt g → Prog (Flt f)) ∧
    Mono (Conv.toNum : Fixed m s W F → Prog (Flt f)) := by
  have hi : ∀ x y : PInt m s W, MixedCmp.le x y = true → MixedCmp.le (ofExact false x.val : Flt f) (ofExact false y.val) = true := by
    intro x y h
    exact ofExact_mono hf.one_le _ _ (by exact_mod_cast of_decide_eq_true h)
  have hc : ∀ x y : Flt g, MixedCmp.le x y = true → MixedCmp.le (Flt.cast x : Flt f) (Flt.cast y) = true := by
    intro x y h
    rcases le_cases h with ⟨rfl, k⟩ | ⟨rfl, k⟩ | ⟨a, p, b, q, rfl, rfl, k⟩
    · refine inf_le _ ?_
      cases y with
      | nan => exact absurd rfl k
      | inf t => simp [Flt.cast]
      | fin t q => exact ofExact_ne_nan _ _
    · refine le_inf _ ?_
      cases x with
      | nan => exact absurd rfl k
      | inf t => simp [Flt.cast]
      | fin t q => exact ofExact_ne_nan _ _
    · exact ofExact_mono hf.one_le _ _ k
  refine ⟨?_, ?_, ?_, ?_, ?_⟩ <;> intro x y a b h ha hb <;> obtain rfl := returns_pure.mp ha <;> obtain rfl := returns_pure.mp hb
  · exact hi x y h
  · exact hi x y h
  · exact hc x y h
  · exact hc x y h
  · refine ofExact_mono hf.one_le _ _ ?_
    unfold Fixed.toRat
    have : (x.val : ℚ) ≤ y.val := by exact_mod_cast of_decide_eq_true h
    exact div_le_div_of_nonneg_right this (by positivity)

example := C130_to_float (m := .checked) (s := true) (W := 64) (F := 32) (f := F32) (g := F64) wide_F32

theorem truncQ_mono {q r : ℚ} (h : q ≤ r) : PInt.truncQ q ≤ PInt.truncQ r := by
  rcases le_total 0 q with hq | hq
  · rw [truncQ_nonneg hq, truncQ_nonneg (hq.trans h)]; exact Int.floor_mono h
  · have e1 : PInt.truncQ q = -⌊-q⌋ := by rw [← truncQ_nonneg (by linarith), truncQ_neg, neg_neg]
    rcases le_total 0 r with hr | hr
    · rw [e1, truncQ_nonneg hr]
      have h1 : 0 ≤ ⌊-q⌋ := Int.floor_nonneg.mpr (by linarith)
      have h2 : 0 ≤ ⌊r⌋ := Int.floor_nonneg.mpr hr
      omega
    · have e2 : PInt.truncQ r = -⌊-r⌋ := by rw [← truncQ_nonneg (by linarith), truncQ_neg, neg_neg]
      rw [e1, e2]
      have := Int.floor_mono (neg_le_neg h)
      omega

theorem saturate_mono {a b : ℤ} (h : a ≤ b) : (Word.saturate a : Word s W).val ≤ (Word.saturate b : Word s W).val := by
  have h0 := wlo_lt_whi s W
  rw [saturate_val, saturate_val]
  split_ifs <;> omega

/-- C130: from floats to integers (saturating), in both modes. -/
theorem C130_float_int : Mono (Conv.fromNum : Flt f → Prog (PInt m s W)) ∧ Mono (Conv.toNum : Flt f → Prog (PInt m s W)) := by
  have key : ∀ x y : Flt f, MixedCmp.le x y = true → (toWord x : Word s W).val ≤ (toWord y : Word s W).val := by
    intro x y h
    rcases le_cases h with ⟨rfl, k⟩ | ⟨rfl, k⟩ | ⟨a, p, b, q, rfl, rfl, k⟩
    · exact (toWord y).lo_le
    · exact Int.le_sub_one_of_lt (toWord x).lt_hi
    · exact saturate_mono (truncQ_mono k)
  constructor <;> intro x y a b h ha hb <;> obtain rfl := returns_pure.mp ha <;> obtain rfl := returns_pure.mp hb <;>
    exact decide_eq_true (key x y h)

theorem fit_mono {a b : ℤ} {x y : Fixed .checked s W F} (h : a ≤ b) (hx : Returns (Fixed.fit a) x) (hy : Returns (Fixed.fit b) y) :
    MixedCmp.le x y = true := by
  have key : ∀ {k : ℤ} {r : Fixed .checked s W F}, Returns (Fixed.fit k) r → r.val = k := by
    intro k r hr
    by_cases hf : Fits s W k
    · rw [Fixed.fit_of_fits hf] at hr; rw [← returns_pure.mp hr]; rfl
    · rw [Fixed.fit_checked hf] at hr; exact absurd hr returns_fail
  exact decide_eq_true (by rw [key hx, key hy]; exact h)

theorem fit_mono_int {a b : ℤ} {x y : PInt .checked s W} (h : a ≤ b) (hx : Returns (PInt.fit a) x) (hy : Returns (PInt.fit b) y) :
    MixedCmp.le x y = true := by
  have key : ∀ {k : ℤ} {r : PInt .checked s W}, Returns (PInt.fit k) r → r.val = k := by
    intro k r hr
    by_cases hf : Fits s W k
    · rw [PInt.fit_of_fits hf] at hr; rw [← returns_pure.mp hr]; rfl
    · rw [PInt.fit_checked hf] at hr; exact absurd hr returns_fail
  exact decide_eq_true (by rw [key hx, key hy]; exact h)

/-- C130: to fixed point from floats and integers, and from fixed point to integers, with overflow checks. -/
theorem C130_fixed : Mono (Conv.fromNum : Flt f → Prog (Fixed .checked s W F)) ∧
    Mono (Conv.fromNum : PInt .checked s' W' → Prog (Fixed .checked s W F)) ∧
    Mono (Conv.toNum : Fixed .checked s W F → Prog (PInt .checked s' W')) := by
  refine ⟨?_, ?_, ?_⟩ <;> intro x y a b h ha hb
  · rcases le_cases h with ⟨rfl, -⟩ | ⟨rfl, -⟩ | ⟨u, p, v, q, rfl, rfl, k⟩
    · exact absurd ha returns_fail
    · exact absurd hb returns_fail
    · exact fit_mono (roundHalfEven_mono (mul_le_mul_of_nonneg_right k (by positivity))) ha hb
  · exact fit_mono (mul_le_mul_of_nonneg_right (of_decide_eq_true h) (by positivity)) ha hb
  · exact fit_mono_int (Int.ediv_le_ediv (by positivity) (of_decide_eq_true h)) ha hb

/-- C130: between integers where both are representable; a cast that wraps round does not preserve the order (200 and 100 as `i8`). -/
theorem C130_int_int (x y : PInt m s' W') (h : MixedCmp.le x y = true) (hx : InRange s W x.val) (hy : InRange s W y.val) :
    ∃ a b : PInt m s W, Returns (Conv.fromNum x) a ∧ Returns (Conv.fromNum y) b ∧ MixedCmp.le a b = true ∧
      a.val = x.val ∧ b.val = y.val := by
  rw [inRange_iff] at hx hy
  have e : ∀ {z : PInt m s' W'}, Fits s W z.val → (⟨Word.wrap z.val⟩ : PInt m s W).val = z.val := fun h => wrapInt_of_fits h
  exact ⟨_, _, .of_eq rfl, .of_eq rfl, decide_eq_true (by rw [e hx, e hy]; exact of_decide_eq_true h), e hx, e hy⟩

example := C130_int_int (s := true) (W := 8) (i .checked true 16 (-128)) (i .checked true 16 127) (by decide) (by decide) (by decide)

theorem C130_int_int_wraps : ¬ Mono (Conv.fromNum : PInt .checked true 16 → Prog (PInt .checked true 8)) := fun h => by
  have := h (i .checked true 16 100) (i .checked true 16 200) (i .checked true 8 100) (i .checked true 8 (-56)) rfl (.of_eq rfl) (.of_eq rfl)
  exact absurd this (by decide)

/-! ## Arithmetic -/

/-- C130: on integers and fixed point with overflow checks, adding or subtracting a number, multiplying by one that is not negative and
dividing by a positive one preserve the order. -/
theorem C130_arith_fixed (c : Fixed .checked s W F) (d : PInt .checked s W) :
    Mono (fun x : Fixed .checked s W F => NumOps.add x c) ∧ Mono (fun x : Fixed .checked s W F => NumOps.sub x c) ∧
    (0 ≤ c.val → Mono (fun x : Fixed .checked s W F => NumOps.mul x c)) ∧
    (0 < c.val → Mono (fun x : Fixed .checked s W F => NumOps.div x c)) ∧
    Mono (fun x : PInt .checked s W => NumOps.add x d) ∧ Mono (fun x : PInt .checked s W => NumOps.sub x d) ∧
    (0 ≤ d.val → Mono (fun x : PInt .checked s W => NumOps.mul x d)) ∧
    (0 < d.val → Mono (fun x : PInt .checked s W => NumOps.div x d)) := by
  have l : ∀ {x y : Fixed .checked s W F}, MixedCmp.le x y = true → x.val ≤ y.val := fun h => of_decide_eq_true h
  have l' : ∀ {x y : PInt .checked s W}, MixedCmp.le x y = true → x.val ≤ y.val := fun h => of_decide_eq_true h
  refine ⟨?_, ?_, fun hc => ?_, fun hc => ?_, ?_, ?_, fun hc => ?_, fun hc => ?_⟩ <;> intro x y a b h ha hb
  · exact fit_mono (by have := l h; omega) ha hb
  · exact fit_mono (by have := l h; omega) ha hb
  · exact fit_mono (Int.ediv_le_ediv (by positivity) (mul_le_mul_of_nonneg_right (l h) hc)) ha hb
  · simp only [Fixed.div_def, if_neg hc.ne'] at ha hb
    exact fit_mono (Int.tdiv_le_tdiv hc (mul_le_mul_of_nonneg_right (l h) (by positivity))) ha hb
  · exact fit_mono_int (by have := l' h; omega) ha hb
  · exact fit_mono_int (by have := l' h; omega) ha hb
  · exact fit_mono_int (mul_le_mul_of_nonneg_right (l' h) hc) ha hb
  · simp only [PInt.div_def, if_neg hc.ne'] at ha hb
    have key : ∀ {k : ℤ} {r : PInt .checked s W},
        Returns (if h : Fits s W k then pure (PInt.mkv _ h) else Prog.fail .overflow) r → r.val = k := by
      intro k r hr
      by_cases hf : Fits s W k
      · rw [dif_pos hf] at hr; rw [← returns_pure.mp hr]; rfl
      · rw [dif_neg hf] at hr; exact absurd hr returns_fail
    exact decide_eq_true (by rw [key ha, key hb]; exact Int.tdiv_le_tdiv hc (l' h))

/-- C130: on floats, overflow, underflow and infinities included, as long as no result is NaN. -/
theorem C130_arith_float (hf : f.Wide) (x y z : Flt f) (hx : x.Valid) (hy : y.Valid) (hz : z.Valid) (h : MixedCmp.le x y = true) :
    (x.add z ≠ .nan → y.add z ≠ .nan → MixedCmp.le (x.add z) (y.add z) = true) ∧
    (x.sub z ≠ .nan → y.sub z ≠ .nan → MixedCmp.le (x.sub z) (y.sub z) = true) ∧
    (MixedCmp.le (.fin false 0) z = true → x.mul z ≠ .nan → y.mul z ≠ .nan → MixedCmp.le (x.mul z) (y.mul z) = true) ∧
    MixedCmp.le y.neg x.neg = true := by
  have add : ∀ z : Flt f, x.add z ≠ .nan → y.add z ≠ .nan → MixedCmp.le (x.add z) (y.add z) = true := by
    intro z h1 h2
    rcases le_cases h with ⟨rfl, hn⟩ | ⟨rfl, hn⟩ | ⟨a, p, b, q, rfl, rfl, k⟩
    · cases z with
      | nan => exact absurd rfl h1
      | inf t => cases t
                 · exact absurd rfl h1
                 · exact inf_le _ h2
      | fin t r => exact inf_le _ h2
    · cases z with
      | nan => cases x <;> exact absurd rfl h1
      | inf t => cases t
                 · exact le_inf _ h1
                 · exact absurd rfl h2
      | fin t r => exact le_inf _ h1
    · cases z with
      | nan => exact absurd rfl h1
      | inf t => cases t <;> rfl
      | fin t r => exact ofExact_mono hf.one_le _ _ (by linarith)
  refine ⟨add z, add z.neg, ?_, ?_⟩
  · intro h0 h1 h2
    have sg : ∀ {t : Bool} {r : ℚ}, (Flt.fin t r : Flt f).Valid → 0 ≤ (Flt.fin t r : Flt f).val → r ≠ 0 → t = false := by
      intro t r hv h0 hr
      obtain ⟨_, _, e, ha, -⟩ := is_of_valid hv
      cases e
      cases t
      · rfl
      · exfalso
        have : 0 ≤ -r := by simpa [Flt.val] using h0
        exact hr (le_antisymm (by linarith) ha)
    rcases le_cases h with ⟨rfl, hn⟩ | ⟨rfl, hn⟩ | ⟨a, p, b, q, rfl, rfl, k⟩
    · have e : (Flt.inf true : Flt f).mul z = .inf true := by
        cases z with
        | nan => cases h0
        | inf t => cases t
                   · rfl
                   · cases h0
        | fin t r =>
          have hr : r ≠ 0 := by rintro rfl; exact h1 (by simp [Flt.mul])
          rw [sg hz ((le_fin ⟨_, _, rfl⟩ ⟨_, _, rfl⟩).mp h0 |>.trans' (by simp [Flt.val])) hr]
          simp [Flt.mul, hr]
      rw [e]; exact inf_le _ h2
    · have e : (Flt.inf false : Flt f).mul z = .inf false := by
        cases z with
        | nan => cases h0
        | inf t => cases t
                   · rfl
                   · cases h0
        | fin t r =>
          have hr : r ≠ 0 := by rintro rfl; exact h2 (by simp [Flt.mul])
          rw [sg hz ((le_fin ⟨_, _, rfl⟩ ⟨_, _, rfl⟩).mp h0 |>.trans' (by simp [Flt.val])) hr]
          simp [Flt.mul, hr]
      rw [e]; exact le_inf _ h1
    · cases z with
      | nan => cases h0
      | inf t =>
        cases t with
        | true => cases h0
        | false =>
          have hp : p ≠ 0 := by rintro rfl; exact h1 (by simp [Flt.mul])
          have hq : q ≠ 0 := by rintro rfl; exact h2 (by simp [Flt.mul])
          have e1 : (Flt.fin a p : Flt f).mul (.inf false) = .inf a := by simp [Flt.mul, hp]
          have e2 : (Flt.fin b q : Flt f).mul (.inf false) = .inf b := by simp [Flt.mul, hq]
          rw [e1, e2]
          cases a with
          | true => exact inf_le _ (by simp)
          | false =>
            obtain ⟨_, _, e, ha, -⟩ := is_of_valid hx
            cases e
            have : 0 ≤ (Flt.fin false p : Flt f).val := by simpa [Flt.val] using ha
            rw [sg hy (this.trans k) hq]; rfl
      | fin t r =>
        have h3 : 0 ≤ (Flt.fin t r : Flt f).val := (le_fin ⟨_, _, rfl⟩ ⟨_, _, rfl⟩).mp h0 |>.trans' (by simp [Flt.val])
        exact ofExact_mono hf.one_le _ _ (mul_le_mul_of_nonneg_right k h3)
  · rcases le_cases h with ⟨rfl, hn⟩ | ⟨rfl, hn⟩ | ⟨a, p, b, q, rfl, rfl, k⟩
    · exact le_inf _ (by cases y <;> simp_all [Flt.neg])
    · exact inf_le _ (by cases x <;> simp_all [Flt.neg])
    · refine (le_fin ⟨_, _, rfl⟩ ⟨_, _, rfl⟩).mpr ?_
      have e : ∀ t r, (Flt.fin t r : Flt f).neg.val = -(Flt.fin t r : Flt f).val := by intro t r; cases t <;> simp [Flt.neg, Flt.val]
      show (Flt.fin b q : Flt f).neg.val ≤ (Flt.fin a p : Flt f).neg.val
      rw [e, e]; linarith

example : MixedCmp.le (.fin true 3 : Flt F32) (.fin false 5) = true ∧ MixedCmp.le (.fin false 0 : Flt F32) (.fin false 2) = true ∧
    MixedCmp.le (i .checked true 16 (-3)) (i .checked true 16 5) = true ∧ InRange true 8 (-3) ∧ InRange true 8 5 := by
  refine ⟨by decide +kernel, by decide +kernel, rfl, ?_, ?_⟩ <;> constructor <;> decide

end MixedNum
