import Verif.Lemmas.Accumulate
import Verif.Props.AddSub
import Verif.Lemmas.Run
import Verif.Lemmas.Case
/-! # C164, C165: adding up lists -/

namespace MixedNum
variable {m : Mode} {s : Bool} {W F : ℕ} {f : Format}
open Flt

theorem loop_of_fold {α β : Type} (v : α → ℤ) (hr : ∀ a, InRange s W (v a)) (T : ℤ × ℤ → β → ℤ × ℤ)
    (hT : ∀ p q b, p.1 ≡ q.1 [ZMOD 2 ^ W] → p.2 ≡ q.2 [ZMOD 2 ^ W] →
      (T p b).1 ≡ (T q b).1 [ZMOD 2 ^ W] ∧ (T p b).2 ≡ (T q b).2 [ZMOD 2 ^ W])
    (op : Cartesian α → β → Prog (Cartesian α))
    (h : ∀ a b, PairOutcome v m s W (T (v a.re, v a.im) b).1 (T (v a.re, v a.im) b).2 (op a b)) (ws : List β) (z : Cartesian α)
    (X Y : ℕ → ℤ) (hX : ∀ k ≤ ws.length, (ws.take k).foldl T (v z.re, v z.im) = (X k, Y k)) :
    LoopOutcome v m s W ws.length X Y (ws.foldlM op z) := by
  obtain ⟨h1, h2, h3⟩ := fold_outcome v hr T hT op h ws z
  have e := hX _ le_rfl
  rw [List.take_length] at e
  have hiff : (∀ k ≤ ws.length, InRange s W ((ws.take k).foldl T (v z.re, v z.im)).1 ∧ InRange s W ((ws.take k).foldl T (v z.re, v z.im)).2) ↔
      ∀ k ≤ ws.length, InRange s W (X k) ∧ InRange s W (Y k) :=
    ⟨fun h k hk => by have := h k hk; rwa [hX k hk] at this, fun h k hk => by rw [hX k hk]; exact h k hk⟩
  rw [hiff] at h1 h2
  refine ⟨fun hk => ?_, fun hk => ?_⟩
  · obtain ⟨c, c1, c2⟩ := h1 hk
    rw [e] at c2
    exact ⟨c, c1, (Prod.mk.inj c2).1, (Prod.mk.inj c2).2⟩
  · cases m with
    | checked => exact h2 hk rfl
    | wrapping =>
      obtain ⟨c, c1, c2, c3⟩ := h3 rfl
      rw [e] at c2 c3
      exact ⟨c, c1, c2, c3⟩

/-! ## C164: adding up with `+` and `-` -/

/-- C164, integers: after `k` terms the parts are the start plus the first `k` terms. -/
theorem C164_int (hW : 0 < W) (z : Cartesian (PInt m s W)) (ws : List (Cartesian (PInt m s W))) :
    LoopOutcome (fun c : PInt m s W => c.val) m s W ws.length (fun k => z.re.val + ((ws.take k).map (fun w => w.re.val)).sum)
      (fun k => z.im.val + ((ws.take k).map (fun w => w.im.val)).sum) (addUp z ws) :=
  loop_of_fold _ (fun a => inRange_iff.mpr a.fits) (fun t w => (t.1 + w.re.val, t.2 + w.im.val))
    (fun _ _ _ h1 h2 => ⟨h1.add_right _, h2.add_right _⟩) _ (fun a b => C01_add_int hW a b) ws z _ _ (fun _ _ => foldl_add _ _ _ _ _)

/-- C164, integers: taking away one after the other. -/
theorem C164_sub_int (hW : 0 < W) (z : Cartesian (PInt m s W)) (ws : List (Cartesian (PInt m s W))) :
    LoopOutcome (fun c : PInt m s W => c.val) m s W ws.length (fun k => z.re.val - ((ws.take k).map (fun w => w.re.val)).sum)
      (fun k => z.im.val - ((ws.take k).map (fun w => w.im.val)).sum) (takeAway z ws) := by
  refine loop_of_fold _ (fun a => inRange_iff.mpr a.fits) (fun t w => (t.1 + -w.re.val, t.2 + -w.im.val))
    (fun _ _ _ h1 h2 => ⟨h1.add_right _, h2.add_right _⟩) _ (fun a b => C01_sub_int hW a b) ws z _ _ (fun k _ => ?_)
  rw [foldl_add]
  have e : ∀ (l : List (Cartesian (PInt m s W))) (g : Cartesian (PInt m s W) → ℤ), (l.map (fun w => -g w)).sum = -(l.map g).sum := by
    intro l g; induction l with
    | nil => rfl
    | cons w l ih => simp only [List.map_cons, List.sum_cons, ih]; ring
  rw [e, e, sub_eq_add_neg, sub_eq_add_neg]

/-- C164, fixed point. -/
theorem C164_fixed (hW : 0 < W) (z : Cartesian (Fixed m s W F)) (ws : List (Cartesian (Fixed m s W F))) :
    LoopOutcome (fun c : Fixed m s W F => c.val) m s W ws.length (fun k => z.re.val + ((ws.take k).map (fun w => w.re.val)).sum)
      (fun k => z.im.val + ((ws.take k).map (fun w => w.im.val)).sum) (addUp z ws) :=
  loop_of_fold _ (fun a => inRange_iff.mpr a.fits) (fun t w => (t.1 + w.re.val, t.2 + w.im.val))
    (fun _ _ _ h1 h2 => ⟨h1.add_right _, h2.add_right _⟩) _ (fun a b => C01_add_fixed hW a b) ws z _ _ (fun _ _ => foldl_add _ _ _ _ _)

/-- C164, fixed point: taking away. -/
theorem C164_sub_fixed (hW : 0 < W) (z : Cartesian (Fixed m s W F)) (ws : List (Cartesian (Fixed m s W F))) :
    LoopOutcome (fun c : Fixed m s W F => c.val) m s W ws.length (fun k => z.re.val - ((ws.take k).map (fun w => w.re.val)).sum)
      (fun k => z.im.val - ((ws.take k).map (fun w => w.im.val)).sum) (takeAway z ws) := by
  refine loop_of_fold _ (fun a => inRange_iff.mpr a.fits) (fun t w => (t.1 + -w.re.val, t.2 + -w.im.val))
    (fun _ _ _ h1 h2 => ⟨h1.add_right _, h2.add_right _⟩) _ (fun a b => C01_sub_fixed hW a b) ws z _ _ (fun k _ => ?_)
  rw [foldl_add]
  have e : ∀ (l : List (Cartesian (Fixed m s W F))) (g : Cartesian (Fixed m s W F) → ℤ), (l.map (fun w => -g w)).sum = -(l.map g).sum := by
    intro l g; induction l with
    | nil => rfl
    | cons w l ih => simp only [List.map_cons, List.sum_cons, ih]; ring
  rw [e, e, sub_eq_add_neg, sub_eq_add_neg]

/-- What a word loop returns is a reduction of the exact values. -/
theorem LoopOutcome.reduction {α : Type} {v : α → ℤ} {n : ℕ} {X Y : ℕ → ℤ} {p : Prog (Cartesian α)} {c : Cartesian α}
    (h : LoopOutcome v m s W n X Y p) (hc : Returns p c) : IsReduction s W (X n) (v c.re) ∧ IsReduction s W (Y n) (v c.im) := by
  by_cases hk : ∀ k ≤ n, InRange s W (X k) ∧ InRange s W (Y k)
  · obtain ⟨d, d1, d2, d3⟩ := h.1 hk
    obtain rfl := d1.unique hc
    rw [d2, d3]
    exact ⟨⟨(hk n le_rfl).1, Int.ModEq.refl _⟩, ⟨(hk n le_rfl).2, Int.ModEq.refl _⟩⟩
  · have := h.2 hk
    cases m with
    | checked => exact absurd this hc.not_panics
    | wrapping =>
      obtain ⟨d, d1, d2, d3⟩ := this
      obtain rfl := d1.unique hc
      exact ⟨d2, d3⟩

/-- C164, fixed point: a build without overflow checks gets the total right if the total fits, whatever overflowed
on the way. -/
theorem C164_total (hW : 0 < W) (z : Cartesian (Fixed .wrapping s W F)) (ws : List (Cartesian (Fixed .wrapping s W F)))
    (h1 : InRange s W (z.re.val + (ws.map (fun w => w.re.val)).sum)) (h2 : InRange s W (z.im.val + (ws.map (fun w => w.im.val)).sum)) :
    ∃ c, Returns (addUp z ws) c ∧ c.re.val = z.re.val + (ws.map (fun w => w.re.val)).sum ∧
      c.im.val = z.im.val + (ws.map (fun w => w.im.val)).sum := by
  have h := C164_fixed hW z ws
  have hc : ∃ c, Returns (addUp z ws) c := by
    by_cases hk : ∀ k ≤ ws.length, InRange s W (z.re.val + ((ws.take k).map (fun w => w.re.val)).sum) ∧
        InRange s W (z.im.val + ((ws.take k).map (fun w => w.im.val)).sum)
    · obtain ⟨c, c1, -⟩ := h.1 hk; exact ⟨c, c1⟩
    · obtain ⟨c, c1, -⟩ := h.2 hk; exact ⟨c, c1⟩
  obtain ⟨c, c1⟩ := hc
  obtain ⟨r1, r2⟩ := h.reduction c1
  simp only [List.take_length] at r1 r2
  exact ⟨c, c1, eq_of_modEq_of_fits hW (inRange_iff.mp r1.1) (inRange_iff.mp h1) r1.2,
    eq_of_modEq_of_fits hW (inRange_iff.mp r2.1) (inRange_iff.mp h2) r2.2⟩

example := C164_total (s := true) (W := 8) (F := 4) (by decide) ⟨fx .wrapping true 8 4 100, fx .wrapping true 8 4 0⟩
  [⟨fx .wrapping true 8 4 54, fx .wrapping true 8 4 1⟩, ⟨fx .wrapping true 8 4 (-100), fx .wrapping true 8 4 1⟩] (by decide) (by decide)

/-- C164, integers: the same as `C164_total`. -/
theorem C164_total_int (hW : 0 < W) (z : Cartesian (PInt .wrapping s W)) (ws : List (Cartesian (PInt .wrapping s W)))
    (h1 : InRange s W (z.re.val + (ws.map (fun w => w.re.val)).sum)) (h2 : InRange s W (z.im.val + (ws.map (fun w => w.im.val)).sum)) :
    ∃ c, Returns (addUp z ws) c ∧ c.re.val = z.re.val + (ws.map (fun w => w.re.val)).sum ∧
      c.im.val = z.im.val + (ws.map (fun w => w.im.val)).sum := by
  have h := C164_int hW z ws
  have hc : ∃ c, Returns (addUp z ws) c := by
    by_cases hk : ∀ k ≤ ws.length, InRange s W (z.re.val + ((ws.take k).map (fun w => w.re.val)).sum) ∧
        InRange s W (z.im.val + ((ws.take k).map (fun w => w.im.val)).sum)
    · obtain ⟨c, c1, -⟩ := h.1 hk; exact ⟨c, c1⟩
    · obtain ⟨c, c1, -⟩ := h.2 hk; exact ⟨c, c1⟩
  obtain ⟨c, c1⟩ := hc
  obtain ⟨r1, r2⟩ := h.reduction c1
  simp only [List.take_length] at r1 r2
  exact ⟨c, c1, eq_of_modEq_of_fits hW (inRange_iff.mp r1.1) (inRange_iff.mp h1) r1.2,
    eq_of_modEq_of_fits hW (inRange_iff.mp r2.1) (inRange_iff.mp h2) r2.2⟩

example := C164_total_int (s := true) (W := 8) (by decide) ⟨i .wrapping true 8 100, i .wrapping true 8 0⟩
  [⟨i .wrapping true 8 54, i .wrapping true 8 1⟩, ⟨i .wrapping true 8 (-100), i .wrapping true 8 1⟩] (by decide) (by decide)

/-- C164, integers: the order of the terms does not matter for the value returned (it can matter for a panic). -/
theorem C164_order_int (hW : 0 < W) (z c d : Cartesian (PInt m s W)) (ws vs : List (Cartesian (PInt m s W))) (hp : ws.Perm vs)
    (hc : Returns (addUp z ws) c) (hd : Returns (addUp z vs) d) : c = d := by
  obtain ⟨a1, a2⟩ := (C164_int hW z ws).reduction hc
  obtain ⟨b1, b2⟩ := (C164_int hW z vs).reduction hd
  simp only [List.take_length] at a1 a2 b1 b2
  rw [← (hp.map _).sum_eq] at b1 b2
  obtain ⟨x, y⟩ := c; obtain ⟨x', y'⟩ := d
  have e1 : x = x' := PInt.ext ((a1.eq_wrapInt hW).trans (b1.eq_wrapInt hW).symm)
  have e2 : y = y' := PInt.ext ((a2.eq_wrapInt hW).trans (b2.eq_wrapInt hW).symm)
  rw [e1, e2]

example := C164_order_int (m := .checked) (s := true) (W := 8) (by decide) ⟨i .checked true 8 1, i .checked true 8 0⟩
  ⟨i .checked true 8 7, i .checked true 8 8⟩ ⟨i .checked true 8 7, i .checked true 8 8⟩
  [⟨i .checked true 8 2, i .checked true 8 3⟩, ⟨i .checked true 8 4, i .checked true 8 5⟩] _
  (List.Perm.swap _ _ _) (by run 0) (by run 0)

/-- C164, fixed point: the order of the terms does not matter for the value returned. -/
theorem C164_order_fixed (hW : 0 < W) (z c d : Cartesian (Fixed m s W F)) (ws vs : List (Cartesian (Fixed m s W F))) (hp : ws.Perm vs)
    (hc : Returns (addUp z ws) c) (hd : Returns (addUp z vs) d) : c = d := by
  obtain ⟨a1, a2⟩ := (C164_fixed hW z ws).reduction hc
  obtain ⟨b1, b2⟩ := (C164_fixed hW z vs).reduction hd
  simp only [List.take_length] at a1 a2 b1 b2
  rw [← (hp.map _).sum_eq] at b1 b2
  obtain ⟨x, y⟩ := c; obtain ⟨x', y'⟩ := d
  have e1 : x = x' := Fixed.ext ((a1.eq_wrapInt hW).trans (b1.eq_wrapInt hW).symm)
  have e2 : y = y' := Fixed.ext ((a2.eq_wrapInt hW).trans (b2.eq_wrapInt hW).symm)
  rw [e1, e2]

example := C164_order_fixed (m := .wrapping) (s := true) (W := 8) (F := 4) (by decide) ⟨fx .wrapping true 8 4 120, fx .wrapping true 8 4 0⟩
  ⟨fx .wrapping true 8 4 (-130 + 256), fx .wrapping true 8 4 8⟩ ⟨fx .wrapping true 8 4 126, fx .wrapping true 8 4 8⟩
  [⟨fx .wrapping true 8 4 2, fx .wrapping true 8 4 3⟩, ⟨fx .wrapping true 8 4 4, fx .wrapping true 8 4 5⟩] _
  (List.Perm.swap _ _ _) (by run 0) (by run 0)

/-- C164, exact reals. -/
theorem C164_real (z : Cartesian ℝ) (ws : List (Cartesian ℝ)) :
    ∃ c, Returns (addUp z ws) c ∧ c.toC = z.toC + (ws.map Cartesian.toC).sum := by
  unfold addUp
  induction ws generalizing z with
  | nil => exact ⟨z, .of_eq rfl, by simp⟩
  | cons w ws ih =>
    rw [List.foldlM_cons, show z.add w = pure ⟨z.re + w.re, z.im + w.im⟩ from rfl, pure_bind]
    obtain ⟨c, c1, c2⟩ := ih ⟨z.re + w.re, z.im + w.im⟩
    refine ⟨c, c1, ?_⟩
    rw [c2, List.map_cons, List.sum_cons, ← add_assoc]; rfl

/-- C164, floats: with `n` terms each part of the sum is off by at most `(1 + 2^-p)^n - 1` times the sum of the magnitudes. -/
theorem C164_float (hf : f.Wide) (z : Cartesian (Flt f)) (ws : List (Cartesian (Flt f))) (v1 : z.re.Valid ∧ z.re.IsFinite)
    (v2 : z.im.Valid ∧ z.im.IsFinite) (hv : ∀ w ∈ ws, (w.re.Valid ∧ w.re.IsFinite) ∧ w.im.Valid ∧ w.im.IsFinite)
    (hr : (1 + 1 / 2 ^ f.p) ^ ws.length * (|z.re.val| + (ws.map (fun w => |w.re.val|)).sum) < 2 ^ f.emax)
    (hi : (1 + 1 / 2 ^ f.p) ^ ws.length * (|z.im.val| + (ws.map (fun w => |w.im.val|)).sum) < 2 ^ f.emax) :
    ∃ c, Returns (addUp z ws) c ∧ (c.re.Valid ∧ c.re.IsFinite) ∧ (c.im.Valid ∧ c.im.IsFinite) ∧
      |c.re.val - (z.re.val + (ws.map (fun w => w.re.val)).sum)| ≤
        ((1 + 1 / 2 ^ f.p) ^ ws.length - 1) * (|z.re.val| + (ws.map (fun w => |w.re.val|)).sum) ∧
      |c.im.val - (z.im.val + (ws.map (fun w => w.im.val)).sum)| ≤
        ((1 + 1 / 2 ^ f.p) ^ ws.length - 1) * (|z.im.val| + (ws.map (fun w => |w.im.val|)).sum) := by
  have hu : uq f = 1 / 2 ^ f.p := by unfold uq; rw [zpow_neg, zpow_natCast, one_div]
  have is : ∀ x : Flt f, x.Valid ∧ x.IsFinite → Is x x.val := by rintro _ ⟨v, ⟨t, b, rfl⟩⟩; exact is_of_valid v
  rw [← hu] at hr hi ⊢
  obtain ⟨d, d1, d2⟩ := sum_err hf (ws.map Cartesian.re) (fun x hx => by
    obtain ⟨w, hw, rfl⟩ := List.mem_map.mp hx; exact is _ (hv w hw).1) (is _ v1) (by rw [List.length_map, List.map_map]; exact hr)
  obtain ⟨e, e1, e2⟩ := sum_err hf (ws.map Cartesian.im) (fun x hx => by
    obtain ⟨w, hw, rfl⟩ := List.mem_map.mp hx; exact is _ (hv w hw).2) (is _ v2) (by rw [List.length_map, List.map_map]; exact hi)
  rw [List.length_map, List.map_map, List.map_map] at d2 e2
  refine ⟨_, .of_eq (addUp_flt z ws), ⟨d1.valid, d1.fin⟩, ⟨e1.valid, e1.fin⟩, ?_, ?_⟩
  · show |Flt.val _ - _| ≤ _
    rw [d1.val]; exact d2
  · show |Flt.val _ - _| ≤ _
    rw [e1.val]; exact e2

example := C164_float wide_F32 ⟨.fin false 3, .fin true (1 / 2)⟩ [⟨.fin false 5, .fin false 7⟩]
  ⟨by is_float 3 0, _, _, rfl⟩ ⟨by is_float 1 (-1), _, _, rfl⟩
  (by simp only [List.mem_singleton, forall_eq]; exact ⟨⟨by is_float 5 0, _, _, rfl⟩, by is_float 7 0, _, _, rfl⟩)
  (by norm_num [Flt.val, F32]) (by norm_num [Flt.val, F32])

/-- C164, floats: exact, in any order, if all terms are multiples of one unit `2^e` and their magnitudes add up to fewer than `2^p`
of it (such as whole numbers whose magnitudes add up to less than `2^24` on `f32`). -/
theorem C164_float_exact (hf : f.Wide) {e : ℤ} (he : f.emin ≤ e) (he' : (2:ℚ) ^ (f.p + e) ≤ 2 ^ f.emax) (z : Cartesian (Flt f))
    (ws : List (Cartesian (Flt f))) (hv : ∀ w ∈ z :: ws, (w.re.Valid ∧ w.re.IsFinite) ∧ w.im.Valid ∧ w.im.IsFinite)
    (hg : ∀ w ∈ z :: ws, (∃ k : ℤ, w.re.val = k * 2 ^ e) ∧ ∃ k : ℤ, w.im.val = k * 2 ^ e)
    (hr : ((z :: ws).map (fun w => |w.re.val|)).sum < 2 ^ (f.p + e)) (hi : ((z :: ws).map (fun w => |w.im.val|)).sum < 2 ^ (f.p + e)) :
    ∃ c, Returns (addUp z ws) c ∧ (c.re.IsFinite ∧ c.im.IsFinite) ∧ c.re.val = ((z :: ws).map (fun w => w.re.val)).sum ∧
      c.im.val = ((z :: ws).map (fun w => w.im.val)).sum := by
  have is : ∀ x : Flt f, x.Valid ∧ x.IsFinite → Is x x.val := by rintro _ ⟨v, ⟨t, b, rfl⟩⟩; exact is_of_valid v
  simp only [List.map_cons, List.sum_cons] at hr hi ⊢
  have d1 := sum_exact hf he he' (ws.map Cartesian.re) (fun x hx => by
    obtain ⟨w, hw, rfl⟩ := List.mem_map.mp hx; exact is _ (hv w (by simp [hw])).1) (fun x hx => by
    obtain ⟨w, hw, rfl⟩ := List.mem_map.mp hx; exact (hg w (by simp [hw])).1) (is _ (hv z (by simp)).1) (hg z (by simp)).1
    (by rw [List.map_map]; exact hr)
  have e1 := sum_exact hf he he' (ws.map Cartesian.im) (fun x hx => by
    obtain ⟨w, hw, rfl⟩ := List.mem_map.mp hx; exact is _ (hv w (by simp [hw])).2) (fun x hx => by
    obtain ⟨w, hw, rfl⟩ := List.mem_map.mp hx; exact (hg w (by simp [hw])).2) (is _ (hv z (by simp)).2) (hg z (by simp)).2
    (by rw [List.map_map]; exact hi)
  rw [List.map_map] at d1 e1
  exact ⟨_, .of_eq (addUp_flt z ws), ⟨d1.fin, e1.fin⟩, d1.val, e1.val⟩

/-- Concrete cases of C164: on `i8`, 100 + 27 - 100 in this order fits; with 27 and another 27 first it does not, though the total
does, and a build without checks still gets the total. -/
example : addUp ⟨i .checked true 8 100, i .checked true 8 0⟩ [⟨i .checked true 8 27, i .checked true 8 1⟩,
    ⟨i .checked true 8 (-100), i .checked true 8 1⟩] = pure ⟨i .checked true 8 27, i .checked true 8 2⟩ := by rfl
example : addUp ⟨i .checked true 8 100, i .checked true 8 0⟩ [⟨i .checked true 8 54, i .checked true 8 1⟩,
    ⟨i .checked true 8 (-100), i .checked true 8 1⟩] = Prog.fail .overflow := by rfl
example : addUp ⟨i .wrapping true 8 100, i .wrapping true 8 0⟩ [⟨i .wrapping true 8 54, i .wrapping true 8 1⟩,
    ⟨i .wrapping true 8 (-100), i .wrapping true 8 1⟩] = pure ⟨i .wrapping true 8 54, i .wrapping true 8 2⟩ := by rfl

/-- And on `f32`: 1 + 2i, -3 + 4i, 5 + 6i add up to exactly 3 + 12i. -/
example : ∃ c, Returns (addUp (⟨.fin false 1, .fin false 2⟩ : Cartesian (Flt F32)) [⟨.fin true 3, .fin false 4⟩, ⟨.fin false 5, .fin false 6⟩]) c ∧
    (c.re.IsFinite ∧ c.im.IsFinite) ∧ c.re.val = 3 ∧ c.im.val = 12 := by
  have hf : F32.Wide := ⟨by decide, by decide, by decide, by decide, by decide⟩
  have v : ∀ (t : Bool) (n : ℕ), n < 2 ^ 24 → (.fin t n : Flt F32).Valid ∧ (.fin t n : Flt F32).IsFinite := fun t n h =>
    ⟨⟨n, 0, by rw [show F32.p = 24 from rfl]; exact_mod_cast h, by decide, by norm_num [pow2_eq], by
      rw [show F32.emax = 128 from rfl]; have : (n : ℚ) < 2 ^ 24 := by exact_mod_cast h
      norm_num at this ⊢; linarith⟩, ⟨t, n, rfl⟩⟩
  obtain ⟨c, c1, c2, c3, c4⟩ := C164_float_exact hf (e := 0) (by decide) (by norm_num [F32])
    (⟨.fin false 1, .fin false 2⟩ : Cartesian (Flt F32)) [⟨.fin true 3, .fin false 4⟩, ⟨.fin false 5, .fin false 6⟩]
    (by
      simp only [List.mem_cons, List.not_mem_nil, or_false, forall_eq_or_imp, forall_eq]
      exact ⟨⟨by simpa using v false 1 (by decide), by simpa using v false 2 (by decide)⟩,
        ⟨by simpa using v true 3 (by decide), by simpa using v false 4 (by decide)⟩,
        by simpa using v false 5 (by decide), by simpa using v false 6 (by decide)⟩)
    (by
      simp only [List.mem_cons, List.not_mem_nil, or_false, forall_eq_or_imp, forall_eq]
      exact ⟨⟨⟨1, by norm_num [Flt.val]⟩, 2, by norm_num [Flt.val]⟩, ⟨⟨-3, by norm_num [Flt.val]⟩, 4, by norm_num [Flt.val]⟩,
        ⟨5, by norm_num [Flt.val]⟩, 6, by norm_num [Flt.val]⟩)
    (by norm_num [Flt.val, F32]) (by norm_num [Flt.val, F32])
  exact ⟨c, c1, c2, by rw [c3]; norm_num [Flt.val], by rw [c4]; norm_num [Flt.val]⟩

/-! ## C165: adding up with `+=`

Full statement (false of the code): `∀ z ws, addUpAssign z ws = addUp z ws`. -/

/-- C165 fails: adding 1+2i, 3+4i, 5+6i to 0 with `+=` gives 9+15i; with `+` it gives 9+12i. -/
theorem C165_counterexample :
    ∃ (z : Cartesian (PInt m true 8)) (ws : List (Cartesian (PInt m true 8))), ∃ r r', Returns (addUp z ws) r ∧
      Returns (addUpAssign z ws) r' ∧ r.im.val = 12 ∧ r'.im.val = 15 := by
  refine ⟨⟨i _ _ _ 0, i _ _ _ 0⟩, [⟨i _ _ _ 1, i _ _ _ 2⟩, ⟨i _ _ _ 3, i _ _ _ 4⟩, ⟨i _ _ _ 5, i _ _ _ 6⟩],
    ⟨i _ _ _ 9, i _ _ _ 12⟩, ⟨i _ _ _ 9, i _ _ _ 15⟩, ?_, ?_, rfl, rfl⟩ <;> cases m <;> exact .of_eq rfl

theorem foldl_assign {α : Type} (v : α → ℤ) (z : Cartesian α) (ws : List (Cartesian α)) (k : ℕ) :
    (ws.take k).foldl (fun (t : ℤ × ℤ) w => (t.1 + v w.re, t.1 + v w.re + v w.im)) (v z.re, v z.im) =
      (v z.re + ((ws.take k).map (fun w => v w.re)).sum, assignIm v z ws k) := by
  refine Prod.ext (foldl_assign_fst _ _ _ _) ?_
  unfold assignIm
  generalize ws.take k = l
  rcases l.eq_nil_or_concat with rfl | ⟨l, w, rfl⟩
  · rfl
  · rw [List.concat_eq_append, List.foldl_append, List.getLast?_concat]
    have := foldl_assign_fst (fun w : Cartesian α => v w.re) (fun w => v w.im) l (v z.re, v z.im)
    simp only [List.foldl_cons, List.foldl_nil, this, List.map_append, List.sum_append, List.map_cons, List.map_nil, List.sum_cons,
      List.sum_nil, add_zero]
    ring

/-- C165, integers: what the loop with `+=` does instead. The real part is the sum; the imaginary part is the real part plus the
imaginary part of the last term; a build with overflow checks panics if one of these does not fit at some step. -/
theorem C165_int_partial (hW : 0 < W) (z : Cartesian (PInt m s W)) (ws : List (Cartesian (PInt m s W))) :
    LoopOutcome (fun c : PInt m s W => c.val) m s W ws.length (fun k => z.re.val + ((ws.take k).map (fun w => w.re.val)).sum)
      (assignIm (fun c : PInt m s W => c.val) z ws) (addUpAssign z ws) := by
  refine loop_of_fold _ (fun a => inRange_iff.mpr a.fits) (fun t w => (t.1 + w.re.val, t.1 + w.re.val + w.im.val))
    (fun _ _ _ h1 _ => ⟨h1.add_right _, (h1.add_right _).add_right _⟩) _ (fun a b => ?_) ws z _ _ (fun k _ => foldl_assign (fun c : PInt m s W => c.val) _ _ _)
  have e : a.addAssign b = (PInt.fit (a.re.val + b.re.val) : Prog (PInt m s W)) >>= fun x =>
      (PInt.fit (x.val + b.im.val) : Prog (PInt m s W)) >>= fun y => pure ⟨x, y⟩ := rfl
  rw [e]
  dsimp only
  refine ⟨fun h => ?_, fun h => ?_⟩
  · rw [inRange_iff, inRange_iff] at h
    rw [PInt.fit_of_fits h.1, pure_bind, PInt.mkv_val, PInt.fit_of_fits h.2]
    exact ⟨_, .of_eq rfl, rfl, rfl⟩
  · rw [inRange_iff, inRange_iff] at h
    cases m with
    | checked =>
      by_cases hx : Fits s W (a.re.val + b.re.val)
      · rw [PInt.fit_of_fits hx, pure_bind, PInt.mkv_val, PInt.fit_checked (fun hy => h ⟨hx, hy⟩)]; exact .of_eq rfl
      · rw [PInt.fit_checked hx]; exact .of_eq rfl
    | wrapping =>
      simp only [PInt.fit_wrapping, pure_bind]
      refine ⟨_, .of_eq rfl, isReduction_wrapInt hW _, (isReduction_wrapInt hW _).1, ?_⟩
      exact (wrapInt_modEq hW _).trans ((wrapInt_modEq hW _).add_right _)

/-- C165, fixed point: the same. -/
theorem C165_fixed_partial (hW : 0 < W) (z : Cartesian (Fixed m s W F)) (ws : List (Cartesian (Fixed m s W F))) :
    LoopOutcome (fun c : Fixed m s W F => c.val) m s W ws.length (fun k => z.re.val + ((ws.take k).map (fun w => w.re.val)).sum)
      (assignIm (fun c : Fixed m s W F => c.val) z ws) (addUpAssign z ws) := by
  refine loop_of_fold _ (fun a => inRange_iff.mpr a.fits) (fun t w => (t.1 + w.re.val, t.1 + w.re.val + w.im.val))
    (fun _ _ _ h1 _ => ⟨h1.add_right _, (h1.add_right _).add_right _⟩) _ (fun a b => ?_) ws z _ _ (fun k _ => foldl_assign (fun c : Fixed m s W F => c.val) _ _ _)
  have e : a.addAssign b = (Fixed.fit (a.re.val + b.re.val) : Prog (Fixed m s W F)) >>= fun x =>
      (Fixed.fit (x.val + b.im.val) : Prog (Fixed m s W F)) >>= fun y => pure ⟨x, y⟩ := rfl
  rw [e]
  dsimp only
  refine ⟨fun h => ?_, fun h => ?_⟩
  · rw [inRange_iff, inRange_iff] at h
    rw [Fixed.fit_of_fits h.1, pure_bind, Fixed.mkv_val, Fixed.fit_of_fits h.2]
    exact ⟨_, .of_eq rfl, rfl, rfl⟩
  · rw [inRange_iff, inRange_iff] at h
    cases m with
    | checked =>
      by_cases hx : Fits s W (a.re.val + b.re.val)
      · rw [Fixed.fit_of_fits hx, pure_bind, Fixed.mkv_val, Fixed.fit_checked (fun hy => h ⟨hx, hy⟩)]; exact .of_eq rfl
      · rw [Fixed.fit_checked hx]; exact .of_eq rfl
    | wrapping =>
      simp only [Fixed.fit_wrapping, pure_bind]
      refine ⟨_, .of_eq rfl, isReduction_wrapInt hW _, (isReduction_wrapInt hW _).1, ?_⟩
      exact (wrapInt_modEq hW _).trans ((wrapInt_modEq hW _).add_right _)

/-- C165, exact reals: what the loop computes, and when that is the sum: only if the imaginary parts before the last term add up
to the sum of all real parts. -/
theorem C165_real_partial (z w : Cartesian ℝ) (ws : List (Cartesian ℝ)) :
    addUpAssign z (ws ++ [w]) = pure ⟨z.re + (ws.map Cartesian.re).sum + w.re, z.re + (ws.map Cartesian.re).sum + w.re + w.im⟩ ∧
    (addUpAssign z (ws ++ [w]) = addUp z (ws ++ [w]) ↔
      z.im + (ws.map Cartesian.im).sum = z.re + (ws.map Cartesian.re).sum + w.re) := by
  have e1 : ∀ z : Cartesian ℝ, ∃ y, addUpAssign z ws = pure ⟨z.re + (ws.map Cartesian.re).sum, y⟩ := by
    unfold addUpAssign
    induction ws with
    | nil => exact fun z => ⟨z.im, by simp⟩
    | cons v ws ih =>
      intro z
      obtain ⟨y, hy⟩ := ih ⟨z.re + v.re, z.re + v.re + v.im⟩
      refine ⟨y, ?_⟩
      rw [List.foldlM_cons, show z.addAssign v = pure ⟨z.re + v.re, z.re + v.re + v.im⟩ from rfl, pure_bind, hy, List.map_cons,
        List.sum_cons, ← add_assoc]
  have e2 : ∀ z : Cartesian ℝ, addUp z ws = pure ⟨z.re + (ws.map Cartesian.re).sum, z.im + (ws.map Cartesian.im).sum⟩ := by
    clear e1
    unfold addUp
    induction ws with
    | nil => exact fun z => by simp
    | cons v ws ih =>
      intro z
      rw [List.foldlM_cons, show z.add v = pure ⟨z.re + v.re, z.im + v.im⟩ from rfl, pure_bind, ih, List.map_cons, List.map_cons,
        List.sum_cons, List.sum_cons, ← add_assoc, ← add_assoc]
  obtain ⟨y, hy⟩ := e1 z
  have h1 : addUpAssign z (ws ++ [w]) =
      pure ⟨z.re + (ws.map Cartesian.re).sum + w.re, z.re + (ws.map Cartesian.re).sum + w.re + w.im⟩ := by
    unfold addUpAssign at hy ⊢
    rw [List.foldlM_append, hy, pure_bind]; rfl
  have h2 : addUp z (ws ++ [w]) = pure ⟨z.re + (ws.map Cartesian.re).sum + w.re, z.im + (ws.map Cartesian.im).sum + w.im⟩ := by
    have e2 := e2 z
    unfold addUp at e2 ⊢
    rw [List.foldlM_append, e2, pure_bind]; rfl
  refine ⟨h1, ?_⟩
  rw [h1, h2]
  constructor
  · intro h
    have := congrArg Cartesian.im (Prog.pure_inj h)
    have : z.re + (ws.map Cartesian.re).sum + w.re + w.im = z.im + (ws.map Cartesian.im).sum + w.im := this
    linarith
  · intro h; rw [h]

/-- C165, floats: the real parts are added up as with `+`; the imaginary part is that sum plus the last imaginary part, rounded. -/
theorem C165_float_partial (z w : Cartesian (Flt f)) (ws : List (Cartesian (Flt f))) :
    addUpAssign z (ws ++ [w]) = pure ⟨((ws ++ [w]).map Cartesian.re).foldl Flt.add z.re,
      (((ws ++ [w]).map Cartesian.re).foldl Flt.add z.re).add w.im⟩ := by
  have e1 : ∀ z : Cartesian (Flt f), ∃ y, addUpAssign z ws = pure ⟨(ws.map Cartesian.re).foldl Flt.add z.re, y⟩ := by
    unfold addUpAssign
    induction ws with
    | nil => exact fun z => ⟨z.im, rfl⟩
    | cons v ws ih =>
      intro z
      obtain ⟨y, hy⟩ := ih ⟨z.re.add v.re, (z.re.add v.re).add v.im⟩
      refine ⟨y, ?_⟩
      rw [List.foldlM_cons, show z.addAssign v = pure ⟨z.re.add v.re, (z.re.add v.re).add v.im⟩ from rfl, pure_bind, hy]; rfl
  obtain ⟨y, hy⟩ := e1 z
  unfold addUpAssign at hy ⊢
  rw [List.foldlM_append, hy, pure_bind, List.map_append, List.foldl_append]; rfl

end MixedNum
