import Verif.Lemmas.Outcome
import Verif.Lemmas.SumExact
import Verif.Lemmas.PowFloat
import Verif.Spec.Accumulate
import Mathlib.Algebra.BigOperators.Group.List.Basic
/-! Folding an operator over a list, on words and on floats. -/

namespace MixedNum
variable {m : Mode} {s : Bool} {W F : ℕ} {f : Format}

/-- If every step has the outcome of `T`, so has the whole loop: the exact values as long as all intermediate ones fit. -/
theorem fold_outcome {α β : Type} (v : α → ℤ) (hr : ∀ a, InRange s W (v a)) (T : ℤ × ℤ → β → ℤ × ℤ)
    (hT : ∀ p q b, p.1 ≡ q.1 [ZMOD 2 ^ W] → p.2 ≡ q.2 [ZMOD 2 ^ W] →
      (T p b).1 ≡ (T q b).1 [ZMOD 2 ^ W] ∧ (T p b).2 ≡ (T q b).2 [ZMOD 2 ^ W])
    (op : Cartesian α → β → Prog (Cartesian α))
    (h : ∀ a b, PairOutcome v m s W (T (v a.re, v a.im) b).1 (T (v a.re, v a.im) b).2 (op a b)) (ws : List β) (z : Cartesian α) :
    ((∀ k ≤ ws.length, InRange s W ((ws.take k).foldl T (v z.re, v z.im)).1 ∧ InRange s W ((ws.take k).foldl T (v z.re, v z.im)).2) →
      ∃ c, Returns (ws.foldlM op z) c ∧ (v c.re, v c.im) = ws.foldl T (v z.re, v z.im)) ∧
    (¬ (∀ k ≤ ws.length, InRange s W ((ws.take k).foldl T (v z.re, v z.im)).1 ∧ InRange s W ((ws.take k).foldl T (v z.re, v z.im)).2) →
      m = .checked → Panics (ws.foldlM op z) .overflow) ∧
    (m = .wrapping → ∃ c, Returns (ws.foldlM op z) c ∧ IsReduction s W (ws.foldl T (v z.re, v z.im)).1 (v c.re) ∧
      IsReduction s W (ws.foldl T (v z.re, v z.im)).2 (v c.im)) := by
  induction ws generalizing z with
  | nil =>
    refine ⟨fun _ => ⟨z, .of_eq rfl, rfl⟩, fun hn => ?_, fun _ => ⟨z, .of_eq rfl, ⟨hr _, Int.ModEq.refl _⟩, ⟨hr _, Int.ModEq.refl _⟩⟩⟩
    exact absurd (fun k _ => by rw [List.take_nil]; exact ⟨hr _, hr _⟩) hn
  | cons w ws ih =>
    have e : (w :: ws).foldlM op z = op z w >>= fun c => ws.foldlM op c := List.foldlM_cons
    rw [e]
    obtain ⟨h1, h2⟩ := h z w
    refine ⟨fun hk => ?_, fun hk hm => ?_, fun hm => ?_⟩
    · obtain ⟨c, c1, c2, c3⟩ := h1 (by simpa using hk 1 (by simp))
      have ec : (v c.re, v c.im) = T (v z.re, v z.im) w := by rw [c2, c3]
      obtain ⟨d, d1, d2⟩ := (ih c).1 (fun k hk' => by rw [ec]; simpa using hk (k + 1) (by simpa using hk'))
      exact ⟨d, c1.bind d1, by rw [d2, ec]; rfl⟩
    · by_cases h0 : InRange s W (T (v z.re, v z.im) w).1 ∧ InRange s W (T (v z.re, v z.im) w).2
      · obtain ⟨c, c1, c2, c3⟩ := h1 h0
        have ec : (v c.re, v c.im) = T (v z.re, v z.im) w := by rw [c2, c3]
        refine c1.bind_panics ((ih c).2.1 (fun hc => hk fun k hk' => ?_) hm)
        rcases k with _ | k
        · exact ⟨hr _, hr _⟩
        · have := hc k (by simpa using hk')
          rw [ec] at this; simpa using this
      · subst hm; exact (h2 h0).bind
    · subst hm
      have hc : ∃ c, Returns (op z w) c ∧ v c.re ≡ (T (v z.re, v z.im) w).1 [ZMOD 2 ^ W] ∧ v c.im ≡ (T (v z.re, v z.im) w).2 [ZMOD 2 ^ W] := by
        by_cases h0 : InRange s W (T (v z.re, v z.im) w).1 ∧ InRange s W (T (v z.re, v z.im) w).2
        · obtain ⟨c, c1, c2, c3⟩ := h1 h0
          exact ⟨c, c1, by rw [c2], by rw [c3]⟩
        · obtain ⟨c, c1, c2, c3⟩ := h2 h0
          exact ⟨c, c1, c2.2, c3.2⟩
      obtain ⟨c, c1, c2, c3⟩ := hc
      obtain ⟨d, d1, d2, d3⟩ := (ih c).2.2 rfl
      have key : ∀ (l : List β) p q, p.1 ≡ q.1 [ZMOD 2 ^ W] → p.2 ≡ q.2 [ZMOD 2 ^ W] →
          (l.foldl T p).1 ≡ (l.foldl T q).1 [ZMOD 2 ^ W] ∧ (l.foldl T p).2 ≡ (l.foldl T q).2 [ZMOD 2 ^ W] := by
        intro l
        induction l with
        | nil => exact fun p q h1 h2 => ⟨h1, h2⟩
        | cons b l ihl => exact fun p q h1 h2 => ihl _ _ (hT p q b h1 h2).1 (hT p q b h1 h2).2
      obtain ⟨k1, k2⟩ := key ws (v c.re, v c.im) (T (v z.re, v z.im) w) c2 c3
      exact ⟨d, c1.bind d1, ⟨d2.1, d2.2.trans k1⟩, ⟨d3.1, d3.2.trans k2⟩⟩

/-- The exact sums. -/
theorem foldl_add {β : Type} (p q : β → ℤ) (l : List β) (a b : ℤ) :
    l.foldl (fun (t : ℤ × ℤ) w => (t.1 + p w, t.2 + q w)) (a, b) = (a + (l.map p).sum, b + (l.map q).sum) := by
  induction l generalizing a b with
  | nil => simp
  | cons w l ih => rw [List.foldl_cons, ih]; simp [add_assoc]

/-- The real part of what the assigning loop computes. -/
theorem foldl_assign_fst {β : Type} (p q : β → ℤ) (l : List β) (t : ℤ × ℤ) :
    (l.foldl (fun (t : ℤ × ℤ) w => (t.1 + p w, t.1 + p w + q w)) t).1 = t.1 + (l.map p).sum := by
  induction l generalizing t with
  | nil => simp
  | cons w l ih => rw [List.foldl_cons, ih]; simp [add_assoc]

namespace Flt

/-- Adding up floats: as long as nothing overflows, the sum is off by at most `(1+u)^n - 1` times the sum of the magnitudes. -/
theorem sum_err (hf : f.Wide) (xs : List (Flt f)) (hv : ∀ x ∈ xs, Is x x.val) {x : Flt f} {a : ℚ} (hx : Is x a)
    (h : (1 + uq f) ^ xs.length * (|a| + (xs.map (fun x => |x.val|)).sum) < 2 ^ f.emax) :
    ∃ d, Is (xs.foldl Flt.add x) d ∧
      |d - (a + (xs.map Flt.val).sum)| ≤ ((1 + uq f) ^ xs.length - 1) * (|a| + (xs.map (fun x => |x.val|)).sum) := by
  have hu := uq_pos (f := f)
  induction xs generalizing x a with
  | nil => exact ⟨a, hx, by simp⟩
  | cons y ys ih =>
    have hy : Is y y.val := hv y (by simp)
    have hT : 0 ≤ (ys.map (fun x => |x.val|)).sum := List.sum_nonneg (by intro q hq; obtain ⟨x, -, rfl⟩ := List.mem_map.mp hq; exact abs_nonneg _)
    have hn : 1 ≤ (1 + uq f) ^ ys.length := one_le_pow₀ (by linarith)
    simp only [List.length_cons, List.map_cons, List.sum_cons, List.foldl_cons] at h ⊢
    set T := (ys.map (fun x => |x.val|)).sum
    rw [pow_succ] at h ⊢
    set P := (1 + uq f) ^ ys.length
    have hab := abs_add_le a y.val
    obtain ⟨k, hk⟩ := grid_add hx.rep hy.rep
    have he := rnd_grid (p := f.p) (emin := f.emin) k
    rw [← hk] at he
    have he : |rnd f.p f.emin (a + y.val) - (a + y.val)| ≤ uq f * |a + y.val| := he
    have hB : 0 ≤ |a| + |y.val| := by positivity
    have hd : |rnd f.p f.emin (a + y.val)| ≤ (1 + uq f) * (|a| + |y.val|) := by
      have := abs_sub_abs_le_abs_sub (rnd f.p f.emin (a + y.val)) (a + y.val)
      have := mul_le_mul_of_nonneg_left hab hu.le
      linarith
    have hlt : |rnd f.p f.emin (a + y.val)| < 2 ^ f.emax := by
      refine lt_of_le_of_lt hd (lt_of_le_of_lt ?_ h)
      have h1 : (1 + uq f) * (|a| + |y.val|) ≤ (1 + uq f) * (|a| + (|y.val| + T)) := mul_le_mul_of_nonneg_left (by linarith) (by linarith)
      have h2 : 1 * ((1 + uq f) * (|a| + (|y.val| + T))) ≤ P * ((1 + uq f) * (|a| + (|y.val| + T))) :=
        mul_le_mul_of_nonneg_right hn (mul_nonneg (by linarith) (by linarith))
      rw [one_mul, ← mul_assoc P] at h2
      exact h1.trans h2
    have hi := hx.add hf.one_le hy hlt
    set d := rnd f.p f.emin (a + y.val)
    have huT : 0 ≤ uq f * T := mul_nonneg hu.le hT
    obtain ⟨e, e1, e2⟩ := ih (fun x hx => hv x (by simp [hx])) hi (by
      have : P * (|d| + T) ≤ P * ((1 + uq f) * (|a| + (|y.val| + T))) := mul_le_mul_of_nonneg_left (by nlinarith) (by linarith)
      have : P * ((1 + uq f) * (|a| + (|y.val| + T))) = P * (1 + uq f) * (|a| + (|y.val| + T)) := by ring
      linarith)
    refine ⟨e, e1, ?_⟩
    have t1 := abs_sub_le e (d + (ys.map Flt.val).sum) (a + (y.val + (ys.map Flt.val).sum))
    rw [show d + (ys.map Flt.val).sum - (a + (y.val + (ys.map Flt.val).sum)) = d - (a + y.val) by ring] at t1
    have t2 : (P - 1) * (|d| + T) ≤ (P - 1) * ((1 + uq f) * (|a| + |y.val|) + T) := mul_le_mul_of_nonneg_left (by linarith) (by linarith)
    have t3 : uq f * |a + y.val| ≤ uq f * (|a| + |y.val|) := mul_le_mul_of_nonneg_left hab hu.le
    have t4 : (P - 1) * ((1 + uq f) * (|a| + |y.val|) + T) + uq f * (|a| + |y.val|) =
        (P * (1 + uq f) - 1) * (|a| + (|y.val| + T)) - P * uq f * T := by ring
    have t5 : 0 ≤ P * uq f * T := by positivity
    linarith

/-- Adding up floats that are multiples of one unit and whose magnitudes add up to fewer than `2^p` units is exact. -/
theorem sum_exact (hf : f.Wide) {e : ℤ} (he : f.emin ≤ e) (he' : (2:ℚ) ^ (f.p + e) ≤ 2 ^ f.emax) (xs : List (Flt f)) (hv : ∀ x ∈ xs, Is x x.val)
    (hg : ∀ x ∈ xs, ∃ k : ℤ, x.val = k * 2 ^ e) {x : Flt f} {a : ℚ} (hx : Is x a) (ha : ∃ k : ℤ, a = k * 2 ^ e)
    (h : |a| + (xs.map (fun x => |x.val|)).sum < 2 ^ (f.p + e)) :
    Is (xs.foldl Flt.add x) (a + (xs.map Flt.val).sum) := by
  induction xs generalizing x a with
  | nil => simpa using hx
  | cons y ys ih =>
    have hy : Is y y.val := hv y (by simp)
    have hT : 0 ≤ (ys.map (fun x => |x.val|)).sum := List.sum_nonneg (by intro q hq; obtain ⟨x, -, rfl⟩ := List.mem_map.mp hq; exact abs_nonneg _)
    simp only [List.map_cons, List.sum_cons, List.foldl_cons] at h ⊢
    have hab := abs_add_le a y.val
    obtain ⟨k, hk⟩ := ha; obtain ⟨j, hj⟩ := hg y (by simp)
    have hs : a + y.val = ((k + j : ℤ) : ℚ) * 2 ^ e := by rw [hk, hj]; push_cast; ring
    have hrep : Rep f.p f.emin (a + y.val) := by
      refine ⟨k + j, e, he, ?_, hs⟩
      have hlt : |a + y.val| < 2 ^ (f.p + e) := by linarith
      rw [hs, abs_mul, abs_of_pos (two_zpow_pos e), zpow_add₀ (by norm_num), mul_lt_mul_iff_left₀ (two_zpow_pos e), zpow_natCast] at hlt
      exact_mod_cast hlt
    have hi := hx.add hf.one_le hy (by rw [rnd_rep hrep]; linarith)
    rw [rnd_rep hrep] at hi
    have := ih (fun x hx => hv x (by simp [hx])) (fun x hx => hg x (by simp [hx])) hi ⟨_, hs⟩ (by linarith)
    rwa [add_assoc] at this

end Flt

/-- On floats the loop is two loops, one for each part. -/
theorem addUp_flt (z : Cartesian (Flt f)) (ws : List (Cartesian (Flt f))) :
    addUp z ws = pure ⟨(ws.map Cartesian.re).foldl Flt.add z.re, (ws.map Cartesian.im).foldl Flt.add z.im⟩ := by
  unfold addUp
  induction ws generalizing z with
  | nil => rfl
  | cons w ws ih =>
    rw [List.foldlM_cons, show z.add w = pure ⟨z.re.add w.re, z.im.add w.im⟩ from rfl, pure_bind, ih]; rfl

end MixedNum
