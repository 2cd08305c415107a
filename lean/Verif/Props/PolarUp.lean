import Verif.Spec.PolarUp
import Verif.Props.Phasor
import Verif.Props.PolarLaws
import Verif.Props.AddSub
import Verif.Lemmas.Run
/-! # C172: multiplying up a list of polar numbers -/

namespace MixedNum
variable {m : Mode} {s : Bool} {W F : ℕ} {f : Format}

/-- C172, exact reals: magnitudes multiply and angles add; a zero anywhere makes the product canonical zero. -/
theorem C172_real (p : Polar ℝ) (qs : List (Polar ℝ)) :
    ∃ c, Returns (polarUp p qs) c ∧ c.mag = p.mag * (qs.map (·.mag)).prod ∧ (c.mag ≠ 0 → c.ang = p.ang + (qs.map (·.ang)).sum) ∧
      (c.mag = 0 → qs ≠ [] → c.ang = 0) ∧ c.toC = p.toC * (qs.map Polar.toC).prod := by
  suffices H : ∃ c, Returns (polarUp p qs) c ∧ c.mag = p.mag * (qs.map (·.mag)).prod ∧
      (c.mag ≠ 0 → c.ang = p.ang + (qs.map (·.ang)).sum) ∧ (c.mag = 0 → qs ≠ [] ∨ (p.mag = 0 ∧ p.ang = 0) → c.ang = 0) ∧
      c.toC = p.toC * (qs.map Polar.toC).prod by
    obtain ⟨c, c1, c2, c3, c4, c5⟩ := H
    exact ⟨c, c1, c2, c3, fun h h' => c4 h (.inl h'), c5⟩
  unfold polarUp
  induction qs generalizing p with
  | nil => exact ⟨p, .of_eq rfl, by simp, by simp, fun _ h => by simpa using h.resolve_left (by simp) |>.2, by simp⟩
  | cons q qs ih =>
    by_cases hz : p.mag = 0 ∨ q.mag = 0
    · have t1 : Returns (p.mul q) (⟨0, 0⟩ : Polar ℝ) := .of_eq (by rcases hz with h | h <;> simp [Polar.mul, ops.mulPolar, h])
      obtain ⟨c, c1, c2, c3, c4, c5⟩ := ih ⟨0, 0⟩
      simp only [zero_mul] at c2
      refine ⟨c, by rw [List.foldlM_cons]; exact t1.bind c1, ?_, fun h => absurd c2 h, fun _ _ => c4 c2 (.inr ⟨rfl, rfl⟩), ?_⟩
      · rw [c2]; rcases hz with h | h <;> simp [h]
      · rw [c5]; rcases hz with h | h <;> simp [Polar.toC, h]
    · rw [not_or] at hz
      have t1 : Returns (p.mul q) (⟨p.mag * q.mag, p.ang + q.ang⟩ : Polar ℝ) := .of_eq (by simp [Polar.mul, ops.mulPolar, hz.1, hz.2])
      obtain ⟨c, c1, c2, c3, c4, c5⟩ := ih ⟨p.mag * q.mag, p.ang + q.ang⟩
      refine ⟨c, by rw [List.foldlM_cons]; exact t1.bind c1, ?_, fun h => ?_, fun h _ => ?_, ?_⟩
      · rw [c2, List.map_cons, List.prod_cons, mul_assoc]
      · rw [c3 h, List.map_cons, List.sum_cons, add_assoc]
      · rcases eq_or_ne qs [] with rfl | hq
        · simp only [List.map_nil, List.prod_nil, mul_one] at c2
          rw [c2] at h; exact absurd h (mul_ne_zero hz.1 hz.2)
        · exact c4 h (.inl hq)
      · rw [c5, List.map_cons, List.prod_cons]
        simp only [Polar.toC]; push_cast; rw [add_mul, Complex.exp_add]; ring

theorem PInt.free_polar (p q : Polar (PInt m s W)) : LoopFree (p.mul q) := by
  obtain ⟨z, hz, z0⟩ := PInt.lit_zero (m := m) (s := s) (W := W)
  by_cases h : p.mag.val = 0 ∨ q.mag.val = 0
  · have e : p.mul q = pure ⟨z, z⟩ := by
      rcases h with h | h <;> simp [Polar.mul, ops.mulPolar, hz, z0, h]
    rw [e]; exact .of_pure _
  · rw [not_or] at h
    rw [PInt.polar_eq p q h.1 h.2]
    exact (PInt.free_fit' _).bind fun _ => (PInt.free_fit' _).bind fun _ => .of_pure _

theorem Fixed.free_polar (p q : Polar (Fixed m s W F)) : LoopFree (p.mul q) := by
  obtain ⟨z, hz, z0⟩ := Fixed.lit_zero (m := m) (s := s) (W := W) (F := F)
  by_cases h : p.mag.val = 0 ∨ q.mag.val = 0
  · have e : p.mul q = pure ⟨z, z⟩ := by
      rcases h with h | h <;> simp [Polar.mul, ops.mulPolar, hz, z0, h]
    rw [e]; exact .of_pure _
  · rw [not_or] at h
    rw [Fixed.polar_eq p q h.1 h.2]
    exact (Fixed.free_fit _).bind fun _ => (Fixed.free_fit _).bind fun _ => .of_pure _

/-- A loop that returns has returned from every step. -/
theorem polar_step {α : Type} [MixedCmp α] [NumOps α] [Lit α] {p q c : Polar α} {qs : List (Polar α)}
    (h : ∀ a b : Polar α, LoopFree (a.mul b)) (hc : Returns (polarUp p (q :: qs)) c) :
    ∃ t, Returns (p.mul q) t ∧ Returns (polarUp t qs) c := by
  unfold polarUp at hc
  rw [List.foldlM_cons] at hc
  rcases h p q with ⟨t, ht⟩ | ⟨e, he⟩
  · rw [ht, pure_bind] at hc; exact ⟨t, .of_eq ht, hc⟩
  · rw [he, Prog.fail_bind] at hc; exact absurd hc returns_fail

theorem range_zero_int (a b : PInt m s W) : InRange s W a.val ∧ InRange s W b.val := ⟨inRange_iff.mpr a.fits, inRange_iff.mpr b.fits⟩

/-- C172, integers with overflow checks: if the product of the magnitudes and the sum of the angles fit after every step, the loop returns
them; otherwise it panics. No factor is zero. -/
theorem C172_int_checked (p : Polar (PInt .checked s W)) (qs : List (Polar (PInt .checked s W))) (hn : ∀ q ∈ p :: qs, q.mag.val ≠ 0)
    (X Y : ℕ → ℤ) (hX : ∀ k, X k = p.mag.val * ((qs.take k).map (·.mag.val)).prod)
    (hY : ∀ k, Y k = p.ang.val + ((qs.take k).map (·.ang.val)).sum) :
    ((∀ k ≤ qs.length, InRange s W (X k) ∧ InRange s W (Y k)) →
      ∃ c, Returns (polarUp p qs) c ∧ c.mag.val = X qs.length ∧ c.ang.val = Y qs.length) ∧
    (¬ (∀ k ≤ qs.length, InRange s W (X k) ∧ InRange s W (Y k)) → Panics (polarUp p qs) .overflow) := by
  induction qs generalizing p X Y with
  | nil =>
    refine ⟨fun _ => ⟨p, .of_eq rfl, by simp [hX], by simp [hY]⟩, fun h => absurd (fun k _ => ?_) h⟩
    rw [hX, hY]; simpa using range_zero_int p.mag p.ang
  | cons q qs ih =>
    have hp := hn p (by simp); have hq := hn q (by simp)
    have e := PInt.polar_eq p q hp hq
    have x1 : X 1 = p.mag.val * q.mag.val := by rw [hX]; simp
    have y1 : Y 1 = p.ang.val + q.ang.val := by rw [hY]; simp
    unfold polarUp
    rw [List.foldlM_cons]
    by_cases h1 : InRange s W (X 1) ∧ InRange s W (Y 1)
    · obtain ⟨f1, f2⟩ := h1
      rw [x1, inRange_iff] at f1; rw [y1, inRange_iff] at f2
      have et : ∃ t : Polar (PInt .checked s W), p.mul q = pure t ∧ t.mag.val = p.mag.val * q.mag.val ∧ t.ang.val = p.ang.val + q.ang.val := by
        rw [e, PInt.fit_of_fits f1, PInt.fit_of_fits f2]; exact ⟨_, rfl, rfl, rfl⟩
      obtain ⟨t, t1, t2, t3⟩ := et
      rw [t1, pure_bind]
      obtain ⟨a1, a2⟩ := ih t (by
        intro r hr; rcases List.mem_cons.mp hr with rfl | hr
        · rw [t2]; exact mul_ne_zero hp hq
        · exact hn r (by simp [hr])) (fun k => X (k + 1)) (fun k => Y (k + 1))
        (fun k => by rw [hX, t2]; simp [mul_assoc]) (fun k => by rw [hY, t3]; simp [add_assoc])
      have eq : (∀ k ≤ (q :: qs).length, InRange s W (X k) ∧ InRange s W (Y k)) ↔
          ∀ k ≤ qs.length, InRange s W (X (k + 1)) ∧ InRange s W (Y (k + 1)) := by
        refine ⟨fun h k hk => h (k + 1) (by simpa using hk), fun h k hk => ?_⟩
        cases k with
        | zero => rw [hX, hY]; simpa using range_zero_int p.mag p.ang
        | succ k => exact h k (by simpa using hk)
      rw [eq]
      exact ⟨a1, a2⟩
    · refine ⟨fun h => absurd (h 1 (by simp)) h1, fun _ => ?_⟩
      have : p.mul q = Prog.fail .overflow := by
        rw [e]
        by_cases f1 : Fits s W (p.mag.val * q.mag.val)
        · have f2 : ¬ Fits s W (p.ang.val + q.ang.val) := fun f2 => h1 ⟨by rw [x1]; exact inRange_iff.mpr f1, by rw [y1]; exact inRange_iff.mpr f2⟩
          rw [PInt.fit_of_fits f1, PInt.fit_checked f2, pure_bind, Prog.fail_bind]
        · rw [PInt.fit_checked f1, Prog.fail_bind]
      rw [this, Prog.fail_bind]; exact .of_eq rfl

example := (C172_int_checked (⟨i .checked true 8 3, i .checked true 8 4⟩ : Polar (PInt .checked true 8))
  [⟨i .checked true 8 5, i .checked true 8 (-9)⟩, ⟨i .checked true 8 (-2), i .checked true 8 50⟩] (by decide) _ _ (fun _ => rfl) (fun _ => rfl)).1 (by decide)

/-- C172, integers without overflow checks: the loop returns, the magnitude is the product modulo `2^W`, and the angle the sum modulo `2^W`
unless the magnitude is zero. -/
theorem C172_int_wrapping (hW : 0 < W) (p : Polar (PInt .wrapping s W)) (qs : List (Polar (PInt .wrapping s W))) :
    ∃ c, Returns (polarUp p qs) c ∧ IsReduction s W (p.mag.val * (qs.map (·.mag.val)).prod) c.mag.val ∧
      (c.mag.val ≠ 0 → IsReduction s W (p.ang.val + (qs.map (·.ang.val)).sum) c.ang.val) := by
  induction qs generalizing p with
  | nil =>
    refine ⟨p, .of_eq rfl, ?_, fun _ => ?_⟩
    · rw [List.map_nil, List.prod_nil, mul_one]; exact ⟨inRange_iff.mpr p.mag.fits, Int.ModEq.refl _⟩
    · rw [List.map_nil, List.sum_nil, add_zero]; exact ⟨inRange_iff.mpr p.ang.fits, Int.ModEq.refl _⟩
  | cons q qs ih =>
    rw [List.map_cons, List.prod_cons, List.map_cons, List.sum_cons, ← mul_assoc, ← add_assoc]
    by_cases hz : p.mag.val = 0 ∨ q.mag.val = 0
    · obtain ⟨z, hz0, z0⟩ := PInt.lit_zero (m := .wrapping) (s := s) (W := W)
      have t1 : p.mul q = pure ⟨z, z⟩ := by
        rcases hz with h | h <;> simp [Polar.mul, ops.mulPolar, hz0, z0, h]
      obtain ⟨c, c1, c2, c3⟩ := ih ⟨z, z⟩
      simp only [z0, zero_mul] at c2
      have c0 : c.mag.val = 0 := eq_of_modEq_of_fits hW c.mag.fits (fits_zero s W) c2.2
      refine ⟨c, by unfold polarUp; rw [List.foldlM_cons, t1, pure_bind]; exact c1, ?_, fun h => absurd c0 h⟩
      have : p.mag.val * q.mag.val = 0 := by rcases hz with h | h <;> simp [h]
      rw [this, zero_mul]; exact c2
    · rw [not_or] at hz
      have et : ∃ t : Polar (PInt .wrapping s W), p.mul q = pure t ∧ t.mag.val ≡ p.mag.val * q.mag.val [ZMOD 2 ^ W] ∧
          t.ang.val ≡ p.ang.val + q.ang.val [ZMOD 2 ^ W] := by
        rw [PInt.polar_eq p q hz.1 hz.2, PInt.fit_wrapping, PInt.fit_wrapping]
        exact ⟨_, rfl, wrapInt_modEq hW _, wrapInt_modEq hW _⟩
      obtain ⟨t, t1, t2, t3⟩ := et
      obtain ⟨c, c1, c2, c3⟩ := ih t
      refine ⟨c, by unfold polarUp; rw [List.foldlM_cons, t1, pure_bind]; exact c1, ⟨c2.1, c2.2.trans (t2.mul_right _)⟩,
        fun h => ⟨(c3 h).1, (c3 h).2.trans (t3.add_right _)⟩⟩

/-- C172, integers: once a factor is zero the product is zero with angle zero, whatever follows. -/
theorem C172_int_zero (p c : Polar (PInt m s W)) (qs : List (Polar (PInt m s W))) (hq : qs ≠ []) (h0 : ∃ q ∈ p :: qs, q.mag.val = 0)
    (hc : Returns (polarUp p qs) c) : c.mag.val = 0 ∧ c.ang.val = 0 := by
  induction qs generalizing p with
  | nil => exact absurd rfl hq
  | cons q qs ih =>
    obtain ⟨t, t1, t2⟩ := polar_step PInt.free_polar hc
    by_cases hz : p.mag.val = 0 ∨ q.mag.val = 0
    · obtain ⟨a1, a2⟩ := PInt.polar_zero hz t1
      rcases eq_or_ne qs [] with rfl | hne
      · rw [← returns_pure.mp (show Returns (pure t) c from t2)]; exact ⟨a1, a2⟩
      · exact ih t hne ⟨t, by simp, a1⟩ t2
    · rw [not_or] at hz
      obtain ⟨r, hr, r0⟩ := h0
      rcases List.mem_cons.mp hr with rfl | hr
      · exact absurd r0 hz.1
      · rcases List.mem_cons.mp hr with rfl | hr
        · exact absurd r0 hz.2
        · exact ih t (List.ne_nil_of_mem hr) ⟨r, by simp [hr], r0⟩ t2

example := C172_int_zero ⟨i .checked true 8 3, i .checked true 8 4⟩ ⟨i .checked true 8 0, i .checked true 8 0⟩
  [⟨i .checked true 8 0, i .checked true 8 (-9)⟩, ⟨i .checked true 8 (-2), i .checked true 8 50⟩] (by decide) (by decide) (by run 0)

/-- C172, fixed point: once a factor is zero the product is zero with angle zero, whatever follows. -/
theorem C172_fixed_zero (p c : Polar (Fixed m s W F)) (qs : List (Polar (Fixed m s W F))) (hq : qs ≠ []) (h0 : ∃ q ∈ p :: qs, q.mag.val = 0)
    (hc : Returns (polarUp p qs) c) : c.mag.val = 0 ∧ c.ang.val = 0 := by
  induction qs generalizing p with
  | nil => exact absurd rfl hq
  | cons q qs ih =>
    obtain ⟨t, t1, t2⟩ := polar_step Fixed.free_polar hc
    by_cases hz : p.mag.val = 0 ∨ q.mag.val = 0
    · obtain ⟨a1, a2⟩ := Fixed.polar_zero hz t1
      rcases eq_or_ne qs [] with rfl | hne
      · rw [← returns_pure.mp (show Returns (pure t) c from t2)]; exact ⟨a1, a2⟩
      · exact ih t hne ⟨t, by simp, a1⟩ t2
    · rw [not_or] at hz
      obtain ⟨r, hr, r0⟩ := h0
      rcases List.mem_cons.mp hr with rfl | hr
      · exact absurd r0 hz.1
      · rcases List.mem_cons.mp hr with rfl | hr
        · exact absurd r0 hz.2
        · exact ih t (List.ne_nil_of_mem hr) ⟨r, by simp [hr], r0⟩ t2

example := C172_fixed_zero ⟨fx .checked true 16 4 30, fx .checked true 16 4 50⟩ ⟨fx .checked true 16 4 0, fx .checked true 16 4 0⟩
  [⟨fx .checked true 16 4 20, fx .checked true 16 4 (-30)⟩, ⟨fx .checked true 16 4 0, fx .checked true 16 4 7⟩] (by decide) (by decide) (by run 0)

/-- C172, fixed point with overflow checks: the angles add exactly unless the magnitude was rounded to zero; the magnitude is off by at
most a unit for each factor, times the factors still to come. -/
theorem C172_fixed_checked (hW : 0 < W) {R : ℝ} (hR : 0 ≤ R) (p c : Polar (Fixed .checked s W F)) (qs : List (Polar (Fixed .checked s W F)))
    (hq : ∀ q ∈ qs, |q.mag.r| ≤ R) (hc : Returns (polarUp p qs) c) :
    |c.mag.r - p.mag.r * (qs.map (·.mag.r)).prod| ≤ 1 / 2 ^ F * geo R qs.length ∧
      (c.mag.val ≠ 0 → c.ang.r = p.ang.r + (qs.map (·.ang.r)).sum) := by
  induction qs generalizing p with
  | nil => rw [returns_pure.mp (show Returns (pure p) c from hc)]; simp [geo]
  | cons q qs ih =>
    obtain ⟨t, t1, t2⟩ := polar_step Fixed.free_polar hc
    obtain ⟨a1, a2⟩ := ih t (fun r hr => hq r (by simp [hr])) t2
    have tm := Fixed.polar_mag hW t1
    have hu : (0:ℝ) < 1 / 2 ^ F := by positivity
    have te : |t.mag.r - p.mag.r * q.mag.r| ≤ 1 / 2 ^ F := by
      have hD : (0:ℝ) < 2 ^ F := by positivity
      have k1 : (t.mag.val : ℝ) * 2 ^ F ≤ p.mag.val * q.mag.val := by
        have : t.mag.val * 2 ^ F ≤ p.mag.val * q.mag.val := by rw [tm]; exact Int.ediv_mul_le _ (by positivity)
        exact_mod_cast this
      have k2 : (p.mag.val * q.mag.val : ℝ) < (t.mag.val + 1) * 2 ^ F := by
        have : p.mag.val * q.mag.val < (t.mag.val + 1) * 2 ^ F := by rw [tm]; exact Int.lt_ediv_add_one_mul_self _ (by positivity)
        exact_mod_cast this
      have e : t.mag.r - p.mag.r * q.mag.r = (t.mag.val * 2 ^ F - p.mag.val * q.mag.val) / (2 ^ F * 2 ^ F) := by
        simp only [Fixed.r]; field_simp
      rw [e, abs_div, abs_of_pos (by positivity : (0:ℝ) < 2 ^ F * 2 ^ F), div_le_div_iff₀ (by positivity) hD, one_mul]
      refine mul_le_mul_of_nonneg_right ?_ hD.le
      rw [abs_le]; constructor <;> linarith
    have hP : |(qs.map (·.mag.r)).prod| ≤ R ^ qs.length := by
      clear ih a1 a2 t2 hc
      induction qs with
      | nil => simp
      | cons r qs ih =>
        rw [List.map_cons, List.prod_cons, abs_mul, List.length_cons, pow_succ, mul_comm (R ^ _)]
        exact mul_le_mul (hq r (by simp)) (ih fun x hx => hq x (by simp only [List.mem_cons] at hx ⊢; tauto)) (abs_nonneg _) hR
    refine ⟨?_, fun h => ?_⟩
    · rw [List.map_cons, List.prod_cons, List.length_cons, geo, Finset.sum_range_succ, ← geo]
      set P := (qs.map (·.mag.r)).prod
      have e : c.mag.r - p.mag.r * (q.mag.r * P) = (c.mag.r - t.mag.r * P) + (t.mag.r - p.mag.r * q.mag.r) * P := by ring
      rw [e, mul_add]
      refine (abs_add_le _ _).trans (add_le_add a1 ?_)
      rw [abs_mul]; exact mul_le_mul te hP (abs_nonneg _) hu.le
    · rw [a2 h, List.map_cons, List.sum_cons, ← add_assoc]
      congr 1
      have hz : ¬ (p.mag.val = 0 ∨ q.mag.val = 0) := fun hz => h (by
        rcases eq_or_ne qs [] with rfl | hne
        · rw [← returns_pure.mp (show Returns (pure t) c from t2)]; exact (Fixed.polar_zero hz t1).1
        · exact (C172_fixed_zero t c qs hne ⟨t, by simp, (Fixed.polar_zero hz t1).1⟩ t2).1)
      rw [not_or] at hz
      have := (Fixed.returns_fit hW (Fixed.polar_mul hz.1 hz.2 t1).2).2 rfl
      simp only [Fixed.r, this]; push_cast; ring

example := C172_fixed_checked (R := 3) (by decide) (by norm_num) ⟨fx .checked true 16 4 30, fx .checked true 16 4 50⟩
  ⟨fx .checked true 16 4 57, fx .checked true 16 4 (-70)⟩ [⟨fx .checked true 16 4 20, fx .checked true 16 4 (-30)⟩, ⟨fx .checked true 16 4 25, fx .checked true 16 4 (-90)⟩]
  (by simp [Fixed.r, fx]; norm_num) (by run 0)

/-- C172, signed fixed point with overflow checks: with factors of magnitude at most one the loop returns, provided the angles leave room
for their sum; the magnitude never grows. -/
theorem C172_fixed_returns (p : Polar (Fixed .checked true W F)) (qs : List (Polar (Fixed .checked true W F)))
    (hq : ∀ q ∈ qs, |q.mag.val| ≤ 2 ^ F) (hp : |p.mag.val| < 2 ^ (W - 1))
    (ha : |p.ang.val| + (qs.map (|·.ang.val|)).sum < 2 ^ (W - 1)) :
    ∃ c, Returns (polarUp p qs) c ∧ |c.mag.val| ≤ |p.mag.val| := by
  have inr : ∀ n : ℤ, |n| < 2 ^ (W - 1) → Fits true W n := fun n hn => inRange_iff.mp ⟨(abs_lt.mp hn).1.le, (abs_lt.mp hn).2⟩
  have s0 : ∀ l : List (Polar (Fixed .checked true W F)), 0 ≤ (l.map (|·.ang.val|)).sum := fun l =>
    List.sum_nonneg (by simp only [List.mem_map]; rintro _ ⟨x, -, rfl⟩; exact abs_nonneg _)
  induction qs generalizing p with
  | nil => exact ⟨p, .of_eq rfl, le_refl _⟩
  | cons q qs ih =>
    rw [List.map_cons, List.sum_cons] at ha
    have q1 := hq q (by simp)
    have := s0 qs
    have step : ∃ t, Returns (p.mul q) t ∧ |t.mag.val| ≤ |p.mag.val| ∧ |t.ang.val| ≤ |p.ang.val| + |q.ang.val| := by
      by_cases h : p.mag.val = 0 ∨ q.mag.val = 0
      · obtain ⟨z, hz, z0⟩ := Fixed.lit_zero (m := .checked) (s := true) (W := W) (F := F)
        refine ⟨⟨z, z⟩, .of_eq (by rcases h with h | h <;> simp [Polar.mul, ops.mulPolar, hz, z0, h]), ?_, ?_⟩
        · rw [z0, abs_zero]; exact abs_nonneg _
        · rw [z0, abs_zero]; positivity
      · rw [not_or] at h
        have k : |p.mag.val * q.mag.val / 2 ^ F| ≤ |p.mag.val| := by
          have k0 : |p.mag.val * q.mag.val| ≤ |p.mag.val| * 2 ^ F := by
            rw [abs_mul]; exact mul_le_mul_of_nonneg_left q1 (abs_nonneg _)
          obtain ⟨k1, k2⟩ := abs_le.mp k0
          rw [abs_le]
          exact ⟨(Int.le_ediv_iff_mul_le (by positivity)).mpr (by linarith), by
            have := Int.ediv_le_ediv (c := 2 ^ F) (by positivity) k2
            rwa [Int.mul_ediv_cancel _ (by positivity)] at this⟩
        have k' := abs_add_le p.ang.val q.ang.val
        rw [Fixed.polar_eq p q h.1 h.2, Fixed.fit_of_fits (inr _ (lt_of_le_of_lt k hp)), pure_bind,
          Fixed.fit_of_fits (inr _ (by linarith)), pure_bind]
        exact ⟨_, .of_eq rfl, k, k'⟩
    obtain ⟨t, t1, t2, t3⟩ := step
    obtain ⟨c, c1, c2⟩ := ih t (fun x hx => hq x (by simp [hx])) (lt_of_le_of_lt t2 hp) (by linarith)
    exact ⟨c, by unfold polarUp at c1 ⊢; rw [List.foldlM_cons]; exact t1.bind c1, c2.trans t2⟩

example := C172_fixed_returns ⟨fx .checked true 16 4 30, fx .checked true 16 4 50⟩
  [⟨fx .checked true 16 4 16, fx .checked true 16 4 (-30)⟩, ⟨fx .checked true 16 4 (-7), fx .checked true 16 4 900⟩] (by decide) (by decide) (by decide)

/-- C172, fixed point with overflow checks: the complex number the result stands for is as near to the product of the numbers the factors
stand for. -/
theorem C172_fixed_value (hW : 0 < W) {R : ℝ} (hR : 0 ≤ R) (p c : Polar (Fixed .checked s W F)) (qs : List (Polar (Fixed .checked s W F)))
    (hq : ∀ q ∈ qs, |q.mag.r| ≤ R) (hc : Returns (polarUp p qs) c) :
    ‖phasor c.mag.r c.ang.r - phasor p.mag.r p.ang.r * (qs.map fun q => phasor q.mag.r q.ang.r).prod‖ ≤ 1 / 2 ^ F * geo R qs.length := by
  obtain ⟨h1, h2⟩ := C172_fixed_checked hW hR p c qs hq hc
  have e : ∀ (M A : ℝ) (l : List (Polar (Fixed .checked s W F))), phasor M A * (l.map fun q => phasor q.mag.r q.ang.r).prod =
      phasor (M * (l.map (·.mag.r)).prod) (A + (l.map (·.ang.r)).sum) := by
    intro M A l
    induction l generalizing M A with
    | nil => simp
    | cons q l ih =>
      rw [List.map_cons, List.prod_cons, List.map_cons, List.prod_cons, List.map_cons, List.sum_cons, ← mul_assoc, ← mul_assoc, ← add_assoc, ← ih]
      congr 1
      simp only [phasor]; push_cast; rw [add_mul, Complex.exp_add]; ring
  rw [e]
  refine le_trans (le_of_eq ?_) h1
  by_cases h0 : c.mag.val = 0
  · have : c.mag.r = 0 := by simp [Fixed.r, h0]
    have e0 : phasor (0:ℝ) c.ang.r = 0 := by simp [phasor]
    rw [this, e0, zero_sub, norm_neg, norm_phasor, zero_sub, abs_neg]
  · rw [h2 h0, ← norm_phasor _ (p.ang.r + (qs.map (·.ang.r)).sum)]
    congr 1; simp only [phasor]; push_cast; ring

example := C172_fixed_value (R := 3) (by decide) (by norm_num) ⟨fx .checked true 16 4 30, fx .checked true 16 4 50⟩
  ⟨fx .checked true 16 4 57, fx .checked true 16 4 (-70)⟩ [⟨fx .checked true 16 4 20, fx .checked true 16 4 (-30)⟩, ⟨fx .checked true 16 4 25, fx .checked true 16 4 (-90)⟩]
  (by simp [Fixed.r, fx]; norm_num) (by run 0)

/-- C172: without overflow checks the loop gives the same number unless the build with checks panics. -/
theorem C172_release_int (p : Polar (PInt .checked s W)) (qs : List (Polar (PInt .checked s W))) :
    Agrees (Polar.releaseBy PInt.release) (polarUp p qs) (polarUp (p.releaseBy PInt.release) (qs.map (·.releaseBy PInt.release))) :=
  Sim.agrees_pol (Sim.fold_map (R := Sim.Pol (To PInt.release)) (Polar.releaseBy PInt.release)
    (fun _ _ q h => Sim.polarMul (w := q) (w' := q.releaseBy PInt.release) h ⟨rfl, rfl⟩) qs ⟨rfl, rfl⟩)

theorem C172_release_fixed (p : Polar (Fixed .checked s W F)) (qs : List (Polar (Fixed .checked s W F))) :
    Agrees (Polar.releaseBy Fixed.release) (polarUp p qs) (polarUp (p.releaseBy Fixed.release) (qs.map (·.releaseBy Fixed.release))) :=
  Sim.agrees_pol (Sim.fold_map (R := Sim.Pol (To Fixed.release)) (Polar.releaseBy Fixed.release)
    (fun _ _ q h => Sim.polarMul (w := q) (w' := q.releaseBy Fixed.release) h ⟨rfl, rfl⟩) qs ⟨rfl, rfl⟩)

/-- C172 without overflow checks: angles that add up beyond the type come back short by `2^K`, which is not a whole number of turns, so
the product points elsewhere. `1∠7` times `1∠7` on 8 bits with 4 fractional bits is `1∠-2`. -/
theorem C172_release_angle :
    Returns (polarUp (⟨fx .wrapping true 8 4 16, fx .wrapping true 8 4 112⟩ : Polar (Fixed .wrapping true 8 4))
      [⟨fx .wrapping true 8 4 16, fx .wrapping true 8 4 112⟩]) ⟨fx .wrapping true 8 4 16, fx .wrapping true 8 4 (-32)⟩ ∧
    Panics (polarUp (⟨fx .checked true 8 4 16, fx .checked true 8 4 112⟩ : Polar (Fixed .checked true 8 4))
      [⟨fx .checked true 8 4 16, fx .checked true 8 4 112⟩]) .overflow ∧
    ∀ k : ℤ, (-2 : ℝ) ≠ 7 + 7 + k * (2 * Real.pi) := by
  refine ⟨.of_eq rfl, .of_eq rfl, fun k h => ?_⟩
  have p1 := Real.pi_gt_d2; have p2 := Real.pi_lt_d2
  have h16 : (-k : ℝ) * (2 * Real.pi) = 16 := by linarith
  rcases le_or_gt k (-3) with hk | hk
  · have : (k:ℝ) ≤ -3 := by exact_mod_cast hk
    nlinarith
  · have : (-2:ℝ) ≤ k := by exact_mod_cast (by omega : -2 ≤ k)
    nlinarith

/-! ## Floats -/

open Flt in
theorem polar_flt (p q : Polar (Flt f)) (h1 : p.mag.IsFinite) (h2 : q.mag.IsFinite) (n1 : p.mag.val ≠ 0) (n2 : q.mag.val ≠ 0) :
    p.mul q = pure ⟨p.mag.mul q.mag, p.ang.add q.ang⟩ := by
  show ops.mulPolar p q = _
  unfold ops.mulPolar
  rw [lit_zero_flt, pure_bind]
  have e1 : MixedCmp.beq p.mag (.fin false 0 : Flt f) = false := by
    show p.mag.beq _ = _; rw [beq_zero_flt h1, decide_eq_false n1]
  have e2 : MixedCmp.beq q.mag (.fin false 0 : Flt f) = false := by
    show q.mag.beq _ = _; rw [beq_zero_flt h2, decide_eq_false n2]
  rw [e1, e2]; rfl

open Flt in
/-- C172, floats: magnitudes at most `R`. The magnitude is off by at most `((1 + 2^-p)^n - 1) R^n` times the first one plus half the smallest
float times `1 + S + ... + S^(n-1)`, `S = (1 + 2^-p) R`; the angle, unless the magnitude was rounded to zero, by `(1 + 2^-p)^n - 1` times
the sum of the magnitudes of the angles. -/
theorem C172_float (hf : f.Wide) {R T : ℚ} (hR : 0 ≤ R) (p : Polar (Flt f)) (qs : List (Polar (Flt f)))
    (hv : ∀ q ∈ p :: qs, (q.mag.Valid ∧ q.mag.IsFinite) ∧ q.ang.Valid ∧ q.ang.IsFinite) (hq : ∀ q ∈ qs, |q.mag.val| ≤ R)
    (hT : (1 + 1 / 2 ^ f.p) * R * T + 2 ^ f.emin / 2 < 2 ^ f.emax)
    (hk : ∀ k < qs.length, ((1 + 1 / 2 ^ f.p) * R) ^ k * |p.mag.val| + 2 ^ f.emin / 2 * ∑ i ∈ Finset.range k, ((1 + 1 / 2 ^ f.p) * R) ^ i ≤ T)
    (ha : (1 + 1 / 2 ^ f.p) ^ qs.length * (|p.ang.val| + (qs.map (|·.ang.val|)).sum) < 2 ^ f.emax) :
    ∃ c, Returns (polarUp p qs) c ∧ (c.mag.Valid ∧ c.mag.IsFinite) ∧ (c.ang.Valid ∧ c.ang.IsFinite) ∧
      |c.mag.val - p.mag.val * (qs.map (·.mag.val)).prod| ≤ ((1 + 1 / 2 ^ f.p) ^ qs.length - 1) * R ^ qs.length * |p.mag.val| +
        2 ^ f.emin / 2 * ∑ i ∈ Finset.range qs.length, ((1 + 1 / 2 ^ f.p) * R) ^ i ∧
      (c.mag.val ≠ 0 → |c.ang.val - (p.ang.val + (qs.map (·.ang.val)).sum)| ≤
        ((1 + 1 / 2 ^ f.p) ^ qs.length - 1) * (|p.ang.val| + (qs.map (|·.ang.val|)).sum)) := by
  suffices H : ∃ c, Returns (polarUp p qs) c ∧ (c.mag.Valid ∧ c.mag.IsFinite) ∧ (c.ang.Valid ∧ c.ang.IsFinite) ∧
      |c.mag.val - p.mag.val * (qs.map (·.mag.val)).prod| ≤ ((1 + 1 / 2 ^ f.p) ^ qs.length - 1) * R ^ qs.length * |p.mag.val| +
        2 ^ f.emin / 2 * ∑ i ∈ Finset.range qs.length, ((1 + 1 / 2 ^ f.p) * R) ^ i ∧
      (c.mag.val ≠ 0 → p.mag.val ≠ 0 ∧ |c.ang.val - (p.ang.val + (qs.map (·.ang.val)).sum)| ≤
        ((1 + 1 / 2 ^ f.p) ^ qs.length - 1) * (|p.ang.val| + (qs.map (|·.ang.val|)).sum)) by
    obtain ⟨c, c1, c2, c3, c4, c5⟩ := H
    exact ⟨c, c1, c2, c3, c4, fun h => (c5 h).2⟩
  have hu : (1:ℚ) / 2 ^ f.p = 2 ^ (-(f.p:ℤ)) := by rw [zpow_neg, zpow_natCast, one_div]
  have u0 : (0:ℚ) < 1 / 2 ^ f.p := by positivity
  have η0 : (0:ℚ) < 2 ^ f.emin / 2 := by positivity
  have rl : ∀ q : ℚ, |rnd f.p f.emin q - q| ≤ 1 / 2 ^ f.p * |q| + 2 ^ f.emin / 2 := fun q => by
    rw [hu, _root_.mul_comm]; exact abs_rnd_le q
  have gr : ∀ {x y : Flt f} {a b : ℚ}, Is x a → Is y b → |rnd f.p f.emin (a + b) - (a + b)| ≤ 1 / 2 ^ f.p * |a + b| := by
    intro x y a b hx hy
    obtain ⟨k, hk⟩ := grid_add hx.rep hy.rep
    rw [hu, hk]; exact rnd_grid k
  generalize (1:ℚ) / 2 ^ f.p = u at *
  generalize (2:ℚ) ^ f.emin / 2 = η at *
  have is : ∀ x : Flt f, x.Valid ∧ x.IsFinite → Is x x.val := by rintro _ ⟨v, ⟨t, b, rfl⟩⟩; exact is_of_valid v
  set S := (1 + u) * R with hS
  have S0 : 0 ≤ S := by positivity
  have SR : R ≤ S := by rw [hS]; nlinarith
  have g0 : ∀ k, 0 ≤ ∑ i ∈ Finset.range k, S ^ i := fun k => Finset.sum_nonneg fun i _ => pow_nonneg S0 i
  induction qs generalizing p with
  | nil => exact ⟨p, .of_eq rfl, (hv p (by simp)).1, (hv p (by simp)).2, by simp, fun h => ⟨h, by simp⟩⟩
  | cons q qs ih =>
    obtain ⟨⟨v1, v2⟩, v3, v4⟩ := hv p (by simp)
    obtain ⟨⟨w1, w2⟩, w3, w4⟩ := hv q (by simp)
    have sa : 0 ≤ (qs.map (|·.ang.val|)).sum := List.sum_nonneg (by intro x hx; obtain ⟨y, -, rfl⟩ := List.mem_map.mp hx; exact abs_nonneg _)
    have n1 : 1 ≤ (1 + u) ^ qs.length := one_le_pow₀ (by linarith)
    have hq1 := hq q (by simp)
    simp only [List.map_cons, List.prod_cons, List.sum_cons, List.length_cons] at ha ⊢
    have pk : ∀ k, 0 ≤ (1 + u) ^ k - 1 := fun k => sub_nonneg.mpr (one_le_pow₀ (by linarith))
    by_cases hz : p.mag.val = 0 ∨ q.mag.val = 0
    · have fin0 : ∀ x : Flt f, x.IsFinite → x.val = 0 → ∃ s, x = .fin s 0 := by
        rintro _ ⟨s, m, rfl⟩ h
        refine ⟨s, ?_⟩
        cases s
        · rw [show m = 0 from h]
        · rw [show m = 0 from neg_eq_zero.mp h]
      have t1 := C98_mul_zero p q (hz.imp (fin0 _ v2) (fin0 _ w2))
      have i0 : Is (Flt.fin false 0 : Flt f) 0 := is_zero
      obtain ⟨c, c1, c2, c3, c4, c5⟩ := ih ⟨.fin false 0, .fin false 0⟩ (fun x hx => by
        rcases List.mem_cons.mp hx with rfl | hx
        · exact ⟨⟨i0.valid, i0.fin⟩, i0.valid, i0.fin⟩
        · exact hv x (by simp [hx])) (fun x hx => hq x (by simp [hx])) (by
          rw [show ((⟨.fin false 0, .fin false 0⟩ : Polar (Flt f)).ang.val) = 0 from i0.val, abs_zero, zero_add]
          refine lt_of_le_of_lt ?_ ha
          have h1 : 0 ≤ |p.ang.val| := abs_nonneg _
          have h2 : 0 ≤ |q.ang.val| := abs_nonneg _
          exact mul_le_mul (pow_le_pow_right₀ (by linarith) (by omega)) (by linarith) sa (by positivity)) (fun k hk' => by
          have h1 := hk (k + 1) (by simpa using hk')
          have h2 : 0 ≤ S ^ (k + 1) * |p.mag.val| := by positivity
          have h3 : 0 ≤ η * S ^ k := by positivity
          rw [Finset.sum_range_succ, mul_add] at h1
          rw [show ((⟨.fin false 0, .fin false 0⟩ : Polar (Flt f)).mag.val) = 0 from i0.val, abs_zero, mul_zero, zero_add]
          linarith)
      have z0 : c.mag.val = 0 := by
        by_contra h
        exact (c5 h).1 i0.val
      refine ⟨c, by unfold polarUp at c1 ⊢; rw [List.foldlM_cons]; exact t1.bind c1, c2, c3, ?_, fun h => absurd z0 h⟩
      have e : p.mag.val * (q.mag.val * (qs.map (·.mag.val)).prod) = 0 := by rcases hz with h | h <;> simp [h]
      rw [e, z0, sub_zero, abs_zero]
      exact add_nonneg (mul_nonneg (mul_nonneg (pk _) (pow_nonneg hR _)) (abs_nonneg _)) (mul_nonneg η0.le (g0 _))
    · rw [not_or] at hz
      have t1 := polar_flt p q v2 w2 hz.1 hz.2
      have ip := is _ ⟨v1, v2⟩; have iq := is _ ⟨w1, w2⟩
      have ja := is _ ⟨v3, v4⟩; have jb := is _ ⟨w3, w4⟩
      set M := p.mag.val
      set B := q.mag.val
      have r1 := rl (M * B)
      have m1 : |M * B| ≤ R * |M| := by rw [abs_mul, _root_.mul_comm]; exact mul_le_mul_of_nonneg_right hq1 (abs_nonneg _)
      have m2 : u * |M * B| ≤ u * (R * |M|) := mul_le_mul_of_nonneg_left m1 u0.le
      have r2 : |rnd f.p f.emin (M * B)| ≤ S * |M| + η := by
        have := abs_sub_abs_le_abs_sub (rnd f.p f.emin (M * B)) (M * B)
        rw [hS]; linarith
      have hM : |M| ≤ T := by simpa using hk 0 (by simp)
      have im := ip.mul hf.one_le iq (lt_of_le_of_lt (r2.trans (add_le_add_left (mul_le_mul_of_nonneg_left hM S0) _)) hT)
      set d := rnd f.p f.emin (M * B)
      have a1 := gr ja jb
      have hab := abs_add_le p.ang.val q.ang.val
      set Sa := (qs.map (|·.ang.val|)).sum
      set P := (1 + u) ^ qs.length with hP
      have a2 : |rnd f.p f.emin (p.ang.val + q.ang.val)| ≤ (1 + u) * (|p.ang.val| + |q.ang.val|) := by
        have := abs_sub_abs_le_abs_sub (rnd f.p f.emin (p.ang.val + q.ang.val)) (p.ang.val + q.ang.val)
        have := mul_le_mul_of_nonneg_left hab u0.le
        linarith
      rw [pow_succ, ← hP] at ha
      have n2 : 0 ≤ u * Sa := mul_nonneg u0.le sa
      have A0 : 0 ≤ |p.ang.val| + |q.ang.val| := by positivity
      have hlt : |rnd f.p f.emin (p.ang.val + q.ang.val)| < 2 ^ f.emax := by
        refine lt_of_le_of_lt a2 (lt_of_le_of_lt ?_ ha)
        rw [_root_.mul_assoc]
        have h2 : 0 ≤ (1 + u) * (|p.ang.val| + (|q.ang.val| + Sa)) := mul_nonneg (by linarith) (by linarith)
        have h3 := mul_le_mul_of_nonneg_right n1 h2
        have h1 : (1 + u) * (|p.ang.val| + |q.ang.val|) ≤ (1 + u) * (|p.ang.val| + (|q.ang.val| + Sa)) :=
          mul_le_mul_of_nonneg_left (by linarith) (by linarith)
        linarith
      have ia := ja.add hf.one_le jb hlt
      set b := rnd f.p f.emin (p.ang.val + q.ang.val)
      have em : (p.mag.mul q.mag).val = d := im.val
      have ea : (p.ang.add q.ang).val = b := ia.val
      obtain ⟨c, c1, c2, c3, c4, c5⟩ := ih ⟨p.mag.mul q.mag, p.ang.add q.ang⟩ (fun x hx => by
        rcases List.mem_cons.mp hx with rfl | hx
        · exact ⟨⟨im.valid, im.fin⟩, ia.valid, ia.fin⟩
        · exact hv x (by simp [hx])) (fun x hx => hq x (by simp [hx])) (by
          rw [ea]
          refine lt_of_le_of_lt ?_ ha
          rw [_root_.mul_assoc]
          exact mul_le_mul_of_nonneg_left (by nlinarith) (by linarith)) (fun k hk' => by
          refine le_trans ?_ (hk (k + 1) (by simpa using hk'))
          rw [em, Finset.sum_range_succ, pow_succ]
          have := mul_le_mul_of_nonneg_left r2 (pow_nonneg S0 k)
          nlinarith)
      rw [em] at c4 c5
      rw [ea] at c5
      refine ⟨c, by unfold polarUp at c1 ⊢; rw [List.foldlM_cons, t1, pure_bind]; exact c1, c2, c3, ?_, fun h => ⟨hz.1, ?_⟩⟩
      · set Q := (qs.map (·.mag.val)).prod with hQ
        have hQR : |Q| ≤ R ^ qs.length := by
          have : ∀ l : List (Polar (Flt f)), (∀ x ∈ l, |x.mag.val| ≤ R) → |(l.map (·.mag.val)).prod| ≤ R ^ l.length := by
            intro l hl
            induction l with
            | nil => simp
            | cons x l ihl =>
              rw [List.map_cons, List.prod_cons, abs_mul, List.length_cons, pow_succ, _root_.mul_comm (R ^ _)]
              exact mul_le_mul (hl x (by simp)) (ihl fun y hy => hl y (by simp [hy])) (abs_nonneg _) hR
          exact this qs fun x hx => hq x (by simp [hx])
        have e : c.mag.val - M * (B * Q) = (c.mag.val - d * Q) + (d - M * B) * Q := by ring
        have k1 : |(d - M * B) * Q| ≤ (u * (R * |M|) + η) * R ^ qs.length := by
          rw [abs_mul]; exact mul_le_mul (r1.trans (by linarith)) hQR (abs_nonneg _) (by positivity)
        have RP : 0 ≤ R ^ qs.length := pow_nonneg hR _
        have k2 : (P - 1) * R ^ qs.length * |d| ≤ (P - 1) * R ^ qs.length * (S * |M| + η) :=
          mul_le_mul_of_nonneg_left r2 (mul_nonneg (pk _) RP)
        have k3 : S ^ qs.length = P * R ^ qs.length := by rw [hS, mul_pow]
        have k0 := abs_add_le (c.mag.val - d * Q) ((d - M * B) * Q)
        rw [← e] at k0
        rw [Finset.sum_range_succ, k3, pow_succ, pow_succ, ← hP]
        have k5 : (P - 1) * R ^ qs.length * (S * |M| + η) + (u * (R * |M|) + η) * R ^ qs.length =
            (P * (1 + u) - 1) * (R ^ qs.length * R) * |M| + η * (P * R ^ qs.length) := by rw [hS]; ring
        linarith
      · have c6 := (c5 h).2
        set X := (qs.map (·.ang.val)).sum
        have t0 := abs_sub_le c.ang.val (b + X) (p.ang.val + (q.ang.val + X))
        rw [show b + X - (p.ang.val + (q.ang.val + X)) = b - (p.ang.val + q.ang.val) by ring] at t0
        have t2 : (P - 1) * (|b| + Sa) ≤ (P - 1) * ((1 + u) * (|p.ang.val| + |q.ang.val|) + Sa) := mul_le_mul_of_nonneg_left (by linarith) (pk _)
        have t3 : u * |p.ang.val + q.ang.val| ≤ u * (|p.ang.val| + |q.ang.val|) := mul_le_mul_of_nonneg_left hab u0.le
        have t4 : (P - 1) * ((1 + u) * (|p.ang.val| + |q.ang.val|) + Sa) + u * (|p.ang.val| + |q.ang.val|) =
            (P * (1 + u) - 1) * (|p.ang.val| + (|q.ang.val| + Sa)) - P * u * Sa := by ring
        have t5 : 0 ≤ P * u * Sa := mul_nonneg (mul_nonneg (by linarith) u0.le) sa
        rw [pow_succ, ← hP]
        linarith

/-! ## Concrete cases -/

/-- `3∠1 · 2∠4 · 5∠-2 = 30∠3` on bytes, and one more factor of five overflows. -/
example : Returns (polarUp (⟨i .checked true 8 3, i .checked true 8 1⟩ : Polar (PInt .checked true 8))
      [⟨i .checked true 8 2, i .checked true 8 4⟩, ⟨i .checked true 8 5, i .checked true 8 (-2)⟩]) ⟨i .checked true 8 30, i .checked true 8 3⟩ ∧
    Panics (polarUp (⟨i .checked true 8 30, i .checked true 8 3⟩ : Polar (PInt .checked true 8))
      [⟨i .checked true 8 5, i .checked true 8 0⟩]) .overflow := ⟨.of_eq (by rfl), .of_eq (by rfl)⟩

/-- A zero on the way clears the angle: `3∠1 · 0∠4 · 5∠7 = 0∠0`. -/
example : Returns (polarUp (⟨i .wrapping true 8 3, i .wrapping true 8 1⟩ : Polar (PInt .wrapping true 8))
      [⟨i .wrapping true 8 0, i .wrapping true 8 4⟩, ⟨i .wrapping true 8 5, i .wrapping true 8 7⟩])
      ⟨i .wrapping true 8 0, i .wrapping true 8 0⟩ := .of_eq (by rfl)

/-- On 16 bits `0.75∠0.5 · -0.5∠1` on eight fractional bits is `-0.375∠1.5`. -/
example : Returns (polarUp (⟨fx .checked true 16 8 192, fx .checked true 16 8 128⟩ : Polar (Fixed .checked true 16 8))
      [⟨fx .checked true 16 8 (-128), fx .checked true 16 8 256⟩]) ⟨fx .checked true 16 8 (-96), fx .checked true 16 8 384⟩ := .of_eq (by rfl)

/-- The hypotheses of the float theorem hold on `f32` for a hundred factors of magnitude at most one and angle at most four, from `1∠0`. -/
example : let S : ℚ := (1 + 1 / 2 ^ F32.p) * 1
    S * 3 + 2 ^ F32.emin / 2 < 2 ^ F32.emax ∧
    (∀ k < 100, S ^ k * |1| + 2 ^ F32.emin / 2 * ∑ i ∈ Finset.range k, S ^ i ≤ 3) ∧
    (1 + 1 / 2 ^ F32.p : ℚ) ^ 100 * (0 + 400) < 2 ^ F32.emax := by
  intro S
  have he : (2:ℚ) ^ F32.emin / 2 ≤ 1 / 2 ^ 20 := by
    have : (2:ℚ) ^ F32.emin ≤ 2 ^ (-20 : ℤ) := zpow_le_zpow_right₀ (by norm_num) (by decide)
    linarith [this.trans_eq (by norm_num : (2:ℚ) ^ (-20 : ℤ) = 1 / 2 ^ 20)]
  have hM : (2:ℚ) ^ 10 ≤ 2 ^ F32.emax := pow_le_pow_right₀ (by norm_num) (by decide)
  have hS : S = 1 + 1 / 2 ^ F32.p := by simp [S]
  have hp : (1 + 1 / 2 ^ F32.p : ℚ) ≤ 1 + 1 / 2 ^ 20 := by norm_num [F32]
  have h1 : (1:ℚ) ≤ 1 + 1 / 2 ^ F32.p := by norm_num [F32]
  have pw : ∀ k ≤ 100, S ^ k ≤ 2 := fun k hk => by
    rw [hS]
    calc (1 + 1 / 2 ^ F32.p : ℚ) ^ k ≤ (1 + 1 / 2 ^ F32.p) ^ 100 := pow_le_pow_right₀ h1 hk
      _ ≤ (1 + 1 / 2 ^ 20) ^ 100 := pow_le_pow_left₀ (by linarith) hp _
      _ ≤ 2 := by norm_num
  have p1 := pw 1 (by norm_num); have p2 := pw 100 le_rfl
  rw [← hS]
  clear_value S
  rw [pow_one] at p1
  generalize (2:ℚ) ^ F32.emin / 2 = η at *
  generalize (2:ℚ) ^ F32.emax = M at *
  norm_num at hM he
  refine ⟨by linarith, fun k hk => ?_, by linarith⟩
  have hs : ∑ i ∈ Finset.range k, S ^ i ≤ 200 := by
    refine (Finset.sum_le_card_nsmul _ _ 2 fun i hi => pw i (by have := Finset.mem_range.mp hi; omega)).trans ?_
    rw [Finset.card_range, nsmul_eq_mul]
    have : (k : ℚ) ≤ 100 := by exact_mod_cast hk.le
    linarith
  have s0 : 0 ≤ ∑ i ∈ Finset.range k, S ^ i := Finset.sum_nonneg fun i _ => pow_nonneg (by linarith) _
  have := pw k hk.le
  have h3 := mul_le_mul he hs s0 (by norm_num)
  rw [abs_one]
  linarith

end MixedNum
