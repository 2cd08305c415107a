import Verif.Spec.Spectrum
import Verif.Props.Phasor
import Verif.Props.Accumulate
import Verif.Props.Dot
import Mathlib.Algebra.Field.GeomSum
/-! # C173: sums of turned numbers -/

namespace MixedNum
variable {m : Mode} {s : Bool} {W F : ℕ} {f : Format}

/-- C173, exact reals: the loop adds up the products. -/
theorem C173_real (acc : Cartesian ℝ) (ts : List (Cartesian ℝ × Polar ℝ)) :
    ∃ c, Returns (spectrum acc ts) c ∧ c.toC = acc.toC + (ts.map fun t => t.1.toC * phasor t.2.mag t.2.ang).sum := by
  unfold spectrum
  induction ts generalizing acc with
  | nil => exact ⟨acc, .of_eq rfl, by simp⟩
  | cons t ts ih =>
    obtain ⟨w, w1, -, w2⟩ := C20_cartesian_polar t.1 t.2
    obtain ⟨c, c1, c2⟩ := ih ⟨acc.re + w.re, acc.im + w.im⟩
    refine ⟨c, by rw [List.foldlM_cons]; exact (w1.bind (f := fun w => acc.add w) (.of_eq rfl)).bind c1, ?_⟩
    have e : Cartesian.toC ⟨acc.re + w.re, acc.im + w.im⟩ = acc.toC + w.toC := rfl
    rw [c2, e, w2, List.map_cons, List.sum_cons, add_assoc]; rfl

/-- C173, exact reals: the Fourier transform of a tone. A tone of `h` turns in `n` samples gives `n` in bin `j` if `j` and `h` agree modulo
`n`, and zero in every other bin. -/
theorem C173_tone (n : ℕ) (hn : 0 < n) (h j : ℤ) (x : ℕ → Cartesian ℝ) (hx : ∀ k, (x k).toC = phasor 1 (2 * Real.pi * h * k / n)) :
    ∃ c, Returns (spectrum ⟨0, 0⟩ (bin n j x)) c ∧ c.toC = if (n : ℤ) ∣ h - j then (n : ℂ) else 0 := by
  obtain ⟨c, c1, c2⟩ := C173_real ⟨0, 0⟩ (bin n j x)
  refine ⟨c, c1, c2.trans ?_⟩
  have e0 : (⟨0, 0⟩ : Cartesian ℝ).toC = 0 := rfl
  have n0 : (n : ℂ) ≠ 0 := by exact_mod_cast hn.ne'
  set q : ℂ := Complex.exp (2 * Real.pi * Complex.I * ((h - j : ℤ) / n)) with hq
  have term : ∀ k : ℕ, (x k).toC * phasor 1 (-(2 * Real.pi * j * k / n)) = q ^ k := by
    intro k
    rw [hx, hq, ← Complex.exp_nat_mul]
    simp only [phasor, Complex.ofReal_one, one_mul]
    rw [← Complex.exp_add]
    congr 1; push_cast; field_simp; ring
  have es : ((bin n j x).map fun t => t.1.toC * phasor t.2.mag t.2.ang).sum = ∑ k ∈ Finset.range n, q ^ k := by
    rw [bin, List.map_map, Finset.sum_eq_multiset_sum, Finset.range_val, ← Multiset.coe_range, Multiset.map_coe, Multiset.sum_coe]
    congr 1
    exact List.map_congr_left fun k _ => term k
  have qn : q ^ n = 1 := by
    rw [hq, ← Complex.exp_nat_mul, Complex.exp_eq_one_iff]
    exact ⟨h - j, by field_simp⟩
  rw [e0, zero_add, es]
  split_ifs with hd
  · obtain ⟨d, hd⟩ := hd
    have : q = 1 := by
      rw [hq, hd, Complex.exp_eq_one_iff]
      exact ⟨d, by push_cast; field_simp⟩
    simp [this]
  · have hne : q ≠ 1 := by
      rw [hq]; intro h1
      obtain ⟨d, hd'⟩ := Complex.exp_eq_one_iff.mp h1
      apply hd
      refine ⟨d, ?_⟩
      have hpi : (2 * Real.pi * Complex.I : ℂ) ≠ 0 := Complex.two_pi_I_ne_zero
      rw [mul_comm (d : ℂ)] at hd'
      have h2 := mul_left_cancel₀ hpi hd'
      rw [div_eq_iff n0] at h2
      have : ((h - j : ℤ) : ℂ) = ((d * n : ℤ) : ℂ) := by rw [h2]; push_cast; ring
      have := Int.cast_injective this
      rw [this, mul_comm]
    rw [geom_sum_eq hne, qn, sub_self, zero_div]

theorem mulAssignPolar_eq {α : Type} [MixedCmp α] [NumOps α] [Lit α] [MixedPi α] [MixedNumSigned α] [MixedSinCos α]
    (z : Cartesian α) (p : Polar α) : turnBy z [p] = z.mulPolar p := by
  unfold turnBy
  rw [List.foldlM_cons, show (fun s => List.foldlM Cartesian.mulAssignPolar s []) = (pure : Cartesian α → Prog _) from rfl, bind_pure]
  rfl

/-- Sums of terms each known up to an error `e`, every addition being good to a factor `1 + ρ`. -/
theorem spectrum_err {α β : Type} {add : α → α → Prog α} {term : β → Prog α} {val : α → ℂ} {v : β → ℂ} {e : β → ℝ} {Good : α → Prop} {ρ M : ℝ}
    (hρ : 0 ≤ ρ) (he0 : ∀ t, 0 ≤ e t)
    (hadd : ∀ a b, Good a → Good b → (1 + ρ) * (‖val a‖ + ‖val b‖) < M →
      ∃ c, Returns (add a b) c ∧ Good c ∧ ‖val c - (val a + val b)‖ ≤ ρ * ‖val a + val b‖) (ts : List β)
    (hterm : ∀ t ∈ ts, ∃ w, Returns (term t) w ∧ Good w ∧ ‖val w - v t‖ ≤ e t) (acc : α) (ha : Good acc)
    (hM : (1 + ρ) ^ ts.length * (‖val acc‖ + (ts.map fun t => ‖v t‖ + e t).sum) < M) :
    ∃ c, Returns (ts.foldlM (fun acc t => do add acc (← term t)) acc) c ∧ Good c ∧
      ‖val c - (val acc + (ts.map v).sum)‖ ≤
        (1 + ρ) ^ ts.length * (‖val acc‖ + (ts.map fun t => ‖v t‖ + e t).sum) - (‖val acc‖ + (ts.map fun t => ‖v t‖).sum) := by
  induction ts generalizing acc with
  | nil => exact ⟨acc, .of_eq rfl, ha, by simp⟩
  | cons t ts ih =>
    obtain ⟨w, w1, w2, w3⟩ := hterm t (by simp)
    have he := he0 t
    rw [List.map_cons, List.sum_cons, List.length_cons, pow_succ] at hM
    set S := (ts.map fun t => ‖v t‖ + e t).sum with hS
    have S0 : 0 ≤ S := List.sum_nonneg (by
      simp only [List.mem_map]; rintro _ ⟨x, -, rfl⟩; exact add_nonneg (norm_nonneg _) (he0 x))
    set P := (1 + ρ) ^ ts.length
    have hP : 1 ≤ P := one_le_pow₀ (by linarith)
    have nw : ‖val w‖ ≤ ‖v t‖ + e t := by
      have := norm_add_le (val w - v t) (v t)
      rw [sub_add_cancel] at this; linarith
    have A0 := norm_nonneg (val acc); have V0 := norm_nonneg (v t)
    set A := ‖val acc‖ + (‖v t‖ + e t) with hA
    have hA0 : 0 ≤ A := by positivity
    have r0 : 0 ≤ P * (1 + ρ) * S := by positivity
    have r1 : P * ((1 + ρ) * A) < M := by
      have e1 : P * (1 + ρ) * (‖val acc‖ + (‖v t‖ + e t + S)) = P * ((1 + ρ) * A) + P * (1 + ρ) * S := by rw [hA]; ring
      linarith
    have r2 : (1 + ρ) * A ≤ P * ((1 + ρ) * A) := le_mul_of_one_le_left (by positivity) hP
    have r3 : (1 + ρ) * (‖val acc‖ + ‖val w‖) ≤ (1 + ρ) * A := mul_le_mul_of_nonneg_left (by linarith) (by linarith)
    obtain ⟨b, b1, b2, b3⟩ := hadd acc w ha w2 (by linarith)
    have nb0 : ‖val acc + val w‖ ≤ A := (norm_add_le _ _).trans (by linarith)
    have nb1 : ρ * ‖val acc + val w‖ ≤ ρ * A := mul_le_mul_of_nonneg_left nb0 hρ
    have nb : ‖val b‖ ≤ (1 + ρ) * A := by
      have := norm_add_le (val b - (val acc + val w)) (val acc + val w)
      rw [sub_add_cancel] at this; linarith
    have r4 : P * (‖val b‖ + S) ≤ P * ((1 + ρ) * A) + P * S := by
      rw [mul_add]; exact add_le_add_left (mul_le_mul_of_nonneg_left nb (by linarith)) _
    have r5 : P * S ≤ P * (1 + ρ) * S := by
      have : 0 ≤ P * ρ * S := by positivity
      linarith
    obtain ⟨c, c1, c2, c3⟩ := ih (fun x hx => hterm x (by simp [hx])) b b2 (by
      have e1 : P * (1 + ρ) * (‖val acc‖ + (‖v t‖ + e t + S)) = P * ((1 + ρ) * A) + P * (1 + ρ) * S := by rw [hA]; ring
      linarith)
    refine ⟨c, by rw [List.foldlM_cons]; exact (w1.bind b1).bind c1, c2, ?_⟩
    rw [List.map_cons, List.sum_cons, List.map_cons, List.sum_cons, List.map_cons, List.sum_cons, List.length_cons, pow_succ]
    set V := (ts.map v).sum
    have n1 := norm_add_le (val c - (val b + V)) ((val b - (val acc + val w)) + (val w - v t))
    rw [show val c - (val b + V) + ((val b - (val acc + val w)) + (val w - v t)) = val c - (val acc + (v t + V)) by ring] at n1
    have n2 := norm_add_le (val b - (val acc + val w)) (val w - v t)
    have r6 : (P - 1) * ‖val b‖ ≤ (P - 1) * ((1 + ρ) * A) := mul_le_mul_of_nonneg_left nb (by linarith)
    have e2 : P * (1 + ρ) * (‖val acc‖ + (‖v t‖ + e t + S)) = P * ((1 + ρ) * A) + P * (1 + ρ) * S := by rw [hA]; ring
    rw [e2]
    have e3 : A = ‖val acc‖ + (‖v t‖ + e t) := hA
    linarith

theorem Fixed.add_r {K : ℕ} (hK : F + K + 1 ≤ W) {a b : Fixed m true W F} (h : |a.r + b.r| < 2 ^ K) :
    ∃ c, Returns (NumOps.add a b) c ∧ c.r = a.r + b.r := by
  have e : (((a.val + b.val : ℤ) : ℝ)) * u F = a.r + b.r := by simp only [Fixed.r, u]; push_cast; ring
  have hf : Fits true W (a.val + b.val) := fits_of_abs hK (by rw [e]; exact h)
  refine ⟨_, .of_eq (Fixed.fit_of_fits hf), ?_⟩
  rw [← e, Fixed.r_eq, Fixed.mkv_val]

theorem sum_parts {α : Type} (l : List α) (g : α → ℝ) (c d : ℝ) : (l.map fun t => c * g t + d).sum = c * (l.map g).sum + l.length * d := by
  induction l with
  | nil => simp
  | cons a l ih => simp only [List.map_cons, List.sum_cons, List.length_cons, ih]; push_cast; ring

/-- C173, signed fixed point: `n` terms with factors of magnitude at most `R` and angle at most `A`. Additions are exact, so the error is
that of the products: `2B` times the sizes of the samples together, and `9/4` units for each term. -/
theorem C173_fixed {K : ℕ} (hK : F + K + 1 ≤ W) (h : F + 4 ≤ W) {ε R A B : ℝ} (hε : 0 ≤ ε) (hR : 0 ≤ R)
    (sc : Fixed m true W F → Prog (Fixed m true W F × Fixed m true W F)) (hs : FixedSinCosWithin sc ε)
    (acc : Cartesian (Fixed m true W F)) (ts : List (Cartesian (Fixed m true W F) × Polar (Fixed m true W F)))
    (hp : ∀ t ∈ ts, |t.2.mag.r| ≤ R ∧ |t.2.ang.r| ≤ A)
    (hB : B = R * (ε + (A / 5 + 1 / 2) * (1 / 2 ^ F + 1 / 2 ^ 51)) + 1 / 2 ^ F)
    (hm : R * (1 + ε) + 1 / 2 ^ F < 2 ^ K) (hfit : ∀ t ∈ ts, 3 / 2 * ‖t.1.c‖ * (R + B) + 2 / 2 ^ F < 2 ^ K)
    (hsum : ‖acc.c‖ + (R + 2 * B) * (ts.map fun t => ‖t.1.c‖).sum + ts.length * (9 / 4 / 2 ^ F) < 2 ^ K) :
    ∃ c, Returns (@spectrum _ _ _ _ _ _ ⟨sc⟩ acc ts) c ∧
      ‖c.c - (acc.c + (ts.map fun t => t.1.c * phasor t.2.mag.r t.2.ang.r).sum)‖ ≤
        2 * B * (ts.map fun t => ‖t.1.c‖).sum + ts.length * (9 / 4 / 2 ^ F) := by
  rcases ts.eq_nil_or_concat with rfl | hne
  · exact ⟨acc, .of_eq rfl, by simp⟩
  have hA : 0 ≤ A := by
    obtain ⟨l, b, rfl⟩ := hne
    exact (abs_nonneg _).trans (hp b (by simp)).2
  have hB0 : 0 ≤ B := by rw [hB]; positivity
  have e1 : ∀ g : ℝ, (ts.map fun t => g * ‖t.1.c‖ + 9 / 4 / 2 ^ F).sum = g * (ts.map fun t => ‖t.1.c‖).sum + ts.length * (9 / 4 / 2 ^ F) :=
    fun g => sum_parts ts (fun t => ‖t.1.c‖) g _
  have le : (ts.map fun t => ‖t.1.c * phasor t.2.mag.r t.2.ang.r‖ + (2 * B * ‖t.1.c‖ + 9 / 4 / 2 ^ F)).sum ≤
      (ts.map fun t => (R + 2 * B) * ‖t.1.c‖ + 9 / 4 / 2 ^ F).sum := List.sum_le_sum fun t ht => by
    rw [norm_mul, norm_phasor]
    have := mul_le_mul_of_nonneg_left (hp t ht).1 (norm_nonneg t.1.c)
    linarith
  obtain ⟨c, c1, -, c2⟩ := spectrum_err (add := Cartesian.add) (term := fun t => @Cartesian.mulPolar _ _ _ _ _ _ ⟨sc⟩ t.1 t.2)
    (val := Cartesian.c) (v := fun t : Cartesian (Fixed m true W F) × Polar (Fixed m true W F) => t.1.c * phasor t.2.mag.r t.2.ang.r)
    (e := fun t => 2 * B * ‖t.1.c‖ + 9 / 4 / 2 ^ F) (Good := fun _ => True) (ρ := 0) (M := 2 ^ K) le_rfl (fun t => by positivity)
    (fun a b _ _ hab => by
      rw [_root_.add_zero, one_mul] at hab
      have hn := lt_of_le_of_lt (norm_add_le a.c b.c) hab
      have k1 : |a.re.r + b.re.r| < 2 ^ K := lt_of_le_of_lt (Complex.abs_re_le_norm (a.c + b.c)) hn
      have k2 : |a.im.r + b.im.r| < 2 ^ K := lt_of_le_of_lt (Complex.abs_im_le_norm (a.c + b.c)) hn
      obtain ⟨x, x1, x2⟩ := Fixed.add_r hK k1
      obtain ⟨y, y1, y2⟩ := Fixed.add_r hK k2
      refine ⟨⟨x, y⟩, x1.bind (y1.bind (.of_eq rfl)), trivial, ?_⟩
      have : (⟨x, y⟩ : Cartesian (Fixed m true W F)).c = a.c + b.c := Complex.ext x2 y2
      rw [this, sub_self, norm_zero, zero_mul]) ts (fun t ht => by
      obtain ⟨w, w1, w2⟩ := C171_fixed hK h hε hR sc hs t.1 [t.2] (fun p hp' => by rw [List.mem_singleton.mp hp']; exact hp t ht) hB hm (hfit t ht)
        (fun k hk => by
          have : k = 0 := by simpa using hk
          subst this; simp [geo])
      refine ⟨w, by rw [← @mulAssignPolar_eq _ _ _ _ _ _ ⟨sc⟩]; exact w1, trivial, ?_⟩
      simpa [geo] using w2) acc trivial (by
      rw [_root_.add_zero, one_pow, one_mul]
      rw [e1] at le; linarith)
  refine ⟨c, c1, c2.trans (le_of_eq ?_)⟩
  rw [_root_.add_zero, one_pow, one_mul, ← e1]
  have e2 : ∀ l : List (Cartesian (Fixed m true W F) × Polar (Fixed m true W F)),
      (l.map fun t => ‖t.1.c * phasor t.2.mag.r t.2.ang.r‖ + (2 * B * ‖t.1.c‖ + 9 / 4 / 2 ^ F)).sum =
      (l.map fun t => ‖t.1.c * phasor t.2.mag.r t.2.ang.r‖).sum + (l.map fun t => 2 * B * ‖t.1.c‖ + 9 / 4 / 2 ^ F).sum := fun l => by
    induction l with
    | nil => simp
    | cons a l ih => simp only [List.map_cons, List.sum_cons, ih]; ring
  rw [e2]; ring

/-- C173: a build without overflow checks gives the same unless the build with checks panics. -/
theorem C173_release [Cordic .checked W F] [Cordic .wrapping W F] [CordicAlike W F] (acc : Cartesian (Fixed .checked true W F))
    (ts : List (Cartesian (Fixed .checked true W F) × Polar (Fixed .checked true W F))) :
    Agrees (Cartesian.releaseBy Fixed.release) (spectrum acc ts) (spectrum (acc.releaseBy Fixed.release)
      (ts.map fun t => (t.1.releaseBy Fixed.release, t.2.releaseBy Fixed.release))) := by
  refine Sim.agrees_cart ?_
  refine Sim.fold_map (R := Sim.Cart (To Fixed.release)) (fun t => (t.1.releaseBy Fixed.release, t.2.releaseBy Fixed.release))
    (fun a b t h => ?_) ts (a := acc) (b := acc.releaseBy Fixed.release) ⟨rfl, rfl⟩
  exact (Sim.mulPolar (R := To Fixed.release) (z := t.1) (w := t.2) (z' := t.1.releaseBy Fixed.release) (w' := t.2.releaseBy Fixed.release)
      ⟨rfl, rfl⟩ ⟨rfl, rfl⟩).bind fun _ _ h' => Sim.add h h'

open Flt in
theorem Flt.add_near_norm (hf : f.Wide) (a b : Cartesian (Flt f)) (ha : (a.re.Valid ∧ a.re.IsFinite) ∧ a.im.Valid ∧ a.im.IsFinite)
    (hb : (b.re.Valid ∧ b.re.IsFinite) ∧ b.im.Valid ∧ b.im.IsFinite) (hM : (1 + 1 / 2 ^ f.p) * (‖a.fc‖ + ‖b.fc‖) < 2 ^ f.emax) :
    ∃ c, Returns (a.add b) c ∧ ((c.re.Valid ∧ c.re.IsFinite) ∧ c.im.Valid ∧ c.im.IsFinite) ∧
      ‖c.fc - (a.fc + b.fc)‖ ≤ 1 / 2 ^ f.p * ‖a.fc + b.fc‖ := by
  have is : ∀ x : Flt f, x.Valid ∧ x.IsFinite → Is x x.val := by rintro _ ⟨v, ⟨t, b, rfl⟩⟩; exact is_of_valid v
  have hu : uq f = 1 / 2 ^ f.p := by unfold uq; rw [zpow_neg, zpow_natCast, one_div]
  have n0 := norm_add_le a.fc b.fc
  have key : ∀ x y : Flt f, x.Valid ∧ x.IsFinite → y.Valid ∧ y.IsFinite → |(x.val : ℝ) + y.val| ≤ ‖a.fc + b.fc‖ →
      ∃ z : Flt f, x.add y = z ∧ (z.Valid ∧ z.IsFinite) ∧ |(z.val : ℝ) - (x.val + y.val)| ≤ 1 / 2 ^ f.p * |(x.val : ℝ) + y.val| := by
    intro x y hx hy hn
    have ix := is x hx; have iy := is y hy
    obtain ⟨k, hk⟩ := grid_add ix.rep iy.rep
    have he := rnd_grid (p := f.p) (emin := f.emin) k
    rw [← hk] at he
    have he : |rnd f.p f.emin (x.val + y.val) - (x.val + y.val)| ≤ uq f * |x.val + y.val| := he
    rw [hu] at he
    have h1 : |rnd f.p f.emin (x.val + y.val)| ≤ (1 + 1 / 2 ^ f.p) * |x.val + y.val| := by
      have := abs_sub_abs_le_abs_sub (rnd f.p f.emin (x.val + y.val)) (x.val + y.val)
      linarith
    have h2 : (((1 + 1 / 2 ^ f.p) * |x.val + y.val| : ℚ) : ℝ) < ((2 ^ f.emax : ℚ) : ℝ) := by
      push_cast
      refine lt_of_le_of_lt ?_ hM
      exact mul_le_mul_of_nonneg_left (hn.trans n0) (by positivity)
    have iz := ix.add hf.one_le iy (lt_of_le_of_lt h1 ((Rat.cast_lt (K := ℝ)).mp h2))
    refine ⟨_, rfl, ⟨iz.valid, iz.fin⟩, ?_⟩
    rw [iz.val]
    have := (Rat.cast_le (K := ℝ)).mpr he
    push_cast at this
    exact this
  obtain ⟨x, x1, x2, x3⟩ := key a.re b.re ha.1 hb.1 (Complex.abs_re_le_norm (a.fc + b.fc))
  obtain ⟨y, y1, y2, y3⟩ := key a.im b.im ha.2 hb.2 (Complex.abs_im_le_norm (a.fc + b.fc))
  refine ⟨⟨x, y⟩, .of_eq (by rw [← x1, ← y1]; rfl), ⟨x2, y2⟩, ?_⟩
  have e1 : (⟨x, y⟩ : Cartesian (Flt f)).fc - (a.fc + b.fc) = ⟨(x.val : ℝ) - (a.re.val + b.re.val), (y.val : ℝ) - (a.im.val + b.im.val)⟩ := rfl
  have e2 : a.fc + b.fc = ⟨(a.re.val : ℝ) + b.re.val, (a.im.val : ℝ) + b.im.val⟩ := rfl
  rw [e1, e2, norm_mk, norm_mk]
  refine Real.sqrt_le_iff.mpr ⟨by positivity, ?_⟩
  rw [mul_pow, Real.sq_sqrt (by positivity), mul_add, ← mul_pow, ← mul_pow]
  have k1 := pow_le_pow_left₀ (abs_nonneg _) x3 2
  have k2 := pow_le_pow_left₀ (abs_nonneg _) y3 2
  rw [sq_abs, mul_pow, sq_abs, ← mul_pow] at k1 k2
  linarith

/-- C173, floats: the sum is off by the errors of the products (`D` of the samples, and four of the smallest float for each term) and a
factor `(1 + 2^-p)^n` for the additions. -/
theorem C173_float [MixedSinCos (Flt f)] {ε R A B D : ℝ} (hf : f.Wide) (h60 : f.p ≤ 60) (hs : SinCosWithin f ε) (hε : 0 ≤ ε) (hε' : ε ≤ 1)
    (hR : 0 ≤ R) (acc : Cartesian (Flt f)) (ts : List (Cartesian (Flt f) × Polar (Flt f)))
    (hacc : (acc.re.Valid ∧ acc.re.IsFinite) ∧ acc.im.Valid ∧ acc.im.IsFinite)
    (hz : ∀ t ∈ ts, (t.1.re.Valid ∧ t.1.re.IsFinite) ∧ t.1.im.Valid ∧ t.1.im.IsFinite)
    (hv : ∀ t ∈ ts, (t.2.mag.Valid ∧ t.2.mag.IsFinite) ∧ t.2.ang.Valid ∧ t.2.ang.IsFinite)
    (hp : ∀ t ∈ ts, |(t.2.mag.val : ℝ)| ≤ R ∧ |(t.2.ang.val : ℝ)| ≤ A) (hA : A ≤ 2 ^ f.p / 10) (hm : 4 * R ≤ 2 ^ f.emax)
    (hB : B = R * (ε + ((A + 4) ^ 2 / 6 + 2) / 2 ^ f.p) + 2 ^ f.emin) (hD : D = 3 / 2 * B + 5 / 2 ^ f.p * (R + 3 / 2 * B))
    (hfit : ∀ t ∈ ts, 2 * ‖t.1.fc‖ * (R + 3 / 2 * B) ≤ 2 ^ f.emax)
    (hsum : (1 + 1 / 2 ^ f.p) ^ ts.length * (‖acc.fc‖ + (R + D) * (ts.map fun t => ‖t.1.fc‖).sum + ts.length * (4 * 2 ^ f.emin)) < 2 ^ f.emax) :
    ∃ c, Returns (spectrum acc ts) c ∧ (c.re.Valid ∧ c.re.IsFinite) ∧ (c.im.Valid ∧ c.im.IsFinite) ∧
      ‖c.fc - (acc.fc + (ts.map fun t => t.1.fc * phasor t.2.mag.val t.2.ang.val).sum)‖ ≤
        ((1 + 1 / 2 ^ f.p) ^ ts.length - 1) * (‖acc.fc‖ + R * (ts.map fun t => ‖t.1.fc‖).sum) +
          (1 + 1 / 2 ^ f.p) ^ ts.length * (D * (ts.map fun t => ‖t.1.fc‖).sum + ts.length * (4 * 2 ^ f.emin)) := by
  rcases ts.eq_nil_or_concat with rfl | hne
  · exact ⟨acc, .of_eq rfl, hacc.1, hacc.2, by simp⟩
  have hA0 : 0 ≤ A := by
    obtain ⟨l, b, rfl⟩ := hne
    exact (abs_nonneg _).trans (hp b (by simp)).2
  have hB0 : 0 ≤ B := by rw [hB]; positivity
  have hD0 : 0 ≤ D := by rw [hD]; positivity
  set v := fun t : Cartesian (Flt f) × Polar (Flt f) => t.1.fc * phasor t.2.mag.val t.2.ang.val with hvv
  set e := fun t : Cartesian (Flt f) × Polar (Flt f) => D * ‖t.1.fc‖ + 4 * 2 ^ f.emin with hee
  have e1 : (ts.map e).sum = D * (ts.map fun t => ‖t.1.fc‖).sum + ts.length * (4 * 2 ^ f.emin) := sum_parts ts (fun t => ‖t.1.fc‖) D _
  have e2 : ∀ l : List (Cartesian (Flt f) × Polar (Flt f)), (l.map fun t => ‖v t‖ + e t).sum = (l.map fun t => ‖v t‖).sum + (l.map e).sum := fun l => by
    induction l with
    | nil => simp
    | cons a l ih => simp only [List.map_cons, List.sum_cons, ih]; ring
  have le : (ts.map fun t => ‖v t‖).sum ≤ R * (ts.map fun t => ‖t.1.fc‖).sum := by
    rw [← List.sum_map_mul_left]
    exact List.sum_le_sum fun t ht => by
      rw [hvv]; simp only
      rw [norm_mul, norm_phasor, mul_comm]
      exact mul_le_mul_of_nonneg_right (hp t ht).1 (norm_nonneg _)
  have P1 : (1:ℝ) ≤ (1 + 1 / 2 ^ f.p) ^ ts.length := one_le_pow₀ (by linarith [show (0:ℝ) < 1 / 2 ^ f.p by positivity])
  obtain ⟨c, c1, c2, c3⟩ := spectrum_err (add := Cartesian.add) (term := fun t => Cartesian.mulPolar t.1 t.2)
    (val := Cartesian.fc) (v := v) (e := e)
    (Good := fun z : Cartesian (Flt f) => (z.re.Valid ∧ z.re.IsFinite) ∧ z.im.Valid ∧ z.im.IsFinite) (ρ := 1 / 2 ^ f.p) (M := 2 ^ f.emax)
    (by positivity) (fun t => by simp only [hee]; positivity) (fun a b ha hb hM => Flt.add_near_norm hf a b ha hb hM) ts (fun t ht => by
      obtain ⟨w, w1, w2, w3, w4⟩ := C171_float hf h60 hs hε hε' hR t.1 [t.2] (hz t ht)
        (fun p hp' => by rw [List.mem_singleton.mp hp']; exact hv t ht) (fun p hp' => by rw [List.mem_singleton.mp hp']; exact hp t ht) hA hm hB hD
        (hfit t ht) (fun k hk => by
          have : k = 0 := by simpa using hk
          subst this; simp [geo])
      refine ⟨w, by rw [← mulAssignPolar_eq]; exact w1, ⟨w2, w3⟩, ?_⟩
      simpa [geo, hvv, hee] using w4) acc hacc (by
      refine lt_of_le_of_lt (mul_le_mul_of_nonneg_left ?_ (by linarith)) hsum
      rw [e2, e1]; linarith)
  refine ⟨c, c1, c2.1, c2.2, c3.trans ?_⟩
  rw [e2, e1]
  have := mul_le_mul_of_nonneg_left le (sub_nonneg.mpr P1)
  linarith

/-! ## Concrete cases -/

/-- Eight samples of a tone of two turns: bin 2 holds 8, bin 3 holds 0. -/
example (x : ℕ → Cartesian ℝ) (hx : ∀ k, (x k).toC = phasor 1 (2 * Real.pi * 2 * k / (8 : ℕ))) :
    (∃ c, Returns (spectrum ⟨0, 0⟩ (bin 8 2 x)) c ∧ c.toC = 8) ∧ ∃ c, Returns (spectrum ⟨0, 0⟩ (bin 8 3 x)) c ∧ c.toC = 0 := by
  constructor
  · obtain ⟨c, c1, c2⟩ := C173_tone 8 (by norm_num) 2 2 x (by exact_mod_cast hx)
    exact ⟨c, c1, by simpa using c2⟩
  · obtain ⟨c, c1, c2⟩ := C173_tone 8 (by norm_num) 2 3 x (by exact_mod_cast hx)
    exact ⟨c, c1, by rw [c2, if_neg (by decide)]⟩

/-- A sum on 64 bits with 32 fractional bits: a thousand samples of size one, turned by a radian each, are right to a millionth. -/
example (sc : Fixed .checked true 64 32 → Prog (Fixed .checked true 64 32 × Fixed .checked true 64 32)) (hs : FixedSinCosWithin sc (1 / 2 ^ 32)) :
    let z : Cartesian (Fixed .checked true 64 32) := ⟨fx .checked true 64 32 (2 ^ 32), fx .checked true 64 32 0⟩
    let p : Polar (Fixed .checked true 64 32) := ⟨fx .checked true 64 32 (2 ^ 32), fx .checked true 64 32 (2 ^ 32)⟩
    let o : Cartesian (Fixed .checked true 64 32) := ⟨fx .checked true 64 32 0, fx .checked true 64 32 0⟩
    ∃ c, Returns (@spectrum _ _ _ _ _ _ ⟨sc⟩ o (List.replicate 1000 (z, p))) c ∧ ‖c.c - 1000 * phasor 1 1‖ ≤ 2 / 10 ^ 6 := by
  intro z p o
  have e1 : (fx .checked true 64 32 (2 ^ 32)).r = 1 := by
    rw [Fixed.r, show (fx .checked true 64 32 (2 ^ 32)).val = 2 ^ 32 by decide]; norm_num
  have e0 : (fx .checked true 64 32 0).r = 0 := by
    rw [Fixed.r, show (fx .checked true 64 32 0).val = 0 by decide]; norm_num
  have ez : z.c = 1 := Complex.ext e1 e0
  have eo : o.c = 0 := Complex.ext e0 e0
  set B : ℝ := 1 * (1 / 2 ^ 32 + (1 / 5 + 1 / 2) * (1 / 2 ^ 32 + 1 / 2 ^ 51)) + 1 / 2 ^ 32 with hB
  have b1 : 2 * B ≤ 13 / 10 ^ 10 := by rw [hB]; norm_num
  have em : p.mag.r = 1 := e1
  obtain ⟨c, c1, c2⟩ := C173_fixed (K := 31) (A := 1) (R := 1) (by norm_num) (by norm_num) (by positivity) zero_le_one sc hs o
    (List.replicate 1000 (z, p)) (fun q hq => by
      rw [List.eq_of_mem_replicate hq, em, abs_one]; exact ⟨le_refl _, le_refl _⟩)
    hB (by norm_num) (fun q hq => by
      rw [List.eq_of_mem_replicate hq]; dsimp only; rw [ez, norm_one]; clear_value B; norm_num at b1 ⊢; linarith) (by
      rw [eo, norm_zero, List.map_replicate, List.sum_replicate, List.length_replicate]; dsimp only; rw [ez, norm_one]
      clear_value B; norm_num at b1 ⊢; linarith)
  refine ⟨c, c1, ?_⟩
  rw [eo, zero_add, List.map_replicate, List.sum_replicate, List.map_replicate, List.sum_replicate, List.length_replicate] at c2
  dsimp only at c2
  rw [ez, norm_one, em, one_mul] at c2
  simp only [nsmul_eq_mul] at c2
  push_cast at c2
  refine c2.trans ?_
  clear_value B
  norm_num at b1 ⊢; linarith

/-- On `f32`: magnitude one, angles up to four, `sincos` good to `2^-20`, a hundred samples of size one. -/
example : let B : ℝ := 1 * (1 / 2 ^ 20 + ((4 + 4) ^ 2 / 6 + 2) / 2 ^ F32.p) + 2 ^ F32.emin
    let D : ℝ := 3 / 2 * B + 5 / 2 ^ F32.p * (1 + 3 / 2 * B)
    2 * 1 * (1 + 3 / 2 * B) ≤ 2 ^ F32.emax ∧
    (1 + 1 / 2 ^ F32.p : ℝ) ^ 100 * (0 + (1 + D) * 100 + 100 * (4 * 2 ^ F32.emin)) < 2 ^ F32.emax := by
  intro B D
  have he' : (2:ℝ) ^ F32.emin ≤ 1 := zpow_le_one_of_nonpos₀ (by norm_num) (by decide)
  have he0 : (0:ℝ) < 2 ^ F32.emin := by positivity
  have hB : B ≤ 3 := by simp only [B]; norm_num [F32] at he' ⊢
  have hB0 : 0 ≤ B := by simp only [B]; positivity
  have hu : (5:ℝ) / 2 ^ F32.p ≤ 1 := by norm_num [F32]
  have hu0 : (0:ℝ) ≤ 5 / 2 ^ F32.p := by positivity
  have hD : D ≤ 10 := by
    have := mul_le_mul hu (by linarith : 1 + 3 / 2 * B ≤ 5.5) (by linarith) zero_le_one
    simp only [D]; linarith
  have hD0 : 0 ≤ D := by simp only [D]; positivity
  have hP : (1 + 1 / 2 ^ F32.p : ℝ) ^ 100 ≤ 2 := by norm_num [F32]
  have h2 : (2:ℝ) ^ 20 ≤ 2 ^ F32.emax := pow_le_pow_right₀ (by norm_num) (by decide)
  clear_value B D
  generalize (2:ℝ) ^ F32.emax = M at *
  generalize (2:ℝ) ^ F32.emin = η at *
  generalize (1 + 1 / 2 ^ F32.p : ℝ) ^ 100 = P at *
  norm_num at h2
  refine ⟨by linarith, ?_⟩
  have : P * (0 + (1 + D) * 100 + 100 * (4 * η)) ≤ 2 * 1600 := mul_le_mul hP (by linarith) (by positivity) (by norm_num)
  linarith

end MixedNum
