import Verif.Lemmas.SinFloat
import Verif.Lemmas.SumExact
/-! Float arithmetic with errors relative to the argument: what is computed is `A w` up to `c η w`. -/

namespace MixedNum
namespace Flt
variable {f : Format}

/-- `x` is a finite float within `c η w` of `A w`. -/
def NearW (w : ℝ) (x : Flt f) (A c : ℝ) : Prop := ∃ q, Is x q ∧ |(q:ℝ) - A * w| ≤ c * eta f * w

/-- Not so small that squares vanish. -/
structure Size (f : Format) (w : ℝ) : Prop where
  pos : 0 < w
  lo : (2:ℝ) ^ (f.emin + f.p + 1) ≤ w
  hi : w ≤ 2

theorem Size.tiny {w : ℝ} (h : Size f w) : (2:ℝ) ^ f.emin / 2 ≤ 1 / 4 * eta f * w := by
  have e : (2:ℝ) ^ f.emin = eta f * 2 ^ (f.emin + f.p) := by
    unfold eta; rw [← zpow_add₀ (by norm_num)]; congr 1; ring
  have := h.lo
  rw [zpow_add₀ (by norm_num), zpow_one] at this
  rw [e]
  have := mul_le_mul_of_nonneg_left this (eta_pos (f := f)).le
  linarith

theorem NearW.c_nonneg {w : ℝ} (hw : 0 < w) {x : Flt f} {A c : ℝ} (h : NearW w x A c) : 0 ≤ c := by
  obtain ⟨q, -, h⟩ := h
  by_contra hc
  have := mul_neg_of_neg_of_pos (mul_neg_of_neg_of_pos (not_le.mp hc) (eta_pos (f := f))) hw
  linarith [abs_nonneg ((q:ℝ) - A * w)]

theorem NearW.mono {w : ℝ} (hw : 0 < w) {x : Flt f} {A c d : ℝ} (h : NearW w x A c) (hcd : c ≤ d) : NearW w x A d := by
  obtain ⟨q, h1, h2⟩ := h
  exact ⟨q, h1, h2.trans (mul_le_mul_of_nonneg_right (mul_le_mul_of_nonneg_right hcd eta_pos.le) hw.le)⟩

/-- Common to both kinds of rounding. -/
theorem scaled_bound (hf : f.Wide) {w : ℝ} (hw : Size f w) {q : ℚ} {A c M : ℝ} (h0 : 0 ≤ c) (h : |(q:ℝ) - A * w| ≤ c * eta f * w)
    (hM : |A| + c / 10 ^ 7 ≤ M) (hM' : M ≤ 1000) : |(q:ℝ)| ≤ M * w ∧ |rnd f.p f.emin q| < 2 ^ f.emax := by
  have hce : c * eta f ≤ c / 10 ^ 7 := by
    rw [div_eq_mul_one_div]; exact mul_le_mul_of_nonneg_left ((eta_le hf).trans (by norm_num)) h0
  have h1 : |(q:ℝ)| ≤ M * w := by
    have := abs_sub_abs_le_abs_sub (q:ℝ) (A * w)
    rw [abs_mul, abs_of_pos hw.pos] at this
    have := mul_le_mul_of_nonneg_right hM hw.pos.le
    have := mul_le_mul_of_nonneg_right hce hw.pos.le
    linarith
  refine ⟨h1, ?_⟩
  have := hf.p; have := hf.emin; have := hf.emax
  refine abs_rnd_lt hf.one_le (e := 11) ?_ (by omega) (by omega)
  rw [← Rat.cast_le (K := ℝ)]; push_cast
  have hM0 : 0 ≤ M := by
    have := abs_nonneg A
    have : 0 ≤ c / 10 ^ 7 := by positivity
    linarith
  have := mul_le_mul hM' hw.hi hw.pos.le (by norm_num)
  norm_num at this ⊢; linarith

theorem round_nearW (hf : f.Wide) {w : ℝ} (hw : Size f w) {q : ℚ} {A c M : ℝ} (h0 : 0 ≤ c) (h : |(q:ℝ) - A * w| ≤ c * eta f * w)
    (hM : |A| + c / 10 ^ 7 ≤ M) (hM' : M ≤ 1000) :
    |rnd f.p f.emin q| < 2 ^ f.emax ∧ |((rnd f.p f.emin q : ℚ) : ℝ) - A * w| ≤ (c + (M + 1 / 4)) * eta f * w := by
  obtain ⟨h1, h2⟩ := scaled_bound hf hw h0 h hM hM'
  refine ⟨h2, ?_⟩
  have h3 := cast_abs_le (abs_rnd_le (p := f.p) (emin := f.emin) q)
  push_cast at h3
  have e1 : (2:ℝ) ^ (-(f.p:ℤ)) = eta f := rfl
  rw [e1] at h3
  have h4 := abs_sub_le (((rnd f.p f.emin q : ℚ) : ℝ)) q (A * w)
  have h5 := mul_le_mul_of_nonneg_right h1 (eta_pos (f := f)).le
  have h6 := hw.tiny
  linarith

theorem NearW.add (hf : f.Wide) {w : ℝ} (hw : Size f w) {x y : Flt f} {A B a b U M : ℝ} (hx : NearW w x A a) (hy : NearW w y B b)
    (hU : |A + B| ≤ U) (hM : U + (a + b) / 10 ^ 7 ≤ M) (hM' : M ≤ 1000) : NearW w (x.add y) (A + B) (a + b + M) := by
  have ha := hx.c_nonneg hw.pos; have hb := hy.c_nonneg hw.pos
  obtain ⟨q, hq, e1⟩ := hx
  obtain ⟨r, hr, e2⟩ := hy
  have h : |((q + r : ℚ) : ℝ) - (A + B) * w| ≤ (a + b) * eta f * w := by
    push_cast
    rw [show (q:ℝ) + r - (A + B) * w = (q - A * w) + (r - B * w) by ring]
    have := abs_add_le ((q:ℝ) - A * w) (r - B * w)
    linarith
  obtain ⟨h1, h2⟩ := scaled_bound hf hw (add_nonneg ha hb) h (by linarith) hM'
  have k := hq.add hf.one_le hr h2
  refine ⟨_, k, ?_⟩
  obtain ⟨d, hd, -, hd'⟩ := hq.add_err hf hr k.fin
  have e : d = rnd f.p f.emin (q + r) := by rw [← hd.val, k.val]
  rw [e] at hd'
  have h3 := cast_abs_le hd'
  push_cast at h3 h1
  have e1 : (2:ℝ) ^ (-(f.p:ℤ)) = eta f := rfl
  rw [e1] at h3
  have h4 := abs_sub_le (((rnd f.p f.emin (q + r) : ℚ) : ℝ)) ((q + r : ℚ):ℝ) ((A + B) * w)
  have h5 := mul_le_mul_of_nonneg_left h1 (eta_pos (f := f)).le
  push_cast at h4 h
  linarith

theorem NearW.neg {w : ℝ} {x : Flt f} {A c : ℝ} (h : NearW w x A c) : NearW w x.neg (-A) c := by
  obtain ⟨q, h1, h2⟩ := h
  refine ⟨-q, h1.neg, ?_⟩
  push_cast; rw [show -(q:ℝ) - -A * w = -(q - A * w) by ring, abs_neg]; exact h2

theorem NearW.sub (hf : f.Wide) {w : ℝ} (hw : Size f w) {x y : Flt f} {A B a b U M : ℝ} (hx : NearW w x A a) (hy : NearW w y B b)
    (hU : |A - B| ≤ U) (hM : U + (a + b) / 10 ^ 7 ≤ M) (hM' : M ≤ 1000) : NearW w (x.sub y) (A - B) (a + b + M) := by
  rw [sub_eq_add_neg] at hU ⊢
  exact hx.add hf hw hy.neg hU hM hM'

theorem NearW.mul (hf : f.Wide) {w : ℝ} (hw : Size f w) {x y : Flt f} {A B a b U V c M : ℝ} (hx : NearW w x A a) (hy : Near y B b)
    (hU : |A| ≤ U) (hV : |B| ≤ V) (hc : U * b + V * a + a * b / 10 ^ 7 ≤ c) (hM : U * V + c / 10 ^ 7 ≤ M) (hM' : M ≤ 1000) :
    NearW w (x.mul y) (A * B) (c + (M + 1 / 4)) := by
  have ha := hx.c_nonneg hw.pos
  obtain ⟨q, hq, e1⟩ := hx
  obtain ⟨r, hr, e2, f2⟩ := hy.bound hf
  have he := eta_pos (f := f)
  have hb : 0 ≤ b := by
    by_contra hb
    have := mul_neg_of_neg_of_pos (not_le.mp hb) he
    linarith [abs_nonneg ((r:ℝ) - B)]
  have hU0 := (abs_nonneg _).trans hU
  have hV0 := (abs_nonneg _).trans hV
  have h0 : 0 ≤ c := le_trans (by positivity) hc
  have h : |((q * r : ℚ) : ℝ) - A * B * w| ≤ c * eta f * w := by
    push_cast
    rw [show (q:ℝ) * r - A * B * w = A * w * (r - B) + B * (q - A * w) + (q - A * w) * (r - B) by ring]
    have t1 : |A * w * ((r:ℝ) - B)| ≤ U * w * (b * eta f) := by
      rw [abs_mul, abs_mul, abs_of_pos hw.pos]
      exact mul_le_mul (mul_le_mul_of_nonneg_right hU hw.pos.le) e2 (abs_nonneg _) (mul_nonneg hU0 hw.pos.le)
    have t2 : |B * ((q:ℝ) - A * w)| ≤ V * (a * eta f * w) := by
      rw [abs_mul]; exact mul_le_mul hV e1 (abs_nonneg _) hV0
    have t3 : |((q:ℝ) - A * w) * (r - B)| ≤ a * eta f * w * (b / 10 ^ 7) := by
      rw [abs_mul]; exact mul_le_mul e1 f2 (abs_nonneg _) ((abs_nonneg _).trans e1)
    have t4 := mul_le_mul_of_nonneg_right (mul_le_mul_of_nonneg_right hc he.le) hw.pos.le
    have t5 := abs_add_le (A * w * ((r:ℝ) - B) + B * (q - A * w)) ((q - A * w) * (r - B))
    have t6 := abs_add_le (A * w * ((r:ℝ) - B)) (B * (q - A * w))
    rw [show (U * b + V * a + a * b / 10 ^ 7) * eta f * w = U * w * (b * eta f) + V * (a * eta f * w) + a * eta f * w * (b / 10 ^ 7) by ring] at t4
    linarith
  obtain ⟨h1, h2⟩ := round_nearW hf hw h0 h (by
    rw [abs_mul]
    have := mul_le_mul hU hV (abs_nonneg _) hU0
    linarith) hM'
  exact ⟨_, hq.mul hf.one_le hr h1, h2⟩

theorem NearW.div_exact (hf : f.Wide) {w : ℝ} (hw : Size f w) {x y : Flt f} {A a U M : ℝ} {n : ℚ} (hx : NearW w x A a) (hy : Is y n)
    (hn : 0 < n) (hU : |A| ≤ U) (hM : U / n + a / n / 10 ^ 7 ≤ M) (hM' : M ≤ 1000) :
    NearW w (x.div y) (A / n) (a / n + (M + 1 / 4)) := by
  have ha := hx.c_nonneg hw.pos
  obtain ⟨q, hq, e1⟩ := hx
  have hn' : (0:ℝ) < n := by exact_mod_cast hn
  obtain ⟨h1, h2⟩ := round_nearW hf hw (q := q / n) (A := A / n) (c := a / n) (by positivity) (by
    push_cast
    rw [div_mul_eq_mul_div, ← sub_div, abs_div, abs_of_pos hn', div_mul_eq_mul_div, div_mul_eq_mul_div]
    exact div_le_div_of_nonneg_right e1 hn'.le) (by
    rw [abs_div, abs_of_pos hn']
    have := div_le_div_of_nonneg_right hU hn'.le
    linarith) hM'
  exact ⟨_, hq.div hf.one_le hy hn.ne' h1, h2⟩

/-- The polynomial of the sine, with error relative to the argument. -/
theorem poly_rel (hf : f.Wide) {y : Flt f} {t : ℚ} (hy : Is y t) (ht : |(t:ℝ)| ≤ 1.5709) (hw : Size f |(t:ℝ)|) :
    ∃ z, (do
      let s ← NumOps.sub y (← NumOps.div (← MixedPowi.powi y 3) (← Lit.ofI32 6))
      let s ← NumOps.add s (← NumOps.div (← MixedPowi.powi y 5) (← Lit.ofI32 120))
      let s ← NumOps.sub s (← NumOps.div (← MixedPowi.powi y 7) (← Lit.ofI32 5040))
      NumOps.add s (← NumOps.div (← MixedPowi.powi y 9) (← Lit.ofI32 362880)) : Prog (Flt f)) = pure z ∧
      ∃ q, Is z q ∧ |(q:ℝ) - sinT 5 t| ≤ 66 / 10 * eta f * |(t:ℝ)| := by
  have l6 := lit_int (f := f) hf (n := 6) (by norm_num)
  have l120 := lit_int (f := f) hf (n := 120) (by norm_num)
  have l5040 := lit_int (f := f) hf (n := 5040) (by norm_num)
  have l9 := lit_int (f := f) hf (n := 362880) (by norm_num)
  obtain ⟨σ, hσ, hσt⟩ : ∃ σ : ℝ, |σ| = 1 ∧ σ * |(t:ℝ)| = t := by
    rcases le_total 0 (t:ℝ) with h | h
    · exact ⟨1, by simp, by rw [abs_of_nonneg h, one_mul]⟩
    · exact ⟨-1, by simp, by rw [abs_of_nonpos h]; ring⟩
  have hσ' : |σ| ≤ 1 := hσ.le
  have m1 := hy.near
  have n1 : NearW |(t:ℝ)| y σ 0 := ⟨t, hy, by rw [hσt]; simp⟩
  set r : ℝ := (t:ℝ) * t with hr
  have r0 : 0 ≤ r := mul_self_nonneg _
  have b2 : |r| ≤ 2.468 := abs_mul_le' ht ht (by norm_num)
  have r2 : r ≤ 2.468 := (le_abs_self _).trans b2
  have b4 : |r * r| ≤ 6.0911 := abs_mul_le' b2 b2 (by norm_num)
  have b8 : |r * r * (r * r)| ≤ 37.102 := abs_mul_le' b4 b4 (by norm_num)
  have s2 : |σ * r| ≤ 2.468 := abs_mul_le' hσ' b2 (by norm_num)
  have s4 : |σ * (r * r)| ≤ 6.0911 := abs_mul_le' hσ' b4 (by norm_num)
  have s6 : |σ * r * (r * r)| ≤ 15.04 := abs_mul_le' s2 b4 (by norm_num)
  have s8 : |σ * (r * r * (r * r))| ≤ 37.102 := abs_mul_le' hσ' b8 (by norm_num)
  -- the powers
  have n2 := m1.mul hf m1 ht ht (c := 0) (M := 2.47) (by norm_num) (by norm_num) (by norm_num)
  rw [← hr] at n2
  have n3 := n1.mul hf hw n2 hσ' b2 (c := 2.471) (M := 2.47) (by norm_num) (by norm_num) (by norm_num)
  have n4 := n2.mul hf n2 b2 b2 (c := 12.2) (M := 6.1) (by norm_num) (by norm_num) (by norm_num)
  have n5 := n1.mul hf hw n4 hσ' b4 (c := 18.4) (M := 6.1) (by norm_num) (by norm_num) (by norm_num)
  have n7 := n3.mul hf hw n4 s2 b4 (c := 77) (M := 15.1) (by norm_num) (by norm_num) (by norm_num)
  have n8 := n4.mul hf n4 b4 b4 (c := 223.1) (M := 37.2) (by norm_num) (by norm_num) (by norm_num)
  have n9 := n1.mul hf hw n8 hσ' b8 (c := 260.4) (M := 37.2) (by norm_num) (by norm_num) (by norm_num)
  -- the quotients
  have q3 := n3.div_exact hf hw l6 (by norm_num) s2 (M := 0.412) (by norm_num) (by norm_num)
  have q5 := n5.div_exact hf hw l120 (by norm_num) s4 (M := 0.051) (by norm_num) (by norm_num)
  have q7 := n7.div_exact hf hw l5040 (by norm_num) s6 (M := 0.003) (by norm_num) (by norm_num)
  have q9 := n9.div_exact hf hw l9 (by norm_num) s8 (M := 0.001) (by norm_num) (by norm_num)
  -- the partial sums
  have c3 : |σ - σ * r / ((6:ℤ):ℚ)| ≤ 1 := by
    rw [show σ - σ * r / ((6:ℤ):ℚ) = σ * (1 - r / 6) by push_cast; ring]
    refine abs_mul_le' hσ' (V := 1) ?_ (by norm_num)
    rw [abs_le]; constructor <;> norm_num at * <;> linarith
  have c5 : |σ - σ * r / ((6:ℤ):ℚ) + σ * (r * r) / ((120:ℤ):ℚ)| ≤ 1 := by
    rw [show σ - σ * r / ((6:ℤ):ℚ) + σ * (r * r) / ((120:ℤ):ℚ) = σ * (1 - r / 6 + r * r / 120) by push_cast; ring]
    refine abs_mul_le' hσ' (V := 1) ?_ (by norm_num)
    have := mul_le_mul_of_nonneg_right r2 r0
    have := mul_nonneg r0 r0
    rw [abs_le]; constructor <;> norm_num at * <;> linarith
  have c7 : |σ - σ * r / ((6:ℤ):ℚ) + σ * (r * r) / ((120:ℤ):ℚ) - σ * r * (r * r) / ((5040:ℤ):ℚ)| ≤ 1 := by
    rw [show σ - σ * r / ((6:ℤ):ℚ) + σ * (r * r) / ((120:ℤ):ℚ) - σ * r * (r * r) / ((5040:ℤ):ℚ) =
      σ * (1 - r / 6 + r * r / 120 - r * (r * r) / 5040) by push_cast; ring]
    refine abs_mul_le' hσ' (V := 1) ?_ (by norm_num)
    have h1 := mul_le_mul_of_nonneg_right r2 r0
    have h2 := mul_nonneg r0 r0
    have h3 := mul_nonneg r0 h2
    have h4 := mul_le_mul_of_nonneg_right r2 h2
    rw [abs_le]; constructor <;> norm_num at * <;> linarith
  have c9 : |σ - σ * r / ((6:ℤ):ℚ) + σ * (r * r) / ((120:ℤ):ℚ) - σ * r * (r * r) / ((5040:ℤ):ℚ) +
      σ * (r * r * (r * r)) / ((362880:ℤ):ℚ)| ≤ 1 := by
    rw [show σ - σ * r / ((6:ℤ):ℚ) + σ * (r * r) / ((120:ℤ):ℚ) - σ * r * (r * r) / ((5040:ℤ):ℚ) +
      σ * (r * r * (r * r)) / ((362880:ℤ):ℚ) = σ * (1 - r / 6 + r * r / 120 - r * (r * r) / 5040 + r * r * (r * r) / 362880) by
        push_cast; ring]
    refine abs_mul_le' hσ' (V := 1) ?_ (by norm_num)
    have h1 := mul_le_mul_of_nonneg_right r2 r0
    have h2 := mul_nonneg r0 r0
    have h3 := mul_nonneg r0 h2
    have h4 := mul_le_mul_of_nonneg_right r2 h2
    have h5 := mul_nonneg h2 h2
    have h6 := mul_le_mul_of_nonneg_right r2 h3
    rw [abs_le]; constructor <;> norm_num at * <;> linarith
  have s3 := n1.sub hf hw q3 c3 (M := 1.0001) (by norm_num) (by norm_num)
  have s5 := s3.add hf hw q5 c5 (M := 1.0001) (by norm_num) (by norm_num)
  have s7 := s5.sub hf hw q7 c7 (M := 1.0001) (by norm_num) (by norm_num)
  have s9 := s7.add hf hw q9 c9 (M := 1.0001) (by norm_num) (by norm_num)
  obtain ⟨q, hq, e⟩ := s9.mono hw.pos (d := 66 / 10) (by norm_num)
  refine ⟨_, rfl, q, hq, ?_⟩
  have k : sinT 5 (t:ℝ) = (σ - σ * r / ((6:ℤ):ℚ) + σ * (r * r) / ((120:ℤ):ℚ) - σ * r * (r * r) / ((5040:ℤ):ℚ) +
      σ * (r * r * (r * r)) / ((362880:ℤ):ℚ)) * |(t:ℝ)| := by
    rw [sinT_five, show ∀ c : ℝ, (σ - σ * r / ((6:ℤ):ℚ) + σ * (r * r) / ((120:ℤ):ℚ) - σ * r * (r * r) / ((5040:ℤ):ℚ) +
      σ * (r * r * (r * r)) / ((362880:ℤ):ℚ)) * c = σ * c * (1 - r / 6 + r * r / 120 - r * (r * r) / 5040 + r * r * (r * r) / 362880)
        from fun c => by push_cast; ring, hσt, hr]
    ring
  rw [k]; exact e

/-- What rounds to zero. -/
theorem rnd_tiny {p : ℕ} (hp : 1 ≤ p) {emin : ℤ} {q : ℚ} (h : |q| * (1 + 2 ^ (-(p:ℤ))) < 2 ^ emin / 2) : rnd p emin q = 0 := by
  obtain ⟨k, hk⟩ := (rep_rnd (emin := emin) hp q).units_emin
  have h1 := abs_rnd_le (p := p) (emin := emin) q
  have h2 := abs_sub_abs_le_abs_sub (rnd p emin q) q
  have h3 : |rnd p emin q| < 2 ^ emin := by linarith
  rw [hk, abs_mul, abs_of_pos (two_zpow_pos emin)] at h3
  have h4 : |(k:ℚ)| < 1 := by
    by_contra h4
    have := mul_le_mul_of_nonneg_right (not_lt.mp h4) (two_zpow_pos emin).le
    linarith
  have h5 : |k| < 1 := by exact_mod_cast h4
  rw [hk, Int.abs_lt_one_iff.mp h5]; simp

/-- A float so small that its square is rounded to zero: the polynomial returns it unchanged. -/
theorem poly_tiny (hf : f.Wide) {y : Flt f} {t : ℚ} (hy : Is y t) (ht : |t| < 2 ^ (f.emin + f.p + 1)) :
    ∃ z, (do
      let s ← NumOps.sub y (← NumOps.div (← MixedPowi.powi y 3) (← Lit.ofI32 6))
      let s ← NumOps.add s (← NumOps.div (← MixedPowi.powi y 5) (← Lit.ofI32 120))
      let s ← NumOps.sub s (← NumOps.div (← MixedPowi.powi y 7) (← Lit.ofI32 5040))
      NumOps.add s (← NumOps.div (← MixedPowi.powi y 9) (← Lit.ofI32 362880)) : Prog (Flt f)) = pure z ∧ Is z t := by
  have hp := hf.one_le
  have pe : (0:ℚ) < 2 ^ f.emax := by positivity
  have sq : Is (y.mul y) 0 := by
    have e : rnd f.p f.emin (t * t) = 0 := by
      refine rnd_tiny hp ?_
      have h1 := mul_self_lt_mul_self (abs_nonneg t) ht
      rw [← two_zpow_add, ← abs_mul] at h1
      have h2 : (2:ℚ) ^ (f.emin + f.p + 1 + (f.emin + f.p + 1)) ≤ 2 ^ (f.emin - 2) := two_zpow_le (by have := hf.emin; omega)
      have h3 : (2:ℚ) ^ (-(f.p:ℤ)) ≤ 1 := by
        rw [show (1:ℚ) = 2 ^ (0:ℤ) by simp]; exact two_zpow_le (by omega)
      have h4 : (2:ℚ) ^ (f.emin - 2) * 2 = 2 ^ f.emin / 2 := by
        rw [sub_eq_add_neg, two_zpow_add]; norm_num; ring
      have h5 := abs_nonneg (t * t)
      have h6 := two_zpow_pos (-(f.p:ℤ))
      nlinarith
    have := hy.mul hp hy (by rw [e]; simp)
    rwa [e] at this
  have zz : ∀ {x z : Flt f} {v : ℚ}, Is x v → Is z 0 → Is (x.mul z) 0 := fun hx hz => by
    have := hx.mul hp hz (by rw [mul_zero, rnd_rep Rep.zero]; simp)
    rwa [mul_zero, rnd_rep Rep.zero] at this
  have zd : ∀ {z : Flt f} (n : ℤ), |n| ≤ 2 ^ 24 → n ≠ 0 → Is z 0 → Is (z.div (ofExact false n)) 0 := fun n h h0 hz => by
    have := hz.div hp (lit_int hf h) (by exact_mod_cast h0) (by rw [zero_div, rnd_rep Rep.zero]; simp)
    rwa [zero_div, rnd_rep Rep.zero] at this
  have za : ∀ {x z : Flt f}, Is x t → Is z 0 → Is (x.add z) t ∧ Is (x.sub z) t := fun hx hz => by
    have h1 := hx.add hp hz (by rw [add_zero, rnd_rep hx.rep]; exact hx.lt_max)
    have h2 := hx.sub hp hz (by rw [sub_zero, rnd_rep hx.rep]; exact hx.lt_max)
    rw [add_zero, rnd_rep hx.rep] at h1
    rw [sub_zero, rnd_rep hx.rep] at h2
    exact ⟨h1, h2⟩
  have p3 := zz hy sq
  have p4 := zz sq sq
  have p5 := zz hy p4
  have p7 := zz p3 p4
  have p9 := zz hy (zz p4 p4)
  have r1 := (za hy (zd 6 (by norm_num) (by norm_num) p3)).2
  have r2 := (za r1 (zd 120 (by norm_num) (by norm_num) p5)).1
  have r3 := (za r2 (zd 5040 (by norm_num) (by norm_num) p7)).2
  exact ⟨_, rfl, (za r3 (zd 362880 (by norm_num) (by norm_num) p9)).1⟩

/-- The sine without folding. -/
theorem sin_rel (hf : f.Wide) (h60 : f.p ≤ 60) {x : Flt f} {v : ℚ} (hx : Is x v) (hv : |(v:ℝ)| ≤ 1.57) :
    ∃ z q, sin x = pure z ∧ Is z q ∧ |(q:ℝ) - Real.sin v| ≤ |(v:ℝ)| ^ 11 / 39916800 + 66 / 10 * eta f * |(v:ℝ)| := by
  have fold : sinFold x = pure x := by
    have his := half_is hf
    have hpi := abs_le.mp (pi_near hf h60)
    have hel := eta_le hf
    have p1 := Real.pi_gt_d6
    have hv' := abs_le.mp hv
    set h := (piF f).div (ofExact false ((2:ℤ):ℚ))
    have unf : sinFold x = (if x.lt h.neg then pure (h.neg.sub (x.add h)) else
        if h.lt x then pure (h.sub (x.sub h)) else pure x) := rfl
    have key : ∀ {a b : ℚ}, a < b ↔ (a:ℝ) < b := fun {a b} => Rat.cast_lt.symm
    have c1 : ¬ v < -(piV f / 2) := by rw [key]; push_cast; norm_num at *; linarith
    have c2 : ¬ piV f / 2 < v := by rw [key]; push_cast; norm_num at *; linarith
    rw [unf, hx.lt his.neg, his.lt hx, decide_eq_false c1, decide_eq_false c2]; rfl
  have ht := abs_sinT_five_sub (v:ℝ)
  have he := eta_pos (f := f)
  rcases lt_or_ge (|v|) (2 ^ (f.emin + f.p + 1)) with h | h
  · obtain ⟨z, hz, hi⟩ := poly_tiny hf hx h
    refine ⟨z, v, by unfold sin; rw [fold, pure_bind]; exact hz, hi, ?_⟩
    have h0 : |(v:ℝ)| ≤ eta f := by
      have h1 : (2:ℝ) ^ (f.emin + f.p + 1) ≤ eta f := zpow_le_zpow_right₀ (by norm_num) (by have := hf.emin; omega)
      have h2 := (Rat.cast_lt (K := ℝ)).mpr h
      push_cast at h2; linarith
    have hl : |(v:ℝ)| ≤ 1 := by have := eta_le hf; norm_num at *; linarith
    have h1 : |(v:ℝ) - Real.sin v| ≤ |(v:ℝ)| ^ 3 := by
      have h1 := Real.sin_bound hl
      have h2 := abs_sub_le (v:ℝ) (v - v ^ 3 / 6) (Real.sin v)
      rw [sub_sub_cancel, abs_div, abs_pow, abs_sub_comm ((v:ℝ) - (v:ℝ) ^ 3 / 6) (Real.sin v)] at h2
      have h3 : |(v:ℝ)| ^ 5 ≤ |(v:ℝ)| ^ 3 := pow_le_pow_of_le_one (abs_nonneg _) hl (by norm_num)
      have h4 : 0 ≤ |(v:ℝ)| ^ 3 := by positivity
      rw [abs_of_pos (by norm_num : (0:ℝ) < 6)] at h2
      linarith
    have h2 := abs_nonneg (v:ℝ)
    have h3 : |(v:ℝ)| ^ 3 ≤ eta f * |(v:ℝ)| := by
      have := eta_le hf
      rw [show |(v:ℝ)| ^ 3 = |(v:ℝ)| * |(v:ℝ)| * |(v:ℝ)| by ring]
      refine mul_le_mul_of_nonneg_right ?_ h2
      calc |(v:ℝ)| * |(v:ℝ)| ≤ eta f * 1 := mul_le_mul h0 hl h2 he.le
        _ = _ := mul_one _
    have h4 : 0 ≤ |(v:ℝ)| ^ 11 / 39916800 := by positivity
    have h5 := mul_nonneg he.le h2
    linarith
  · have hpos : (0:ℝ) < |(v:ℝ)| := by
      have := (two_zpow_pos _).trans_le h
      exact_mod_cast this
    have hw : Size f |(v:ℝ)| := ⟨hpos, by have := (Rat.cast_le (K := ℝ)).mpr h; push_cast at this; exact this, by norm_num at *; linarith⟩
    obtain ⟨z, hz, q, hi, hq⟩ := poly_rel hf hx (by norm_num at *; linarith) hw
    refine ⟨z, q, by unfold sin; rw [fold, pure_bind]; exact hz, hi, ?_⟩
    have := abs_sub_le (q:ℝ) (sinT 5 v) (Real.sin v)
    linarith

end Flt
end MixedNum
