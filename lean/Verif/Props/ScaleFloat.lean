import Verif.Spec.Float
import Verif.Lemmas.Shift
import Verif.Lemmas.SqrtReal
import Verif.Props.SymFloat
import Verif.Props.AddSub
import Verif.Lemmas.Run
import Verif.Lemmas.Case
/-! # C138: scaling by powers of two on floats -/

namespace MixedNum
variable {f : Format}
open Flt

/-- C138: the NIIRF root of `4^j·x` is `2^j` times the root of `x`, bit for bit, for all finite `x` and `4^j·x`, subnormal ones
included, and any number of passes. -/
theorem C138_sqrt (hf : f.Wide) (md : Mode) (x y : Flt f) (hx : x.Valid) (hy : y.Valid) (fx : x.IsFinite) (fy : y.IsFinite) (j : ℤ)
    (h : y.val = x.val * 4 ^ j) (n : ℕ) :
    ∃ q : ℚ, Returns (niirf (.i32 md) x n) (.fin false q) ∧ Returns (niirf (.i32 md) y n) (.fin false (q * 2 ^ j)) := by
  obtain ⟨s, a, rfl⟩ := fx; obtain ⟨t, b, rfl⟩ := fy
  have ix := is_of_valid hx; have iy := is_of_valid hy
  have h4 : (0:ℚ) < 4 ^ j := by positivity
  by_cases h0 : (Flt.fin s a : Flt f).val = 0
  · refine ⟨0, ?_, ?_⟩
    · have e : MixedCmp.beq (Flt.fin s a : Flt f) MixedZero.zero = true := by
        show Flt.beq _ (.fin false 0) = _
        rw [ix.beq is_zero, decide_eq_true h0]
      unfold niirf; rw [e]; exact .of_eq rfl
    · rw [h0, zero_mul] at h
      have e : MixedCmp.beq (Flt.fin t b : Flt f) MixedZero.zero = true := by
        show Flt.beq _ (.fin false 0) = _
        rw [iy.beq is_zero, decide_eq_true h]
      unfold niirf; rw [e, zero_mul]; exact .of_eq rfl
  have h0' : (Flt.fin t b : Flt f).val ≠ 0 := by rw [h]; exact mul_ne_zero h0 h4.ne'
  have hcn := Counter.upto_i32 md (B := 2 ^ 30 + 1) (by norm_num)
  obtain ⟨u, uq, k, z, zq, w, iu, u1, u2, e, hz, iz, hw, iw, b1, -⟩ := niirf_flt_parts hcn hf ix h0 n
  obtain ⟨u', uq', k', z', zq', w', iu', u1', u2', e', hz', iz', hw', iw', -, -⟩ := niirf_flt_parts hcn hf iy h0' n
  have e4 : uq' * 4 ^ k' = uq * 4 ^ (k + j) := by
    rw [← e', h, abs_mul, abs_of_pos h4, e, zpow_add₀ (by norm_num)]; ring
  have R : ∀ {q : ℚ}, 1 / 4 ≤ q → (1 / 4 : ℝ) ≤ q := by
    intro q h; have := (Rat.cast_le (K := ℝ)).mpr h; push_cast at this; linarith
  have e4' := congrArg (fun q : ℚ => (q:ℝ)) e4
  push_cast at e4'
  obtain ⟨q1, q2⟩ := Niirf.normal_unique (R u1') (by exact_mod_cast u2') (R u1) (by exact_mod_cast u2) e4'
  have q1 : uq' = uq := by exact_mod_cast q1
  subst q1; subst q2
  obtain rfl := iu.unique iu' (by linarith)
  have ez := Prog.pure_inj (hz.symm.trans hz')
  subst ez
  have ezq : zq' = zq := iz'.val.symm.trans iz.val
  subst ezq
  have z0 : 0 < zq' := by
    have l1 : (1/2:ℝ) ≤ Real.sqrt uq' := by
      rw [show (1/2:ℝ) = Real.sqrt (1/4) by rw [show (1/4:ℝ) = (1/2)^2 by norm_num, Real.sqrt_sq (by norm_num)]]
      refine Real.sqrt_le_sqrt ?_
      have := (Rat.cast_le (K := ℝ)).mpr u1; push_cast at this; linarith
    have := (abs_le.mp b1).1
    have : (0:ℝ) < zq' := by linarith
    exact_mod_cast this
  have pos : ∀ {w : Flt f} {q : ℚ}, Is w q → 0 < q → w = .fin false q := by
    rintro w q ⟨s, m, rfl, m0, hv, -, -⟩ hq
    cases s
    · rw [show m = q from hv]
    · have : -m = q := hv
      linarith
  refine ⟨zq' * 2 ^ k, ?_, ?_⟩
  · rw [← pos iw (mul_pos z0 (two_zpow_pos _))]; exact hw
  · have := pos iw' (mul_pos z0 (two_zpow_pos _))
    rw [two_zpow_add, ← mul_assoc] at this
    rw [← this]; exact hw'

example := C138_sqrt wide_F32 .checked (.fin false 3) (.fin false (3 / 16)) (by is_float 3 0) (by is_float 3 (-4)) ⟨_, _, rfl⟩ ⟨_, _, rfl⟩ (-2)
  (by norm_num [Flt.val]) 2

/-- C138: the polynomial arctangent does not depend on the scale: multiplying both arguments by a power of two gives the same float,
as long as both arguments are zero or of middle size before and after. -/
theorem C138_atan2 (hf : f.Wide) (k : ℤ) (y x y' x' : Flt f) (vy : y.Valid) (vx : x.Valid) (vy' : y'.Valid) (vx' : x'.Valid)
    (hy : Shift k y y') (hx : Shift k x x') (my : Middle f y.val) (mx : Middle f x.val) (my' : Middle f y'.val)
    (mx' : Middle f x'.val) : ∃ r, Returns (atan2Poly y x) r ∧ Returns (atan2Poly y' x') r := by
  refine ⟨_, .of_eq (atan2_run y x), .of_eq ((atan2_run y' x').trans ?_)⟩
  have fin : ∀ {x x' : Flt f}, Shift k x x' → x.Valid → x'.Valid → Is x x.val ∧ Is x' x'.val := by
    rintro x x' ⟨s, m, rfl, rfl⟩ v v'; exact ⟨is_of_valid v, is_of_valid v'⟩
  obtain ⟨iy, iy'⟩ := fin hy vy vy'
  obtain ⟨ix, ix'⟩ := fin hx vx vx'
  have hp := hf.one_le; have := hf.p; have h1 := hf.emin; have h2 := hf.emax
  -- products
  obtain ⟨_, _, -, -, sn, -, -⟩ := prod_shift hf ix iy ix' iy' hx hy mx my mx' my'
  obtain ⟨qx, qx', jx, jx', sx, rx, rx'⟩ := prod_shift hf ix ix ix' ix' hx hx mx mx mx' mx'
  obtain ⟨qy, qy', jy, jy', sy, ry, ry'⟩ := prod_shift hf iy iy iy' iy' hy hy my my my' my'
  have hc := lit_coef hf
  -- times the coefficient
  have coef : ∀ {s s' : Flt f} {q q' : ℚ}, Is s q → Is s' q' → Shift (k + k) s s' →
      (q = 0 ∨ (2:ℚ) ^ (f.emin + f.p + 1) ≤ |q| ∧ 4 * |q| ≤ 2 ^ f.emax) →
      (q' = 0 ∨ (2:ℚ) ^ (f.emin + f.p + 1) ≤ |q'| ∧ 4 * |q'| ≤ 2 ^ f.emax) →
      ∃ c c', Is ((ofExact false (9 / 32) : Flt f).mul s) c ∧ Is ((ofExact false (9 / 32) : Flt f).mul s') c' ∧
        Shift (k + k) ((ofExact false (9 / 32) : Flt f).mul s) ((ofExact false (9 / 32) : Flt f).mul s') ∧
        4 * |c| ≤ 2 ^ f.emax ∧ 4 * |c'| ≤ 2 ^ f.emax := by
    intro s s' q q' js js' ss r r'
    have eq : q' = q * 2 ^ (k + k) := by rw [← js'.val, ← js.val]; exact ss.val
    have eM : (2:ℚ) ^ f.emax = 4 * 2 ^ ((f.emax:ℤ) - 2) := by
      rw [← zpow_natCast, show (f.emax:ℤ) = 2 + (f.emax - 2) by ring, two_zpow_add]; norm_num
    have eL : (2:ℚ) ^ (f.emin + f.p + 1) = 4 * 2 ^ (f.emin + f.p - 1) := by
      rw [show f.emin + f.p + 1 = 2 + (f.emin + f.p - 1) by ring, two_zpow_add]; norm_num
    have hM := two_zpow_pos ((f.emax:ℤ) - 2)
    have hLp := two_zpow_pos (f.emin + f.p - 1)
    have ub : ∀ {q : ℚ}, (q = 0 ∨ (2:ℚ) ^ (f.emin + f.p + 1) ≤ |q| ∧ 4 * |q| ≤ 2 ^ f.emax) → |9 / 32 * q| ≤ 2 ^ ((f.emax:ℤ) - 2) := by
      rintro q (rfl | ⟨-, r⟩)
      · simpa using hM.le
      · rw [abs_mul, abs_of_pos (by norm_num : (0:ℚ) < 9 / 32)]; have := abs_nonneg q; linarith
    have lb : ∀ {q : ℚ}, (q = 0 ∨ (2:ℚ) ^ (f.emin + f.p + 1) ≤ |q| ∧ 4 * |q| ≤ 2 ^ f.emax) →
        q = 0 ∨ (2:ℚ) ^ (f.emin + f.p - 1) ≤ |9 / 32 * q| := by
      rintro q (rfl | ⟨r, -⟩)
      · exact .inl rfl
      · refine .inr ?_
        rw [abs_mul, abs_of_pos (by norm_num : (0:ℚ) < 9 / 32)]; linarith
    have fit : ∀ {q : ℚ}, |9 / 32 * q| ≤ 2 ^ ((f.emax:ℤ) - 2) → |rnd f.p f.emin (9 / 32 * q)| < 2 ^ f.emax ∧
        4 * |rnd f.p f.emin (9 / 32 * q)| ≤ 2 ^ f.emax := by
      intro q h
      refine ⟨abs_rnd_lt hp h (by omega) (by omega), ?_⟩
      rw [abs_rnd, eM]
      have := roundTo_le_rep hp (abs_nonneg _) h (Rep.zpow hp (by omega : f.emin ≤ (f.emax:ℤ) - 2))
      linarith
    have g := fit (ub r); have g' := fit (ub r')
    refine ⟨_, _, hc.mul hp js g.1, hc.mul hp js' g'.1, ?_, g.2, g'.2⟩
    have s0 : Shift 0 (ofExact false (9 / 32) : Flt f) (ofExact false (9 / 32)) := by
      obtain ⟨t, m, e, -⟩ := hc
      exact ⟨t, m, e, by rw [zpow_zero, mul_one]; exact e⟩
    have := s0.mul ss (by
        rw [hc.val, js.val, zero_add]
        rcases lb r with h | h
        · exact .inl (by rw [h, mul_zero])
        · rcases lb r' with h' | h'
          · refine .inl ?_
            rw [eq] at h'
            rw [(mul_eq_zero.mp h').resolve_right (two_zpow_pos _).ne', mul_zero]
          · exact .inr ⟨h, by rw [mul_assoc, ← eq]; exact h'⟩)
      (by rw [hc.val, js.val]; exact g.1) (by rw [hc.val, js.val, zero_add, mul_assoc, ← eq]; exact g'.1)
    rwa [zero_add] at this
  obtain ⟨cx, cx', kx, kx', tx, bx, bx'⟩ := coef jx jx' sx rx rx'
  obtain ⟨cy, cy', ky, ky', ty, by_, by'⟩ := coef jy jy' sy ry ry'
  have small : ∀ {q : ℚ}, (q = 0 ∨ (2:ℚ) ^ (f.emin + f.p + 1) ≤ |q| ∧ 4 * |q| ≤ 2 ^ f.emax) → 4 * |q| ≤ 2 ^ f.emax := by
    rintro q (rfl | h)
    · rw [abs_zero, mul_zero]; positivity
    · exact h.2
  have two : ∀ {a b : ℚ}, 4 * |a| ≤ 2 ^ f.emax → 4 * |b| ≤ 2 ^ f.emax → 2 * |a + b| ≤ 2 ^ f.emax := by
    intro a b ha hb; have := abs_add_le a b; linarith
  have d1 := sum_shift hf jx ky jx' ky' sx ty (two (small rx) by_) (two (small rx') by')
  have d2 := sum_shift hf jy kx jy' kx' sy tx (two (small ry) bx) (two (small ry') bx')
  have p1 := sn.div d1
  have p2 := sn.div d2
  -- the comparison
  have mid : ∀ {q : ℚ}, Middle f q → 4 * |q| ≤ 2 ^ f.emax := by
    rintro q (rfl | ⟨-, h⟩)
    · rw [abs_zero, mul_zero]; positivity
    · have hbig : (16:ℚ) ≤ 2 ^ f.emax := by
        calc (16:ℚ) = 2 ^ 4 := by norm_num
          _ ≤ _ := pow_le_pow_right₀ (by norm_num) (by omega)
      rw [← sq_abs] at h
      nlinarith [abs_nonneg q, sq_nonneg (|q| - 1), sq_nonneg (|q| - 2)]
  have sd : Shift k (y.abs.sub x.abs) (y'.abs.sub x'.abs) := by
    have b1 := mid my; have b2 := mid mx; have b3 := mid my'; have b4 := mid mx'
    rw [← abs_abs] at b1 b2 b3 b4
    rw [← abs_neg] at b2 b4
    exact sum_shift hf iy.abs ix.abs.neg iy'.abs ix'.abs.neg hy.abs hx.abs.neg (two b1 b2) (two b3 b4)
  have sgn : ∀ {x x' : Flt f}, Shift k x x' → MixedReal.isPositive x' = MixedReal.isPositive x ∧
      MixedReal.isNegative x' = MixedReal.isNegative x := by
    rintro x x' ⟨s, m, rfl, rfl⟩; exact ⟨rfl, rfl⟩
  have e1 : ∀ z : Flt f, pow z 2 = z.mul z := fun _ => rfl
  simp only [e1, p1, p2, (hy.beq_zero false).1, (hx.beq_zero false).1, (sd.beq_zero false).2, sd.lt_zero, sd.zero_lt,
    (sgn hy).1, (sgn hx).1, (sgn hx).2]

example := C138_atan2 wide_F32 (-1) (.fin true 5) (.fin false 3) (.fin true (5 / 2)) (.fin false (3 / 2)) (by is_float 5 0) (by is_float 3 0) (by is_float 5 (-1))
  (by is_float 3 (-1)) ⟨_, _, rfl, by norm_num⟩ ⟨_, _, rfl, by norm_num⟩ (.inr (by norm_num [Flt.val, F32])) (.inr (by norm_num [Flt.val, F32]))
  (.inr (by norm_num [Flt.val, F32])) (.inr (by norm_num [Flt.val, F32]))

/-- C138: complex multiplication commutes with scaling: `(2^j z)·(2^k w)` is `2^(j+k) (z·w)` bit for bit, as long as all parts are zero
or of middle size before and after. -/
theorem C138_mul (hf : f.Wide) (j k : ℤ) (z z' w w' : Cartesian (Flt f))
    (vz : z.re.Valid ∧ z.im.Valid) (vz' : z'.re.Valid ∧ z'.im.Valid) (vw : w.re.Valid ∧ w.im.Valid) (vw' : w'.re.Valid ∧ w'.im.Valid)
    (hz : Shift j z.re z'.re ∧ Shift j z.im z'.im) (hw : Shift k w.re w'.re ∧ Shift k w.im w'.im)
    (mz : Middle f z.re.val ∧ Middle f z.im.val) (mz' : Middle f z'.re.val ∧ Middle f z'.im.val)
    (mw : Middle f w.re.val ∧ Middle f w.im.val) (mw' : Middle f w'.re.val ∧ Middle f w'.im.val) :
    ∃ r r', Returns (z.mul w) r ∧ Returns (z'.mul w') r' ∧ Shift (j + k) r.re r'.re ∧ Shift (j + k) r.im r'.im := by
  refine ⟨⟨(z.re.mul w.re).sub (z.im.mul w.im), (z.re.mul w.im).add (z.im.mul w.re)⟩,
    ⟨(z'.re.mul w'.re).sub (z'.im.mul w'.im), (z'.re.mul w'.im).add (z'.im.mul w'.re)⟩, .of_eq rfl, .of_eq rfl, ?_⟩
  have fin : ∀ {k : ℤ} {x x' : Flt f}, Shift k x x' → x.Valid → x'.Valid → Is x x.val ∧ Is x' x'.val := by
    rintro k x x' ⟨s, m, rfl, rfl⟩ v v'; exact ⟨is_of_valid v, is_of_valid v'⟩
  obtain ⟨ia, ia'⟩ := fin hz.1 vz.1 vz'.1
  obtain ⟨ib, ib'⟩ := fin hz.2 vz.2 vz'.2
  obtain ⟨ic, ic'⟩ := fin hw.1 vw.1 vw'.1
  obtain ⟨id, id'⟩ := fin hw.2 vw.2 vw'.2
  obtain ⟨_, _, a1, a2, a3, a4, a5⟩ := prod_shift hf ia ic ia' ic' hz.1 hw.1 mz.1 mw.1 mz'.1 mw'.1
  obtain ⟨_, _, b1, b2, b3, b4, b5⟩ := prod_shift hf ib id ib' id' hz.2 hw.2 mz.2 mw.2 mz'.2 mw'.2
  obtain ⟨_, _, c1, c2, c3, c4, c5⟩ := prod_shift hf ia id ia' id' hz.1 hw.2 mz.1 mw.2 mz'.1 mw'.2
  obtain ⟨_, _, d1, d2, d3, d4, d5⟩ := prod_shift hf ib ic ib' ic' hz.2 hw.1 mz.2 mw.1 mz'.2 mw'.1
  have small : ∀ {q : ℚ}, (q = 0 ∨ (2:ℚ) ^ (f.emin + f.p + 1) ≤ |q| ∧ 4 * |q| ≤ 2 ^ f.emax) → 4 * |q| ≤ 2 ^ f.emax := by
    rintro q (rfl | h)
    · rw [abs_zero, mul_zero]; positivity
    · exact h.2
  have two : ∀ {a b : ℚ}, 4 * |a| ≤ 2 ^ f.emax → 4 * |b| ≤ 2 ^ f.emax → 2 * |a + b| ≤ 2 ^ f.emax := by
    intro a b ha hb; have := abs_add_le a b; linarith
  exact ⟨sum_shift hf a1 b1.neg a2 b2.neg a3 b3.neg (two (small a4) (by rw [abs_neg]; exact small b4))
      (two (small a5) (by rw [abs_neg]; exact small b5)),
    sum_shift hf c1 d1 c2 d2 c3 d3 (two (small c4) (small d4)) (two (small c5) (small d5))⟩

example := C138_mul wide_F32 (-1) 1 ⟨.fin true 5, .fin false 3⟩ ⟨.fin true (5 / 2), .fin false (3 / 2)⟩ ⟨.fin true 7, .fin false 0⟩ ⟨.fin true 14, .fin false 0⟩
  ⟨by is_float 5 0, by is_float 3 0⟩ ⟨by is_float 5 (-1), by is_float 3 (-1)⟩ ⟨by is_float 7 0, by is_float 0 0⟩ ⟨by is_float 14 0, by is_float 0 0⟩
  ⟨⟨_, _, rfl, by norm_num⟩, _, _, rfl, by norm_num⟩ ⟨⟨_, _, rfl, by norm_num⟩, _, _, rfl, by norm_num⟩
  ⟨.inr (by norm_num [Flt.val, F32]), .inr (by norm_num [Flt.val, F32])⟩ ⟨.inr (by norm_num [Flt.val, F32]), .inr (by norm_num [Flt.val, F32])⟩
  ⟨.inr (by norm_num [Flt.val, F32]), .inl (by norm_num [Flt.val])⟩ ⟨.inr (by norm_num [Flt.val, F32]), .inl (by norm_num [Flt.val])⟩

/-- C138: complex sums and differences scale too, down to subnormal numbers; only overflow has to be excluded. -/
theorem C138_add (hf : f.Wide) (k : ℤ) (z z' w w' : Cartesian (Flt f))
    (vz : z.re.Valid ∧ z.im.Valid) (vz' : z'.re.Valid ∧ z'.im.Valid) (vw : w.re.Valid ∧ w.im.Valid) (vw' : w'.re.Valid ∧ w'.im.Valid)
    (hz : Shift k z.re z'.re ∧ Shift k z.im z'.im) (hw : Shift k w.re w'.re ∧ Shift k w.im w'.im)
    (h : 2 * (|z.re.val| + |w.re.val|) ≤ 2 ^ f.emax ∧ 2 * (|z.im.val| + |w.im.val|) ≤ 2 ^ f.emax)
    (h' : 2 * (|z'.re.val| + |w'.re.val|) ≤ 2 ^ f.emax ∧ 2 * (|z'.im.val| + |w'.im.val|) ≤ 2 ^ f.emax) :
    (∃ r r', Returns (z.add w) r ∧ Returns (z'.add w') r' ∧ Shift k r.re r'.re ∧ Shift k r.im r'.im) ∧
    (∃ r r', Returns (z.sub w) r ∧ Returns (z'.sub w') r' ∧ Shift k r.re r'.re ∧ Shift k r.im r'.im) := by
  have fin : ∀ {k : ℤ} {x x' : Flt f}, Shift k x x' → x.Valid → x'.Valid → Is x x.val ∧ Is x' x'.val := by
    rintro k x x' ⟨s, m, rfl, rfl⟩ v v'; exact ⟨is_of_valid v, is_of_valid v'⟩
  obtain ⟨ia, ia'⟩ := fin hz.1 vz.1 vz'.1
  obtain ⟨ib, ib'⟩ := fin hz.2 vz.2 vz'.2
  obtain ⟨ic, ic'⟩ := fin hw.1 vw.1 vw'.1
  obtain ⟨id, id'⟩ := fin hw.2 vw.2 vw'.2
  have p : ∀ {a b : ℚ}, 2 * (|a| + |b|) ≤ 2 ^ f.emax → 2 * |a + b| ≤ 2 ^ f.emax := by
    intro a b h; have := abs_add_le a b; linarith
  have q : ∀ {a b : ℚ}, 2 * (|a| + |b|) ≤ 2 ^ f.emax → 2 * |a + -b| ≤ 2 ^ f.emax := by
    intro a b h; have := abs_add_le a (-b); rw [abs_neg] at this; linarith
  exact ⟨⟨⟨z.re.add w.re, z.im.add w.im⟩, ⟨z'.re.add w'.re, z'.im.add w'.im⟩, .of_eq rfl, .of_eq rfl,
      sum_shift hf ia ic ia' ic' hz.1 hw.1 (p h.1) (p h'.1), sum_shift hf ib id ib' id' hz.2 hw.2 (p h.2) (p h'.2)⟩,
    ⟨⟨z.re.sub w.re, z.im.sub w.im⟩, ⟨z'.re.sub w'.re, z'.im.sub w'.im⟩, .of_eq rfl, .of_eq rfl,
      sum_shift hf ia ic.neg ia' ic'.neg hz.1 hw.1.neg (q h.1) (q h'.1),
      sum_shift hf ib id.neg ib' id'.neg hz.2 hw.2.neg (q h.2) (q h'.2)⟩⟩

/-- The hypotheses are met: 3 and 12 are `f32`s of middle size, and 12 is 3 times `2^2`. -/
example : (Flt.fin false 3 : Flt F32).Valid ∧ (Flt.fin false 12 : Flt F32).Valid ∧
    (Flt.fin false 12 : Flt F32).val = (Flt.fin false 3 : Flt F32).val * 4 ^ (1:ℤ) ∧
    Shift 2 (Flt.fin false 3 : Flt F32) (.fin false 12) ∧ Middle F32 3 ∧ Middle F32 12 := by
  refine ⟨⟨3, 0, by norm_num, by norm_num, by norm_num [pow2], by norm_num⟩, ⟨12, 0, by norm_num, by norm_num, by norm_num [pow2], by norm_num⟩,
    by norm_num [Flt.val], ⟨false, 3, rfl, by norm_num⟩, .inr ⟨?_, by norm_num⟩, .inr ⟨?_, by norm_num⟩⟩ <;>
  exact (zpow_le_one_of_nonpos₀ (by norm_num) (by norm_num)).trans (by norm_num)

end MixedNum
