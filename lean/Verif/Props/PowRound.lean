import Verif.Props.FixedComplex
import Verif.Props.PowFloat
import Verif.Props.Undo
import Verif.Lemmas.Run
import Verif.Props.AddSub
import Verif.Lemmas.Case
/-! # C148: laws of exponents on fixed point and floats, up to rounding -/

namespace MixedNum
open Fixed
variable {m : Mode} {s : Bool} {W F : ℕ}

theorem powiLoop_last {α : Type} [NumOps α] (b : α) : ∀ (k : ℕ) (t : α),
    powiLoop b (k + 1) t = (do NumOps.mul (← powiLoop b k t) b)
  | 0, t => by simp [powiLoop]
  | k + 1, t => by
    show (do let t ← NumOps.mul t b; powiLoop b (k + 1) t) = (do NumOps.mul (← (do let t ← NumOps.mul t b; powiLoop b k t)) b)
    rw [bind_assoc]
    exact congrArg _ (funext fun t => powiLoop_last b k t)

/-- C148: on fixed point one more factor is one more multiplication, exactly: `x^(n+1)` is the program `x^n * x` for n ≥ 1, for
every x, overflows included. -/
theorem C148_step_fixed (x : Fixed m s W F) (n : ℕ) (hn : 1 ≤ n) (h : n + 1 < 2 ^ 31) :
    MixedPowi.powi x ((n + 1 : ℕ) : ℤ) = (do NumOps.mul (← MixedPowi.powi x (n : ℤ)) x) := by
  show mixedPowiVia x ((n + 1 : ℕ) : ℤ) = (do NumOps.mul (← mixedPowiVia x (n : ℤ)) x)
  rw [mixedPowiVia, mixedPowiVia, usizeOfI32_nat _ h, usizeOfI32_nat n (by omega), powi, powi, if_neg (by omega), if_neg (by omega)]
  obtain ⟨k, rfl⟩ : ∃ k, n = k + 1 := ⟨n - 1, by omega⟩
  exact powiLoop_last x k x

example := C148_step_fixed (fx .checked true 32 16 70000) 4 (by norm_num) (by norm_num)

/-- Products of numbers of magnitude at most 1. -/
theorem Fixed.mul_unit (h1 : InRange s W (2 ^ F)) (a b : Fixed m s W F) (ha : |a.r| ≤ 1) (hb : |b.r| ≤ 1) :
    ∃ z : Fixed m s W F, NumOps.mul a b = pure z ∧ |z.r| ≤ 1 ∧ |z.r - a.r * b.r| ≤ 1 / 2 ^ F := by
  have h1 := inRange_iff.mp h1
  have hp : (0:ℤ) < 2 ^ F := by positivity
  have hp' : (0:ℝ) < 2 ^ F := by positivity
  have un : ∀ x : Fixed m s W F, |x.r| ≤ 1 → |x.val| ≤ 2 ^ F := fun x hx => by
    rw [r, abs_div, abs_of_pos hp', div_le_one hp'] at hx; exact_mod_cast hx
  have hv : |a.val * b.val / 2 ^ F| ≤ 2 ^ F := by
    have : |a.val * b.val| ≤ 2 ^ F * 2 ^ F := by rw [abs_mul]; exact mul_le_mul (un a ha) (un b hb) (abs_nonneg _) hp.le
    have := abs_le.mp this
    rw [abs_le]
    constructor
    · rw [Int.le_ediv_iff_mul_le hp]; linarith
    · rw [← Int.lt_add_one_iff, Int.ediv_lt_iff_lt_mul hp]; linarith
  have hf : Fits s W (a.val * b.val / 2 ^ F) := by
    have := abs_le.mp hv
    cases s
    · have ha0 := a.fits.1; have hb0 := b.fits.1
      refine ⟨?_, lt_of_le_of_lt this.2 h1.2⟩
      have e0 : wlo false W = 0 := by simp [wlo]
      rw [e0] at ha0 hb0 ⊢
      exact Int.ediv_nonneg (mul_nonneg ha0 hb0) hp.le
    · rw [fits_signed] at h1 ⊢
      constructor <;> linarith
  obtain ⟨y, hy, hyv⟩ := fit_val (m := m) (F := F) hf
  refine ⟨y, by rw [mul_def, hy], ?_, ?_⟩
  · rw [r, abs_div, abs_of_pos hp', div_le_one hp', hyv]; exact_mod_cast hv
  · have := floor_real (F := F) (a.val * b.val)
    push_cast at this
    have e : y.r - a.r * b.r = (((a.val * b.val / 2 ^ F : ℤ) : ℝ) - a.val * b.val / 2 ^ F) / 2 ^ F := by
      rw [r, hyv, r, r]; ring
    rw [e, abs_div, abs_of_pos hp', div_le_div_iff_of_pos_right hp', abs_le]
    constructor <;> linarith

theorem abs_pow_sub_pow {a b d : ℝ} (ha : |a| ≤ 1) (hb : |b| ≤ 1) (h : |a - b| ≤ d) (k : ℕ) : |a ^ k - b ^ k| ≤ k * d := by
  induction k with
  | zero => simp
  | succ k ih =>
    rw [show a ^ (k + 1) - b ^ (k + 1) = a ^ k * (a - b) + (a ^ k - b ^ k) * b by ring]
    refine (abs_add_le _ _).trans ?_
    rw [abs_mul, abs_mul, abs_pow]
    have h1 := mul_le_mul (pow_le_one₀ (n := k) (abs_nonneg a) ha) h (abs_nonneg _) zero_le_one
    have h2 := mul_le_mul ih hb (abs_nonneg _) ((abs_nonneg _).trans ih)
    push_cast; linarith

theorem abs_mul_sub_mul {a b c d e e' : ℝ} (ha : |a| ≤ 1) (hd : |d| ≤ 1) (h : |a - c| ≤ e) (h' : |b - d| ≤ e') :
    |a * b - c * d| ≤ e + e' := by
  rw [show a * b - c * d = a * (b - d) + (a - c) * d by ring]
  refine (abs_add_le _ _).trans ?_
  rw [abs_mul, abs_mul]
  have h1 := mul_le_mul ha h' (abs_nonneg _) zero_le_one
  have h2 := mul_le_mul h hd (abs_nonneg _) ((abs_nonneg _).trans h)
  linarith

theorem abs_pow_le_one {a : ℝ} (ha : |a| ≤ 1) (k : ℕ) : |a ^ k| ≤ 1 := by
  rw [abs_pow]; exact pow_le_one₀ (abs_nonneg _) ha

/-- C148: on fixed point, for |x| ≤ 1, `x^j * x^k` never panics and is off by no more units than `x^(j+k)` (C74): j+k-1. -/
theorem C148_add_fixed (h1 : InRange s W (2 ^ F)) (x : Fixed m s W F) (hx : |x.r| ≤ 1) (j k : ℕ) (hj : 1 ≤ j) (hk : 1 ≤ k)
    (hj' : j < 2 ^ 31) (hk' : k < 2 ^ 31) :
    ∃ z : Fixed m s W F, Returns (do let a ← MixedPowi.powi x (j : ℤ); let b ← MixedPowi.powi x (k : ℤ); NumOps.mul a b) z ∧
      |z.r - x.r ^ (j + k)| ≤ ((j + k - 1 : ℕ) : ℝ) / 2 ^ F := by
  obtain ⟨a, ra, a1, a2⟩ := C74_accuracy h1 x hx j hj hj'
  obtain ⟨b, rb, b1, b2⟩ := C74_accuracy h1 x hx k hk hk'
  obtain ⟨z, rz, -, z2⟩ := Fixed.mul_unit h1 a b a1 b1
  refine ⟨z, ra.bind (rb.bind (.of_eq rz)), ?_⟩
  have h := abs_mul_sub_mul a1 (abs_pow_le_one hx k) a2 b2
  have := abs_sub_le z.r (a.r * b.r) (x.r ^ j * x.r ^ k)
  rw [pow_add]
  have e : ((j + k - 1 : ℕ) : ℝ) = ((j - 1 : ℕ) : ℝ) + ((k - 1 : ℕ) : ℝ) + 1 := by
    exact_mod_cast (by omega : j + k - 1 = (j - 1) + (k - 1) + 1)
  rw [e, add_div, add_div]; linarith

example := C148_add_fixed (by decide) (fx .checked true 16 4 (-7)) (by simp [Fixed.r, fx]; norm_num) 3 5 (by decide) (by decide) (by decide) (by decide)

/-- C148: on fixed point, for |x| ≤ 1, `(x^j)^k` never panics and is off by no more units than `x^(j*k)`: jk-1. -/
theorem C148_mul_fixed (h1 : InRange s W (2 ^ F)) (x : Fixed m s W F) (hx : |x.r| ≤ 1) (j k : ℕ) (hj : 1 ≤ j) (hk : 1 ≤ k)
    (hj' : j < 2 ^ 31) (hk' : k < 2 ^ 31) :
    ∃ z : Fixed m s W F, Returns (do let a ← MixedPowi.powi x (j : ℤ); MixedPowi.powi a (k : ℤ)) z ∧
      |z.r - x.r ^ (j * k)| ≤ ((j * k - 1 : ℕ) : ℝ) / 2 ^ F := by
  obtain ⟨a, ra, a1, a2⟩ := C74_accuracy h1 x hx j hj hj'
  obtain ⟨z, rz, -, z2⟩ := C74_accuracy h1 a a1 k hk hk'
  refine ⟨z, ra.bind rz, ?_⟩
  have h := abs_pow_sub_pow a1 (abs_pow_le_one hx j) a2 k
  have := abs_sub_le z.r (a.r ^ k) ((x.r ^ j) ^ k)
  rw [pow_mul]
  have e : ((j * k - 1 : ℕ) : ℝ) = k * ((j - 1 : ℕ) : ℝ) + ((k - 1 : ℕ) : ℝ) := by
    obtain ⟨j, rfl⟩ : ∃ i, j = i + 1 := ⟨j - 1, by omega⟩
    obtain ⟨k, rfl⟩ : ∃ i, k = i + 1 := ⟨k - 1, by omega⟩
    have : (j + 1) * (k + 1) - 1 = (k + 1) * j + k := by
      rw [show (j + 1) * (k + 1) = (k + 1) * j + k + 1 by ring]; rfl
    rw [this]; push_cast; simp
  rw [e, add_div, mul_div_assoc]; linarith

example := C148_mul_fixed (by decide) (fx .checked true 16 4 (-7)) (by simp [Fixed.r, fx]; norm_num) 3 5 (by decide) (by decide) (by decide) (by decide)

/-- C148: on fixed point, for |x|, |y| ≤ 1, `(x*y)^k` and `x^k * y^k` never panic and are off by at most 2k-1 units. -/
theorem C148_base_fixed (h1 : InRange s W (2 ^ F)) (x y : Fixed m s W F) (hx : |x.r| ≤ 1) (hy : |y.r| ≤ 1) (k : ℕ) (hk : 1 ≤ k)
    (hk' : k < 2 ^ 31) : ∃ z w : Fixed m s W F, Returns (do let p ← NumOps.mul x y; MixedPowi.powi p (k : ℤ)) z ∧
      Returns (do let p ← MixedPowi.powi x (k : ℤ); let q ← MixedPowi.powi y (k : ℤ); NumOps.mul p q) w ∧
      |z.r - (x.r * y.r) ^ k| ≤ ((2 * k - 1 : ℕ) : ℝ) / 2 ^ F ∧ |w.r - (x.r * y.r) ^ k| ≤ ((2 * k - 1 : ℕ) : ℝ) / 2 ^ F := by
  obtain ⟨p, rp, p1, p2⟩ := Fixed.mul_unit h1 x y hx hy
  obtain ⟨z, rz, -, z2⟩ := C74_accuracy h1 p p1 k hk hk'
  obtain ⟨a, ra, a1, a2⟩ := C74_accuracy h1 x hx k hk hk'
  obtain ⟨b, rb, b1, b2⟩ := C74_accuracy h1 y hy k hk hk'
  obtain ⟨w, rw', -, w2⟩ := Fixed.mul_unit h1 a b a1 b1
  have hxy : |x.r * y.r| ≤ 1 := by rw [abs_mul]; exact mul_le_one₀ hx (abs_nonneg _) hy
  refine ⟨z, w, Returns.bind (.of_eq rp) rz, ra.bind (rb.bind (.of_eq rw')), ?_, ?_⟩
  · have h := abs_pow_sub_pow p1 hxy p2 k
    have := abs_sub_le z.r (p.r ^ k) ((x.r * y.r) ^ k)
    have e : ((2 * k - 1 : ℕ) : ℝ) = k + ((k - 1 : ℕ) : ℝ) := by exact_mod_cast (by omega : 2 * k - 1 = k + (k - 1))
    rw [e, add_div]; rw [mul_one_div] at h; linarith
  · have h := abs_mul_sub_mul a1 (abs_pow_le_one hy k) a2 b2
    have := abs_sub_le w.r (a.r * b.r) (x.r ^ k * y.r ^ k)
    have e : ((2 * k - 1 : ℕ) : ℝ) = ((k - 1 : ℕ) : ℝ) + ((k - 1 : ℕ) : ℝ) + 1 := by
      exact_mod_cast (by omega : 2 * k - 1 = (k - 1) + (k - 1) + 1)
    rw [e, add_div, add_div, mul_pow]; linarith

example : InRange true 16 ((2:ℤ) ^ 12) ∧ (1:ℕ) ≤ 3 ∧ (3:ℕ) < 2 ^ 31 := by decide

/-- C148: the roundings differ, so the laws do not hold exactly: on `FixedI16<U8>`, x⁴ and x² * x² differ for x = -255/256. -/
theorem C148_fixed_not_exact :
    Returns (MixedPowi.powi (fx .checked true 16 8 (-255)) 4) (fx .checked true 16 8 253) ∧
    Returns (do let a ← MixedPowi.powi (fx .checked true 16 8 (-255)) 2; let b ← MixedPowi.powi (fx .checked true 16 8 (-255)) 2
                NumOps.mul a b) (fx .checked true 16 8 252) := by
  constructor <;> exact .of_eq (by kernel_rfl)

/-! ## Floats -/

open Flt
variable {f : Format}

theorem Flt.powi_nat (x : Flt f) (n : ℕ) : MixedPowi.powi x (n : ℤ) = pure (Flt.pow x n) := by
  show (pure (if (n:ℤ) < 0 then _ else _) : Prog (Flt f)) = _
  rw [if_neg (by omega), Int.natAbs_natCast]

/-- C148: on floats `x^j * x^k` is off by no more roundings than `x^(j+k)` (C81): j+k-1. -/
theorem C148_add_float (hf : f.Wide) (x : Flt f) (hx : x.Valid) (fx : IsFinite x) (j k : ℕ) (hj : 1 ≤ j) (hk : 1 ≤ k)
    (hi : j + k < 2 ^ 31) (hn : j + k ≤ 2 ^ (f.p - 2)) (hlo : (2:ℚ) ^ (f.emin + f.p) ≤ |x.val| ^ (j + k))
    (hhi : 2 * |x.val| ^ (j + k) ≤ 2 ^ f.emax) :
    ∃ z : Flt f, Returns (do let a ← MixedPowi.powi x (j : ℤ); let b ← MixedPowi.powi x (k : ℤ); NumOps.mul a b) z ∧
      z.Valid ∧ IsFinite z ∧ |z.val - x.val ^ (j + k)| ≤ ((1 + 1 / 2 ^ f.p) ^ (j + k - 1) - 1) * |x.val| ^ (j + k) := by
  have hu : uq f = 1 / 2 ^ f.p := by unfold uq; rw [zpow_neg, zpow_natCast, one_div]
  have ix := is_of_finite fx hx
  have hr := powRange hf hlo hhi
  have sub : ∀ i, i ≤ j + k → PowRange f x.val i := fun i hi l h1 h2 => hr l h1 (h2.trans hi)
  have ra := pow_rel hf (w := 1) hj (by omega) (sub j (by omega)) (by omega) le_rfl ix.rel
  have rb := pow_rel hf (w := 1) hk (by omega) (sub k (by omega)) (by omega) le_rfl ix.rel
  obtain ⟨q, h1, h2⟩ := ra.mul_pow hf hr (w := 1) (by omega) le_rfl hj hk le_rfl rb
  refine ⟨_, Returns.bind (.of_eq (Flt.powi_nat x j)) (Returns.bind (.of_eq (Flt.powi_nat x k)) (.of_eq rfl)), h1.valid, h1.fin, ?_⟩
  rw [h1.val, ← abs_pow, ← hu]; rwa [Nat.one_mul] at h2

example := C148_add_float wide_F32 (.fin true (3 / 2)) (by is_float 3 (-1)) ⟨_, _, rfl⟩ 3 5 (by decide) (by decide) (by decide) (by decide)
  (by norm_num [Flt.val, F32]) (by norm_num [Flt.val, F32])

/-- C148: on floats `(x^j)^k` is off by no more roundings than `x^(j*k)`: jk-1. -/
theorem C148_mul_float (hf : f.Wide) (x : Flt f) (hx : x.Valid) (fx : IsFinite x) (j k : ℕ) (hj : 1 ≤ j) (hk : 1 ≤ k)
    (hj' : j < 2 ^ 31) (hk' : k < 2 ^ 31) (hn : j * k ≤ 2 ^ (f.p - 2)) (hlo : (2:ℚ) ^ (f.emin + f.p) ≤ |x.val| ^ (j * k))
    (hhi : 2 * |x.val| ^ (j * k) ≤ 2 ^ f.emax) :
    ∃ z : Flt f, Returns (do let a ← MixedPowi.powi x (j : ℤ); MixedPowi.powi a (k : ℤ)) z ∧
      z.Valid ∧ IsFinite z ∧ |z.val - x.val ^ (j * k)| ≤ ((1 + 1 / 2 ^ f.p) ^ (j * k - 1) - 1) * |x.val| ^ (j * k) := by
  have hu : uq f = 1 / 2 ^ f.p := by unfold uq; rw [zpow_neg, zpow_natCast, one_div]
  have ix := is_of_finite fx hx
  have hr := powRange hf hlo hhi
  have hjk : j ≤ j * k := Nat.le_mul_of_pos_right _ hk
  have ra := pow_rel hf (w := 1) hj (by omega) (fun l h1 h2 => hr l h1 (h2.trans hjk)) (by omega) le_rfl ix.rel
  rw [Nat.one_mul] at ra
  obtain ⟨q, h1, h2⟩ := pow_rel hf (w := j) hk (by omega) (fun l h1 h2 => by
    have := hr (j * l) (Nat.mul_pos hj h1) (Nat.mul_le_mul_left j h2); rwa [pow_mul] at this) hn hj ra
  refine ⟨_, Returns.bind (.of_eq (Flt.powi_nat x j)) (.of_eq (Flt.powi_nat _ k)), h1.valid, h1.fin, ?_⟩
  rw [h1.val, ← abs_pow, ← hu, pow_mul]; exact h2

example := C148_mul_float wide_F32 (.fin true (3 / 2)) (by is_float 3 (-1)) ⟨_, _, rfl⟩ 3 5 (by decide) (by decide) (by decide) (by decide) (by decide)
  (by norm_num [Flt.val, F32]) (by norm_num [Flt.val, F32])

/-- C148: on floats `(x*y)^k` and `x^k * y^k` are off by at most 2k-1 roundings. -/
theorem C148_base_float (hf : f.Wide) (x y : Flt f) (hx : x.Valid) (hy : y.Valid) (fx : IsFinite x) (fy : IsFinite y) (k : ℕ)
    (hk : 1 ≤ k) (hk' : k < 2 ^ 31) (hn : 2 * k ≤ 2 ^ (f.p - 2)) (hlo : (2:ℚ) ^ (f.emin + f.p) ≤ |x.val * y.val| ^ k)
    (hhi : 2 * |x.val * y.val| ^ k ≤ 2 ^ f.emax) (hlx : (2:ℚ) ^ (f.emin + f.p) ≤ |x.val| ^ k) (hhx : 2 * |x.val| ^ k ≤ 2 ^ f.emax)
    (hly : (2:ℚ) ^ (f.emin + f.p) ≤ |y.val| ^ k) (hhy : 2 * |y.val| ^ k ≤ 2 ^ f.emax) :
    ∃ z w : Flt f, Returns (do let p ← NumOps.mul x y; MixedPowi.powi p (k : ℤ)) z ∧
      Returns (do let p ← MixedPowi.powi x (k : ℤ); let q ← MixedPowi.powi y (k : ℤ); NumOps.mul p q) w ∧
      z.Valid ∧ IsFinite z ∧ w.Valid ∧ IsFinite w ∧
      |z.val - (x.val * y.val) ^ k| ≤ ((1 + 1 / 2 ^ f.p) ^ (2 * k - 1) - 1) * |x.val * y.val| ^ k ∧
      |w.val - (x.val * y.val) ^ k| ≤ ((1 + 1 / 2 ^ f.p) ^ (2 * k - 1) - 1) * |x.val * y.val| ^ k := by
  have hu : uq f = 1 / 2 ^ f.p := by unfold uq; rw [zpow_neg, zpow_natCast, one_div]
  have ix := is_of_finite fx hx
  have iy := is_of_finite fy hy
  have hr := powRange hf hlo hhi
  have r1 := hr 1 le_rfl hk
  rw [pow_one] at r1
  have rp := ix.rel.mul hf iy.rel (by norm_num) r1.1 r1.2
  obtain ⟨q, h1, h2⟩ := pow_rel hf (w := 2) hk (by omega) hr hn (by norm_num) rp
  have ra := pow_rel hf (w := 1) hk (by omega) (powRange hf hlx hhx) (by omega) le_rfl ix.rel
  have rb := pow_rel hf (w := 1) hk (by omega) (powRange hf hly hhy) (by omega) le_rfl iy.rel
  have rk := hr k hk le_rfl
  rw [mul_pow] at rk
  obtain ⟨q', h3, h4⟩ := ra.mul hf rb (pow_le_of_small hf (by omega)) rk.1 rk.2
  refine ⟨_, _, Returns.bind (.of_eq rfl) (.of_eq (Flt.powi_nat _ k)),
    Returns.bind (.of_eq (Flt.powi_nat x k)) (Returns.bind (.of_eq (Flt.powi_nat y k)) (.of_eq rfl)),
    h1.valid, h1.fin, h3.valid, h3.fin, ?_, ?_⟩
  · rw [h1.val, ← abs_pow, ← hu]; exact h2
  · rw [h3.val, ← abs_pow, ← hu, mul_pow]
    rwa [show 1 * k - 1 + (1 * k - 1) + 1 = 2 * k - 1 by omega] at h4

example := C148_base_float wide_F32 (.fin true (3 / 2)) (.fin false 5) (by is_float 3 (-1)) (by is_float 5 0) ⟨_, _, rfl⟩ ⟨_, _, rfl⟩ 3 (by decide) (by decide)
  (by decide) (by norm_num [Flt.val, F32]) (by norm_num [Flt.val, F32]) (by norm_num [Flt.val, F32]) (by norm_num [Flt.val, F32]) (by norm_num [Flt.val, F32])
  (by norm_num [Flt.val, F32])

/-- C148: on floats `x^(-n) * x^n` is 1 up to 3n-1 roundings. -/
theorem C148_inverse_float (hf : f.Wide) (x : Flt f) (hx : x.Valid) (fx : IsFinite x) (n : ℕ) (h0 : 1 ≤ n)
    (hi : n < 2 ^ 31) (hn : 3 * n ≤ 2 ^ (f.p - 2)) (hlo : (2:ℚ) ^ (f.emin + f.p) ≤ |x.val| ^ n) (hhi : 2 * |x.val| ^ n ≤ 2 ^ f.emax)
    (hlo' : (2:ℚ) ^ (f.emin + f.p) ≤ |x.val|⁻¹ ^ n) (hhi' : 2 * |x.val|⁻¹ ^ n ≤ 2 ^ f.emax) :
    ∃ z : Flt f, Returns (do let a ← MixedPowi.powi x (-(n : ℤ)); let b ← MixedPowi.powi x (n : ℤ); NumOps.mul a b) z ∧
      z.Valid ∧ IsFinite z ∧ |z.val - 1| ≤ (1 + 1 / 2 ^ f.p) ^ (3 * n - 1) - 1 := by
  have hu : uq f = 1 / 2 ^ f.p := by unfold uq; rw [zpow_neg, zpow_natCast, one_div]
  obtain ⟨s, k, e⟩ := id fx
  obtain ⟨a, ra, va, fa, ba⟩ := C81_negative hf x hx s k e n h0 (by omega) (by omega) hlo' hhi'
  obtain ⟨b, rb, vb, fb, bb⟩ := C81_accuracy hf x hx s k e n h0 hi (by omega) hlo hhi
  have hA : x.val ≠ 0 := by
    intro h
    rw [h, abs_zero, zero_pow (by omega)] at hlo
    exact absurd ((two_zpow_pos _).trans_le hlo) (lt_irrefl _)
  have e1 : x.val⁻¹ ^ n * x.val ^ n = 1 := by rw [← mul_pow, inv_mul_cancel₀ hA, one_pow]
  have h1 : Rel a (x.val⁻¹ ^ n) (2 * n - 1) := ⟨_, is_of_finite fa va, by rw [hu, abs_pow, abs_inv]; exact ba⟩
  have h2 : Rel b (x.val ^ n) (n - 1) := ⟨_, is_of_finite fb vb, by rw [hu, abs_pow]; exact bb⟩
  have hp := hf.p; have hmin := hf.emin; have hmax := hf.emax
  obtain ⟨q, h3, h4⟩ := h1.mul hf h2 (pow_le_of_small hf (by omega))
    (by rw [e1, abs_one]; exact zpow_le_one_of_nonpos₀ (by norm_num) (by omega))
    (by
      rw [e1, abs_one]
      calc (2:ℚ) * 1 = 2 ^ 1 := by norm_num
        _ ≤ _ := pow_le_pow_right₀ (by norm_num) (by omega))
  refine ⟨_, ra.bind (rb.bind (.of_eq rfl)), h3.valid, h3.fin, ?_⟩
  rw [e1, abs_one, mul_one, hu, show 2 * n - 1 + (n - 1) + 1 = 3 * n - 1 by omega] at h4
  rw [h3.val]; exact h4

example : (2:ℚ) ^ (F32.emin + F32.p) ≤ |(Flt.fin true (3/2) : Flt F32).val| ^ (3 + 4) ∧
    2 * |(Flt.fin true (3/2) : Flt F32).val| ^ (3 + 4) ≤ 2 ^ F32.emax ∧ 3 + 4 ≤ 2 ^ (F32.p - 2) := by decide +kernel

end MixedNum
