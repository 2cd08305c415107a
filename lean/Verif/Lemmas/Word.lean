import Mathlib.Tactic.Ring
import Mathlib.Tactic.Linarith
import Mathlib.Data.Int.ModEq
import Verif.Model.Fixed
import Verif.Model.PInt
import Verif.Lemmas.Prog
/-! Facts about machine words and the arithmetic of `PInt` and `Fixed`. -/

namespace MixedNum

theorem whi_sub_wlo {s : Bool} {W : ℕ} (hW : 0 < W) : whi s W - wlo s W = 2 ^ W := by
  obtain ⟨k, rfl⟩ : ∃ k, W = k + 1 := ⟨W - 1, by omega⟩
  cases s <;> simp [wlo, whi, pow_succ]
  ring

theorem wrapInt_of_fits {s : Bool} {W : ℕ} {n : ℤ} (h : Fits s W n) : wrapInt s W n = n := by
  unfold wrapInt; obtain ⟨h1, h2⟩ := h
  rw [Int.emod_eq_of_lt (by omega) (by omega)]; ring

theorem fits_wrapInt (s : Bool) (W : ℕ) (n : ℤ) : Fits s W (wrapInt s W n) :=
  ⟨wlo_le_wrapInt s W n, wrapInt_lt_whi s W n⟩

theorem wrapInt_modEq {s : Bool} {W : ℕ} (hW : 0 < W) (n : ℤ) : wrapInt s W n ≡ n [ZMOD 2 ^ W] := by
  unfold wrapInt; rw [whi_sub_wlo hW]
  have : wlo s W + (n - wlo s W) % 2 ^ W ≡ wlo s W + (n - wlo s W) [ZMOD 2 ^ W] :=
    (Int.ModEq.refl _).add (Int.mod_modEq _ _)
  simpa using this

/-- The reduction is the only representable number in the residue class. -/
theorem eq_of_modEq_of_fits {s : Bool} {W : ℕ} (hW : 0 < W) {a b : ℤ} (ha : Fits s W a) (hb : Fits s W b)
    (h : a ≡ b [ZMOD 2 ^ W]) : a = b := by
  have hd : (2:ℤ) ^ W ∣ a - b := h.symm.dvd
  have hs := whi_sub_wlo (s := s) hW
  have h1 := ha.1; have h2 := ha.2; have h3 := hb.1; have h4 := hb.2
  have : |a - b| < 2 ^ W := by rw [abs_lt]; constructor <;> omega
  have := Int.eq_zero_of_abs_lt_dvd hd this
  omega

theorem wrapInt_congr {s : Bool} {W : ℕ} (hW : 0 < W) {a b : ℤ} (h : a ≡ b [ZMOD 2 ^ W]) :
    wrapInt s W a = wrapInt s W b :=
  eq_of_modEq_of_fits hW (fits_wrapInt s W a) (fits_wrapInt s W b)
    (((wrapInt_modEq hW a).trans h).trans (wrapInt_modEq hW b).symm)

theorem wlo_nonpos (s : Bool) (W : ℕ) : wlo s W ≤ 0 := PInt.zero_fits.1
theorem whi_pos (s : Bool) (W : ℕ) : 0 < whi s W := PInt.zero_fits.2
theorem fits_zero (s : Bool) (W : ℕ) : Fits s W 0 := PInt.zero_fits

/-- Numbers between two representable ones are representable. -/
theorem Fits.between {s : Bool} {W : ℕ} {a b n : ℤ} (ha : Fits s W a) (hb : Fits s W b) (h1 : a ≤ n) (h2 : n ≤ b) :
    Fits s W n := ⟨le_trans ha.1 h1, lt_of_le_of_lt h2 hb.2⟩

theorem Word.fits {s : Bool} {W : ℕ} (x : Word s W) : Fits s W x.val := ⟨x.lo_le, x.lt_hi⟩

namespace PInt
variable {m : Mode} {s : Bool} {W : ℕ}

/-- The integer with a given representable value. -/
def mkv (n : ℤ) (h : Fits s W n) : PInt m s W := ⟨⟨n, h.1, h.2⟩⟩
@[simp] theorem mkv_val (n : ℤ) (h : Fits s W n) : (mkv n h : PInt m s W).val = n := rfl
theorem fits (x : PInt m s W) : Fits s W x.val := x.toWord.fits

theorem fit_of_fits {n : ℤ} (h : Fits s W n) : (fit n : Prog (PInt m s W)) = pure (mkv n h) := by
  unfold fit Word.fit; rw [dif_pos h]; rfl
theorem fit_checked {n : ℤ} (h : ¬ Fits s W n) : (fit n : Prog (PInt .checked s W)) = Prog.fail .overflow := by
  unfold fit Word.fit; rw [dif_neg h]; rfl
theorem fit_wrapping (n : ℤ) :
    (fit n : Prog (PInt .wrapping s W)) = pure (mkv (wrapInt s W n) (fits_wrapInt s W n)) := by
  by_cases h : Fits s W n
  · rw [fit_of_fits h]; congr 1; ext; simp [wrapInt_of_fits h]
  · unfold fit Word.fit; rw [dif_neg h]; rfl

@[simp] theorem add_def (a b : PInt m s W) : NumOps.add a b = fit (a.val + b.val) := rfl
@[simp] theorem sub_def (a b : PInt m s W) : NumOps.sub a b = fit (a.val - b.val) := rfl
@[simp] theorem mul_def (a b : PInt m s W) : NumOps.mul a b = fit (a.val * b.val) := rfl
@[simp] theorem lt_def (a b : PInt m s W) : MixedCmp.lt a b = decide (a.val < b.val) := rfl
@[simp] theorem le_def (a b : PInt m s W) : MixedCmp.le a b = decide (a.val ≤ b.val) := rfl
@[simp] theorem beq_def (a b : PInt m s W) : MixedCmp.beq a b = decide (a.val = b.val) := rfl
@[simp] theorem zero_val : (MixedZero.zero : PInt m s W).val = 0 := rfl
@[simp] theorem neg_def (a : PInt m true W) : MixedNumSigned.neg a = fit (-a.val) := rfl

theorem div_def (a b : PInt m s W) : NumOps.div a b = if b.val = 0 then Prog.fail .divByZero
    else if h : Fits s W (a.val.tdiv b.val) then pure (mkv _ h) else Prog.fail .overflow := rfl

@[simp] theorem ofI32_def (n : ℤ) :
    (Lit.ofI32 n : Prog (PInt m s W)) = pure (mkv (wrapInt s W n) (fits_wrapInt s W n)) := rfl

end PInt

namespace Fixed
variable {m : Mode} {s : Bool} {W F : ℕ}

/-- The fixed-point number with a given representable bit pattern. -/
def mkv (n : ℤ) (h : Fits s W n) : Fixed m s W F := ⟨⟨n, h.1, h.2⟩⟩
@[simp] theorem mkv_val (n : ℤ) (h : Fits s W n) : (mkv n h : Fixed m s W F).val = n := rfl
theorem fits (x : Fixed m s W F) : Fits s W x.val := x.toWord.fits

theorem fit_of_fits {n : ℤ} (h : Fits s W n) : (fit n : Prog (Fixed m s W F)) = pure (mkv n h) := by
  unfold fit Word.fit; rw [dif_pos h]; rfl
theorem fit_checked {n : ℤ} (h : ¬ Fits s W n) : (fit n : Prog (Fixed .checked s W F)) = Prog.fail .overflow := by
  unfold fit Word.fit; rw [dif_neg h]; rfl
theorem fit_wrapping (n : ℤ) :
    (fit n : Prog (Fixed .wrapping s W F)) = pure (mkv (wrapInt s W n) (fits_wrapInt s W n)) := by
  by_cases h : Fits s W n
  · rw [fit_of_fits h]; congr 1; ext; simp [wrapInt_of_fits h]
  · unfold fit Word.fit; rw [dif_neg h]; rfl

@[simp] theorem add_def (a b : Fixed m s W F) : NumOps.add a b = fit (a.val + b.val) := rfl
@[simp] theorem sub_def (a b : Fixed m s W F) : NumOps.sub a b = fit (a.val - b.val) := rfl
@[simp] theorem mul_def (a b : Fixed m s W F) : NumOps.mul a b = fit (a.val * b.val / 2 ^ F) := rfl
theorem div_def (a b : Fixed m s W F) : NumOps.div a b =
    if b.val = 0 then Prog.fail .divByZero else fit ((a.val * 2 ^ F).tdiv b.val) := rfl
@[simp] theorem lt_def (a b : Fixed m s W F) : MixedCmp.lt a b = decide (a.val < b.val) := rfl
@[simp] theorem le_def (a b : Fixed m s W F) : MixedCmp.le a b = decide (a.val ≤ b.val) := rfl
@[simp] theorem beq_def (a b : Fixed m s W F) : MixedCmp.beq a b = decide (a.val = b.val) := rfl
@[simp] theorem zero_val : (MixedZero.zero : Fixed m s W F).val = 0 := rfl
@[simp] theorem neg_def (a : Fixed m true W F) : MixedNumSigned.neg a = fit (-a.val) := rfl
@[simp] theorem ofI32_def (n : ℤ) : (Lit.ofI32 n : Prog (Fixed m s W F)) = fit (n * 2 ^ F) := rfl
@[simp] theorem ofF64_def (q : ℚ) : (Lit.ofF64 q : Prog (Fixed m s W F)) = fit (roundHalfEven (q * 2 ^ F)) := rfl

end Fixed
end MixedNum
