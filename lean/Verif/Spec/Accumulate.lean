import Verif.Model.Complex
import Verif.Model.Fixed
import Verif.Spec.Outcome
/-! # Adding up a list (specification only)

The crate has no `Sum`; these are the loops a caller writes with its operators. -/

namespace MixedNum
variable {α : Type} [NumOps α]

/-- `for w in ws { z = z + w }`. -/
def addUp (z : Cartesian α) (ws : List (Cartesian α)) : Prog (Cartesian α) := ws.foldlM Cartesian.add z

/-- `for w in ws { z += w }`. -/
def addUpAssign (z : Cartesian α) (ws : List (Cartesian α)) : Prog (Cartesian α) := ws.foldlM Cartesian.addAssign z

/-- `for w in ws { z = z - w }`. -/
def takeAway (z : Cartesian α) (ws : List (Cartesian α)) : Prog (Cartesian α) := ws.foldlM Cartesian.sub z

/-- `for (a, b) in ps { z = z + a * b }`. -/
def dotUp (z : Cartesian α) (ps : List (Cartesian α × Cartesian α)) : Prog (Cartesian α) :=
  ps.foldlM (fun z p => do z.add (← p.1.mul p.2)) z

variable {m : Mode} {s : Bool} {W F : ℕ}

/-- What a loop over words must do when `X k`, `Y k` are its exact values after `k` of `n` steps: return the last if all are
representable, otherwise panic (checks on) or return the last one reduced (checks off). -/
def LoopOutcome {α : Type} (v : α → ℤ) (m : Mode) (s : Bool) (W n : ℕ) (X Y : ℕ → ℤ) (p : Prog (Cartesian α)) : Prop :=
  ((∀ k ≤ n, InRange s W (X k) ∧ InRange s W (Y k)) → ∃ c, Returns p c ∧ v c.re = X n ∧ v c.im = Y n) ∧
  (¬ (∀ k ≤ n, InRange s W (X k) ∧ InRange s W (Y k)) →
    match m with
    | .checked => Panics p .overflow
    | .wrapping => ∃ c, Returns p c ∧ IsReduction s W (X n) (v c.re) ∧ IsReduction s W (Y n) (v c.im))

/-- The exact imaginary part after `k` steps of `+=`: the real part so far plus the imaginary part of the last term. -/
def assignIm {α : Type} (v : α → ℤ) (z : Cartesian α) (ws : List (Cartesian α)) (k : ℕ) : ℤ :=
  match (ws.take k).getLast? with
  | none => v z.im
  | some w => v z.re + ((ws.take k).map (fun w => v w.re)).sum + v w.im

/-- The products of a term on fixed point, in units: how much a term can add to either part of an inner product. -/
def termRe (p : Cartesian (Fixed m s W F) × Cartesian (Fixed m s W F)) : ℤ :=
  |p.1.re.val * p.2.re.val / 2 ^ F| + |p.1.im.val * p.2.im.val / 2 ^ F|
def termIm (p : Cartesian (Fixed m s W F) × Cartesian (Fixed m s W F)) : ℤ :=
  |p.1.re.val * p.2.im.val / 2 ^ F| + |p.1.im.val * p.2.re.val / 2 ^ F|

end MixedNum
