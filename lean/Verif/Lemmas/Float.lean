import Verif.Model.Float
import Verif.Lemmas.Prog
/-! Evaluation rules for the float instances. -/

namespace MixedNum
namespace Flt
variable {f : Format} (a b : Flt f)
@[simp] theorem add_def : NumOps.add a b = pure (a.add b) := rfl
@[simp] theorem sub_def : NumOps.sub a b = pure (a.sub b) := rfl
@[simp] theorem mul_def : NumOps.mul a b = pure (a.mul b) := rfl
@[simp] theorem div_def : NumOps.div a b = pure (a.div b) := rfl
@[simp] theorem lt_def : MixedCmp.lt a b = a.lt b := rfl
@[simp] theorem le_def : MixedCmp.le a b = (a.lt b || a.beq b) := rfl
@[simp] theorem beq_def : MixedCmp.beq a b = a.beq b := rfl
@[simp] theorem neg_def : MixedNumSigned.neg a = pure a.neg := rfl
@[simp] theorem abs_def : MixedAbs.abs a = pure a.abs := rfl
@[simp] theorem ofI32_def (n : ℤ) : (Lit.ofI32 n : Prog (Flt f)) = pure (ofExact false n) := rfl
@[simp] theorem ofF64_def (q : ℚ) : (Lit.ofF64 q : Prog (Flt f)) = pure (ofExact false q) := rfl
@[simp] theorem zero_def : (MixedZero.zero : Flt f) = .fin false 0 := rfl
end Flt
end MixedNum
