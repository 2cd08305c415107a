import Verif.Spec.Extremes
import Verif.Model.Word
/-! The specification's extreme values are the bounds of the model's words. -/

namespace MixedNum
variable {s : Bool} {W : ℕ}

theorem least_eq : least s W = wlo s W := rfl
theorem greatest_eq : greatest s W = whi s W - 1 := rfl

end MixedNum
