import Verif.Lemmas.FloatSqrtTable
/-! # Concrete floats for the examples -/

namespace MixedNum

/-- `is_float n e`: a concrete finite float of magnitude `n * 2^e` is valid. -/
macro "is_float " n:term:max e:term:max : tactic =>
  `(tactic| exact ⟨$n, $e, by decide, by decide, by norm_num [pow2_eq],
    lt_of_lt_of_le (b := 2 ^ 127) (by norm_num) (pow_le_pow_right₀ (by norm_num) (by decide))⟩)

end MixedNum
