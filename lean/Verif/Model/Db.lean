import Verif.Model.Traits
/-! # Decibel conversions of the floats (src/float_impl.rs:178-202) -/

namespace MixedNum
open NumOps Lit MixedLog10 MixedExp10

variable {α : Type}

/-- `mixed_mag2db` (src/float_impl.rs:180-183). -/
def mag2db [NumOps α] [Lit α] [MixedLog10 α] (x : α) : Prog α := do
  mul (← ofI32 20) (← log10 x)

/-- `mixed_db2mag` (src/float_impl.rs:184-188). -/
def db2mag [NumOps α] [Lit α] [MixedExp10 α] (x : α) : Prog α := do
  let exponent ← div x (← ofI32 20)
  exp10 exponent

/-- `mixed_pow2db` (src/float_impl.rs:193-196). -/
def pow2db [NumOps α] [Lit α] [MixedLog10 α] (x : α) : Prog α := do
  mul (← ofI32 10) (← log10 x)

/-- `mixed_db2pow` (src/float_impl.rs:197-201). -/
def db2pow [NumOps α] [Lit α] [MixedExp10 α] (x : α) : Prog α := do
  let exponent ← div x (← ofI32 10)
  exp10 exponent

end MixedNum
