import Verif.Model.Complex
/-!
# Targets with another pointer width

The rest of the model takes `usize` to have 64 bits. Integer powers go through `exp as usize`, so here they are
once more with the width as a parameter; `P` is 16 on AVR and MSP430, 32 on most microcontrollers.
-/

namespace MixedNum
variable {α : Type}

/-- `exp as usize` for `exp: i32` (src/int_impl.rs:52, src/fixed_impl.rs:171,225): sign extension or truncation to `P` bits. -/
def usizeOfI32At (P : ℕ) (e : ℤ) : ℕ := (e % 2 ^ P).toNat

/-- `mixed_powi` of the integer and fixed-point types (src/int_impl.rs:48-54, src/fixed_impl.rs:167-173, 221-227). -/
def mixedPowiAt [NumOps α] [Lit α] (P : ℕ) (x : α) (e : ℤ) : Prog α := MixedNum.powi x (usizeOfI32At P e)

end MixedNum
