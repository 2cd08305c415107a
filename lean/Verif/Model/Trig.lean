import Verif.Model.Traits
/-! # `src/trigonometry.rs`: sign, sin, cos, wrap_phase, powi -/

namespace MixedNum
open MixedCmp NumOps Lit MixedPi MixedNumSigned MixedPowi

variable {α : Type}

/-- `sign` (src/trigonometry.rs:25-36). -/
def sign [MixedCmp α] [Lit α] (x : α) : Prog α := do
  if lt x (← ofI32 0) then ofI32 (-1) else ofI32 1

/-- The argument folding of `sin` (src/trigonometry.rs:72-86): mirrors arguments beyond ±π/2. -/
def sinFold [MixedCmp α] [NumOps α] [Lit α] [MixedPi α] [MixedNumSigned α] (x : α) : Prog α := do
  let piHalf ← div (← pi) (← ofI32 2)
  if lt x (← neg piHalf) then
    let delta ← add x piHalf
    sub (← neg piHalf) delta
  else if lt piHalf x then
    let delta ← sub x piHalf
    sub piHalf delta
  else
    pure x

/-- `sin` (src/trigonometry.rs:69-94). The folding is split off into `sinFold`; order of evaluation as in Rust. -/
def sin [MixedCmp α] [NumOps α] [Lit α] [MixedPi α] [MixedNumSigned α] [MixedPowi α] (x : α) : Prog α := do
  let x_ ← sinFold x
  let s ← sub x_ (← div (← powi x_ 3) (← ofI32 6))
  let s ← add s (← div (← powi x_ 5) (← ofI32 120))
  let s ← sub s (← div (← powi x_ 7) (← ofI32 5040))
  add s (← div (← powi x_ 9) (← ofI32 362880))

/-- `wrap_phase` (src/trigonometry.rs:163-180). -/
def wrapPhase [MixedCmp α] [NumOps α] [Lit α] [MixedPi α] [MixedNumSigned α] (phi : α) : Prog α := do
  let pi_ ← pi
  let tau ← mul (← ofI32 2) pi_
  let t ← whileLoop (fun t => do pure (lt t (← neg pi_))) (fun t => add t tau) phi
  whileLoop (fun t => pure (le pi_ t)) (fun t => sub t tau) t

/-- `cos` (src/trigonometry.rs:136-145). -/
def cos [MixedCmp α] [NumOps α] [Lit α] [MixedPi α] [MixedNumSigned α] [MixedPowi α] (x : α) : Prog α := do
  let piHalf ← div (← pi) (← ofI32 2)
  let shifted ← add x piHalf
  let shifted ← wrapPhase shifted
  sin shifted

/-- The loop `for _i in 0..k { temp = temp*base; }` of `powi` (src/trigonometry.rs:209-211). -/
def powiLoop [NumOps α] (base : α) : ℕ → α → Prog α
  | 0, temp => pure temp
  | k + 1, temp => do
    let temp ← mul temp base
    powiLoop base k temp

/-- `powi` (src/trigonometry.rs:200-213); `power` is a `usize`. -/
def powi [NumOps α] [Lit α] (base : α) (power : ℕ) : Prog α :=
  if power = 0 then ofI32 1 else powiLoop base (power - 1) base

/-- `exp as usize` for `exp: i32` on a 64-bit target (src/int_impl.rs:52, src/fixed_impl.rs:171,225). -/
def usizeOfI32 (e : ℤ) : ℕ := (e % 2 ^ 64).toNat

/-- `x as i32` for `x: usize` (src/complex/ops.rs:162). -/
def i32OfUsize (n : ℕ) : ℤ := ((n : ℤ) + 2 ^ 31) % 2 ^ 32 - 2 ^ 31

/-- `mixed_powi` of the integer and fixed-point types (src/int_impl.rs:48-54, src/fixed_impl.rs:167-173, 221-227). -/
def mixedPowiVia [NumOps α] [Lit α] (x : α) (e : ℤ) : Prog α := MixedNum.powi x (usizeOfI32 e)

end MixedNum
