import Verif.Model.Word
import Verif.Model.Traits
/-! # `src/trigonometry/sqrt.rs`: the NIIRF square root -/

namespace MixedNum
open MixedCmp NumOps Lit MixedPowi MixedAbs MixedZero

variable {α : Type}

/-- `beta` (src/trigonometry/sqrt.rs:84-137). Rust converts all twelve table entries before the
comparisons (lines 88-99); the model keeps that, because a conversion may panic.
The table entries are the `f64` values of the decimal literals. -/
def beta [MixedCmp α] [Lit α] (x : α) : Prog α := do
  let b0 ← ofF64 (f64Round 0.961914)
  let b1 ← ofF64 (f64Round 0.840332)
  let b2 ← ofF64 (f64Round 0.782715)
  let b3 ← ofF64 (f64Round 0.734869)
  let b4 ← ofF64 (f64Round 0.691406)
  let b5 ← ofF64 (f64Round 0.654297)
  let b6 ← ofF64 (f64Round 0.622070)
  let b7 ← ofF64 (f64Round 0.595215)
  let b8 ← ofF64 (f64Round 0.573731)
  let b9 ← ofF64 (f64Round 0.556152)
  let b10 ← ofF64 (f64Round 0.516113)
  let b11 ← ofF64 (f64Round 0.502930)
  if lt x (← ofF64 (5/16)) then pure b0
  else if lt x (← ofF64 (6/16)) then pure b1
  else if lt x (← ofF64 (7/16)) then pure b2
  else if lt x (← ofF64 (8/16)) then pure b3
  else if lt x (← ofF64 (9/16)) then pure b4
  else if lt x (← ofF64 (10/16)) then pure b5
  else if lt x (← ofF64 (11/16)) then pure b6
  else if lt x (← ofF64 (12/16)) then pure b7
  else if lt x (← ofF64 (13/16)) then pure b8
  else if lt x (← ofF64 (14/16)) then pure b9
  else if lt x (← ofF64 (15/16)) then pure b10
  else pure b11

/-- The counter `norm` of `niirf` (src/trigonometry/sqrt.rs:71). In Rust it is an `i32`: `i32 .checked` in a debug build,
`i32 .wrapping` in a release build. The instance on exact reals, which is not a Rust type, uses an unbounded counter. -/
inductive Counter
  | exact
  | i32 (m : Mode)

/-- The result of an operation on the counter whose mathematical value is `n` (`norm -= 1`, `norm += 1`, `norm.abs()`,
src/trigonometry/sqrt.rs:74,79,146,152,157): a panic or a wrap-around if it is no `i32`. -/
def Counter.fit : Counter → ℤ → Prog ℤ
  | .exact, n => pure n
  | .i32 .checked, n => if Fits true 32 n then pure n else Prog.fail .overflow
  | .i32 .wrapping, n => pure (wrapInt true 32 n)

/-- Normalisation to 0.25 ≤ x < 1 (src/trigonometry/sqrt.rs:68-81), on the loop state (x_, norm). -/
def niirfNormalize [MixedCmp α] [NumOps α] [Lit α] (c : Counter) (x_ : α) : Prog (α × ℤ) := do
  let s ← whileLoop (fun (s : α × ℤ) => do pure (lt s.1 (← ofF64 (1/4))))
    (fun s => do
      let k ← c.fit (s.2 - 1)
      pure (← mul s.1 (← ofI32 4), k)) (x_, 0)
  whileLoop (fun (s : α × ℤ) => do pure (le (← ofF64 1) s.1))
    (fun s => do
      let k ← c.fit (s.2 + 1)
      pure (← div s.1 (← ofI32 4), k)) s

/-- The iteration `for _n in 1..iterations { y = beta(x_)*(x_-y²)+y; }` (src/trigonometry/sqrt.rs:141-144);
`k` is the number of passes. -/
def niirfIter [MixedCmp α] [NumOps α] [Lit α] [MixedPowi α] (x_ : α) : ℕ → α → Prog α
  | 0, y => pure y
  | k + 1, y => do
    let b ← beta x_
    let y ← add (← mul b (← sub x_ (← powi y 2))) y
    niirfIter x_ k y

/-- Denormalisation (src/trigonometry/sqrt.rs:146-159), on the loop state (y, norm). -/
def niirfDenormalize [NumOps α] [Lit α] (c : Counter) (y : α) (norm : ℤ) : Prog α := do
  let s ← whileLoop (fun (s : α × ℤ) => do pure ((← c.fit |s.2|) != 0))
    (fun s => do
      if 0 < s.2 then
        let y ← mul s.1 (← ofI32 2)
        pure (y, ← c.fit (s.2 - 1))
      else if s.2 < 0 then
        let y ← div s.1 (← ofI32 2)
        pure (y, ← c.fit (s.2 + 1))
      else pure s) (y, norm)
  pure s.1

/-- `niirf` (src/trigonometry/sqrt.rs:60-161). `1..iterations` has `iterations - 1` elements (none for 0). -/
def niirf [MixedCmp α] [NumOps α] [Lit α] [MixedPowi α] [MixedAbs α] [MixedZero α] (c : Counter) (x : α)
    (iterations : ℕ) : Prog α := do
  if beq x zero then
    pure zero
  else
    let x_ ← abs x
    let s ← niirfNormalize c x_
    let y ← add (← div (← mul (← ofI32 2) s.1) (← ofI32 3)) (← ofF64 (f64Round 0.354167))
    let y ← niirfIter s.1 (iterations - 1) y
    niirfDenormalize c y s.2

end MixedNum
