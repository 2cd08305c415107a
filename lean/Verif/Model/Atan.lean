import Verif.Model.Traits
/-! # `src/trigonometry/atan.rs`: polynomial atan2 and atan -/

namespace MixedNum
open MixedCmp NumOps Lit MixedPi MixedNumSigned MixedPowi MixedAbs MixedZero MixedReal MixedOne

variable {α : Type}

/-- `atan_poly_1` (src/trigonometry/atan.rs:15-20). 0.28125 = 9/32 is exact in `f64`. -/
def atanPoly1 [NumOps α] [Lit α] [MixedPowi α] (y x : α) : Prog α := do
  let num ← mul x y
  let den ← add (← powi x 2) (← mul (← ofF64 (9/32)) (← powi y 2))
  div num den

/-- `atan_poly_2` (src/trigonometry/atan.rs:34-39). -/
def atanPoly2 [NumOps α] [Lit α] [MixedPowi α] (y x : α) : Prog α := do
  let num ← mul x y
  let den ← add (← powi y 2) (← mul (← ofF64 (9/32)) (← powi x 2))
  div num den

/-- `atan2` (src/trigonometry/atan.rs:75-163). -/
def atan2Poly [MixedCmp α] [NumOps α] [Lit α] [MixedPi α] [MixedNumSigned α] [MixedPowi α] [MixedAbs α]
    [MixedZero α] [MixedReal α] (y x : α) : Prog α := do
  let yAbs ← abs y
  let xAbs ← abs x
  let pi_ ← pi
  let piHalf ← div (← pi) (← ofI32 2)
  if beq y zero then
    if isNegative x then pi else pure zero
  else if isPositive y then
    if beq x zero then
      div (← pi) (← ofI32 2)
    else if isPositive x then
      if lt (← sub yAbs xAbs) (← ofF64 0) then
        atanPoly1 y x                                  -- first octant
      else
        sub piHalf (← atanPoly2 y x)                   -- second octant
    else
      if le zero (← sub yAbs xAbs) then
        sub piHalf (← atanPoly2 y x)                   -- third octant
      else
        add pi_ (← atanPoly1 y x)                      -- fourth octant
  else
    if beq x zero then
      div (← neg (← pi)) (← ofI32 2)
    else if isPositive x then
      if lt (← sub yAbs xAbs) zero then
        atanPoly1 y x                                  -- "fifth" octant
      else
        sub (← neg piHalf) (← atanPoly2 y x)           -- "sixth" octant
    else
      if le zero (← sub yAbs xAbs) then
        sub (← neg piHalf) (← atanPoly2 y x)           -- "seventh" octant
      else
        add (← neg pi_) (← atanPoly1 y x)              -- "eighth" octant

/-- `atan` (src/trigonometry/atan.rs:194-198). -/
def atanPoly [MixedCmp α] [NumOps α] [Lit α] [MixedPi α] [MixedNumSigned α] [MixedPowi α] [MixedAbs α]
    [MixedZero α] [MixedReal α] [MixedOne α] (x : α) : Prog α := do
  atan2Poly x (← one)

end MixedNum
