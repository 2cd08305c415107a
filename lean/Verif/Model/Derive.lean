import Verif.Model.Complex
import Verif.Model.PInt
import Verif.Model.Fixed
import Verif.Model.Float
/-! # The derived `Default` of `Cartesian` and `Polar` (src/complex.rs:12,22) -/

namespace MixedNum
variable {α : Type}

/-- `core::default::Default` of a component type. -/
class RustDefault (α : Type) where
  default : α

/-- `iN::default()`, `uN::default()`: 0 (standard library; used by the derive at src/complex.rs:12,22). -/
instance {m : Mode} {s : Bool} {W : ℕ} : RustDefault (PInt m s W) where
  default := ⟨⟨0, PInt.zero_fits.1, PInt.zero_fits.2⟩⟩

/-- `FixedI::default()`, `FixedU::default()`: all bits zero (crate `fixed`; used by the derive at src/complex.rs:12,22). -/
instance {m : Mode} {s : Bool} {W F : ℕ} : RustDefault (Fixed m s W F) where
  default := ⟨⟨0, PInt.zero_fits.1, PInt.zero_fits.2⟩⟩

/-- `f32::default()`, `f64::default()`: +0 (standard library; used by the derive at src/complex.rs:12,22). -/
instance {f : Format} : RustDefault (Flt f) where
  default := .fin false 0

/-- `Default for Cartesian`, derived (src/complex.rs:12). -/
instance [RustDefault α] : RustDefault (Cartesian α) where
  default := ⟨RustDefault.default, RustDefault.default⟩

/-- `Default for Polar`, derived (src/complex.rs:22). -/
instance [RustDefault α] : RustDefault (Polar α) where
  default := ⟨RustDefault.default, RustDefault.default⟩

end MixedNum
