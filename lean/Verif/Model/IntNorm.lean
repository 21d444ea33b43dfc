import Verif.Model.MachineInt
import Verif.Model.VectorOps
/-!
# Norms at the primitive integer types
The macros `derive_primitive_unsigned` / `derive_primitive_signed` of src/traits.rs:80-134 (instantiated at 174-184) implement `Dot`
and the norm traits for the primitive integers; the vector norms of src/vector/ops/base.rs:234-263 are then available for
`Vector<u8, N>` … `Vector<isize, N>`.
* `SInt w` / `UInt w`: the signed / unsigned `w`-bit type in the release profile (wrapping arithmetic).
* `normL1D`, `normLInfD`: the same functions in the debug profile at a signed type, on the integer values, an overflow being a panic.
-/
namespace Vecmat

/-- A signed primitive integer (`i8 … i64`, `isize`), release profile. Instances: src/traits.rs:110-178. -/
@[ext] structure SInt (w : Nat) where
  bits : BitVec w
deriving DecidableEq
/-- An unsigned primitive integer (`u8 … u64`, `usize`), release profile. Instances: src/traits.rs:110-178. -/
@[ext] structure UInt (w : Nat) where
  bits : BitVec w
deriving DecidableEq

namespace SInt
variable {w : Nat}
/-- The mathematical value of a signed integer. Instances: src/traits.rs:110-178. -/
def value (x : SInt w) : Int := x.bits.toInt
/-- Rust `+`, wrapping. Instances: src/traits.rs:110-178. -/
instance : Add (SInt w) := ⟨fun x y => ⟨x.bits + y.bits⟩⟩
/-- Rust `*`, wrapping. Instances: src/traits.rs:110-178. -/
instance : Mul (SInt w) := ⟨fun x y => ⟨x.bits * y.bits⟩⟩
/-- Rust `iN::abs` (core), wrapping: `if self.is_negative() { -self } else { self }`. Called at src/traits.rs:115-130. -/
def abs (x : SInt w) : SInt w := if x.bits.toInt < 0 then ⟨-x.bits⟩ else x
/-- `PartialOrd` of the signed integers (core). Instances: src/traits.rs:110-178. -/
instance : RPartialOrd (SInt w) := ⟨fun x y => some (compare x.bits.toInt y.bits.toInt)⟩
/-- `NormL1` and `NormLInf` for signed primitives, src/traits.rs:112-117, 127-132: `self.abs()`. -/
instance : ScalarNorm (SInt w) := ⟨abs, abs⟩
/-- `NormL2::norm_l2` for signed primitives, src/traits.rs:118-122: `self.abs()`. -/
def normL2 (x : SInt w) : SInt w := x.abs
/-- `NormL2::norm_l2_sqr` for signed primitives, src/traits.rs:123-125: `self * self`. -/
def normL2Sqr (x : SInt w) : SInt w := x * x
/-- `Dot` for primitives, src/traits.rs:71-76: `self * other`. -/
def dot (x y : SInt w) : SInt w := x * y
end SInt

namespace UInt
variable {w : Nat}
/-- The mathematical value of an unsigned integer. Instances: src/traits.rs:110-178. -/
def value (x : UInt w) : Nat := x.bits.toNat
/-- Rust `+`, wrapping. Instances: src/traits.rs:110-178. -/
instance : Add (UInt w) := ⟨fun x y => ⟨x.bits + y.bits⟩⟩
/-- Rust `*`, wrapping. Instances: src/traits.rs:110-178. -/
instance : Mul (UInt w) := ⟨fun x y => ⟨x.bits * y.bits⟩⟩
/-- `PartialOrd` of the unsigned integers (core). Instances: src/traits.rs:110-178. -/
instance : RPartialOrd (UInt w) := ⟨fun x y => some (compare x.bits.toNat y.bits.toNat)⟩
/-- `NormL1` and `NormLInf` for unsigned primitives, src/traits.rs:84-89, 99-104: `self`. -/
instance : ScalarNorm (UInt w) := ⟨fun x => x, fun x => x⟩
/-- `NormL2::norm_l2` for unsigned primitives, src/traits.rs:90-94: `self`. -/
def normL2 (x : UInt w) : UInt w := x
/-- `NormL2::norm_l2_sqr` for unsigned primitives, src/traits.rs:95-97: `self * self`. -/
def normL2Sqr (x : UInt w) : UInt w := x * x
/-- `Dot` for primitives, src/traits.rs:71-76: `self * other`. -/
def dot (x y : UInt w) : UInt w := x * y
end UInt

/-- Result of an overflow-checked operation at the type with range `lo..=hi`: the exact value, or a panic. Instances: src/traits.rs:110-178. -/
def checked (lo hi x : Int) : Res Int := if lo ≤ x ∧ x ≤ hi then .ok x else .error .arithOverflow

/-- Rust `iN::abs` (core) with overflow checks. Called at src/traits.rs:115-130. -/
def absD (lo hi x : Int) : Res Int := if x < 0 then checked lo hi (-x) else .ok x

namespace Vec
variable {N : Nat}
/-- `NormL1::norm_l1`, src/vector/ops/base.rs:234-242, at a signed primitive with overflow checks. -/
def normL1D (lo hi : Int) (v : Vec Int N) : Res Int := do
  let a ← v.mapM (m := Res) (absD lo hi)
  a.foldFirstM (m := Res) fun x y => checked lo hi (x + y)
/-- `NormLInf::norm_l_inf`, src/vector/ops/base.rs:255-263, at a signed primitive with overflow checks. -/
def normLInfD (lo hi : Int) (v : Vec Int N) : Res Int := do
  let a ← v.mapM (m := Res) (absD lo hi)
  a.foldFirstM (m := Res) fun x y => pure (if x < y then y else x)
end Vec
end Vecmat
