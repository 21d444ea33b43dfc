/-!
# Scalar interfaces
The crate is generic in the scalar type through operator traits.  They are modelled by classes **without laws**;
`Add`, `Sub`, `Mul`, `Div`, `Mod`, `Neg`, `Zero`, `One`, `BEq`, `AndOp`, `OrOp`, `XorOp`, `Complement` are core Lean classes.
-/
namespace Vecmat

/-- `num_traits::Zero::is_zero`. (`Zero::zero` is core `Zero`.) Used at src/vector/ops/base.rs:209. -/
class IsZero (T : Type) where
  isZero : T → Bool

/-- `core::cmp::PartialOrd::partial_cmp`; `none` = incomparable (NaN). Bound of src/vector/ops/base.rs:222 and src/vector/ops/vcmp.rs:17. -/
class RPartialOrd (T : Type) where
  pcmp : T → T → Option Ordering

section
variable {T : Type} [RPartialOrd T]
/-- `PartialOrd::lt` (core): `partial_cmp == Some(Less)`. src/vector/ops/vcmp.rs:20. -/
def rlt (x y : T) : Bool := RPartialOrd.pcmp x y == some .lt
/-- `PartialOrd::le` (core): `Some(Less | Equal)`. src/vector/ops/vcmp.rs:23. -/
def rle (x y : T) : Bool := RPartialOrd.pcmp x y == some .lt || RPartialOrd.pcmp x y == some .eq
/-- `PartialOrd::gt` (core): `Some(Greater)`. src/vector/ops/vcmp.rs:26. -/
def rgt (x y : T) : Bool := RPartialOrd.pcmp x y == some .gt
/-- `PartialOrd::ge` (core): `Some(Greater | Equal)`. src/vector/ops/vcmp.rs:29. -/
def rge (x y : T) : Bool := RPartialOrd.pcmp x y == some .gt || RPartialOrd.pcmp x y == some .eq
end

/-- Scalar `NormL1`/`NormLInf` of src/traits.rs:4-27 restricted to scalars with `Output = Self`
(src/traits.rs:80-172: `abs` for signed and float types, identity for unsigned ones). -/
class ScalarNorm (T : Type) where
  normL1 : T → T
  normLInf : T → T

/-- `num_integer` floor division (external crate). Used at src/vector/ops/int.rs:9-16. -/
class FloorDiv (T : Type) where
  divFloor : T → T → T
  modFloor : T → T → T
  divModFloor : T → T → T × T

/-- `num_traits::Float` functions used by the crate (src/vector/math.rs, src/transform/*, src/distr.rs). -/
class FloatOps (T : Type) where
  abs : T → T
  absSub : T → T → T
  signum : T → T
  cbrt : T → T
  sqrt : T → T
  fmin : T → T → T
  fmax : T → T → T
  acos : T → T
  asin : T → T
  atan : T → T
  atan2 : T → T → T
  cosh : T → T
  hypot : T → T → T
  sinh : T → T
  tan : T → T
  tanh : T → T
  log2 : T → T
  mulAdd : T → T → T → T
  exp : T → T
  powi : T → Int → T
  ln : T → T
  powf : T → T → T
  log : T → T → T
  sin : T → T
  cos : T → T
  asinh : T → T
  acosh : T → T
  atanh : T → T
  floor : T → T
  ceil : T → T
  round : T → T
  trunc : T → T
  fract : T → T
  recip : T → T
  exp2 : T → T
  log10 : T → T
  sinCos : T → T × T
  expM1 : T → T
  ln1p : T → T
  /-- `Float::epsilon()` -/
  epsilon : T

/-- `NumCast::from(2.0)`/`from(2)` and `NumCast::from(0.5)`, unwrapped (src/complex/moebius.rs:157,
src/transform/linear.rs:146, src/transform/rotation.rs:119,169,180,232,271,272,340).  The `unwrap` succeeds for every
primitive numeric type and is not modelled as a possible panic. -/
class NumConst (T : Type) where
  two : T
  half : T
export NumConst (two half)

/-- `num_traits::FloatConst::PI()`. Used at src/transform/rotation.rs:119, 267. -/
class FloatConst (T : Type) where
  pi : T

end Vecmat
