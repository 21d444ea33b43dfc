import Verif.Model.Real
import Mathlib.Data.Int.Log
/-!
# Floating-point scalars
The crate is generic; instantiated at `f32`/`f64` the scalar operations are the exact ones followed by a rounding.
No function of /repo is modelled here; this is a scalar type to which the generic models are applied.
-/
namespace Vecmat

/-- A floating-point number of the format with rounding function `F`.  `F x = some y`: the exact result `x` is rounded to `y`;
`F x = none`: the result overflows or underflows (leaves the range in which the relative error is bounded).
`none` is the state after such an exception, a division by zero or a square root of a negative number; it is propagated by every
operation.  (Simplification: signed zeros, infinities, NaN payloads and subnormal results are all represented by `none`, so the
theorems speak about computations in which none of them occurs.) The scalar type `f32`/`f64` of the instances of src/ (language and libm, not the crate), e.g. at src/vector/dot.rs:24-40. -/
structure Fl (F : ℝ → Option ℝ) where
  val : Option ℝ

namespace Fl
variable {F : ℝ → Option ℝ}
/-- The number `x`, taken as representable. The scalar type `f32`/`f64` of the instances of src/ (language and libm, not the crate), e.g. at src/distr.rs:15-16. -/
def of (x : ℝ) : Fl F := ⟨some x⟩
/-- Rounded unary operation. The scalar type `f32`/`f64` of the instances of src/ (language and libm, not the crate), e.g. at src/vector/math.rs:16. -/
def lift1 (f : ℝ → ℝ) (a : Fl F) : Fl F := ⟨a.val.bind fun x => F (f x)⟩
/-- Rounded binary operation. The scalar type `f32`/`f64` of the instances of src/ (language and libm, not the crate), e.g. at src/vector/ops/base.rs:28. -/
def lift2 (f : ℝ → ℝ → ℝ) (a b : Fl F) : Fl F := ⟨a.val.bind fun x => b.val.bind fun y => F (f x y)⟩
/-- Float `+`. Used at src/vector/ops/base.rs:28. -/
noncomputable instance : Add (Fl F) := ⟨lift2 (· + ·)⟩
/-- Float `-`. Used at src/vector/ops/base.rs:37. -/
noncomputable instance : Sub (Fl F) := ⟨lift2 (· - ·)⟩
/-- Float `*`. Used at src/vector/ops/base.rs:46. -/
noncomputable instance : Mul (Fl F) := ⟨lift2 (· * ·)⟩
open Classical in
/-- Float `/`. Used at src/vector/ops/base.rs:55. -/
noncomputable instance : Div (Fl F) :=
  ⟨fun a b => ⟨a.val.bind fun x => b.val.bind fun y => if y = 0 then none else F (x / y)⟩⟩
/-- Float unary `-`: exact. Used at src/vector/ops/base.rs:18. -/
noncomputable instance : Neg (Fl F) := ⟨fun a => ⟨a.val.map fun x => -x⟩⟩
/-- `0.0`. Used at src/vector/ops/base.rs:203-209. -/
noncomputable instance : Zero (Fl F) := ⟨⟨some 0⟩⟩
/-- `1.0`. Used at src/vector/ops/iter.rs:16. -/
noncomputable instance : One (Fl F) := ⟨⟨some 1⟩⟩
open Classical in
/-- `num_traits::Float` on `f32`/`f64`: `abs`, `min`, `max`, `signum` and the rounding functions are exact, `sqrt` and the other
functions are the exact function followed by a rounding. (Simplification: libm functions other than `sqrt` are not guaranteed to be
correctly rounded; no theorem about `Fl` uses them.) Used at src/vector/math.rs:16-52, src/transform/rotation.rs:44-56. -/
noncomputable instance : FloatOps (Fl F) where
  abs a := ⟨a.val.map FloatOps.abs⟩
  absSub := lift2 FloatOps.absSub
  signum a := ⟨a.val.map FloatOps.signum⟩
  cbrt := lift1 FloatOps.cbrt
  sqrt a := ⟨a.val.bind fun x => if x < 0 then none else F (Real.sqrt x)⟩
  fmin a b := ⟨a.val.bind fun x => b.val.map fun y => min x y⟩
  fmax a b := ⟨a.val.bind fun x => b.val.map fun y => max x y⟩
  acos := lift1 FloatOps.acos
  asin := lift1 FloatOps.asin
  atan := lift1 FloatOps.atan
  atan2 := lift2 FloatOps.atan2
  cosh := lift1 FloatOps.cosh
  hypot := lift2 FloatOps.hypot
  sinh := lift1 FloatOps.sinh
  tan := lift1 FloatOps.tan
  tanh := lift1 FloatOps.tanh
  log2 := lift1 FloatOps.log2
  mulAdd a b c := ⟨a.val.bind fun x => b.val.bind fun y => c.val.bind fun z => F (x * y + z)⟩
  exp := lift1 FloatOps.exp
  powi a n := lift1 (fun x => FloatOps.powi x n) a
  ln := lift1 FloatOps.ln
  powf := lift2 FloatOps.powf
  log := lift2 FloatOps.log
  sin := lift1 FloatOps.sin
  cos := lift1 FloatOps.cos
  asinh := lift1 FloatOps.asinh
  acosh := lift1 FloatOps.acosh
  atanh := lift1 FloatOps.atanh
  floor a := ⟨a.val.map FloatOps.floor⟩
  ceil a := ⟨a.val.map FloatOps.ceil⟩
  round a := ⟨a.val.map FloatOps.round⟩
  trunc a := ⟨a.val.map FloatOps.trunc⟩
  fract a := ⟨a.val.map FloatOps.fract⟩
  recip := lift1 FloatOps.recip
  exp2 := lift1 FloatOps.exp2
  log10 := lift1 FloatOps.log10
  sinCos a := (lift1 FloatOps.sin a, lift1 FloatOps.cos a)
  expM1 := lift1 FloatOps.expM1
  ln1p := lift1 FloatOps.ln1p
  epsilon := ⟨some (1 / 2 ^ 52)⟩
end Fl

open Classical in
/-- Round to nearest with a significand of `p` bits; a non-zero number whose binary exponent is outside `emin..=emax` is an
exception. (`p = 53, emin = -1022, emax = 1023` for `f64`, `p = 24, emin = -126, emax = 127` for `f32`; ties go up instead of
to even, and a carry to the next binade at `emax` is not an exception; no theorem depends on either.) The scalar type `f32`/`f64` of the instances of src/ (language and libm, not the crate), e.g. at src/vector/dot.rs:29. -/
noncomputable def rdBin (p : Nat) (emin emax : Int) (x : ℝ) : Option ℝ :=
  if x = 0 then some 0
  else
    let e := Int.log 2 |x|
    if emin ≤ e ∧ e ≤ emax then some (round (x / 2 ^ (e - p + 1)) * 2 ^ (e - p + 1)) else none

end Vecmat
