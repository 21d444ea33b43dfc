import Verif.Model.Float
import Verif.Model.VectorOps
/-!
# IEEE-754 binary floating point
The crate is generic; instantiated at `f32`/`f64` the scalar operations are those of IEEE 754 with rounding to nearest, ties to even
(Rust reference; Rust does not change the rounding mode). No function of /repo is modelled here; this is a scalar type to which the generic
models are applied. Infinities, signed zeros, subnormal numbers, overflow and underflow are modelled; NaN is a single value (payload and
sign of a NaN are not specified by Rust). A finite non-zero number is given by its real value; the operations are exact operations followed
by `Ieee.rnd`, so their results are representable.
-/
namespace Vecmat

/-- A binary interchange format: `p` bits of significand, binary exponents `emin..=emax` for normal numbers. The scalar type `f32`/`f64` of the instances of src/ (language and libm, not the crate), e.g. at src/vector/dot.rs:24-40. -/
structure Fmt where
  p : Nat
  emin : Int
  emax : Int
/-- `f32`. Instances: src/distr.rs:23-24. -/
def Fmt.f32 : Fmt := ⟨24, -126, 127⟩
/-- `f64`. Instances: src/distr.rs:23-24. -/
def Fmt.f64 : Fmt := ⟨53, -1022, 1023⟩

/-- A datum of the format `φ`. The scalar type `f32`/`f64` of the instances of src/ (language and libm, not the crate), e.g. at src/vector/dot.rs:24-40. -/
inductive Ieee (φ : Fmt) where
  | nan
  | inf (neg : Bool)
  | zero (neg : Bool)
  | num (x : ℝ) (h : x ≠ 0)

/-- Nearest integer, ties to even. The scalar type `f32`/`f64` of the instances of src/ (language and libm, not the crate), e.g. at src/vector/ops/base.rs:28. -/
noncomputable def roundEven (r : ℝ) : ℤ :=
  if r - ⌊r⌋ < 1 / 2 then ⌊r⌋ else if 1 / 2 < r - ⌊r⌋ then ⌊r⌋ + 1 else if Even ⌊r⌋ then ⌊r⌋ else ⌊r⌋ + 1

/-- Spacing of the numbers around `x ≠ 0`: `2^(e-p+1)` where `e` is the binary exponent of `x`, at least `emin` (subnormals). The scalar type `f32`/`f64` of the instances of src/ (language and libm, not the crate), e.g. at src/vector/ops/base.rs:28. -/
noncomputable def Fmt.ulp (φ : Fmt) (x : ℝ) : ℝ := 2 ^ (max (Int.log 2 |x|) φ.emin - φ.p + 1)
/-- Rounding to nearest, ties to even, with an unbounded largest exponent. The scalar type `f32`/`f64` of the instances of src/ (language and libm, not the crate), e.g. at src/vector/ops/base.rs:28. -/
noncomputable def Fmt.near (φ : Fmt) (x : ℝ) : ℝ := roundEven (x / φ.ulp x) * φ.ulp x

namespace Ieee
variable {φ : Fmt}
open Classical

/-- Zero or a non-zero number; `neg` is the sign of a zero. The scalar type `f32`/`f64` of the instances of src/ (language and libm, not the crate), e.g. at src/vector/ops/base.rs:28. -/
noncomputable def ofReal (neg : Bool) (x : ℝ) : Ieee φ := if h : x = 0 then zero neg else num x h
/-- Rounding of an exact result `x ≠ 0` (IEEE 754, 4.3.1, 7.4): overflow to infinity, gradual underflow. The scalar type `f32`/`f64` of the instances of src/ (language and libm, not the crate), e.g. at src/vector/ops/base.rs:28. -/
noncomputable def rnd (x : ℝ) : Ieee φ :=
  if (2 : ℝ) ^ (φ.emax + 1) ≤ |φ.near x| then inf (x < 0) else ofReal (x < 0) (φ.near x)

/-- Sign of a datum that is not NaN. The scalar type `f32`/`f64` of the instances of src/ (language and libm, not the crate), e.g. at src/vector/ops/base.rs:46. -/
noncomputable def isNeg : Ieee φ → Bool
  | nan => false
  | inf s => s
  | zero s => s
  | num x _ => decide (x < 0)
/-- Value of a finite datum. The scalar type `f32`/`f64` of the instances of src/ (language and libm, not the crate), e.g. at src/vector/ops/base.rs:28. -/
def toReal? : Ieee φ → Option ℝ
  | nan => none
  | inf _ => none
  | zero _ => some 0
  | num x _ => some x

/-- `-x`. Used at src/vector/ops/base.rs:18. -/
def neg : Ieee φ → Ieee φ
  | nan => nan
  | inf s => inf !s
  | zero s => zero !s
  | num x h => num (-x) (neg_ne_zero.mpr h)
/-- `x + y`; an exact zero sum of two numbers is `+0`. Used at src/vector/ops/base.rs:28. -/
noncomputable def add : Ieee φ → Ieee φ → Ieee φ
  | nan, _ => nan
  | _, nan => nan
  | inf s, inf t => if s = t then inf s else nan
  | inf s, _ => inf s
  | _, inf t => inf t
  | zero s, zero t => zero (s && t)
  | zero _, num y _ => rnd y
  | num x _, zero _ => rnd x
  | num x _, num y _ => if x + y = 0 then zero false else rnd (x + y)
/-- `x * y`. Used at src/vector/ops/base.rs:46. -/
noncomputable def mul : Ieee φ → Ieee φ → Ieee φ
  | nan, _ => nan
  | _, nan => nan
  | inf _, zero _ => nan
  | zero _, inf _ => nan
  | inf s, inf t => inf (s ^^ t)
  | inf s, num y _ => inf (s ^^ decide (y < 0))
  | num x _, inf t => inf (decide (x < 0) ^^ t)
  | zero s, zero t => zero (s ^^ t)
  | zero s, num y _ => zero (s ^^ decide (y < 0))
  | num x _, zero t => zero (decide (x < 0) ^^ t)
  | num x _, num y _ => rnd (x * y)
/-- `x / y`. Used at src/vector/ops/base.rs:55. -/
noncomputable def div : Ieee φ → Ieee φ → Ieee φ
  | nan, _ => nan
  | _, nan => nan
  | inf _, inf _ => nan
  | zero _, zero _ => nan
  | inf s, zero t => inf (s ^^ t)
  | inf s, num y _ => inf (s ^^ decide (y < 0))
  | zero s, inf t => zero (s ^^ t)
  | num x _, inf t => zero (decide (x < 0) ^^ t)
  | zero s, num y _ => zero (s ^^ decide (y < 0))
  | num x _, zero t => inf (decide (x < 0) ^^ t)
  | num x _, num y _ => rnd (x / y)
/-- `x.sqrt()`. Used at src/vector/dot.rs:29. -/
noncomputable def sqrt : Ieee φ → Ieee φ
  | nan => nan
  | inf s => if s then nan else inf false
  | zero s => zero s
  | num x _ => if x < 0 then nan else rnd (Real.sqrt x)
/-- `x.abs()`. Used at src/traits.rs:115-130. -/
noncomputable def abs : Ieee φ → Ieee φ
  | nan => nan
  | inf _ => inf false
  | zero _ => zero false
  | num x h => num |x| (abs_ne_zero.mpr h)
/-- Position on the extended real line of a datum that is not NaN. Used for comparisons, src/vector/ops/vcmp.rs:17-30. -/
noncomputable def toEReal? : Ieee φ → Option EReal
  | nan => none
  | inf s => some (if s then ⊥ else ⊤)
  | zero _ => some 0
  | num x _ => some x

/-- Float unary `-`. Used at src/vector/ops/base.rs:18. -/
instance : Neg (Ieee φ) := ⟨neg⟩
/-- Float `+`. Used at src/vector/ops/base.rs:28. -/
noncomputable instance : Add (Ieee φ) := ⟨add⟩
/-- Float `-`: `x + (-y)` (IEEE 754, 5.4.1). Used at src/vector/ops/base.rs:37. -/
noncomputable instance : Sub (Ieee φ) := ⟨fun x y => x + -y⟩
/-- Float `*`. Used at src/vector/ops/base.rs:46. -/
noncomputable instance : Mul (Ieee φ) := ⟨mul⟩
/-- Float `/`. Used at src/vector/ops/base.rs:55. -/
noncomputable instance : Div (Ieee φ) := ⟨div⟩
/-- `0.0`. Used at src/vector/ops/base.rs:203-209. -/
instance : Zero (Ieee φ) := ⟨zero false⟩
/-- `1.0`. Used at src/vector/ops/iter.rs:16. -/
noncomputable instance : One (Ieee φ) := ⟨num 1 one_ne_zero⟩
/-- `partial_cmp`: NaN is incomparable, the two zeros are equal. Used at src/vector/ops/base.rs:220-232. -/
noncomputable instance : RPartialOrd (Ieee φ) :=
  ⟨fun x y => match x.toEReal?, y.toEReal? with | some a, some b => some (compare a b) | _, _ => none⟩
/-- `==`: NaN is different from everything, the two zeros are equal. Used at src/vector/ops/vcmp.rs:9. -/
noncomputable instance : BEq (Ieee φ) :=
  ⟨fun x y => match x.toEReal?, y.toEReal? with | some a, some b => decide (a = b) | _, _ => false⟩
/-- `is_zero`: `*self == 0.0`. Used at src/vector/ops/base.rs:209. -/
noncomputable instance : IsZero (Ieee φ) := ⟨fun x => x == 0⟩
/-- `norm_l1`, `norm_l_inf` of a float: `abs`, src/traits.rs:136-161. -/
noncomputable instance : ScalarNorm (Ieee φ) := ⟨abs, abs⟩
/-- Other functions of `num_traits::Float`: the exact function of a finite argument, rounded; NaN otherwise. (Simplification: library
functions other than `sqrt` and `abs` need not be correctly rounded and their values at infinities are not modelled; they only occur in witnesses
of hypotheses about a mathematical library, e.g. `C94_half_turn`.) Used at src/vector/math.rs:16-52. -/
noncomputable def lift1 (f : ℝ → ℝ) (a : Ieee φ) : Ieee φ := match a.toReal? with | some x => if f x = 0 then 0 else rnd (f x) | none => nan
/-- Binary version of `lift1`. Used at src/vector/math.rs:23. -/
noncomputable def lift2 (f : ℝ → ℝ → ℝ) (a b : Ieee φ) : Ieee φ :=
  match a.toReal?, b.toReal? with | some x, some y => if f x y = 0 then 0 else rnd (f x y) | _, _ => nan
/-- `num_traits::Float`; only `abs` and `sqrt` are specified by IEEE 754 here, see `lift1`. Used at src/vector/math.rs:16-52, src/transform/rotation.rs:44-56. -/
noncomputable instance : FloatOps (Ieee φ) where
  abs := abs
  absSub := lift2 FloatOps.absSub
  signum := lift1 FloatOps.signum
  cbrt := lift1 FloatOps.cbrt
  sqrt := sqrt
  fmin := lift2 FloatOps.fmin
  fmax := lift2 FloatOps.fmax
  acos := lift1 FloatOps.acos
  asin := lift1 FloatOps.asin
  atan := lift1 FloatOps.atan
  atan2 := lift2 FloatOps.atan2
  cosh := lift1 FloatOps.cosh
  hypot := lift2 FloatOps.hypot
  sinh := lift1 FloatOps.sinh
  tan := lift1 FloatOps.tan
  tanh := lift1 FloatOps.tanh
  log2 := lift1 FloatOps.log2
  mulAdd a b c := match a.toReal?, b.toReal?, c.toReal? with
    | some x, some y, some z => if x * y + z = 0 then 0 else rnd (x * y + z)
    | _, _, _ => nan
  exp := lift1 FloatOps.exp
  powi a n := lift1 (fun x => FloatOps.powi x n) a
  ln := lift1 FloatOps.ln
  powf := lift2 FloatOps.powf
  log := lift2 FloatOps.log
  sin := lift1 FloatOps.sin
  cos := lift1 FloatOps.cos
  asinh := lift1 FloatOps.asinh
  acosh := lift1 FloatOps.acosh
  atanh := lift1 FloatOps.atanh
  floor := lift1 FloatOps.floor
  ceil := lift1 FloatOps.ceil
  round := lift1 FloatOps.round
  trunc := lift1 FloatOps.trunc
  fract := lift1 FloatOps.fract
  recip := lift1 FloatOps.recip
  exp2 := lift1 FloatOps.exp2
  log10 := lift1 FloatOps.log10
  sinCos a := (lift1 FloatOps.sin a, lift1 FloatOps.cos a)
  expM1 := lift1 FloatOps.expM1
  ln1p := lift1 FloatOps.ln1p
  epsilon := if h : (2 : ℝ) ^ (1 - (φ.p : ℤ)) = 0 then 0 else num _ h
/-- `NumCast::from(2.0)`, `from(0.5)`. Used at src/transform/rotation.rs:169, src/transform/linear.rs:146. -/
noncomputable instance : NumConst (Ieee φ) := ⟨num 2 two_ne_zero, num (1 / 2) (by norm_num)⟩
/-- `FloatConst::PI` (num-traits: `core::f64::consts::PI`): the number nearest to `π`. Used at src/transform/rotation.rs:267. -/
noncomputable instance : FloatConst (Ieee φ) := ⟨rnd Real.pi⟩
end Ieee
end Vecmat
