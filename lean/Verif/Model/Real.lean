import Verif.Model.Scalar
import Mathlib.Analysis.SpecialFunctions.Complex.Arg
import Mathlib.Analysis.SpecialFunctions.Pow.Real
import Mathlib.Analysis.SpecialFunctions.Log.Base
import Mathlib.Analysis.SpecialFunctions.Arsinh
import Mathlib.Analysis.SpecialFunctions.Trigonometric.Inverse
import Mathlib.Analysis.SpecialFunctions.Trigonometric.Arctan
import Mathlib.Analysis.SpecialFunctions.Trigonometric.DerivHyp
import Mathlib.Algebra.Order.Round
/-!
# Exact instantiations of the scalar interfaces
`ℝ` stands for "floating point without rounding"; every linear order gives `PartialOrd`; `ℤ` gives exact integers.
-/
namespace Vecmat

/-- `PartialOrd` of a totally ordered scalar. Bound of src/vector/ops/base.rs:222. -/
instance (priority := 900) instRPartialOrdOfLinearOrder {T : Type} [LinearOrder T] : RPartialOrd T :=
  ⟨fun x y => some (compare x y)⟩

/-- `Zero::is_zero` for scalars with decidable equality (`*self == 0`). Used at src/vector/ops/base.rs:209. -/
instance (priority := 900) instIsZeroOfDecEq {T : Type} [Zero T] [DecidableEq T] : IsZero T := ⟨fun x => decide (x = 0)⟩

/-- `norm_l1`/`norm_l_inf` of a signed or floating scalar: `abs` (src/traits.rs:108-159). -/
instance instScalarNormOfAbs {T : Type} [Lattice T] [AddGroup T] : ScalarNorm T := ⟨fun x => |x|, fun x => |x|⟩

/-- `num_integer::{div_floor, mod_floor, div_mod_floor}` on exact integers: quotient rounded towards minus infinity. Used at src/vector/ops/int.rs:9-16. -/
instance : FloorDiv Int := ⟨Int.fdiv, Int.fmod, fun x y => (Int.fdiv x y, Int.fmod x y)⟩

/-- The real functions behind `num_traits::Float`, without rounding.  `atan2(y, x)` is the argument of the complex
number `x + i y`, in `(-π, π]`, with `atan2(0, 0) = 0`. The value of `epsilon` is a positive constant (`2^-52`, as for
`f64`); nothing below depends on the particular value. Used at src/vector/math.rs:16-52, src/transform/rotation.rs:44-56. -/
noncomputable instance : FloatOps ℝ where
  abs x := |x|
  absSub x y := max (x - y) 0
  signum x := if x < 0 then -1 else 1
  cbrt x := if 0 ≤ x then x ^ (1 / 3 : ℝ) else -((-x) ^ (1 / 3 : ℝ))
  sqrt x := Real.sqrt x
  fmin x y := min x y
  fmax x y := max x y
  acos x := Real.arccos x
  asin x := Real.arcsin x
  atan x := Real.arctan x
  atan2 y x := Complex.arg ⟨x, y⟩
  cosh x := Real.cosh x
  hypot x y := Real.sqrt (x * x + y * y)
  sinh x := Real.sinh x
  tan x := Real.tan x
  tanh x := Real.tanh x
  log2 x := Real.logb 2 x
  mulAdd x a b := x * a + b
  exp x := Real.exp x
  powi x n := x ^ n
  ln x := Real.log x
  powf x y := x ^ y
  log x b := Real.logb b x
  sin x := Real.sin x
  cos x := Real.cos x
  asinh x := Real.arsinh x
  acosh x := Real.log (x + Real.sqrt (x * x - 1))
  atanh x := Real.log ((1 + x) / (1 - x)) / 2
  floor x := (⌊x⌋ : ℝ)
  ceil x := (⌈x⌉ : ℝ)
  round x := if 0 ≤ x then (⌊x + 1 / 2⌋ : ℝ) else (⌈x - 1 / 2⌉ : ℝ)
  trunc x := if 0 ≤ x then (⌊x⌋ : ℝ) else (⌈x⌉ : ℝ)
  fract x := if 0 ≤ x then x - (⌊x⌋ : ℝ) else x - (⌈x⌉ : ℝ)
  recip x := 1 / x
  exp2 x := 2 ^ x
  log10 x := Real.logb 10 x
  sinCos x := (Real.sin x, Real.cos x)
  expM1 x := Real.exp x - 1
  ln1p x := Real.log (1 + x)
  epsilon := 1 / 2 ^ 52

/-- The constants `2` and `0.5` of an exact field. Used at src/transform/rotation.rs:169, src/transform/linear.rs:146. -/
instance (priority := 900) instNumConstOfField {T : Type} [DivisionRing T] : NumConst T := ⟨2, 1 / 2⟩
@[simp] theorem two_eq {T : Type} [DivisionRing T] : (two : T) = 2 := rfl
@[simp] theorem half_eq {T : Type} [DivisionRing T] : (half : T) = 1 / 2 := rfl
/-- `PI` without rounding. Used at src/transform/rotation.rs:267. -/
noncomputable instance : FloatConst ℝ := ⟨Real.pi⟩
@[simp] theorem pi_real : (FloatConst.pi : ℝ) = Real.pi := rfl

section
variable {T : Type} [LinearOrder T] (x y : T)
@[simp] theorem rlt_iff : rlt x y = true ↔ x < y := by
  simp [rlt, RPartialOrd.pcmp, compare_lt_iff_lt]
@[simp] theorem rle_iff : rle x y = true ↔ x ≤ y := by
  simp [rle, RPartialOrd.pcmp, compare_lt_iff_lt, le_iff_lt_or_eq]
@[simp] theorem rgt_iff : rgt x y = true ↔ y < x := by
  simp [rgt, RPartialOrd.pcmp, compare_gt_iff_gt]
@[simp] theorem rge_iff : rge x y = true ↔ y ≤ x := by
  simp only [rge, RPartialOrd.pcmp, le_iff_lt_or_eq, @eq_comm _ y x]
  simp [compare_gt_iff_gt]
end

@[simp] theorem isZero_iff {T : Type} [Zero T] [DecidableEq T] (x : T) : IsZero.isZero x = true ↔ x = 0 := by
  simp [IsZero.isZero]

@[simp] theorem sqrt_real (x : ℝ) : FloatOps.sqrt x = Real.sqrt x := rfl
@[simp] theorem sin_real (x : ℝ) : FloatOps.sin x = Real.sin x := rfl
@[simp] theorem cos_real (x : ℝ) : FloatOps.cos x = Real.cos x := rfl
@[simp] theorem atan2_real (x y : ℝ) : FloatOps.atan2 y x = Complex.arg ⟨x, y⟩ := rfl
@[simp] theorem fabs_real (x : ℝ) : FloatOps.abs x = |x| := rfl
@[simp] theorem normL1_real {T : Type} [Lattice T] [AddGroup T] (x : T) : ScalarNorm.normL1 x = |x| := rfl
@[simp] theorem normLInf_real {T : Type} [Lattice T] [AddGroup T] (x : T) : ScalarNorm.normLInf x = |x| := rfl

end Vecmat
