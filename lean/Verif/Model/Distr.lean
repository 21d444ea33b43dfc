import Verif.Model.Transforms
import Verif.Model.Moebius
/-!
# Random distributions
Models `src/distr.rs`, `src/vector/distr.rs`, `src/matrix/distr.rs`, `src/complex/distr.rs` and the `Distribution`
impls of `src/transform/{shift,scale,linear,affine,rotation}.rs`.

A distribution is a computation `Eff σ α` over the state `σ` of the random generator.  The external sampler
`rand::distributions::Uniform::new(lo, hi).sample(rng)` is a parameter `uniform lo hi`; nothing is assumed about it here.
Rust `loop { .. break .. }` is `loopUntil` with an iteration bound: running out is the fault `outOfFuel`.
-/
namespace Vecmat
namespace Distr
variable {σ α T R : Type} {M N : Nat}

/-- `loop { let x = draw(); if accept(x) { break x; } }`, with at most `fuel` iterations. Loops: src/vector/distr.rs:46-51, src/matrix/distr.rs:49-54. -/
def loopUntil (draw : Eff σ α) (accept : α → Res Bool) : (fuel : Nat) → Eff σ α
  | 0 => throw .outOfFuel
  | fuel + 1 => do
    let x ← draw
    let b ← liftRes (accept x)
    if b then pure x else loopUntil draw accept fuel

/-- `Epsilon::is_epsilon` of the float types, src/traits.rs:166-170: `self.abs() <= Self::EPSILON`. -/
def isEpsilon [FloatOps R] [RPartialOrd R] (x : R) : Bool := rle (FloatOps.abs x) FloatOps.epsilon

/-- `Distribution<f32/f64> for Normal`, src/distr.rs:12-23. -/
def normal [FloatOps T] [FloatConst T] [NumConst T] [Zero T] [One T] [Neg T] [Sub T] [Mul T] (uniform : T → T → Eff σ T) :
    Eff σ T := do
  let u ← uniform 0 1
  let r := FloatOps.sqrt (FloatOps.ln (1 - u) * -two)
  let phi ← uniform 0 FloatConst.pi
  pure (r * FloatOps.cos phi)

/-- `VectorDistribution::sample`, src/vector/distr.rs:25-31 (`new`, 16-18; and `Normal` for vectors, 33-40). -/
def vector (inner : Eff σ T) : Eff σ (Vec T N) := Vec.initM inner
/-- `NonZero` for vectors, src/vector/distr.rs:42-54; `normal` is the scalar `Normal`. -/
def nonZero [FloatOps T] [RPartialOrd T] [Add T] [Mul T] (normal : Eff σ T) (fuel : Nat) : Eff σ (Vec T N) :=
  loopUntil (vector normal) (fun x => do
    let l ← x.lengthR
    pure (rgt l FloatOps.epsilon)) fuel
/-- `Unit` for vectors, src/vector/distr.rs:56-63. -/
def unit [FloatOps T] [RPartialOrd T] [Add T] [Mul T] [Div T] (normal : Eff σ T) (fuel : Nat) : Eff σ (Vec T N) := do
  let x ← nonZero normal fuel
  liftRes x.normalizeR

/-- `MatrixDistribution::sample`, src/matrix/distr.rs:26-32 (`new`, 17-19; and `Normal` for matrices, 34-41). -/
def matrix (inner : Eff σ T) : Eff σ (Mat T M N) := Mat.initM inner
/-- `Invertible` for square matrices, src/matrix/distr.rs:43-57; `norm` is the scalar type's `norm_l1`. -/
def invertible [FloatOps R] [RPartialOrd R] [Neg T] [Add T] [Mul T] [Zero T] [One T] (norm : T → R) (normal : Eff σ T)
    (fuel : Nat) : Eff σ (Mat T N N) :=
  loopUntil (matrix normal) (fun x => do
    let d ← x.detR
    pure (!isEpsilon (norm d))) fuel

/-- `Normal` for `Complex`, src/complex/distr.rs:11-18. -/
def complexNormal (normal : Eff σ T) : Eff σ (Cpx T) := Cpx.fromVector <$> vector normal
/-- `NonZero` for `Complex`, src/complex/distr.rs:20-27. -/
def complexNonZero [FloatOps T] [RPartialOrd T] [Add T] [Mul T] (normal : Eff σ T) (fuel : Nat) : Eff σ (Cpx T) :=
  Cpx.fromVector <$> nonZero normal fuel
/-- `Unit` for `Complex`, src/complex/distr.rs:29-36. -/
def complexUnit [FloatOps T] [RPartialOrd T] [Add T] [Mul T] [Div T] (normal : Eff σ T) (fuel : Nat) : Eff σ (Cpx T) :=
  Cpx.fromVector <$> unit normal fuel
/-- `Normal` for `Quaternion`, src/complex/distr.rs:38-45. -/
def quaternionNormal (normal : Eff σ T) : Eff σ (Quat T) := Quat.fromVector <$> vector normal
/-- `NonZero` for `Quaternion`, src/complex/distr.rs:47-54. -/
def quaternionNonZero [FloatOps T] [RPartialOrd T] [Add T] [Mul T] (normal : Eff σ T) (fuel : Nat) : Eff σ (Quat T) :=
  Quat.fromVector <$> nonZero normal fuel
/-- `Unit` for `Quaternion`, src/complex/distr.rs:56-63. -/
def quaternionUnit [FloatOps T] [RPartialOrd T] [Add T] [Mul T] [Div T] (normal : Eff σ T) (fuel : Nat) : Eff σ (Quat T) :=
  Quat.fromVector <$> unit normal fuel
/-- `Invertible` for `Moebius`, src/complex/distr.rs:65-72; the entries may be real or complex, `normal` draws one entry and
`norm` is the entry type's `norm_l1`. -/
def moebiusInvertible [FloatOps R] [RPartialOrd R] [Neg T] [Add T] [Mul T] [Zero T] [One T] (norm : T → R)
    (normal : Eff σ T) (fuel : Nat) : Eff σ (Moebius T) :=
  Moebius.fromMatrix <$> invertible norm normal fuel

/-- `Normal` for `Shift`, src/transform/shift.rs:78-86. -/
def shiftNormal (normal : Eff σ T) : Eff σ (Shift T N) := Shift.fromVector <$> vector normal
/-- `Normal` for `Scale`, src/transform/scale.rs:74-82. -/
def scaleNormal (normal : Eff σ T) : Eff σ (Scale T) := Scale.fromMag <$> normal
/-- `Normal` for `Linear`, src/transform/linear.rs:95-103. -/
def linearNormal (normal : Eff σ T) : Eff σ (Linear T N) := Linear.fromMatrix <$> matrix normal
/-- `Invertible` for `Linear`, src/transform/linear.rs:104-112. -/
def linearInvertible [FloatOps R] [RPartialOrd R] [Neg T] [Add T] [Mul T] [Zero T] [One T] (norm : T → R)
    (normal : Eff σ T) (fuel : Nat) : Eff σ (Linear T N) :=
  Linear.fromMatrix <$> invertible norm normal fuel
/-- `Normal` for `Affine`, src/transform/affine.rs:29-37: arguments are evaluated left to right, the shift first. -/
def affineNormal (normal : Eff σ T) : Eff σ (Affine T N) := do
  let s ← shiftNormal normal
  let l ← linearNormal normal
  pure (Chain.new s l)
/-- `Invertible` for `Affine`, src/transform/affine.rs:38-47. -/
def affineInvertible [FloatOps R] [RPartialOrd R] [Neg T] [Add T] [Mul T] [Zero T] [One T] (norm : T → R)
    (normal : Eff σ T) (fuel : Nat) : Eff σ (Affine T N) := do
  let s ← shiftNormal normal
  let l ← linearInvertible norm normal fuel
  pure (Chain.new s l)

/-- `Uniform` for `Rotation2`, src/transform/rotation.rs:110-122. -/
def rotation2Uniform [FloatOps T] [FloatConst T] [NumConst T] [Zero T] [Mul T] (uniform : T → T → Eff σ T) :
    Eff σ (Rotation2 T) := do
  let a ← uniform 0 (two * FloatConst.pi)
  pure (Rotation2.new a)
/-- `Uniform` for `Rotation3`, src/transform/rotation.rs:328-344: the axis is drawn first. -/
def rotation3Uniform [FloatOps T] [FloatConst T] [NumConst T] [RPartialOrd T] [Zero T] [Add T] [Mul T] [Div T]
    (normal : Eff σ T) (uniform : T → T → Eff σ T) (fuel : Nat) : Eff σ (Rotation3 T) := do
  let v ← unit normal fuel
  let a ← uniform 0 (two * FloatConst.pi)
  pure (Rotation3.new v a)

end Distr
end Vecmat
