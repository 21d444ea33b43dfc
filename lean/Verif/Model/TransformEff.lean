import Verif.Model.ScalarEff
import Verif.Model.Transforms
import Verif.Model.Moebius
/-!
# Transformations over scalar types whose operators panic or have side effects
`Model/ScalarEff.lean` continued: the transformations, with every call of a scalar operator in its place in the order of evaluation.
-/
namespace Vecmat
variable {T σ A B X : Type} {N : Nat}

/-- The functions of `trait Transform<T>`, src/transform/mod.rs:20-35, as computations. -/
structure TransformE (σ A X : Type) where
  identity : Eff σ A
  inv : A → Eff σ A
  apply : A → X → Eff σ X
  deriv : A → X → X → Eff σ X
  chain : A → A → Eff σ A

/-- `Transform for Shift`, src/transform/shift.rs:41-64. -/
def shiftE (o : ScalarE σ T) : TransformE σ (Shift T N) (Vec T N) where
  identity := do
    let v ← Vec.initM o.zero
    pure ⟨v⟩
  inv s := do
    let v ← s.pos.negE o
    pure ⟨v⟩
  apply s pos := pos.addE o s.pos
  deriv _ _ dir := pure dir
  chain s t := do
    let v ← s.pos.addE o t.pos
    pure ⟨v⟩
/-- `Transform for Scale`, src/transform/scale.rs:41-61. `recip` is the scalar `Inv::inv`. -/
def scaleE (o : ScalarE σ T) (recip : T → Eff σ T) : TransformE σ (Scale T) (Vec T N) where
  identity := do
    let x ← o.one
    pure ⟨x⟩
  inv s := do
    let x ← recip s.mag
    pure ⟨x⟩
  apply s pos := pos.mulSE o s.mag
  deriv s _ dir := dir.mulSE o s.mag
  chain s t := do
    let x ← o.mul s.mag t.mag
    pure ⟨x⟩
/-- `Transform for Linear`, src/transform/linear.rs:45-69; `Matrix::one`, src/matrix/square.rs:26-28. -/
def linearE (o : ScalarE σ T) : TransformE σ (Linear T N) (Vec T N) where
  identity := do
    let m ← (Mat.indices (M := N) (N := N)).mapM fun p => if p.1 = p.2 then o.one else o.zero
    pure ⟨m⟩
  inv l := do
    let m ← l.lin.invE o
    pure ⟨m⟩
  apply l pos := l.lin.dotVE o pos
  deriv l _ dir := l.lin.dotVE o dir
  chain l k := do
    let m ← l.lin.dotME o k.lin
    pure ⟨m⟩
/-- `Transform for Rotation2`, src/transform/rotation.rs:59-84. -/
def rotation2E (o : ScalarE σ T) : TransformE σ (Rotation2 T) (Vec T 2) where
  identity := do
    let x ← o.one
    let y ← o.zero
    pure ⟨Cpx.new x y⟩
  inv r := do
    let c ← r.comp.conjE o
    pure ⟨c⟩
  apply r pos := do
    let c ← (Cpx.fromVector pos).mulE o r.intoComplex
    pure c.intoVector
  deriv r _ dir := do
    let c ← (Cpx.fromVector dir).mulE o r.intoComplex
    pure c.intoVector
  chain r s := do
    let c ← r.comp.mulE o s.comp
    pure ⟨c⟩
/-- `Rotation3::apply`, src/transform/rotation.rs:198-203. -/
def rotation3ApplyE (o : ScalarE σ T) (r : Rotation3 T) (pos : Vec T 3) : Eff σ (Vec T 3) := do
  let z ← o.zero
  let p ← r.quat.mulE o (Quat.fromScalarAndVector3 z pos)
  let c ← r.quat.conjE o
  let q ← p.mulE o c
  pure q.intoScalarAndVector3.2
/-- `Transform for Rotation3`, src/transform/rotation.rs:184-212; `Quaternion::one`, src/complex/quaternion.rs:428-435. -/
def rotation3E (o : ScalarE σ T) : TransformE σ (Rotation3 T) (Vec T 3) where
  identity := do
    let w ← o.one
    let x ← o.zero
    let y ← o.zero
    let z ← o.zero
    pure ⟨Quat.new w x y z⟩
  inv r := do
    let c ← r.quat.conjE o
    pure ⟨c⟩
  apply r pos := rotation3ApplyE o r pos
  deriv r _ dir := rotation3ApplyE o r dir
  chain r s := do
    let q ← r.quat.mulE o s.quat
    pure ⟨q⟩

/-- `Reorder<Shift> for B` where `B` is `Scale`, `Linear`, `Rotation2` or `Rotation3`: `(self.apply(other.into_vector()).into(), self)`,
src/transform/scale.rs:108-116, src/transform/linear.rs:163-171, src/transform/rotation.rs:299-307, 318-326. -/
def reorderShiftE (t : TransformE σ B (Vec T N)) (b : B) (s : Shift T N) : Eff σ (Shift T N × B) := do
  let v ← t.apply b s.intoVector
  pure (⟨v⟩, b)
/-- `Reorder<B> for Shift` for the same `B`: `(other, other.inv().apply(self.into_vector()).into())`, src/transform/scale.rs:98-106,
src/transform/linear.rs:154-162, src/transform/rotation.rs:290-298, 309-317. -/
def shiftReorderE (t : TransformE σ B (Vec T N)) (s : Shift T N) (b : B) : Eff σ (B × Shift T N) := do
  let i ← t.inv b
  let v ← t.apply i s.intoVector
  pure (b, ⟨v⟩)
/-- `Transform for Chain`, src/transform/chain.rs:68-91. -/
def chainE (a : TransformE σ A X) (b : TransformE σ B X) (reorder : B → A → Eff σ (A × B)) : TransformE σ (Chain A B X) X where
  identity := do
    let x ← a.identity
    let y ← b.identity
    pure (Chain.new x y)
  inv c := do
    let i ← b.inv c.inner
    let k ← a.inv c.outer
    let r ← reorder i k
    pure (Chain.new r.1 r.2)
  apply c pos := do
    let y ← b.apply c.inner pos
    a.apply c.outer y
  deriv c pos dir := do
    let y ← b.apply c.inner pos
    let d ← b.deriv c.inner pos dir
    a.deriv c.outer y d
  chain c d := do
    let r ← reorder c.inner d.outer
    let x ← a.chain c.outer r.1
    let y ← b.chain r.2 d.inner
    pure (Chain.new x y)
/-- `Affine`, src/transform/affine.rs:7-8: `Chain<Shift, Linear>`. -/
def affineE (o : ScalarE σ T) : TransformE σ (Affine T N) (Vec T N) := chainE (shiftE o) (linearE o) (reorderShiftE (linearE o))

/-! ## Complex numbers as scalars, Moebius transformations -/

/-- The operators of `Complex<T>`, src/complex/complex_.rs: `Add` 155-163, `Sub` 174-182, `Mul` 261-272, `Div` 405-413, `Neg` 126-134,
`Zero` 249-259, `One` 300-307. `Rem` (432-437) goes through the external num-complex and is a parameter. -/
def cpxE (o : ScalarE σ T) (rem : Cpx T → Cpx T → Eff σ (Cpx T)) : ScalarE σ (Cpx T) where
  add := Cpx.addE o
  sub := Cpx.subE o
  mul := Cpx.mulE o
  div := Cpx.divE o
  rem := rem
  neg := Cpx.negE o
  zero := do
    let x ← o.zero
    let y ← o.zero
    pure (Cpx.new x y)
  one := do
    let x ← o.one
    let y ← o.zero
    pure (Cpx.new x y)

namespace Moebius
/-- `Moebius::apply`, src/complex/moebius.rs:114-122, at a point of the type of the coefficients:
`(self.a() * x + self.b()) / (self.c() * x + self.d())`. -/
def applyE (o : ScalarE σ T) (m : Moebius T) (x : T) : Eff σ T := do
  let p ← o.mul m.a x
  let n ← o.add p m.b
  let q ← o.mul m.c x
  let d ← o.add q m.d
  o.div n d
/-- `Moebius::chain`, src/complex/moebius.rs:105-112. -/
def chainE (o : ScalarE σ T) (m k : Moebius T) : Eff σ (Moebius T) := do
  let A ← m.mat.dotME o k.mat
  pure ⟨A⟩
/-- `Moebius::det`, src/complex/moebius.rs:124-128. -/
def detE (o : ScalarE σ T) (m : Moebius T) : Eff σ T := m.mat.detE o
/-- `Moebius::inv`, src/complex/moebius.rs:163-170. -/
def invE (o : ScalarE σ T) (m : Moebius T) : Eff σ (Moebius T) := do
  let A ← m.mat.invE o
  pure ⟨A⟩
/-- `Normalize for Moebius`, src/complex/moebius.rs:129-134. -/
def normalizeE (o : ScalarE σ T) (m : Moebius T) : Eff σ (Moebius T) := do
  let d ← m.detE o
  let A ← m.mat.divSE o d
  pure ⟨A⟩
/-- `Moebius<Complex<T>>::deriv`, src/complex/moebius.rs:136-145. -/
def derivE (o : ScalarE σ T) (m : Moebius T) (p : T) : Eff σ T := do
  let x ← o.mul m.a p
  let u ← o.add x m.b
  let y ← o.mul m.c p
  let d ← o.add y m.d
  let v ← o.mul m.a d
  let w ← o.mul u m.c
  let n ← o.sub v w
  let e ← o.mul d d
  o.div n e
end Moebius
end Vecmat
