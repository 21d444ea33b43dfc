import Verif.Model.Transform
import Verif.Model.SquarePure
import Mathlib.Algebra.Notation.Defs
/-!
# `Shift`, `Scale`, `Linear`, `Chain`, `Affine`, `Rotation2`, `Rotation3`
Models `src/transform/{shift,scale,linear,chain,affine,rotation}.rs`.
-/
namespace Vecmat
variable {T X A B : Type} {N : Nat}

/-! ## src/transform/shift.rs -/

/-- `struct Shift<T, N> { pos: Vector<T, N> }`, src/transform/shift.rs:11-16. -/
@[ext] structure Shift (T : Type) (N : Nat) where
  pos : Vec T N
/-- `from_vector`, src/transform/shift.rs:23-25 (also `From`, 30-34). -/
def Shift.fromVector (v : Vec T N) : Shift T N := ⟨v⟩
/-- `into_vector`, src/transform/shift.rs:26-28 (also `From`, 35-39). -/
def Shift.intoVector (s : Shift T N) : Vec T N := s.pos
/-- `Transform for Shift`, src/transform/shift.rs:41-64. -/
instance [Neg T] [Add T] [Zero T] : Transform (Shift T N) (Vec T N) where
  identity := ⟨0⟩
  inv s := ⟨-s.pos⟩
  apply s pos := pos + s.pos
  deriv _ _ dir := dir
  chain s t := ⟨s.pos + t.pos⟩
/-- `Directional for Shift`, src/transform/shift.rs:66-76. -/
instance [Neg T] [Add T] [Zero T] : Directional (Shift T N) (Vec T N) where
  applyDir _ _ dir := dir
  applyNormal _ _ normal := normal

/-! ## src/transform/scale.rs -/

/-- `struct Scale<T> { mag: T }`, src/transform/scale.rs:13-18. -/
@[ext] structure Scale (T : Type) where
  mag : T
/-- `from_mag`, src/transform/scale.rs:21-23 (also `From`, 28-32). -/
def Scale.fromMag (m : T) : Scale T := ⟨m⟩
/-- `into_mag`, src/transform/scale.rs:24-26. -/
def Scale.intoMag (s : Scale T) : T := s.mag
/-- `Transform for Scale`, src/transform/scale.rs:41-60. `Inv T` is `num_traits::Inv`. -/
instance [One T] [Mul T] [Inv T] : Transform (Scale T) (Vec T N) where
  identity := ⟨1⟩
  inv s := ⟨s.mag⁻¹⟩
  apply s pos := pos.mulS s.mag
  deriv s _ dir := dir.mulS s.mag
  chain s t := ⟨s.mag * t.mag⟩
/-- `Directional for Scale`, src/transform/scale.rs:62-72: both methods return their argument. -/
instance [One T] [Mul T] [Inv T] : Directional (Scale T) (Vec T N) where
  applyDir _ _ dir := dir
  applyNormal _ _ normal := normal

/-! ## src/transform/linear.rs -/

/-- `struct Linear<T, N> { lin: Matrix<T, N, N> }`, src/transform/linear.rs:15-20. -/
@[ext] structure Linear (T : Type) (N : Nat) where
  lin : Mat T N N
/-- `from_matrix`, src/transform/linear.rs:27-29 (also `From`, 34-38). -/
def Linear.fromMatrix (m : Mat T N N) : Linear T N := ⟨m⟩
/-- `into_matrix`, src/transform/linear.rs:30-32 (also `From`, 39-43). -/
def Linear.intoMatrix (l : Linear T N) : Mat T N N := l.lin
section
variable [Neg T] [Add T] [Mul T] [Div T] [Zero T] [One T]
/-- `Transform for Linear`, src/transform/linear.rs:45-68. -/
instance : Transform (Linear T N) (Vec T N) where
  identity := ⟨1⟩
  inv l := ⟨l.lin.inv⟩
  apply l pos := l.lin.dotV pos
  deriv l _ dir := l.lin.dotV dir
  chain l m := ⟨l.lin.dotM m.lin⟩
/-- `normal_transform`, src/transform/linear.rs:70-78. -/
def Linear.normalTransform (l : Linear T N) : Linear T N := ⟨l.lin.inv.transpose⟩
/-- `Directional for Linear`, src/transform/linear.rs:80-93 (for `N = 0`, `normalize` panics; here `N > 0`). -/
instance [FloatOps T] [NeZero N] : Directional (Linear T N) (Vec T N) where
  applyDir l pos dir := (Transform.deriv l pos dir).normalize
  applyNormal l _ normal := (Transform.apply l.normalTransform normal).normalize
end
section
variable [FloatOps T] [Neg T] [Add T] [Sub T] [Mul T] [Div T]
/-- `Linear::look_at`, src/transform/linear.rs:128-139. -/
def Linear.lookAt (dir up : Vec T 3) : Linear T 3 :=
  let right := (dir.cross3 up).normalize
  let strictUp := right.cross3 dir
  ⟨(Mat.fromArrVec #v[right, strictUp, -dir]).transpose⟩
/-- `Linear::look_at_any`, src/transform/linear.rs:140-152. -/
def Linear.lookAtAny [RPartialOrd T] [NumConst T] [Zero T] [One T] (dir : Vec T 3) : Linear T 3 :=
  if rlt (FloatOps.abs dir.z) half then Linear.lookAt dir (Vec.fromArray #v[0, 0, 1])
  else Linear.lookAt dir (Vec.fromArray #v[0, 1, 0])
end

/-! ## src/transform/chain.rs -/

/-- `struct Chain<A, B, T> { outer: A, inner: B }`, src/transform/chain.rs:9-14 (`PhantomData` omitted). -/
@[ext] structure Chain (A B X : Type) where
  outer : A
  inner : B
/-- `Chain::new`, src/transform/chain.rs:18-24 (also `From<(A, B)>`, 49-53). -/
def Chain.new (outer : A) (inner : B) : Chain A B X := ⟨outer, inner⟩
/-- `Chain::split`, src/transform/chain.rs:27-29 (also `From<Chain>`, 54-58). -/
def Chain.split (c : Chain A B X) : A × B := (c.outer, c.inner)
/-- `trait Reorder<B, T>`, src/transform/chain.rs:60-66: `self.reorder(other)` returns `(B', A')`. -/
class Reorder (A B X : Type) where
  reorder : A → B → B × A
/-- `Transform for Chain`, src/transform/chain.rs:68-91. -/
instance [Transform A X] [Transform B X] [Reorder B A X] : Transform (Chain A B X) X where
  identity := Chain.new (Transform.identity X) (Transform.identity X)
  inv c :=
    let r := Reorder.reorder X (Transform.inv X c.inner) (Transform.inv X c.outer)
    Chain.new r.1 r.2
  apply c pos := Transform.apply c.outer (Transform.apply c.inner pos)
  deriv c pos dir := Transform.deriv c.outer (Transform.apply c.inner pos) (Transform.deriv c.inner pos dir)
  chain c d :=
    let r := Reorder.reorder X c.inner d.outer
    Chain.new (Transform.chain X c.outer r.1) (Transform.chain X r.2 d.inner)
/-- `Directional for Chain`, src/transform/chain.rs:93-106. -/
instance [Directional A X] [Directional B X] [Reorder B A X] : Directional (Chain A B X) X where
  applyDir c pos dir := Directional.applyDir c.outer (Transform.apply c.inner pos) (Directional.applyDir c.inner pos dir)
  applyNormal c pos normal :=
    Directional.applyNormal c.outer (Transform.apply c.inner pos) (Directional.applyNormal c.inner pos normal)

/-- `Reorder<Scale> for Shift`, src/transform/scale.rs:98-106. -/
instance [One T] [Mul T] [Inv T] : Reorder (Shift T N) (Scale T) (Vec T N) :=
  ⟨fun s o => (o, ⟨Transform.apply (Transform.inv (Vec T N) o) s.intoVector⟩)⟩
/-- `Reorder<Shift> for Scale`, src/transform/scale.rs:108-116. -/
instance [One T] [Mul T] [Inv T] : Reorder (Scale T) (Shift T N) (Vec T N) :=
  ⟨fun s o => (⟨Transform.apply s o.intoVector⟩, s)⟩
/-- `Reorder<Linear> for Shift`, src/transform/linear.rs:154-162. -/
instance [Neg T] [Add T] [Mul T] [Div T] [Zero T] [One T] : Reorder (Shift T N) (Linear T N) (Vec T N) :=
  ⟨fun s o => (o, ⟨Transform.apply (Transform.inv (Vec T N) o) s.intoVector⟩)⟩
/-- `Reorder<Shift> for Linear`, src/transform/linear.rs:163-171. -/
instance [Neg T] [Add T] [Mul T] [Div T] [Zero T] [One T] : Reorder (Linear T N) (Shift T N) (Vec T N) :=
  ⟨fun s o => (⟨Transform.apply s o.intoVector⟩, s)⟩

/-! ## src/transform/affine.rs -/

/-- `type Affine<T, N>`, src/transform/affine.rs:8. -/
abbrev Affine (T : Type) (N : Nat) := Chain (Shift T N) (Linear T N) (Vec T N)
/-- `Affine::linear`, src/transform/affine.rs:19-21. -/
def Affine.linear (a : Affine T N) : Linear T N := a.inner
/-- `Affine::shift`, src/transform/affine.rs:24-26. -/
def Affine.shift (a : Affine T N) : Shift T N := a.outer

/-! ## src/transform/rotation.rs -/

/-- `struct Rotation2<T> { comp: Complex<T> }`, src/transform/rotation.rs:18-23. -/
@[ext] structure Rotation2 (T : Type) where
  comp : Cpx T
/-- `from_complex`, src/transform/rotation.rs:26-28 (also `From`, 34-38). -/
def Rotation2.fromComplex (c : Cpx T) : Rotation2 T := ⟨c⟩
/-- `into_complex`, src/transform/rotation.rs:29-31 (also `From`, 39-43). -/
def Rotation2.intoComplex (r : Rotation2 T) : Cpx T := r.comp
/-- `Rotation2::new`, src/transform/rotation.rs:49-53. -/
def Rotation2.new [FloatOps T] (angle : T) : Rotation2 T := ⟨Cpx.new (FloatOps.cos angle) (FloatOps.sin angle)⟩
/-- `Rotation2::angle`, src/transform/rotation.rs:54-56. -/
def Rotation2.angle [FloatOps T] (r : Rotation2 T) : T := FloatOps.atan2 r.comp.im r.comp.re
/-- `Transform for Rotation2`, src/transform/rotation.rs:59-84. -/
instance [Neg T] [Add T] [Sub T] [Mul T] [Zero T] [One T] : Transform (Rotation2 T) (Vec T 2) where
  identity := ⟨1⟩
  inv r := ⟨r.comp.conj⟩
  apply r pos := (Cpx.fromVector pos * r.intoComplex).intoVector
  deriv r _ dir := (Cpx.fromVector dir * r.intoComplex).intoVector
  chain r s := ⟨r.comp * s.comp⟩
/-- `Directional for Rotation2`, src/transform/rotation.rs:86-96. -/
instance [Neg T] [Add T] [Sub T] [Mul T] [Zero T] [One T] : Directional (Rotation2 T) (Vec T 2) where
  applyDir r pos dir := Transform.deriv r pos dir
  applyNormal r pos normal := Transform.deriv r pos normal
/-- `Rotation2::to_linear`, src/transform/rotation.rs:98-108. -/
def Rotation2.toLinear [Neg T] (r : Rotation2 T) : Linear T 2 :=
  ⟨Mat.fromArrArr #v[#v[r.comp.re, -r.comp.im], #v[r.comp.im, r.comp.re]]⟩

/-- `struct Rotation3<T> { quat: Quaternion<T> }`, src/transform/rotation.rs:138-142. -/
@[ext] structure Rotation3 (T : Type) where
  quat : Quat T
/-- `from_quaternion`, src/transform/rotation.rs:145-147 (also `From`, 153-157). -/
def Rotation3.fromQuaternion (q : Quat T) : Rotation3 T := ⟨q⟩
/-- `into_quaternion`, src/transform/rotation.rs:148-150 (also `From`, 158-162). -/
def Rotation3.intoQuaternion (r : Rotation3 T) : Quat T := r.quat
section
variable [FloatOps T] [NumConst T] [Add T] [Mul T] [Div T]
/-- `Rotation3::new`, src/transform/rotation.rs:168-173. -/
def Rotation3.new (axis : Vec T 3) (angle : T) : Rotation3 T :=
  let half := angle / two
  ⟨Quat.fromScalarAndVector3 (FloatOps.cos half) (axis.mulS (FloatOps.sin half))⟩
/-- `Rotation3::axis`, src/transform/rotation.rs:174-177. -/
def Rotation3.axis (r : Rotation3 T) : Vec T 3 := r.quat.intoScalarAndVector3.2.normalize
/-- `Rotation3::angle`, src/transform/rotation.rs:178-181. -/
def Rotation3.angle (r : Rotation3 T) : T :=
  two * FloatOps.atan2 r.quat.intoScalarAndVector3.2.length r.quat.intoScalarAndVector3.1
end
/-- The function behind `Rotation3::apply` and `deriv`, src/transform/rotation.rs:198-206. -/
def Rotation3.applyFn [Neg T] [Add T] [Sub T] [Mul T] [Zero T] (r : Rotation3 T) (pos : Vec T 3) : Vec T 3 :=
  let qpos := Quat.fromScalarAndVector3 0 pos
  let qres := r.quat * qpos * r.quat.conj
  qres.intoScalarAndVector3.2
/-- `Transform for Rotation3`, src/transform/rotation.rs:184-212. -/
instance [Neg T] [Add T] [Sub T] [Mul T] [Zero T] [One T] : Transform (Rotation3 T) (Vec T 3) where
  identity := ⟨1⟩
  inv r := ⟨r.quat.conj⟩
  apply r pos := r.applyFn pos
  deriv r _ dir := r.applyFn dir
  chain r s := ⟨r.quat * s.quat⟩
/-- `Directional for Rotation3`, src/transform/rotation.rs:214-224. -/
instance [Neg T] [Add T] [Sub T] [Mul T] [Zero T] [One T] : Directional (Rotation3 T) (Vec T 3) where
  applyDir r pos dir := Transform.deriv r pos dir
  applyNormal r pos normal := Transform.deriv r pos normal
/-- `Rotation3::to_linear`, src/transform/rotation.rs:226-252. -/
def Rotation3.toLinear [NumConst T] [Add T] [Sub T] [Mul T] [One T] (r : Rotation3 T) : Linear T 3 :=
  let t1 : T := 1
  let t2 : T := two
  let q := r.quat
  ⟨Mat.fromArrArr #v[
    #v[t1 - t2 * q.y * q.y - t2 * q.z * q.z, t2 * q.x * q.y - t2 * q.z * q.w, t2 * q.x * q.z + t2 * q.y * q.w],
    #v[t2 * q.x * q.y + t2 * q.z * q.w, t1 - t2 * q.x * q.x - t2 * q.z * q.z, t2 * q.y * q.z - t2 * q.x * q.w],
    #v[t2 * q.x * q.z - t2 * q.y * q.w, t2 * q.y * q.z + t2 * q.x * q.w, t1 - t2 * q.x * q.x - t2 * q.y * q.y]]⟩

section
variable [FloatOps T] [NumConst T] [FloatConst T] [RPartialOrd T] [Neg T] [Add T] [Sub T] [Mul T] [Div T] [Zero T] [One T]
mutual
/-- `Rotation3::look_at_any_cont` (private), src/transform/rotation.rs:258-275; `fuel` bounds the mutual recursion with
`look_at_any` (running out is the fault `outOfFuel`). -/
def Rotation3.lookAtAnyContR : (fuel : Nat) → (dir : Vec T 3) → Res (Rotation3 T)
  | 0, _ => .error .outOfFuel
  | fuel + 1, dir =>
    let z : Vec T 3 := Vec.fromTuple3 (0, 0, -1)
    let dot := z.dot dir
    if rlt dot 0 then do
      let r ← Rotation3.lookAtAnyR fuel (-dir)
      pure (Transform.chain (Vec T 3) r (Rotation3.new (Vec.fromTuple3 (1, 0, 0)) FloatConst.pi))
    else
      let cross := z.cross3 dir
      let cos := FloatOps.sqrt ((1 + dot) / two)
      let sinMult := 1 / (two * cos)
      .ok (Rotation3.fromQuaternion (Quat.fromScalarAndVector3 cos (cross.mulS sinMult)))
/-- `Rotation3::look_at_any`, src/transform/rotation.rs:277-287, with recursion fuel. -/
def Rotation3.lookAtAnyR : (fuel : Nat) → (dir : Vec T 3) → Res (Rotation3 T)
  | 0, _ => .error .outOfFuel
  | fuel + 1, dir =>
    if rlt dir.z 0 then Rotation3.lookAtAnyContR fuel dir
    else do
      let r ← Rotation3.lookAtAnyContR fuel (-dir)
      pure (Transform.chain (Vec T 3) r (Rotation3.new (Vec.fromTuple3 (1, 0, 0)) FloatConst.pi))
end
end

/-- `Reorder<Rotation2> for Shift`, src/transform/rotation.rs:290-298. -/
instance [Neg T] [Add T] [Sub T] [Mul T] [Zero T] [One T] : Reorder (Shift T 2) (Rotation2 T) (Vec T 2) :=
  ⟨fun s o => (o, ⟨Transform.apply (Transform.inv (Vec T 2) o) s.intoVector⟩)⟩
/-- `Reorder<Shift> for Rotation2`, src/transform/rotation.rs:299-307. -/
instance [Neg T] [Add T] [Sub T] [Mul T] [Zero T] [One T] : Reorder (Rotation2 T) (Shift T 2) (Vec T 2) :=
  ⟨fun s o => (⟨Transform.apply s o.intoVector⟩, s)⟩
/-- `Reorder<Rotation3> for Shift`, src/transform/rotation.rs:309-317. -/
instance [Neg T] [Add T] [Sub T] [Mul T] [Zero T] [One T] : Reorder (Shift T 3) (Rotation3 T) (Vec T 3) :=
  ⟨fun s o => (o, ⟨Transform.apply (Transform.inv (Vec T 3) o) s.intoVector⟩)⟩
/-- `Reorder<Shift> for Rotation3`, src/transform/rotation.rs:318-326. -/
instance [Neg T] [Add T] [Sub T] [Mul T] [Zero T] [One T] : Reorder (Rotation3 T) (Shift T 3) (Vec T 3) :=
  ⟨fun s o => (⟨Transform.apply s o.intoVector⟩, s)⟩

end Vecmat
