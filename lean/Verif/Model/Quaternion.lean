import Verif.Model.Complex
/-!
# `Quaternion<T>`
Models `src/complex/quaternion.rs`.
-/
namespace Vecmat
variable {T : Type}

/-- `struct Quaternion<T> { vec: Vector4<T> }`, src/complex/quaternion.rs:13-18 (components in the order `w, x, y, z`). -/
@[ext] structure Quat (T : Type) where
  vec : Vec T 4
deriving DecidableEq, Repr

namespace Quat

/-- `Quaternion::new`, src/complex/quaternion.rs:21-25. -/
def new (w x y z : T) : Quat T := ⟨Vec.fromArray #v[w, x, y, z]⟩
/-- `from_vector`, src/complex/quaternion.rs:26-28 (also `From`, 54-58). -/
def fromVector (v : Vec T 4) : Quat T := ⟨v⟩
/-- `from_array`, src/complex/quaternion.rs:29-31 (also `From`, 74-78). -/
def fromArray (a : Vector T 4) : Quat T := ⟨Vec.fromArray a⟩
/-- `from_tuple`, src/complex/quaternion.rs:32-34 (also `From`, 84-88). -/
def fromTuple (t : T × T × T × T) : Quat T := ⟨Vec.fromTuple4 t⟩
/-- `from_scalar_and_vector3`, src/complex/quaternion.rs:35-38 (also `From`, 64-68). -/
def fromScalarAndVector3 (w : T) (v : Vec T 3) : Quat T := new w v.intoTuple3.1 v.intoTuple3.2.1 v.intoTuple3.2.2
/-- `into_vector`, src/complex/quaternion.rs:39-41 (also `From`, 59-63). -/
def intoVector (q : Quat T) : Vec T 4 := q.vec
/-- `into_array`, src/complex/quaternion.rs:42-44 (also `From`, 79-83). -/
def intoArray (q : Quat T) : Vector T 4 := q.vec.intoArray
/-- `into_tuple`, src/complex/quaternion.rs:45-47 (also `From`, 89-93). -/
def intoTuple (q : Quat T) : T × T × T × T := q.vec.intoTuple4
/-- `into_scalar_and_vector3`, src/complex/quaternion.rs:48-51 (also `From`, 69-73). -/
def intoScalarAndVector3 (q : Quat T) : T × Vec T 3 :=
  (q.vec.intoTuple4.1, Vec.fromArray #v[q.vec.intoTuple4.2.1, q.vec.intoTuple4.2.2.1, q.vec.intoTuple4.2.2.2])

/-- `w`, src/complex/quaternion.rs:99-101 (also `w_ref`, 117-119). -/
def w (q : Quat T) : T := q.vec.x
/-- `x`, src/complex/quaternion.rs:102-104 (also `x_ref`, 120-122). -/
def x (q : Quat T) : T := q.vec.y
/-- `y`, src/complex/quaternion.rs:105-107 (also `y_ref`, 123-125). -/
def y (q : Quat T) : T := q.vec.z
/-- `z`, src/complex/quaternion.rs:108-110 (also `z_ref`, 126-128). -/
def z (q : Quat T) : T := q.vec.w
/-- `xyz`, src/complex/quaternion.rs:111-113. -/
def xyz (q : Quat T) : Vec T 3 := q.intoScalarAndVector3.2
/-- Writing through `w_mut`, src/complex/quaternion.rs:129-131. -/
def setW (q : Quat T) (t : T) : Quat T := ⟨q.vec.setX t⟩
/-- Writing through `x_mut`, src/complex/quaternion.rs:132-134. -/
def setX (q : Quat T) (t : T) : Quat T := ⟨q.vec.setY t⟩
/-- Writing through `y_mut`, src/complex/quaternion.rs:135-137. -/
def setY (q : Quat T) (t : T) : Quat T := ⟨q.vec.setZ t⟩
/-- Writing through `z_mut`, src/complex/quaternion.rs:138-140. -/
def setZ (q : Quat T) (t : T) : Quat T := ⟨q.vec.setW t⟩

/-- `into_matrix`, src/complex/quaternion.rs:147-150. -/
def intoMatrix [Neg T] (q : Quat T) : Mat T 4 4 :=
  let w := q.intoTuple.1
  let x := q.intoTuple.2.1
  let y := q.intoTuple.2.2.1
  let z := q.intoTuple.2.2.2
  Mat.fromArrArr #v[#v[w, -x, -y, -z], #v[x, w, -z, y], #v[y, z, w, -x], #v[z, -y, x, w]]

/-- `Neg`, src/complex/quaternion.rs:153-161. -/
instance [Neg T] : Neg (Quat T) := ⟨fun q => ⟨-q.vec⟩⟩
/-- `conj`, src/complex/quaternion.rs:167-170 (also `Conj`, 173-180). -/
def conj [Neg T] (q : Quat T) : Quat T :=
  new q.intoTuple.1 (-q.intoTuple.2.1) (-q.intoTuple.2.2.1) (-q.intoTuple.2.2.2)

/-- `Add`, src/complex/quaternion.rs:182-190. -/
instance [Add T] : Add (Quat T) := ⟨fun p q => ⟨p.vec + q.vec⟩⟩
/-- `Add<Complex>`, src/complex/quaternion.rs:191-201. -/
def addC [Add T] (q : Quat T) (c : Cpx T) : Quat T :=
  new (q.intoTuple.1 + c.intoTuple.1) (q.intoTuple.2.1 + c.intoTuple.2) q.intoTuple.2.2.1 q.intoTuple.2.2.2
/-- `Add<T>`, src/complex/quaternion.rs:202-211. -/
def addS [Add T] (q : Quat T) (s : T) : Quat T :=
  new (q.intoTuple.1 + s) q.intoTuple.2.1 q.intoTuple.2.2.1 q.intoTuple.2.2.2
/-- `Sub`, src/complex/quaternion.rs:212-220. -/
instance [Sub T] : Sub (Quat T) := ⟨fun p q => ⟨p.vec - q.vec⟩⟩
/-- `Sub<Complex>`, src/complex/quaternion.rs:221-231. -/
def subC [Sub T] (q : Quat T) (c : Cpx T) : Quat T :=
  new (q.intoTuple.1 - c.intoTuple.1) (q.intoTuple.2.1 - c.intoTuple.2) q.intoTuple.2.2.1 q.intoTuple.2.2.2
/-- `Sub<T>`, src/complex/quaternion.rs:232-241. -/
def subS [Sub T] (q : Quat T) (s : T) : Quat T :=
  new (q.intoTuple.1 - s) q.intoTuple.2.1 q.intoTuple.2.2.1 q.intoTuple.2.2.2
/-- `Add<Quaternion> for T`, src/complex/quaternion.rs:245-251. -/
def sAdd [Add T] (s : T) (q : Quat T) : Quat T := q.addS s
/-- `Add<Quaternion> for Complex`, src/complex/quaternion.rs:252-258. -/
def cAdd [Add T] (c : Cpx T) (q : Quat T) : Quat T := q.addC c
/-- `Sub<Quaternion> for T`, src/complex/quaternion.rs:259-265: `-other + self`. -/
def sSub [Neg T] [Add T] (s : T) (q : Quat T) : Quat T := (-q).addS s
/-- `Sub<Quaternion> for Complex`, src/complex/quaternion.rs:266-272: `-other + self`. -/
def cSub [Neg T] [Add T] (c : Cpx T) (q : Quat T) : Quat T := (-q).addC c

/-- `AddAssign`, src/complex/quaternion.rs:279-286. -/
def addAssign [Add T] (p q : Quat T) : Quat T := ⟨p.vec.addAssign q.vec⟩
/-- `AddAssign<Complex>`, src/complex/quaternion.rs:287-296. -/
def addAssignC [Add T] (q : Quat T) (c : Cpx T) : Quat T :=
  let q := q.setW (q.w + c.intoTuple.1)
  q.setX (q.x + c.intoTuple.2)
/-- `AddAssign<T>`, src/complex/quaternion.rs:297-304. -/
def addAssignS [Add T] (q : Quat T) (s : T) : Quat T := q.setW (q.w + s)
/-- `SubAssign`, src/complex/quaternion.rs:305-312. -/
def subAssign [Sub T] (p q : Quat T) : Quat T := ⟨p.vec.subAssign q.vec⟩
/-- `SubAssign<Complex>`, src/complex/quaternion.rs:313-322. -/
def subAssignC [Sub T] (q : Quat T) (c : Cpx T) : Quat T :=
  let q := q.setW (q.w - c.intoTuple.1)
  q.setX (q.x - c.intoTuple.2)
/-- `SubAssign<T>`, src/complex/quaternion.rs:323-330. -/
def subAssignS [Sub T] (q : Quat T) (s : T) : Quat T := q.setW (q.w - s)

/-- `Zero::zero`, src/complex/quaternion.rs:336-338. -/
instance [Zero T] : Zero (Quat T) := ⟨new 0 0 0 0⟩
/-- `Zero::is_zero`, src/complex/quaternion.rs:339-341. -/
instance [IsZero T] : IsZero (Quat T) := ⟨fun q => IsZero.isZero q.vec⟩

/-- `Mul`, src/complex/quaternion.rs:344-364. -/
instance [Add T] [Sub T] [Mul T] : Mul (Quat T) := ⟨fun p q => new
  (p.w * q.w - p.x * q.x - p.y * q.y - p.z * q.z)
  (p.w * q.x + p.x * q.w + p.y * q.z - p.z * q.y)
  (p.w * q.y - p.x * q.z + p.y * q.w + p.z * q.x)
  (p.w * q.z + p.x * q.y - p.y * q.x + p.z * q.w)⟩
/-- `Mul<Complex> for Quaternion`, src/complex/quaternion.rs:365-378. -/
def mulC [Add T] [Sub T] [Mul T] (q : Quat T) (c : Cpx T) : Quat T := new
  (q.w * c.re - q.x * c.im)
  (q.w * c.im + q.x * c.re)
  (q.z * c.im + q.y * c.re)
  (q.z * c.re - q.y * c.im)
/-- `Mul<Quaternion> for Complex`, src/complex/quaternion.rs:379-392. -/
def cMul [Add T] [Sub T] [Mul T] (c : Cpx T) (q : Quat T) : Quat T := new
  (c.re * q.w - c.im * q.x)
  (c.re * q.x + c.im * q.w)
  (c.re * q.y - c.im * q.z)
  (c.re * q.z + c.im * q.y)
/-- `Mul<T>`, src/complex/quaternion.rs:393-401. -/
def mulS [Mul T] (q : Quat T) (s : T) : Quat T := ⟨q.vec.mulS s⟩
/-- `MulAssign`, src/complex/quaternion.rs:403-410. -/
def mulAssign [Add T] [Sub T] [Mul T] (p q : Quat T) : Quat T := p * q
/-- `MulAssign<Complex>`, src/complex/quaternion.rs:411-418. -/
def mulAssignC [Add T] [Sub T] [Mul T] (q : Quat T) (c : Cpx T) : Quat T := q.mulC c
/-- `MulAssign<T>`, src/complex/quaternion.rs:419-426. -/
def mulAssignS [Mul T] (q : Quat T) (s : T) : Quat T := q.mulS s
/-- `One::one`, src/complex/quaternion.rs:428-435. -/
instance [Zero T] [One T] : One (Quat T) := ⟨new 1 0 0 0⟩
/-- `i`, src/complex/quaternion.rs:441-443. -/
def i [Zero T] [One T] : Quat T := new 0 1 0 0
/-- `j`, src/complex/quaternion.rs:444-446. -/
def j [Zero T] [One T] : Quat T := new 0 0 1 0
/-- `k`, src/complex/quaternion.rs:447-449. -/
def k [Zero T] [One T] : Quat T := new 0 0 0 1

/-- `norm_sqr`, src/complex/quaternion.rs:456-458 (also `norm_l2_sqr`, 479-481). -/
def normSqr [Add T] [Mul T] (q : Quat T) : T := q.vec.squareLength
/-- `norm`, src/complex/quaternion.rs:461-463 (also `norm_l2`, 476-478). -/
def norm [FloatOps T] [Add T] [Mul T] (q : Quat T) : T := q.vec.length
/-- `norm_l1`, src/complex/quaternion.rs:465-473. -/
def normL1 [ScalarNorm T] [Add T] (q : Quat T) : T := (q.vec.map ScalarNorm.normL1).sum

/-- `Div<T>`, src/complex/quaternion.rs:484-492. -/
def divS [Div T] (q : Quat T) (s : T) : Quat T := ⟨q.vec.divS s⟩
/-- `normalize`, src/complex/quaternion.rs:498-500 (also `Normalize`, 503-510). -/
def normalize [FloatOps T] [Add T] [Mul T] [Div T] (q : Quat T) : Quat T := q.divS q.norm
/-- `inv`, src/complex/quaternion.rs:516-518 (also `Inv`, 521-529). -/
def inv [Neg T] [Add T] [Mul T] [Div T] (q : Quat T) : Quat T := q.conj.divS q.normSqr
section
variable [Neg T] [Add T] [Sub T] [Mul T] [Div T]
/-- `Div`, src/complex/quaternion.rs:531-540: `self * other.inv()`. -/
instance : Div (Quat T) := ⟨fun p q => p * q.inv⟩
/-- `Div<Complex> for Quaternion`, src/complex/quaternion.rs:541-550. -/
def divC (q : Quat T) (c : Cpx T) : Quat T := q.mulC c.inv
/-- `Div<Quaternion> for Complex`, src/complex/quaternion.rs:551-560. -/
def cDiv (c : Cpx T) (q : Quat T) : Quat T := cMul c q.inv
/-- `DivAssign`, src/complex/quaternion.rs:562-569. -/
def divAssign (p q : Quat T) : Quat T := p / q
/-- `DivAssign<Complex>`, src/complex/quaternion.rs:570-577. -/
def divAssignC (q : Quat T) (c : Cpx T) : Quat T := q.divC c
end
/-- `DivAssign<T>`, src/complex/quaternion.rs:578-585. -/
def divAssignS [Div T] (q : Quat T) (s : T) : Quat T := q.divS s
/-- `Rem`, src/complex/quaternion.rs:587-592: `unimplemented!()`. -/
def remR (_p _q : Quat T) : Res (Quat T) := .error .unimplementedOp
/-- `Num::from_str_radix`, src/complex/quaternion.rs:594-599: `unimplemented!()`. -/
def fromStrRadixR {E : Type} (_s : String) (_radix : Nat) : Res (Except E (Quat T)) := .error .unimplementedOp
/-- `Mul<Quaternion> for T`, src/complex/quaternion.rs:603-609. -/
def sMul [Mul T] (s : T) (q : Quat T) : Quat T := q.mulS s
/-- `Div<Quaternion> for T`, src/complex/quaternion.rs:610-617. -/
def sDiv [Neg T] [Add T] [Mul T] [Div T] (s : T) (q : Quat T) : Quat T := sMul s q.inv
/-- `Dot`, src/complex/quaternion.rs:624-632. -/
def dot [Add T] [Mul T] (p q : Quat T) : T := p.vec.dot q.vec

/-- `iter::Sum`, src/complex/quaternion.rs:634-641. -/
def iterSum [Zero T] [Add T] (l : List (Quat T)) : Quat T := l.foldl (fun a x => a + x) 0
/-- `iter::Product`, src/complex/quaternion.rs:643-650. -/
def iterProduct [Zero T] [One T] [Add T] [Sub T] [Mul T] (l : List (Quat T)) : Quat T := l.foldl (fun a x => a * x) 1

end Quat
end Vecmat
