import Verif.Model.Tuple
import Verif.Model.SquarePure
/-!
# `Complex<T>`
Models `src/complex/complex_.rs`.  Operators are modelled for arbitrary scalar operations (no laws).
-/
namespace Vecmat
variable {T : Type}

/-- `struct Complex<T> { vec: Vector2<T> }`, src/complex/complex_.rs:13-18. -/
@[ext] structure Cpx (T : Type) where
  vec : Vec T 2
deriving DecidableEq, Repr

namespace Cpx

/-- `Complex::new`, src/complex/complex_.rs:21-23. -/
def new (w x : T) : Cpx T := ⟨Vec.fromArray #v[w, x]⟩
/-- `from_vector`, src/complex/complex_.rs:24-26 (also `From`, 51-55). -/
def fromVector (v : Vec T 2) : Cpx T := ⟨v⟩
/-- `from_array`, src/complex/complex_.rs:27-29 (also `From`, 61-65). -/
def fromArray (a : Vector T 2) : Cpx T := ⟨Vec.fromArray a⟩
/-- `from_tuple`, src/complex/complex_.rs:30-32 (also `From`, 71-75). -/
def fromTuple (t : T × T) : Cpx T := ⟨Vec.fromTuple2 t⟩
/-- `into_vector`, src/complex/complex_.rs:36-38 (also `From`, 56-60). -/
def intoVector (z : Cpx T) : Vec T 2 := z.vec
/-- `into_array`, src/complex/complex_.rs:39-41 (also `From`, 66-70). -/
def intoArray (z : Cpx T) : Vector T 2 := z.vec.intoArray
/-- `into_tuple`, src/complex/complex_.rs:42-44 (also `From`, 76-80). -/
def intoTuple (z : Cpx T) : T × T := z.vec.intoTuple2

/-- `re`, src/complex/complex_.rs:93-95 (also `re_ref`, 102-104). -/
def re (z : Cpx T) : T := z.vec.x
/-- `im`, src/complex/complex_.rs:96-98 (also `im_ref`, 105-107). -/
def im (z : Cpx T) : T := z.vec.y
/-- Writing through `re_mut`, src/complex/complex_.rs:108-110. -/
def setRe (z : Cpx T) (t : T) : Cpx T := ⟨z.vec.setX t⟩
/-- Writing through `im_mut`, src/complex/complex_.rs:111-113. -/
def setIm (z : Cpx T) (t : T) : Cpx T := ⟨z.vec.setY t⟩

/-- `into_matrix`, src/complex/complex_.rs:120-123. -/
def intoMatrix [Neg T] (z : Cpx T) : Mat T 2 2 :=
  Mat.fromArrArr #v[#v[z.intoTuple.1, -z.intoTuple.2], #v[z.intoTuple.2, z.intoTuple.1]]

/-- `Neg`, src/complex/complex_.rs:126-134. -/
instance [Neg T] : Neg (Cpx T) := ⟨fun z => ⟨-z.vec⟩⟩
/-- `conj`, src/complex/complex_.rs:140-143 (also `Conj`, 146-153). -/
def conj [Neg T] (z : Cpx T) : Cpx T := new z.intoTuple.1 (-z.intoTuple.2)

/-- `Add`, src/complex/complex_.rs:155-163. -/
instance [Add T] : Add (Cpx T) := ⟨fun z w => ⟨z.vec + w.vec⟩⟩
/-- `Add<T>`, src/complex/complex_.rs:164-173. -/
def addS [Add T] (z : Cpx T) (s : T) : Cpx T := new (z.intoTuple.1 + s) z.intoTuple.2
/-- `Sub`, src/complex/complex_.rs:174-182. -/
instance [Sub T] : Sub (Cpx T) := ⟨fun z w => ⟨z.vec - w.vec⟩⟩
/-- `Sub<T>`, src/complex/complex_.rs:183-192. -/
def subS [Sub T] (z : Cpx T) (s : T) : Cpx T := new (z.intoTuple.1 - s) z.intoTuple.2
/-- `Add<Complex> for T`, src/complex/complex_.rs:196-202: `other + self`. -/
def sAdd [Add T] (s : T) (z : Cpx T) : Cpx T := z.addS s
/-- `Sub<Complex> for T`, src/complex/complex_.rs:203-209: `-other + self`. -/
def sSub [Neg T] [Add T] (s : T) (z : Cpx T) : Cpx T := (-z).addS s

/-- `AddAssign`, src/complex/complex_.rs:216-223. -/
def addAssign [Add T] (z w : Cpx T) : Cpx T := ⟨z.vec.addAssign w.vec⟩
/-- `AddAssign<T>`, src/complex/complex_.rs:224-231: `*self.re_mut() += other`. -/
def addAssignS [Add T] (z : Cpx T) (s : T) : Cpx T := z.setRe (z.re + s)
/-- `SubAssign`, src/complex/complex_.rs:232-239. -/
def subAssign [Sub T] (z w : Cpx T) : Cpx T := ⟨z.vec.subAssign w.vec⟩
/-- `SubAssign<T>`, src/complex/complex_.rs:240-247. -/
def subAssignS [Sub T] (z : Cpx T) (s : T) : Cpx T := z.setRe (z.re - s)

/-- `Zero::zero`, src/complex/complex_.rs:253-255. -/
instance [Zero T] : Zero (Cpx T) := ⟨new 0 0⟩
/-- `Zero::is_zero`, src/complex/complex_.rs:256-258. -/
instance [IsZero T] : IsZero (Cpx T) := ⟨fun z => IsZero.isZero z.vec⟩

/-- `Mul`, src/complex/complex_.rs:261-272. -/
instance [Add T] [Sub T] [Mul T] : Mul (Cpx T) :=
  ⟨fun z w => new (z.re * w.re - z.im * w.im) (z.re * w.im + z.im * w.re)⟩
/-- `Mul<T>`, src/complex/complex_.rs:273-281. -/
def mulS [Mul T] (z : Cpx T) (s : T) : Cpx T := ⟨z.vec.mulS s⟩
/-- `MulAssign`, src/complex/complex_.rs:283-290. -/
def mulAssign [Add T] [Sub T] [Mul T] (z w : Cpx T) : Cpx T := z * w
/-- `MulAssign<T>`, src/complex/complex_.rs:291-298. -/
def mulAssignS [Mul T] (z : Cpx T) (s : T) : Cpx T := z.mulS s
/-- `One::one`, src/complex/complex_.rs:300-307. -/
instance [Zero T] [One T] : One (Cpx T) := ⟨new 1 0⟩
/-- `i`, src/complex/complex_.rs:313-315. -/
def i [Zero T] [One T] : Cpx T := new 0 1

/-- `norm_sqr`, src/complex/complex_.rs:322-324 (also `norm_l2_sqr`, 354-356). -/
def normSqr [Add T] [Mul T] (z : Cpx T) : T := z.vec.squareLength
/-- `norm`, src/complex/complex_.rs:327-329 (also `norm_l2`, 351-353). -/
def norm [FloatOps T] [Add T] [Mul T] (z : Cpx T) : T := z.vec.length
/-- `arg`, src/complex/complex_.rs:330-332: `im.atan2(re)`. -/
def arg [FloatOps T] (z : Cpx T) : T := FloatOps.atan2 z.im z.re
/-- `to_polar`, src/complex/complex_.rs:333-335. -/
def toPolar [FloatOps T] [Add T] [Mul T] (z : Cpx T) : T × T := (z.norm, z.arg)
/-- `from_polar`, src/complex/complex_.rs:336-338. -/
def fromPolar [FloatOps T] [Mul T] (r theta : T) : Cpx T := new (r * FloatOps.cos theta) (r * FloatOps.sin theta)
/-- `norm_l1`, src/complex/complex_.rs:340-348. -/
def normL1 [ScalarNorm T] [Add T] (z : Cpx T) : T := (z.vec.map ScalarNorm.normL1).sum

/-- `Div<T>`, src/complex/complex_.rs:359-367. -/
def divS [Div T] (z : Cpx T) (s : T) : Cpx T := ⟨z.vec.divS s⟩
/-- `normalize`, src/complex/complex_.rs:373-375 (also `Normalize`, 377-384). -/
def normalize [FloatOps T] [Add T] [Mul T] [Div T] (z : Cpx T) : Cpx T := z.divS z.norm
/-- `inv`, src/complex/complex_.rs:390-392 (also `Inv`, 394-402): `conj / norm_sqr`. -/
def inv [Neg T] [Add T] [Mul T] [Div T] (z : Cpx T) : Cpx T := z.conj.divS z.normSqr
/-- `Div`, src/complex/complex_.rs:405-413: `self * other.inv()`. -/
instance [Neg T] [Add T] [Sub T] [Mul T] [Div T] : Div (Cpx T) := ⟨fun z w => z * w.inv⟩
/-- `DivAssign`, src/complex/complex_.rs:415-422. -/
def divAssign [Neg T] [Add T] [Sub T] [Mul T] [Div T] (z w : Cpx T) : Cpx T := z / w
/-- `DivAssign<T>`, src/complex/complex_.rs:423-430. -/
def divAssignS [Div T] (z : Cpx T) (s : T) : Cpx T := z.divS s
/-- `Mul<Complex> for T`, src/complex/complex_.rs:448-454: `other * self`. -/
def sMul [Mul T] (s : T) (z : Cpx T) : Cpx T := z.mulS s
/-- `Div<Complex> for T`, src/complex/complex_.rs:455-462: `self * other.inv()`. -/
def sDiv [Neg T] [Add T] [Mul T] [Div T] (s : T) (z : Cpx T) : Cpx T := sMul s z.inv
/-- `Dot`, src/complex/complex_.rs:469-477. -/
def dot [Add T] [Mul T] (z w : Cpx T) : T := z.vec.dot w.vec

/-- `iter::Sum`, src/complex/complex_.rs:559-566, over an iterator yielding the items of a list. -/
def iterSum [Zero T] [Add T] (l : List (Cpx T)) : Cpx T := l.foldl (fun a x => a + x) 0
/-- `iter::Product`, src/complex/complex_.rs:568-575. -/
def iterProduct [Zero T] [One T] [Add T] [Sub T] [Mul T] (l : List (Cpx T)) : Cpx T := l.foldl (fun a x => a * x) 1

end Cpx

/-! ## delegation to `num_complex` -/

/-- `num_complex::Complex<T>` (external crate): a pair `re`, `im`. Used at src/complex/complex_.rs:432-557 (`into_num`, `from_num`). -/
@[ext] structure NumCpx (T : Type) where
  re : T
  im : T
deriving DecidableEq, Repr

/-- Functions of the external crate `num_complex` that `Complex<T>` delegates to (not modelled: arbitrary functions). Calls: src/complex/complex_.rs:432-557. -/
class NumCpxOps (T : Type) where
  rem : NumCpx T → NumCpx T → NumCpx T
  powu : NumCpx T → Nat → NumCpx T
  powi : NumCpx T → Int → NumCpx T
  exp : NumCpx T → NumCpx T
  ln : NumCpx T → NumCpx T
  sqrt : NumCpx T → NumCpx T
  cbrt : NumCpx T → NumCpx T
  powf : NumCpx T → T → NumCpx T
  log : NumCpx T → T → NumCpx T
  powc : NumCpx T → NumCpx T → NumCpx T
  expf : NumCpx T → T → NumCpx T
  sin : NumCpx T → NumCpx T
  cos : NumCpx T → NumCpx T
  tan : NumCpx T → NumCpx T
  asin : NumCpx T → NumCpx T
  acos : NumCpx T → NumCpx T
  atan : NumCpx T → NumCpx T
  sinh : NumCpx T → NumCpx T
  cosh : NumCpx T → NumCpx T
  tanh : NumCpx T → NumCpx T
  asinh : NumCpx T → NumCpx T
  acosh : NumCpx T → NumCpx T
  atanh : NumCpx T → NumCpx T
  finv : NumCpx T → NumCpx T
  fdiv : NumCpx T → NumCpx T → NumCpx T

namespace Cpx
/-- `from_num`, src/complex/complex_.rs:33-35 (also `From`, 81-85). -/
def fromNum (c : NumCpx T) : Cpx T := new c.re c.im
/-- `into_num`, src/complex/complex_.rs:45-48 (also `From`, 86-90). -/
def intoNum (z : Cpx T) : NumCpx T := ⟨z.intoTuple.1, z.intoTuple.2⟩
section
variable [NumCpxOps T]
/-- `Rem`, src/complex/complex_.rs:432-437. -/
instance : Mod (Cpx T) := ⟨fun z w => fromNum (NumCpxOps.rem z.intoNum w.intoNum)⟩
/-- `powu`, src/complex/complex_.rs:480-482. -/
def powu (z : Cpx T) (e : Nat) : Cpx T := fromNum (NumCpxOps.powu z.intoNum e)
/-- `powi`, src/complex/complex_.rs:485-487. -/
def powi (z : Cpx T) (e : Int) : Cpx T := fromNum (NumCpxOps.powi z.intoNum e)
/-- `exp`, src/complex/complex_.rs:491-493. -/
def exp (z : Cpx T) : Cpx T := fromNum (NumCpxOps.exp z.intoNum)
/-- `ln`, src/complex/complex_.rs:494-496. -/
def ln (z : Cpx T) : Cpx T := fromNum (NumCpxOps.ln z.intoNum)
/-- `sqrt`, src/complex/complex_.rs:497-499. -/
def sqrt (z : Cpx T) : Cpx T := fromNum (NumCpxOps.sqrt z.intoNum)
/-- `cbrt`, src/complex/complex_.rs:500-502. -/
def cbrt (z : Cpx T) : Cpx T := fromNum (NumCpxOps.cbrt z.intoNum)
/-- `powf`, src/complex/complex_.rs:503-505. -/
def powf (z : Cpx T) (e : T) : Cpx T := fromNum (NumCpxOps.powf z.intoNum e)
/-- `log`, src/complex/complex_.rs:506-508. -/
def log (z : Cpx T) (b : T) : Cpx T := fromNum (NumCpxOps.log z.intoNum b)
/-- `powc`, src/complex/complex_.rs:509-511. -/
def powc (z e : Cpx T) : Cpx T := fromNum (NumCpxOps.powc z.intoNum e.intoNum)
/-- `expf`, src/complex/complex_.rs:512-514. -/
def expf (z : Cpx T) (b : T) : Cpx T := fromNum (NumCpxOps.expf z.intoNum b)
/-- `sin`, src/complex/complex_.rs:515-517. -/
def sin (z : Cpx T) : Cpx T := fromNum (NumCpxOps.sin z.intoNum)
/-- `cos`, src/complex/complex_.rs:518-520. -/
def cos (z : Cpx T) : Cpx T := fromNum (NumCpxOps.cos z.intoNum)
/-- `tan`, src/complex/complex_.rs:521-523. -/
def tan (z : Cpx T) : Cpx T := fromNum (NumCpxOps.tan z.intoNum)
/-- `asin`, src/complex/complex_.rs:524-526. -/
def asin (z : Cpx T) : Cpx T := fromNum (NumCpxOps.asin z.intoNum)
/-- `acos`, src/complex/complex_.rs:527-529. -/
def acos (z : Cpx T) : Cpx T := fromNum (NumCpxOps.acos z.intoNum)
/-- `atan`, src/complex/complex_.rs:530-532. -/
def atan (z : Cpx T) : Cpx T := fromNum (NumCpxOps.atan z.intoNum)
/-- `sinh`, src/complex/complex_.rs:533-535. -/
def sinh (z : Cpx T) : Cpx T := fromNum (NumCpxOps.sinh z.intoNum)
/-- `cosh`, src/complex/complex_.rs:536-538. -/
def cosh (z : Cpx T) : Cpx T := fromNum (NumCpxOps.cosh z.intoNum)
/-- `tanh`, src/complex/complex_.rs:539-541. -/
def tanh (z : Cpx T) : Cpx T := fromNum (NumCpxOps.tanh z.intoNum)
/-- `asinh`, src/complex/complex_.rs:542-544. -/
def asinh (z : Cpx T) : Cpx T := fromNum (NumCpxOps.asinh z.intoNum)
/-- `acosh`, src/complex/complex_.rs:545-547. -/
def acosh (z : Cpx T) : Cpx T := fromNum (NumCpxOps.acosh z.intoNum)
/-- `atanh`, src/complex/complex_.rs:548-550. -/
def atanh (z : Cpx T) : Cpx T := fromNum (NumCpxOps.atanh z.intoNum)
/-- `finv`, src/complex/complex_.rs:551-553. -/
def finv (z : Cpx T) : Cpx T := fromNum (NumCpxOps.finv z.intoNum)
/-- `fdiv`, src/complex/complex_.rs:554-556. -/
def fdiv (z w : Cpx T) : Cpx T := fromNum (NumCpxOps.fdiv z.intoNum w.intoNum)
end
/-- `Num::from_str_radix`, src/complex/complex_.rs:439-444. The parser of the external crate, `NumComplex::from_str_radix`, is a parameter. -/
def fromStrRadix {E : Type} (numFromStrRadix : String → Nat → Except E (NumCpx T)) (s : String) (radix : Nat) : Except E (Cpx T) :=
  (numFromStrRadix s radix).map fromNum
end Cpx
end Vecmat
