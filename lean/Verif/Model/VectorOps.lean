import Verif.Model.VectorPure
import Verif.Model.Scalar
/-!
# Operators on `Vector<T, N>`
Models `src/vector/ops/{base,bit,int,iter,vcmp}.rs`, `src/vector/dot.rs`, `src/vector/spec.rs`,
`src/vector/math.rs`, `src/vector/approx.rs`.
-/
namespace Vecmat
variable {T U S : Type} {N : Nat}
namespace Vec

/-! ## src/vector/ops/base.rs -/

/-- `Neg`, src/vector/ops/base.rs:12-20. -/
instance [Neg T] : Neg (Vec T N) := ⟨fun v => v.map fun x => -x⟩
/-- `Add`, src/vector/ops/base.rs:22-30. -/
instance [Add T] : Add (Vec T N) := ⟨fun v w => (v.zip w).map fun p => p.1 + p.2⟩
/-- `Sub`, src/vector/ops/base.rs:31-39. -/
instance [Sub T] : Sub (Vec T N) := ⟨fun v w => (v.zip w).map fun p => p.1 - p.2⟩
/-- `Mul`, src/vector/ops/base.rs:40-48. -/
instance [Mul T] : Mul (Vec T N) := ⟨fun v w => (v.zip w).map fun p => p.1 * p.2⟩
/-- `Div`, src/vector/ops/base.rs:49-57. -/
instance [Div T] : Div (Vec T N) := ⟨fun v w => (v.zip w).map fun p => p.1 / p.2⟩
/-- `Rem`, src/vector/ops/base.rs:58-66. -/
instance [Mod T] : Mod (Vec T N) := ⟨fun v w => (v.zip w).map fun p => p.1 % p.2⟩

/-- `Mul<T>`, src/vector/ops/base.rs:68-76. -/
def mulS [Mul T] (v : Vec T N) (a : T) : Vec T N := v.map fun x => x * a
/-- `Div<T>`, src/vector/ops/base.rs:77-85. -/
def divS [Div T] (v : Vec T N) (a : T) : Vec T N := v.map fun x => x / a
/-- `Rem<T>`, src/vector/ops/base.rs:86-94. -/
def remS [Mod T] (v : Vec T N) (a : T) : Vec T N := v.map fun x => x % a
/-- `Mul<Vector<T, N>> for T` (the `reverse_mul!` macro), src/vector/ops/base.rs:178-199: `other * self`. -/
def sMul [Mul T] (a : T) (v : Vec T N) : Vec T N := v.mulS a

/-- `self.iter_mut().zip(other.into_iter()).for_each(|(s, x)| *s = f(*s, x))`: the loop of all binary compound
assignments (src/vector/ops/base.rs:96-145, src/vector/ops/bit.rs:42-71).  `l` are the items left in `other`,
`i` is the position of the mutable iterator; `Zip` stops when either side is exhausted. -/
def assignLoop (f : T → U → T) : (l : List U) → (i : Nat) → Vector T N → Vector T N
  | [], _, a => a
  | x :: l, i, a => if h : i < N then assignLoop f l (i + 1) (a.set i (f a[i] x)) else a
/-- Binary compound assignment `self op= other`, see `assignLoop`. src/vector/ops/base.rs:95-180. -/
def assignWith (f : T → U → T) (v : Vec T N) (w : Vec U N) : Vec T N := ⟨assignLoop f w.toList 0 v.data⟩
/-- `AddAssign`, src/vector/ops/base.rs:96-105 (scalar `+=` is `x = x + y`). -/
def addAssign [Add T] (v w : Vec T N) : Vec T N := assignWith (fun s x => s + x) v w
/-- `SubAssign`, src/vector/ops/base.rs:106-115. -/
def subAssign [Sub T] (v w : Vec T N) : Vec T N := assignWith (fun s x => s - x) v w
/-- `MulAssign`, src/vector/ops/base.rs:116-125. -/
def mulAssign [Mul T] (v w : Vec T N) : Vec T N := assignWith (fun s x => s * x) v w
/-- `DivAssign`, src/vector/ops/base.rs:126-135. -/
def divAssign [Div T] (v w : Vec T N) : Vec T N := assignWith (fun s x => s / x) v w
/-- `RemAssign`, src/vector/ops/base.rs:136-145. -/
def remAssign [Mod T] (v w : Vec T N) : Vec T N := assignWith (fun s x => s % x) v w

/-- `self.iter_mut().for_each(|s| *s = f(*s))`: the loop of the scalar compound assignments
(src/vector/ops/base.rs:147-176). -/
def assignEach (f : T → T) (v : Vec T N) : Vec T N :=
  ⟨Id.run (forRange N 0 v.data fun i a => pure (if h : i < N then a.set i (f a[i]) else a))⟩
/-- `MulAssign<T>`, src/vector/ops/base.rs:147-156. -/
def mulAssignS [Mul T] (v : Vec T N) (a : T) : Vec T N := assignEach (fun s => s * a) v
/-- `DivAssign<T>`, src/vector/ops/base.rs:157-166. -/
def divAssignS [Div T] (v : Vec T N) (a : T) : Vec T N := assignEach (fun s => s / a) v
/-- `RemAssign<T>`, src/vector/ops/base.rs:167-176. -/
def remAssignS [Mod T] (v : Vec T N) (a : T) : Vec T N := assignEach (fun s => s % a) v

/-- `Zero::zero`, src/vector/ops/base.rs:205-207: `Self::init(T::zero)`. -/
instance [Zero T] : Zero (Vec T N) := ⟨(initS (fun _ : Unit => (0, ())) ()).1⟩
/-- `Zero::is_zero`, src/vector/ops/base.rs:208-210: `self.iter().all(|x| x.is_zero())`. -/
instance [IsZero T] : IsZero (Vec T N) := ⟨fun v => v.toList.all IsZero.isZero⟩

/-- `Vector::sum`, src/vector/ops/base.rs:214-219. Panics for `N = 0` (`fold_first`). -/
def sumR [Add T] (v : Vec T N) : Res T := v.foldFirstR fun x y => x + y
/-- `Vector::max`, src/vector/ops/base.rs:220-225. -/
def maxR [RPartialOrd T] (v : Vec T N) : Res T := v.foldFirstR fun x y => if rlt x y then y else x
/-- `Vector::min`, src/vector/ops/base.rs:226-231. -/
def minR [RPartialOrd T] (v : Vec T N) : Res T := v.foldFirstR fun x y => if rlt x y then x else y
/-- `sum` on a non-empty vector. src/vector/ops/base.rs:214-219. -/
def sum [NeZero N] [Add T] (v : Vec T N) : T := v.foldFirst fun x y => x + y
/-- `max` on a non-empty vector. src/vector/ops/base.rs:220-225. -/
def max [NeZero N] [RPartialOrd T] (v : Vec T N) : T := v.foldFirst fun x y => if rlt x y then y else x
/-- `min` on a non-empty vector. src/vector/ops/base.rs:226-231. -/
def min [NeZero N] [RPartialOrd T] (v : Vec T N) : T := v.foldFirst fun x y => if rlt x y then x else y

/-- `NormL1::norm_l1`, src/vector/ops/base.rs:234-242. -/
def normL1R [ScalarNorm T] [Add T] (v : Vec T N) : Res T := (v.map ScalarNorm.normL1).sumR
/-- `NormL2::norm_l2_sqr`, src/vector/ops/base.rs:248-250. -/
def normL2SqrR [Mul T] [Add T] (v : Vec T N) : Res T := (v.map fun x => x * x).sumR
/-- `NormL2::norm_l2`, src/vector/ops/base.rs:251-253. -/
def normL2R [FloatOps T] [Mul T] [Add T] (v : Vec T N) : Res T := do
  let s ← v.normL2SqrR
  pure (FloatOps.sqrt s)
/-- `NormLInf::norm_l_inf`, src/vector/ops/base.rs:255-263. -/
def normLInfR [ScalarNorm T] [RPartialOrd T] (v : Vec T N) : Res T := (v.map ScalarNorm.normLInf).maxR

/-! ## src/vector/dot.rs -/

/-- `Dot<Vector> for Vector`, src/vector/dot.rs:5-13. Panics for `N = 0`. -/
def dotR [Mul T] [Add T] (v w : Vec T N) : Res T := ((v.zip w).map fun p => p.1 * p.2).sumR
/-- `square_length`, src/vector/dot.rs:19-21. -/
def squareLengthR [Mul T] [Add T] (v : Vec T N) : Res T := (v.map fun x => x * x).sumR
/-- `length`, src/vector/dot.rs:28-30. -/
def lengthR [FloatOps T] [Mul T] [Add T] (v : Vec T N) : Res T := do
  let s ← v.squareLengthR
  pure (FloatOps.sqrt s)
/-- `normalize`, src/vector/dot.rs:31-33 (also the trait method 36-43): `self / self.length()`. -/
def normalizeR [FloatOps T] [Mul T] [Add T] [Div T] (v : Vec T N) : Res (Vec T N) := do
  let l ← v.lengthR
  pure (v.divS l)
/-- `dot` on non-empty vectors, src/vector/dot.rs:10-12. -/
def dot [NeZero N] [Mul T] [Add T] (v w : Vec T N) : T := ((v.zip w).map fun p => p.1 * p.2).sum
/-- `square_length` on non-empty vectors, src/vector/dot.rs:19-21. -/
def squareLength [NeZero N] [Mul T] [Add T] (v : Vec T N) : T := (v.map fun x => x * x).sum
/-- `length` on non-empty vectors, src/vector/dot.rs:28-30. -/
def length [NeZero N] [FloatOps T] [Mul T] [Add T] (v : Vec T N) : T := FloatOps.sqrt v.squareLength
/-- `normalize` on non-empty vectors, src/vector/dot.rs:31-33. -/
def normalize [NeZero N] [FloatOps T] [Mul T] [Add T] [Div T] (v : Vec T N) : Vec T N := v.divS v.length

/-! ## src/vector/ops/bit.rs -/

/-- `Not`, src/vector/ops/bit.rs:4-12. -/
def not [Complement T] (v : Vec T N) : Vec T N := v.map fun x => ~~~x
/-- `BitAnd`, src/vector/ops/bit.rs:14-22. -/
def bitand [AndOp T] (v w : Vec T N) : Vec T N := (v.zip w).map fun p => p.1 &&& p.2
/-- `BitOr`, src/vector/ops/bit.rs:23-31. -/
def bitor [OrOp T] (v w : Vec T N) : Vec T N := (v.zip w).map fun p => p.1 ||| p.2
/-- `BitXor`, src/vector/ops/bit.rs:32-40. -/
def bitxor [XorOp T] (v w : Vec T N) : Vec T N := (v.zip w).map fun p => p.1 ^^^ p.2
/-- `BitAndAssign`, src/vector/ops/bit.rs:42-51. -/
def bitandAssign [AndOp T] (v w : Vec T N) : Vec T N := assignWith (fun s y => s &&& y) v w
/-- `BitOrAssign`, src/vector/ops/bit.rs:52-61. -/
def bitorAssign [OrOp T] (v w : Vec T N) : Vec T N := assignWith (fun s y => s ||| y) v w
/-- `BitXorAssign`, src/vector/ops/bit.rs:62-71. -/
def bitxorAssign [XorOp T] (v w : Vec T N) : Vec T N := assignWith (fun s y => s ^^^ y) v w
/-- `any`, src/vector/ops/bit.rs:73-77. -/
def any (v : Vec Bool N) : Bool := v.toList.any fun x => x
/-- `all`, src/vector/ops/bit.rs:78-82. -/
def all (v : Vec Bool N) : Bool := v.toList.all fun x => x

/-! ## src/vector/ops/int.rs -/

/-- `div_floor`, src/vector/ops/int.rs:8-10. -/
def divFloor [FloorDiv T] (v w : Vec T N) : Vec T N := (v.zip w).map fun p => FloorDiv.divFloor p.1 p.2
/-- `mod_floor`, src/vector/ops/int.rs:11-13. -/
def modFloor [FloorDiv T] (v w : Vec T N) : Vec T N := (v.zip w).map fun p => FloorDiv.modFloor p.1 p.2
/-- `div_mod_floor`, src/vector/ops/int.rs:14-18. -/
def divModFloor [FloorDiv T] (v w : Vec T N) : Vec T N × Vec T N :=
  ((v.zip w).map fun p => FloorDiv.divModFloor p.1 p.2).unzip

/-! ## src/vector/ops/iter.rs -/

/-- `iter::Sum`, src/vector/ops/iter.rs:8-12, over an iterator yielding the items of a list. -/
def iterSum [Zero T] [Add T] (l : List (Vec T N)) : Vec T N := l.foldl (fun a x => a + x) 0
/-- `iter::Product`, src/vector/ops/iter.rs:14-18: starts from `Self::init(T::one)`. -/
def iterProduct [One T] [Mul T] (l : List (Vec T N)) : Vec T N :=
  l.foldl (fun a x => a * x) (initS (fun _ : Unit => (1, ())) ()).1

/-! ## src/vector/ops/vcmp.rs -/

/-- `veq`, src/vector/ops/vcmp.rs:8-10. -/
def veq [BEq T] (v w : Vec T N) : Vec Bool N := (v.zip w).map fun p => p.1 == p.2
/-- `vne`, src/vector/ops/vcmp.rs:11-13. -/
def vne [BEq T] (v w : Vec T N) : Vec Bool N := (v.zip w).map fun p => p.1 != p.2
/-- `vlt`, src/vector/ops/vcmp.rs:19-21. -/
def vlt [RPartialOrd T] (v w : Vec T N) : Vec Bool N := (v.zip w).map fun p => rlt p.1 p.2
/-- `vle`, src/vector/ops/vcmp.rs:22-24. -/
def vle [RPartialOrd T] (v w : Vec T N) : Vec Bool N := (v.zip w).map fun p => rle p.1 p.2
/-- `vgt`, src/vector/ops/vcmp.rs:25-27. -/
def vgt [RPartialOrd T] (v w : Vec T N) : Vec Bool N := (v.zip w).map fun p => rgt p.1 p.2
/-- `vge`, src/vector/ops/vcmp.rs:28-30. -/
def vge [RPartialOrd T] (v w : Vec T N) : Vec Bool N := (v.zip w).map fun p => rge p.1 p.2

/-! ## src/vector/spec.rs -/

/-- Writing through `get_unchecked_mut`, src/vector/base/init.rs:164-166: undefined behaviour out of range. -/
def setUnchecked (v : Vec T N) (i : Nat) (x : T) : Res (Vec T N) :=
  if h : i < N then .ok ⟨v.data.set i x⟩ else .error .ub

theorem getUnchecked_ok (v : Vec T N) (i : Nat) (h : i < N) : ∃ a, v.getUnchecked i = .ok a := by
  simp [getUnchecked, h]
theorem setUnchecked_ok (v : Vec T N) (i : Nat) (x : T) (h : i < N) : ∃ a, v.setUnchecked i x = .ok a := by
  simp [setUnchecked, h]

/-- `x()` of 2-, 3- and 4-vectors, src/vector/spec.rs:9-11, 20-22, 34-36: `get_unchecked(0)`
(also `x_ref`, 49-51, 63-65, 83-85). -/
def x (v : Vec T (n + 1)) : T := (v.getUnchecked 0).get (getUnchecked_ok _ _ (by omega))
/-- `y()`, src/vector/spec.rs:12-14, 23-25, 37-39 (also `y_ref`, 52-54, 66-68, 86-88): `get_unchecked(1)`. -/
def y (v : Vec T (n + 2)) : T := (v.getUnchecked 1).get (getUnchecked_ok _ _ (by omega))
/-- `z()`, src/vector/spec.rs:26-28, 40-42 (also `z_ref`, 69-71, 89-91): `get_unchecked(2)`. -/
def z (v : Vec T (n + 3)) : T := (v.getUnchecked 2).get (getUnchecked_ok _ _ (by omega))
/-- `w()`, src/vector/spec.rs:43-45 (also `w_ref`, 92-94): `get_unchecked(3)`. -/
def w (v : Vec T (n + 4)) : T := (v.getUnchecked 3).get (getUnchecked_ok _ _ (by omega))
/-- Writing through `x_mut`, src/vector/spec.rs:55-57, 72-74, 95-97. -/
def setX (v : Vec T (n + 1)) (t : T) : Vec T (n + 1) := (v.setUnchecked 0 t).get (setUnchecked_ok _ _ _ (by omega))
/-- Writing through `y_mut`, src/vector/spec.rs:58-60, 75-77, 98-100. -/
def setY (v : Vec T (n + 2)) (t : T) : Vec T (n + 2) := (v.setUnchecked 1 t).get (setUnchecked_ok _ _ _ (by omega))
/-- Writing through `z_mut`, src/vector/spec.rs:78-80, 101-103. -/
def setZ (v : Vec T (n + 3)) (t : T) : Vec T (n + 3) := (v.setUnchecked 2 t).get (setUnchecked_ok _ _ _ (by omega))
/-- Writing through `w_mut`, src/vector/spec.rs:104-106. -/
def setW (v : Vec T (n + 4)) (t : T) : Vec T (n + 4) := (v.setUnchecked 3 t).get (setUnchecked_ok _ _ _ (by omega))

/-- 2D `cross`, src/vector/spec.rs:114-116. -/
def cross2 [Mul T] [Sub T] (a b : Vec T 2) : T := a.x * b.y - a.y * b.x
/-- 3D `cross`, src/vector/spec.rs:123-130. -/
def cross3 [Mul T] [Sub T] (a b : Vec T 3) : Vec T 3 :=
  fromArray #v[a.y * b.z - a.z * b.y, a.z * b.x - a.x * b.z, a.x * b.y - a.y * b.x]
/-- 4D `cross`, src/vector/spec.rs:137-145. -/
def cross4 [Mul T] [Sub T] [Zero T] (a b : Vec T 4) : Vec T 4 :=
  fromArray #v[a.y * b.z - a.z * b.y, a.z * b.x - a.x * b.z, a.x * b.y - a.y * b.x, 0]

/-- `from_tuple`, src/vector/spec.rs:149-151 (also `From`, 181-185). -/
def fromTuple2 (t : T × T) : Vec T 2 := fromArray #v[t.1, t.2]
/-- `from_tuple`, src/vector/spec.rs:158-160 (also `From`, 191-195). -/
def fromTuple3 (t : T × T × T) : Vec T 3 := fromArray #v[t.1, t.2.1, t.2.2]
/-- `from_tuple`, src/vector/spec.rs:167-169 (also `From`, 201-205). -/
def fromTuple4 (t : T × T × T × T) : Vec T 4 := fromArray #v[t.1, t.2.1, t.2.2.1, t.2.2.2]

/-- `it.next().unwrap()` on an array iterator. src/vector/spec.rs:154-176. -/
def nextUnwrap : Eff (List T) T := do
  let o ← listNext
  unwrap o
/-- `into_tuple`, src/vector/spec.rs:152-155 (also `From`, 186-190). -/
def intoTuple2R (v : Vec T 2) : Res (T × T) := (Eff.exec (do
  let a ← nextUnwrap
  let b ← nextUnwrap
  pure (a, b)) v.toList).1
/-- `into_tuple`, src/vector/spec.rs:161-164 (also `From`, 196-200). -/
def intoTuple3R (v : Vec T 3) : Res (T × T × T) := (Eff.exec (do
  let a ← nextUnwrap
  let b ← nextUnwrap
  let c ← nextUnwrap
  pure (a, b, c)) v.toList).1
/-- `into_tuple`, src/vector/spec.rs:170-178 (also `From`, 206-210). -/
def intoTuple4R (v : Vec T 4) : Res (T × T × T × T) := (Eff.exec (do
  let a ← nextUnwrap
  let b ← nextUnwrap
  let c ← nextUnwrap
  let d ← nextUnwrap
  pure (a, b, c, d)) v.toList).1

end Vec
end Vecmat
