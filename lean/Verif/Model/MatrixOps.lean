import Verif.Model.Matrix
import Verif.Lemmas.Transpose
/-!
# Operators on `Matrix<T, M, N>`
Models `src/matrix/ops/{base,bit,int,iter,vcmp}.rs`, `src/matrix/product.rs`, and the pure versions of `indices` and
`transpose` (extracted from the faithful models with the proof that they return).
-/
namespace Vecmat
variable {T U S σ : Type} {L M N : Nat}
namespace Mat

/-- `Matrix::indices`, src/matrix/base/iter.rs:88-93. -/
def indices : Mat (Nat × Nat) M N := indicesR.get (indicesR_ok.imp fun _ h => h.1)
/-- `Matrix::transpose`, src/matrix/transpose.rs:7-23. -/
def transpose (A : Mat T M N) : Mat T N M := (transposeR A).get ((transposeR_ok A).imp fun _ h => h.1)

/-! ## src/matrix/ops/base.rs -/

/-- `Neg`, src/matrix/ops/base.rs:12-20. -/
instance [Neg T] : Neg (Mat T M N) := ⟨fun A => A.map fun x => -x⟩
/-- `Add`, src/matrix/ops/base.rs:22-30. -/
instance [Add T] : Add (Mat T M N) := ⟨fun A B => (A.zip B).map fun p => p.1 + p.2⟩
/-- `Sub`, src/matrix/ops/base.rs:31-39. -/
instance [Sub T] : Sub (Mat T M N) := ⟨fun A B => (A.zip B).map fun p => p.1 - p.2⟩
/-- `Mul` (component-wise!), src/matrix/ops/base.rs:40-48. -/
instance [Mul T] : Mul (Mat T M N) := ⟨fun A B => (A.zip B).map fun p => p.1 * p.2⟩
/-- `Div` (component-wise), src/matrix/ops/base.rs:49-57. -/
instance [Div T] : Div (Mat T M N) := ⟨fun A B => (A.zip B).map fun p => p.1 / p.2⟩
/-- `Rem` (component-wise), src/matrix/ops/base.rs:58-66. -/
instance [Mod T] : Mod (Mat T M N) := ⟨fun A B => (A.zip B).map fun p => p.1 % p.2⟩
/-- `Mul<T>`, src/matrix/ops/base.rs:68-76. -/
def mulS [Mul T] (A : Mat T M N) (a : T) : Mat T M N := A.map fun v => v * a
/-- `Div<T>`, src/matrix/ops/base.rs:77-85. -/
def divS [Div T] (A : Mat T M N) (a : T) : Mat T M N := A.map fun v => v / a
/-- `Rem<T>`, src/matrix/ops/base.rs:86-94. -/
def remS [Mod T] (A : Mat T M N) (a : T) : Mat T M N := A.map fun v => v % a

/-- `*s = f(*s)` through the mutable reference to position `p`. The body of the loops in src/matrix/ops/base.rs:95-175. -/
def updAt (f : T → T) (A : Mat T M N) (p : Nat × Nat) : Res (Mat T M N) := do
  let s ← A.index p
  A.indexSet p (f s)
/-- `self.iter_mut().zip(other.into_iter()).for_each(|(s, x)| *s = f(*s, x))`: all binary compound assignments,
src/matrix/ops/base.rs:96-145, src/matrix/ops/bit.rs:45-74. `iter_mut` and `into_iter` panic when `M = 0`. -/
def assignWithR (f : T → U → T) (A : Mat T M N) (B : Mat U M N) : Res (Mat T M N) := do
  let ia ← iterMutNew A
  let ib ← iterNew B
  iterFold (zipIterNext (iterMutNext N) iterNext) (fun A p => updAt (fun s => f s p.2) A p.1) (fuelFor M N) (ia, ib) A
/-- `self.iter_mut().for_each(|s| *s = f(*s))`: the scalar compound assignments, src/matrix/ops/base.rs:147-176. -/
def assignEachR (f : T → T) (A : Mat T M N) : Res (Mat T M N) := do
  let ia ← iterMutNew A
  iterFold (iterMutNext N) (fun A p => updAt f A p) (fuelFor M N) ia A
/-- `AddAssign`, src/matrix/ops/base.rs:96-105. -/
def addAssignR [Add T] (A B : Mat T M N) : Res (Mat T M N) := assignWithR (fun s x => s + x) A B
/-- `SubAssign`, src/matrix/ops/base.rs:106-115. -/
def subAssignR [Sub T] (A B : Mat T M N) : Res (Mat T M N) := assignWithR (fun s x => s - x) A B
/-- `MulAssign`, src/matrix/ops/base.rs:116-125. -/
def mulAssignR [Mul T] (A B : Mat T M N) : Res (Mat T M N) := assignWithR (fun s x => s * x) A B
/-- `DivAssign`, src/matrix/ops/base.rs:126-135. -/
def divAssignR [Div T] (A B : Mat T M N) : Res (Mat T M N) := assignWithR (fun s x => s / x) A B
/-- `RemAssign`, src/matrix/ops/base.rs:136-145. -/
def remAssignR [Mod T] (A B : Mat T M N) : Res (Mat T M N) := assignWithR (fun s x => s % x) A B
/-- `MulAssign<T>`, src/matrix/ops/base.rs:147-156. -/
def mulAssignSR [Mul T] (A : Mat T M N) (a : T) : Res (Mat T M N) := assignEachR (fun s => s * a) A
/-- `DivAssign<T>`, src/matrix/ops/base.rs:157-166. -/
def divAssignSR [Div T] (A : Mat T M N) (a : T) : Res (Mat T M N) := assignEachR (fun s => s / a) A
/-- `RemAssign<T>`, src/matrix/ops/base.rs:167-176. -/
def remAssignSR [Mod T] (A : Mat T M N) (a : T) : Res (Mat T M N) := assignEachR (fun s => s % a) A

/-- `Zero::zero`, src/matrix/ops/base.rs:182-184: `Self::init(T::zero)`. -/
instance [Zero T] : Zero (Mat T M N) := ⟨(initS (fun _ : Unit => (0, ())) ()).1⟩
/-- `Zero::is_zero`, src/matrix/ops/base.rs:185-187: `self.iter().all(|x| x.is_zero())`; panics when `M = 0`. -/
def isZeroR [IsZero T] (A : Mat T M N) : Res Bool := do
  let it ← iterNew A
  iterAll iterNext IsZero.isZero (fuelFor M N) it

/-- `sum`, src/matrix/ops/base.rs:191-196. -/
def sumR [Add T] (A : Mat T M N) : Res T := A.foldFirstR fun x y => x + y
/-- `max`, src/matrix/ops/base.rs:197-202. -/
def maxR [RPartialOrd T] (A : Mat T M N) : Res T := A.foldFirstR fun x y => if rlt x y then y else x
/-- `min`, src/matrix/ops/base.rs:203-208. -/
def minR [RPartialOrd T] (A : Mat T M N) : Res T := A.foldFirstR fun x y => if rlt x y then x else y
/-- `norm_l1`, src/matrix/ops/base.rs:211-219. -/
def normL1R [ScalarNorm T] [Add T] (A : Mat T M N) : Res T := (A.map ScalarNorm.normL1).sumR
/-- `norm_l2_sqr`, src/matrix/ops/base.rs:225-227. -/
def normL2SqrR [Mul T] [Add T] (A : Mat T M N) : Res T := (A.map fun x => x * x).sumR
/-- `norm_l2`, src/matrix/ops/base.rs:228-230. -/
def normL2R [FloatOps T] [Mul T] [Add T] (A : Mat T M N) : Res T := do
  let s ← A.normL2SqrR
  pure (FloatOps.sqrt s)
/-- `norm_l_inf`, src/matrix/ops/base.rs:232-240. -/
def normLInfR [ScalarNorm T] [RPartialOrd T] (A : Mat T M N) : Res T := (A.map ScalarNorm.normLInf).maxR

/-! ## src/matrix/ops/bit.rs -/

/-- `Not`, src/matrix/ops/bit.rs:7-15. -/
def not [Complement T] (A : Mat T M N) : Mat T M N := A.map fun x => ~~~x
/-- `BitAnd`, src/matrix/ops/bit.rs:17-25. -/
def bitand [AndOp T] (A B : Mat T M N) : Mat T M N := (A.zip B).map fun p => p.1 &&& p.2
/-- `BitOr`, src/matrix/ops/bit.rs:26-34. -/
def bitor [OrOp T] (A B : Mat T M N) : Mat T M N := (A.zip B).map fun p => p.1 ||| p.2
/-- `BitXor`, src/matrix/ops/bit.rs:35-43. -/
def bitxor [XorOp T] (A B : Mat T M N) : Mat T M N := (A.zip B).map fun p => p.1 ^^^ p.2
/-- `BitAndAssign`, src/matrix/ops/bit.rs:45-54. -/
def bitandAssignR [AndOp T] (A B : Mat T M N) : Res (Mat T M N) := assignWithR (fun s y => s &&& y) A B
/-- `BitOrAssign`, src/matrix/ops/bit.rs:55-64. -/
def bitorAssignR [OrOp T] (A B : Mat T M N) : Res (Mat T M N) := assignWithR (fun s y => s ||| y) A B
/-- `BitXorAssign`, src/matrix/ops/bit.rs:65-74. -/
def bitxorAssignR [XorOp T] (A B : Mat T M N) : Res (Mat T M N) := assignWithR (fun s y => s ^^^ y) A B
/-- `any`, src/matrix/ops/bit.rs:76-80; panics when `M = 0`. -/
def anyR (A : Mat Bool M N) : Res Bool := do
  let it ← iterNew A
  iterAny iterNext (fun x => x) (fuelFor M N) it
/-- `all`, src/matrix/ops/bit.rs:81-85; panics when `M = 0`. -/
def allR (A : Mat Bool M N) : Res Bool := do
  let it ← iterNew A
  iterAll iterNext (fun x => x) (fuelFor M N) it

/-! ## src/matrix/ops/int.rs -/

/-- `div_floor`, src/matrix/ops/int.rs:8-10. -/
def divFloor [FloorDiv T] (A B : Mat T M N) : Mat T M N := (A.zip B).map fun p => FloorDiv.divFloor p.1 p.2
/-- `mod_floor`, src/matrix/ops/int.rs:11-13. -/
def modFloor [FloorDiv T] (A B : Mat T M N) : Mat T M N := (A.zip B).map fun p => FloorDiv.modFloor p.1 p.2
/-- `div_mod_floor`, src/matrix/ops/int.rs:14-18. -/
def divModFloor [FloorDiv T] (A B : Mat T M N) : Mat T M N × Mat T M N :=
  ((A.zip B).map fun p => FloorDiv.divModFloor p.1 p.2).unzip

/-! ## src/matrix/ops/iter.rs -/

/-- `iter::Sum`, src/matrix/ops/iter.rs:8-12. -/
def iterSum [Zero T] [Add T] (l : List (Mat T M N)) : Mat T M N := l.foldl (fun a x => a + x) 0
/-- `iter::Product`, src/matrix/ops/iter.rs:14-18. -/
def iterProduct [One T] [Mul T] (l : List (Mat T M N)) : Mat T M N :=
  l.foldl (fun a x => a * x) (initS (fun _ : Unit => (1, ())) ()).1

/-! ## src/matrix/ops/vcmp.rs -/

/-- `veq`, src/matrix/ops/vcmp.rs:8-10. -/
def veq [BEq T] (A B : Mat T M N) : Mat Bool M N := (A.zip B).map fun p => p.1 == p.2
/-- `vne`, src/matrix/ops/vcmp.rs:11-13. -/
def vne [BEq T] (A B : Mat T M N) : Mat Bool M N := (A.zip B).map fun p => p.1 != p.2
/-- `vlt`, src/matrix/ops/vcmp.rs:19-21. -/
def vlt [RPartialOrd T] (A B : Mat T M N) : Mat Bool M N := (A.zip B).map fun p => rlt p.1 p.2
/-- `vle`, src/matrix/ops/vcmp.rs:22-24. -/
def vle [RPartialOrd T] (A B : Mat T M N) : Mat Bool M N := (A.zip B).map fun p => rle p.1 p.2
/-- `vgt`, src/matrix/ops/vcmp.rs:25-27. -/
def vgt [RPartialOrd T] (A B : Mat T M N) : Mat Bool M N := (A.zip B).map fun p => rgt p.1 p.2
/-- `vge`, src/matrix/ops/vcmp.rs:28-30. -/
def vge [RPartialOrd T] (A B : Mat T M N) : Mat Bool M N := (A.zip B).map fun p => rge p.1 p.2

/-! ## src/matrix/product.rs -/

/-- `Outer`, src/matrix/product.rs:7-15: `Matrix::indices().map(|(i, j)| self[i] * other[j])`. -/
def outerR [Mul T] (v : Vec T M) (w : Vec T N) : Res (Mat T M N) :=
  (indices (M := M) (N := N)).mapM fun p => do
    let a ← v.index p.1
    let b ← w.index p.2
    pure (a * b)
/-- `Matrix.dot(Vector)`, src/matrix/product.rs:17-25: `Vector::indices().map(|i| self.row(i).dot(vec))`. -/
def dotVR [Mul T] [Add T] (A : Mat T M N) (v : Vec T N) : Res (Vec T M) :=
  (Vec.indices (N := M)).mapM fun i => do
    let r ← A.rowR i
    r.dotR v
/-- `Vector.dot(Matrix)`, src/matrix/product.rs:27-35: `Vector::indices().map(|j| self.dot(mat.col(j)))`. -/
def vDotR [Mul T] [Add T] (v : Vec T M) (A : Mat T M N) : Res (Vec T N) :=
  (Vec.indices (N := N)).mapM fun j => do
    let c ← A.colR j
    v.dotR c
/-- `Matrix.dot(Matrix)`, src/matrix/product.rs:37-45: `Matrix::indices().map(|(i, j)| self.row(i).dot(mat.col(j)))`. -/
def dotMR [Mul T] [Add T] (A : Mat T L M) (B : Mat T M N) : Res (Mat T L N) :=
  (indices (M := L) (N := N)).mapM fun p => do
    let r ← A.rowR p.1
    let c ← B.colR p.2
    r.dotR c

end Mat
end Vecmat
