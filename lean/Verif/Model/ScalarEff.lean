import Verif.Model.Square
import Verif.Model.Quaternion
/-!
# Scalar types whose operators panic or have side effects
The other models take the scalar operations to be pure functions. Here the operators of the scalar type are computations: they may
panic (overflow checks, division by zero, a user-defined type) and have side effects on a state `σ` (a user-defined type that counts,
logs or draws random numbers). The functions are written down again with every call of a scalar operator in its place in the order
of evaluation; `σ` is what the caller sees afterwards, also after a panic.
`Props/ScalarEff.lean` proves that for operators without effects these are the functions of the other model files.
-/
namespace Vecmat
variable {T U σ : Type} {L M N : Nat}

/-- The operator functions of a scalar type, as computations. Models the calls of `Add::add`, `Sub::sub`, `Mul::mul`, `Div::div`,
`Rem::rem`, `Neg::neg`, `Zero::zero`, `One::one` on the scalar type `T` (no code of /repo). The scalar operators called at src/vector/ops/base.rs:18-92. -/
structure ScalarE (σ T : Type) where
  add : T → T → Eff σ T
  sub : T → T → Eff σ T
  mul : T → T → Eff σ T
  div : T → T → Eff σ T
  rem : T → T → Eff σ T
  neg : T → Eff σ T
  zero : Eff σ T
  one : Eff σ T

namespace Vec
/-- `self.zip(vec).map(|(x, y)| f(x, y))`: the body of all component-wise operators, src/vector/ops/base.rs:22-66. -/
def binE (f : T → T → Eff σ T) (v w : Vec T N) : Eff σ (Vec T N) := (v.zip w).mapM fun p => f p.1 p.2
/-- `Neg`, src/vector/ops/base.rs:12-20. -/
def negE (o : ScalarE σ T) (v : Vec T N) : Eff σ (Vec T N) := v.mapM o.neg
/-- `Add`, src/vector/ops/base.rs:22-30. -/
def addE (o : ScalarE σ T) (v w : Vec T N) : Eff σ (Vec T N) := binE o.add v w
/-- `Sub`, src/vector/ops/base.rs:31-39. -/
def subE (o : ScalarE σ T) (v w : Vec T N) : Eff σ (Vec T N) := binE o.sub v w
/-- `Mul`, src/vector/ops/base.rs:40-48. -/
def mulE (o : ScalarE σ T) (v w : Vec T N) : Eff σ (Vec T N) := binE o.mul v w
/-- `Div`, src/vector/ops/base.rs:49-57. -/
def divE (o : ScalarE σ T) (v w : Vec T N) : Eff σ (Vec T N) := binE o.div v w
/-- `Rem`, src/vector/ops/base.rs:58-66. -/
def remE (o : ScalarE σ T) (v w : Vec T N) : Eff σ (Vec T N) := binE o.rem v w
/-- `Mul<T>`, src/vector/ops/base.rs:68-76. -/
def mulSE (o : ScalarE σ T) (v : Vec T N) (a : T) : Eff σ (Vec T N) := v.mapM fun x => o.mul x a
/-- `Div<T>`, src/vector/ops/base.rs:77-85. -/
def divSE (o : ScalarE σ T) (v : Vec T N) (a : T) : Eff σ (Vec T N) := v.mapM fun x => o.div x a
/-- `Rem<T>`, src/vector/ops/base.rs:86-94. -/
def remSE (o : ScalarE σ T) (v : Vec T N) (a : T) : Eff σ (Vec T N) := v.mapM fun x => o.rem x a
/-- `Vector::sum`, src/vector/ops/base.rs:214-219. -/
def sumE (o : ScalarE σ T) (v : Vec T N) : Eff σ T := v.foldFirstM o.add
/-- `Dot<Vector> for Vector`, src/vector/dot.rs:5-13: all products first, then the sum. -/
def dotE (o : ScalarE σ T) (v w : Vec T N) : Eff σ T := do
  let p ← (v.zip w).mapM fun p => o.mul p.1 p.2
  p.sumE o
/-- `square_length`, src/vector/dot.rs:19-21. -/
def squareLengthE (o : ScalarE σ T) (v : Vec T N) : Eff σ T := do
  let p ← v.mapM fun x => o.mul x x
  p.sumE o
/-- `a * b - c * d`, the expression in the components of the cross products. src/vector/spec.rs (`cross`). -/
def mulSubE (o : ScalarE σ T) (a b c d : T) : Eff σ T := do
  let x ← o.mul a b
  let y ← o.mul c d
  o.sub x y
/-- 2D `cross`, src/vector/spec.rs:114-116. -/
def cross2E (o : ScalarE σ T) (a b : Vec T 2) : Eff σ T := mulSubE o a.x b.y a.y b.x
/-- 3D `cross`, src/vector/spec.rs:123-130. -/
def cross3E (o : ScalarE σ T) (a b : Vec T 3) : Eff σ (Vec T 3) := do
  let x ← mulSubE o a.y b.z a.z b.y
  let y ← mulSubE o a.z b.x a.x b.z
  let z ← mulSubE o a.x b.y a.y b.x
  pure (fromArray #v[x, y, z])
/-- 4D `cross`, src/vector/spec.rs:137-145. -/
def cross4E (o : ScalarE σ T) (a b : Vec T 4) : Eff σ (Vec T 4) := do
  let x ← mulSubE o a.y b.z a.z b.y
  let y ← mulSubE o a.z b.x a.x b.z
  let z ← mulSubE o a.x b.y a.y b.x
  let w ← o.zero
  pure (fromArray #v[x, y, z, w])

/-! ## compound assignment -/

/-- Run a computation on the component behind `&mut self.data[i]` (the first part of its state); what it leaves there is left
there also when it panics. The body of the loops at src/vector/ops/base.rs:101-180. -/
def atIdx {α : Type} (i : Nat) (c : Eff (T × σ) α) : Eff (Vec T N × σ) α := ExceptT.mk fun (v, s) =>
  if h : i < N then
    let r := c.exec (v.data[i], s)
    (r.1, (⟨v.data.set i r.2.1⟩, r.2.2))
  else (.error .indexOob, (v, s))
/-- The loop of the binary compound assignments, src/vector/ops/base.rs:96-145 and src/vector/ops/bit.rs:42-71; see
`Vec.assignLoop`. `f x` is `*s op= x`. -/
def assignLoopE (f : U → Eff (T × σ) Unit) : (l : List U) → (i : Nat) → Eff (Vec T N × σ) Unit
  | [], _ => pure ()
  | x :: l, i =>
    if i < N then do
      atIdx i (f x)
      assignLoopE f l (i + 1)
    else pure ()
/-- `self op= other`, src/vector/ops/base.rs:96-145 (`AddAssign`, `SubAssign`, `MulAssign`, `DivAssign`, `RemAssign`),
src/vector/ops/bit.rs:42-71: `self.iter_mut().zip(other.into_iter()).for_each(|(s, x)| *s op= x)`. -/
def assignE (f : U → Eff (T × σ) Unit) (w : Vec U N) : Eff (Vec T N × σ) Unit := assignLoopE f w.toList 0
/-- `self op= a` with a scalar, src/vector/ops/base.rs:147-176: `self.iter_mut().for_each(|s| *s op= a)`. -/
def assignEachE (c : Eff (T × σ) Unit) : Eff (Vec T N × σ) Unit := forRange N 0 () fun i _ => atIdx i c
end Vec

namespace Mat
/-- `self.zip(vec).map(|(x, y)| f(x, y))`: the component-wise operators, src/matrix/ops/base.rs:22-66. -/
def binE (f : T → T → Eff σ T) (A B : Mat T M N) : Eff σ (Mat T M N) := (A.zip B).mapM fun p => f p.1 p.2
/-- `Neg`, src/matrix/ops/base.rs:12-20. -/
def negE (o : ScalarE σ T) (A : Mat T M N) : Eff σ (Mat T M N) := A.mapM o.neg
/-- `Add`, src/matrix/ops/base.rs:22-30. -/
def addE (o : ScalarE σ T) (A B : Mat T M N) : Eff σ (Mat T M N) := binE o.add A B
/-- `Sub`, src/matrix/ops/base.rs:31-39. -/
def subE (o : ScalarE σ T) (A B : Mat T M N) : Eff σ (Mat T M N) := binE o.sub A B
/-- `Mul` (component-wise), src/matrix/ops/base.rs:40-48. -/
def mulE (o : ScalarE σ T) (A B : Mat T M N) : Eff σ (Mat T M N) := binE o.mul A B
/-- `Div` (component-wise), src/matrix/ops/base.rs:49-57. -/
def divE (o : ScalarE σ T) (A B : Mat T M N) : Eff σ (Mat T M N) := binE o.div A B
/-- `Rem` (component-wise), src/matrix/ops/base.rs:58-66. -/
def remE (o : ScalarE σ T) (A B : Mat T M N) : Eff σ (Mat T M N) := binE o.rem A B
/-- `Mul<T>`, src/matrix/ops/base.rs:68-76. -/
def mulSE (o : ScalarE σ T) (A : Mat T M N) (a : T) : Eff σ (Mat T M N) := A.mapM fun x => o.mul x a
/-- `Div<T>`, src/matrix/ops/base.rs:77-85. -/
def divSE (o : ScalarE σ T) (A : Mat T M N) (a : T) : Eff σ (Mat T M N) := A.mapM fun x => o.div x a
/-- `Rem<T>`, src/matrix/ops/base.rs:86-94. -/
def remSE (o : ScalarE σ T) (A : Mat T M N) (a : T) : Eff σ (Mat T M N) := A.mapM fun x => o.rem x a
/-- `sum`, src/matrix/ops/base.rs:191-196. -/
def sumE (o : ScalarE σ T) (A : Mat T M N) : Eff σ T := A.foldFirstM o.add

/-- `Outer`, src/matrix/product.rs:7-15. -/
def outerE (o : ScalarE σ T) (v : Vec T M) (w : Vec T N) : Eff σ (Mat T M N) :=
  (indices (M := M) (N := N)).mapM fun p => do
    let a ← liftRes (v.index p.1)
    let b ← liftRes (w.index p.2)
    o.mul a b
/-- `Matrix.dot(Vector)`, src/matrix/product.rs:17-25. -/
def dotVE (o : ScalarE σ T) (A : Mat T M N) (v : Vec T N) : Eff σ (Vec T M) :=
  (Vec.indices (N := M)).mapM fun i => do
    let r ← liftRes (A.rowR i)
    r.dotE o v
/-- `Vector.dot(Matrix)`, src/matrix/product.rs:27-35. -/
def vDotE (o : ScalarE σ T) (v : Vec T M) (A : Mat T M N) : Eff σ (Vec T N) :=
  (Vec.indices (N := N)).mapM fun j => do
    let c ← liftRes (A.colR j)
    v.dotE o c
/-- `Matrix.dot(Matrix)`, src/matrix/product.rs:37-45. -/
def dotME (o : ScalarE σ T) (A : Mat T L M) (B : Mat T M N) : Eff σ (Mat T L N) :=
  (indices (M := L) (N := N)).mapM fun p => do
    let r ← liftRes (A.rowR p.1)
    let c ← liftRes (B.colR p.2)
    r.dotE o c

/-! ## determinant, adjugate, inverse -/

/-- A step that only touches the `Determinator` (its mask). src/matrix/square.rs:103-142. -/
def onMask {α : Type} (c : Eff (Mask N) α) : Eff (Mask N × σ) α := ExceptT.mk fun (m, s) =>
  let r := c.exec m
  (r.1, (r.2, s))
/-- A call of a scalar operator. src/matrix/square.rs:103-142. -/
def onEnv {α : Type} (c : Eff σ α) : Eff (Mask N × σ) α := ExceptT.mk fun (m, s) =>
  let r := c.exec s
  (r.1, (m, r.2))
/-- `Determinator::cofactor`, src/matrix/square.rs:118-126. -/
def cofactorWithE (o : ScalarE σ T) (det : Eff (Mask N × σ) T) (ir jr : Nat × Nat) : Eff (Mask N × σ) T := do
  onMask (exclude ir.1 jr.1)
  let a ← det
  let a ← if (ir.2 + jr.2) % 2 ≠ 0 then onEnv (o.neg a) else pure a
  onMask (include_ ir.1 jr.1)
  pure a
/-- `Determinator::det`, src/matrix/square.rs:127-141: `a = a + self.matrix[(i, j)] * self.cofactor(…)` looks up the entry, then
computes the cofactor, then multiplies, then adds. `fuel` as in `detAux`. -/
def detAuxE (o : ScalarE σ T) (A : Mat T N N) : (fuel : Nat) → Eff (Mask N × σ) T
  | 0 => throw .outOfFuel
  | n + 1 => do
    let m ← onMask get
    if m.deg = 0 then onEnv o.one
    else do
      let i ← liftRes (maskFind m.col 0)
      let z ← onEnv o.zero
      let r ← forRange m.deg 0 ((0 : Nat), z) fun rj s => do
        let m ← onMask get
        let j ← liftRes (maskFind m.row s.1)
        let x ← liftRes (A.index (i, j))
        let c ← cofactorWithE o (detAuxE o A n) (i, 0) (j, rj)
        let p ← onEnv (o.mul x c)
        let a ← onEnv (o.add s.2 p)
        pure (j + 1, a)
      pure r.2
/-- Run a computation of a fresh `Determinator` (`Determinator::new`, src/matrix/square.rs:112-117), which is dropped at the end. -/
def withMask {α : Type} (c : Eff (Mask N × σ) α) : Eff σ α := ExceptT.mk fun s =>
  let r := c.exec (Mask.new, s)
  (r.1, r.2.2)
/-- `Matrix::det`, src/matrix/square.rs:155-157. -/
def detE (o : ScalarE σ T) (A : Mat T N N) : Eff σ T := withMask (detAuxE o A (N + 1))
/-- `Matrix::cofactor`, src/matrix/square.rs:149-152. -/
def cofactorE (o : ScalarE σ T) (A : Mat T N N) (i j : Nat) : Eff σ T :=
  if i < N ∧ j < N then withMask (cofactorWithE o (detAuxE o A (N + 1)) (i, i) (j, j)) else throw .assertFailed
/-- `Matrix::adj`, src/matrix/square.rs:160-162. -/
def adjE (o : ScalarE σ T) (A : Mat T N N) : Eff σ (Mat T N N) :=
  (indices (M := N) (N := N)).mapM fun p => A.cofactorE o p.2 p.1
/-- `Matrix::inv`, src/matrix/square.rs:165-167 (and `Inv::inv`, 170-179): `self.adj() / self.det()`. -/
def invE (o : ScalarE σ T) (A : Mat T N N) : Eff σ (Mat T N N) := do
  let a ← A.adjE o
  let d ← A.detE o
  a.divSE o d

/-! ## compound assignment -/

/-- Run a computation on the component behind `&mut self[(i, j)]`; see `Vec.atIdx`. The body of the loops in src/matrix/ops/base.rs. -/
def atPos {α : Type} (p : Nat × Nat) (c : Eff (T × σ) α) : Eff (Mat T M N × σ) α := ExceptT.mk fun (A, s) =>
  match A.index p with
  | .error e => (.error e, (A, s))
  | .ok x =>
    let r := c.exec (x, s)
    match A.indexSet p r.2.1 with
    | .error e => (.error e, (A, r.2.2))
    | .ok A' => (r.1, (A', r.2.2))
/-- `Iterator::for_each` (core) with an effectful body; `fuel` bounds the number of `next` calls. Calls: src/vector/ops/base.rs:101-180. -/
def forEachIt {ι α τ : Type} (next : Eff ι (Option α)) (body : α → Eff τ Unit) : (fuel : Nat) → ι → Eff τ Unit
  | 0, _ => throw .outOfFuel
  | n + 1, it =>
    match next.exec it with
    | (.error e, _) => throw e
    | (.ok none, _) => pure ()
    | (.ok (some a), it') => do
      body a
      forEachIt next body n it'
/-- `self op= other`, src/matrix/ops/base.rs:96-145, src/matrix/ops/bit.rs:45-74; see `assignWithR`. -/
def assignE (f : U → Eff (T × σ) Unit) (B : Mat U M N) : Eff (Mat T M N × σ) Unit := do
  let st ← get
  let ia ← liftRes (iterMutNew st.1)
  let ib ← liftRes (iterNew B)
  forEachIt (zipIterNext (iterMutNext N) iterNext) (fun p => atPos p.1 (f p.2)) (fuelFor M N) (ia, ib)
/-- `self op= a` with a scalar, src/matrix/ops/base.rs:147-176. -/
def assignEachE (c : Eff (T × σ) Unit) : Eff (Mat T M N × σ) Unit := do
  let st ← get
  let ia ← liftRes (iterMutNew st.1)
  forEachIt (iterMutNext N) (fun p => atPos p c) (fuelFor M N) ia
end Mat

namespace Cpx
/-- `Neg`, src/complex/complex_.rs:126-134. -/
def negE (o : ScalarE σ T) (z : Cpx T) : Eff σ (Cpx T) := do
  let v ← z.vec.negE o
  pure ⟨v⟩
/-- `conj`, src/complex/complex_.rs:140-143. -/
def conjE (o : ScalarE σ T) (z : Cpx T) : Eff σ (Cpx T) := do
  let y ← o.neg z.intoTuple.2
  pure (new z.intoTuple.1 y)
/-- `Add`, src/complex/complex_.rs:155-163. -/
def addE (o : ScalarE σ T) (z w : Cpx T) : Eff σ (Cpx T) := do
  let v ← z.vec.addE o w.vec
  pure ⟨v⟩
/-- `Sub`, src/complex/complex_.rs:174-182. -/
def subE (o : ScalarE σ T) (z w : Cpx T) : Eff σ (Cpx T) := do
  let v ← z.vec.subE o w.vec
  pure ⟨v⟩
/-- `Mul`, src/complex/complex_.rs:261-272. -/
def mulE (o : ScalarE σ T) (z w : Cpx T) : Eff σ (Cpx T) := do
  let a ← o.mul z.re w.re
  let b ← o.mul z.im w.im
  let x ← o.sub a b
  let c ← o.mul z.re w.im
  let d ← o.mul z.im w.re
  let y ← o.add c d
  pure (new x y)
/-- `Div<T>`, src/complex/complex_.rs:359-367. -/
def divSE (o : ScalarE σ T) (z : Cpx T) (s : T) : Eff σ (Cpx T) := do
  let v ← z.vec.divSE o s
  pure ⟨v⟩
/-- `norm_sqr`, src/complex/complex_.rs:322-324. -/
def normSqrE (o : ScalarE σ T) (z : Cpx T) : Eff σ T := z.vec.squareLengthE o
/-- `inv`, src/complex/complex_.rs:390-392: `self.conj() / self.norm_sqr()`. -/
def invE (o : ScalarE σ T) (z : Cpx T) : Eff σ (Cpx T) := do
  let c ← z.conjE o
  let n ← z.normSqrE o
  c.divSE o n
/-- `Div`, src/complex/complex_.rs:405-413: `self * other.inv()`. -/
def divE (o : ScalarE σ T) (z w : Cpx T) : Eff σ (Cpx T) := do
  let i ← w.invE o
  z.mulE o i
/-- `AddAssign` (`f` is the scalar `+=`), src/complex/complex_.rs:216-223, and `SubAssign` (`f` is `-=`), 232-239:
`self.vec op= other.vec`. -/
def assignE (f : T → Eff (T × σ) Unit) (w : Cpx T) : Eff (Cpx T × σ) Unit := ExceptT.mk fun (z, s) =>
  let r := (Vec.assignE f w.vec).exec (z.vec, s)
  (r.1, (⟨r.2.1⟩, r.2.2))
/-- `*self = f(*self)`: the shape of `MulAssign`, src/complex/complex_.rs:283-298, and `DivAssign`, 415-430. -/
def replaceE (f : Cpx T → Eff σ (Cpx T)) : Eff (Cpx T × σ) Unit := ExceptT.mk fun (z, s) =>
  match (f z).exec s with
  | (.ok z', s') => (.ok (), (z', s'))
  | (.error e, s') => (.error e, (z, s'))
/-- `MulAssign`, src/complex/complex_.rs:283-290. -/
def mulAssignE (o : ScalarE σ T) (w : Cpx T) : Eff (Cpx T × σ) Unit := replaceE fun z => z.mulE o w
/-- `DivAssign`, src/complex/complex_.rs:415-422. -/
def divAssignE (o : ScalarE σ T) (w : Cpx T) : Eff (Cpx T × σ) Unit := replaceE fun z => z.divE o w
end Cpx

namespace Quat
/-- `conj`, src/complex/quaternion.rs:167-170. -/
def conjE (o : ScalarE σ T) (q : Quat T) : Eff σ (Quat T) := do
  let x ← o.neg q.intoTuple.2.1
  let y ← o.neg q.intoTuple.2.2.1
  let z ← o.neg q.intoTuple.2.2.2
  pure (new q.intoTuple.1 x y z)
/-- `a₁b₁ ∘ a₂b₂ ∘ a₃b₃ ∘ a₄b₄` with three signs, bracketed from the left: the shape of the components of the product,
src/complex/quaternion.rs:350-362. -/
def compE (o : ScalarE σ T) (f g h : T → T → Eff σ T) (a b c d e k m n : T) : Eff σ T := do
  let p ← o.mul a b
  let q ← o.mul c d
  let x ← f p q
  let r ← o.mul e k
  let y ← g x r
  let t ← o.mul m n
  h y t
/-- `Mul`, src/complex/quaternion.rs:344-364. -/
def mulE (o : ScalarE σ T) (p q : Quat T) : Eff σ (Quat T) := do
  let w ← compE o o.sub o.sub o.sub p.w q.w p.x q.x p.y q.y p.z q.z
  let x ← compE o o.add o.add o.sub p.w q.x p.x q.w p.y q.z p.z q.y
  let y ← compE o o.sub o.add o.add p.w q.y p.x q.z p.y q.w p.z q.x
  let z ← compE o o.add o.sub o.add p.w q.z p.x q.y p.y q.x p.z q.w
  pure (new w x y z)
/-- `Div<T>`, src/complex/quaternion.rs:484-492. -/
def divSE (o : ScalarE σ T) (q : Quat T) (s : T) : Eff σ (Quat T) := do
  let v ← q.vec.divSE o s
  pure ⟨v⟩
/-- `norm_sqr`, src/complex/quaternion.rs:456-458. -/
def normSqrE (o : ScalarE σ T) (q : Quat T) : Eff σ T := q.vec.squareLengthE o
/-- `inv`, src/complex/quaternion.rs:516-518. -/
def invE (o : ScalarE σ T) (q : Quat T) : Eff σ (Quat T) := do
  let c ← q.conjE o
  let n ← q.normSqrE o
  c.divSE o n
/-- `Div`, src/complex/quaternion.rs:531-540. -/
def divE (o : ScalarE σ T) (p q : Quat T) : Eff σ (Quat T) := do
  let i ← q.invE o
  p.mulE o i
/-- `AddAssign`, src/complex/quaternion.rs:279-286, and `SubAssign`, 305-312: `self.vec op= other.vec`. -/
def assignE (f : T → Eff (T × σ) Unit) (w : Quat T) : Eff (Quat T × σ) Unit := ExceptT.mk fun (z, s) =>
  let r := (Vec.assignE f w.vec).exec (z.vec, s)
  (r.1, (⟨r.2.1⟩, r.2.2))
/-- `AddAssign<Complex>`, src/complex/quaternion.rs:287-296, and `SubAssign<Complex>`, 313-322: `*self.w_mut() op= re;
*self.x_mut() op= im`. -/
def assignCE (f : T → Eff (T × σ) Unit) (c : Cpx T) : Eff (Quat T × σ) Unit := ExceptT.mk fun (q, s) =>
  let r := (f c.intoTuple.1).exec (q.w, s)
  match r.1 with
  | .error e => (.error e, (q.setW r.2.1, r.2.2))
  | .ok _ =>
    let q := q.setW r.2.1
    let r' := (f c.intoTuple.2).exec (q.x, r.2.2)
    (r'.1, (q.setX r'.2.1, r'.2.2))
/-- `*self = f(*self)`: the shape of `MulAssign`, src/complex/quaternion.rs:403-426, and `DivAssign`, 562-585. -/
def replaceE (f : Quat T → Eff σ (Quat T)) : Eff (Quat T × σ) Unit := ExceptT.mk fun (z, s) =>
  match (f z).exec s with
  | (.ok z', s') => (.ok (), (z', s'))
  | (.error e, s') => (.error e, (z, s'))
/-- `MulAssign`, src/complex/quaternion.rs:403-410. -/
def mulAssignE (o : ScalarE σ T) (q : Quat T) : Eff (Quat T × σ) Unit := replaceE fun p => p.mulE o q
/-- `DivAssign`, src/complex/quaternion.rs:562-569. -/
def divAssignE (o : ScalarE σ T) (q : Quat T) : Eff (Quat T × σ) Unit := replaceE fun p => p.divE o q
end Quat
end Vecmat
