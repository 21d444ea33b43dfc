import Verif.Model.MatrixOps
/-!
# Square matrices
Models `src/matrix/square.rs`: `diagonal`, `one`, the mask-based determinant, `cofactor`, `adj`, `inv`.
-/
namespace Vecmat
variable {T : Type} {N : Nat}
namespace Mat

/-- `Matrix::diagonal`, src/matrix/square.rs:9-19: maps over `indices()` with a closure that pulls the next diagonal item
(`unwrap`) whenever `i == j`. -/
def diagonalR [Zero T] (d : Vec T N) : Res (Mat T N N) :=
  (Eff.exec ((indices (M := N) (N := N)).mapM fun p => if p.1 = p.2 then Vec.nextUnwrap else pure 0) d.toList).1

/-- `One::one`, src/matrix/square.rs:21-29. -/
instance [Zero T] [One T] : One (Mat T N N) := ⟨(indices (M := N) (N := N)).map fun p => if p.1 = p.2 then 1 else 0⟩

/-- `struct SubmatrixMask` with its two `IndexMask`s, src/matrix/square.rs:47-49, 77-81. -/
structure Mask (N : Nat) where
  col : Vector Bool N
  row : Vector Bool N
  deg : Nat
deriving DecidableEq

/-- `SubmatrixMask::new` (and `IndexMask::new`), src/matrix/square.rs:52-54, 84-90. -/
def Mask.new : Mask N := ⟨Vector.replicate N true, Vector.replicate N true, N⟩

/-- `IndexMask::find`, src/matrix/square.rs:55-62: first `true` at or after `i`; indexing panics when running off the end. -/
def maskFind (a : Vector Bool N) (i : Nat) : Res Nat :=
  if h : i < N then
    if a[i] then .ok i else maskFind a (i + 1)
  else .error .indexOob
termination_by N - i

/-- `IndexMask` element assignment (`index_mut`), src/matrix/square.rs:65-75: panics when out of range. -/
def maskSet (a : Vector Bool N) (i : Nat) (b : Bool) : Res (Vector Bool N) :=
  if h : i < N then .ok (a.set i b) else .error .indexOob

/-- `SubmatrixMask::exclude`, src/matrix/square.rs:91-95; `deg -= 1` underflows when `deg = 0`. -/
def exclude (i j : Nat) : Eff (Mask N) Unit := do
  let m ← get
  let c ← liftRes (maskSet m.col i false)
  set { m with col := c }
  let m ← get
  let r ← liftRes (maskSet m.row j false)
  set { m with row := r }
  let m ← get
  if m.deg = 0 then throw .subOverflow
  else set { m with deg := m.deg - 1 }

/-- `SubmatrixMask::include`, src/matrix/square.rs:96-100. -/
def include_ (i j : Nat) : Eff (Mask N) Unit := do
  let m ← get
  let c ← liftRes (maskSet m.col i true)
  set { m with col := c }
  let m ← get
  let r ← liftRes (maskSet m.row j true)
  set { m with row := r }
  let m ← get
  set { m with deg := m.deg + 1 }

/-- `Determinator::cofactor`, src/matrix/square.rs:118-126; `det` is the recursive call. -/
def cofactorWith [Neg T] (det : Eff (Mask N) T) (ir jr : Nat × Nat) : Eff (Mask N) T := do
  exclude ir.1 jr.1
  let a ← det
  let a := if (ir.2 + jr.2) % 2 ≠ 0 then -a else a
  include_ ir.1 jr.1
  pure a

/-- `Determinator::det`, src/matrix/square.rs:127-141. The recursion through `cofactor` is bounded by `fuel`; running out of
fuel is the fault `outOfFuel`. -/
def detAux [Neg T] [Add T] [Mul T] [Zero T] [One T] (A : Mat T N N) : (fuel : Nat) → Eff (Mask N) T
  | 0 => throw .outOfFuel
  | n + 1 => do
    let m ← get
    if m.deg = 0 then pure 1
    else do
      let i ← liftRes (maskFind m.col 0)
      let r ← forRange m.deg 0 ((0 : Nat), (0 : T)) fun rj s => do
        let m ← get
        let j ← liftRes (maskFind m.row s.1)
        let x ← liftRes (A.index (i, j))
        let c ← cofactorWith (detAux A n) (i, 0) (j, rj)
        pure (j + 1, s.2 + x * c)
      pure r.2

/-- `Matrix::cofactor`, src/matrix/square.rs:149-152. -/
def cofactorR [Neg T] [Add T] [Mul T] [Zero T] [One T] (A : Mat T N N) (i j : Nat) : Res T :=
  if i < N ∧ j < N then (Eff.exec (cofactorWith (detAux A (N + 1)) (i, i) (j, j)) Mask.new).1
  else .error .assertFailed

/-- `Matrix::det`, src/matrix/square.rs:155-157 (`Determinator::new`, 112-117). -/
def detR [Neg T] [Add T] [Mul T] [Zero T] [One T] (A : Mat T N N) : Res T :=
  (Eff.exec (detAux A (N + 1)) Mask.new).1

/-- `Matrix::adj`, src/matrix/square.rs:160-162: `Matrix::indices().map(|(i, j)| self.cofactor(j, i))`. -/
def adjR [Neg T] [Add T] [Mul T] [Zero T] [One T] (A : Mat T N N) : Res (Mat T N N) :=
  (indices (M := N) (N := N)).mapM fun p => A.cofactorR p.2 p.1

/-- `Matrix::inv`, src/matrix/square.rs:165-167 (and `Inv::inv`, 170-179): `self.adj() / self.det()`. -/
def invR [Neg T] [Add T] [Mul T] [Div T] [Zero T] [One T] (A : Mat T N N) : Res (Mat T N N) := do
  let a ← A.adjR
  let d ← A.detR
  pure (a.divS d)

end Mat
end Vecmat
