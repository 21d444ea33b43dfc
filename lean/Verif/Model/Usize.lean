import Verif.Model.Square
import Verif.Model.SquarePure
/-!
# The crate's own `usize` arithmetic with machine words
The other models use unbounded natural numbers for `usize`. Here the places where the library itself computes with `usize` values other than
loop counters below an array length are written again with words of `w` bits: `M * N` in `Matrix::indices` and `TryFrom<&[T]>`, and the index
arithmetic of the determinant. `chk` is the compiler switch `overflow-checks` (on in debug builds: panic; off in release builds: wrap around).
-/
namespace Vecmat
variable {T : Type} {M N : Nat}

/-- `a + b` on `usize` of `w` bits (Rust reference, integer overflow). Language; index arithmetic of src/matrix/square.rs and src/vector/base/format.rs:10. -/
def addU (w : Nat) (chk : Bool) (a b : Nat) : Res Nat :=
  if a + b < 2 ^ w then .ok (a + b) else if chk then .error .arithOverflow else .ok ((a + b) % 2 ^ w)
/-- `a - b` on `usize` of `w` bits. Language; index arithmetic of src/matrix/square.rs and src/vector/base/format.rs:10. -/
def subU (w : Nat) (chk : Bool) (a b : Nat) : Res Nat :=
  if b ≤ a then .ok (a - b) else if chk then .error .subOverflow else .ok ((2 ^ w + a - b) % 2 ^ w)
/-- `a * b` on `usize` of `w` bits. Language; index arithmetic of src/matrix/square.rs and src/vector/base/format.rs:10. -/
def mulU (w : Nat) (chk : Bool) (a b : Nat) : Res Nat :=
  if a * b < 2 ^ w then .ok (a * b) else if chk then .error .arithOverflow else .ok ((a * b) % 2 ^ w)

namespace Mat

/-- `Matrix::indices`, src/matrix/base/iter.rs:88-93, with the product `M * N` on machine words. -/
def indicesU (w : Nat) (chk : Bool) : Res (Mat (Nat × Nat) M N) := do
  let n ← mulU w chk M N
  (Eff.exec (tryFromIter (M := M) (N := N) listNext) ((List.range n).map fun x => (x / N, x % N))).1 >>= unwrap

/-- `TryFrom<&[T]>`, src/matrix/base/convert.rs:187-199, with the product `M * N` on machine words. -/
def tryFromSliceU (w : Nat) (chk : Bool) (s : List T) : Res (Option (Mat T M N)) := do
  let n ← mulU w chk M N
  if s.length = n then do
    let o ← (Eff.exec (tryFromIter (M := M) (N := N) listNext) s).1
    let A ← unwrap o
    pure (some A)
  else pure none

/-- `IndexMask::find`, src/matrix/square.rs:55-62, with `i += 1` on machine words. The index is checked before it is increased, so at most
`N - i` increments are made when they do not wrap; `fuel` bounds the loop. -/
def maskFindU (w : Nat) (chk : Bool) (a : Vector Bool N) : (fuel i : Nat) → Res Nat
  | 0, _ => .error .outOfFuel
  | f + 1, i =>
    if h : i < N then
      if a[i] then .ok i
      else do
        let i' ← addU w chk i 1
        maskFindU w chk a f i'
    else .error .indexOob

/-- `SubmatrixMask::exclude`, src/matrix/square.rs:91-95, with `deg -= 1` on machine words. -/
def excludeU (w : Nat) (chk : Bool) (i j : Nat) : Eff (Mask N) Unit := do
  let m ← get
  let c ← liftRes (maskSet m.col i false)
  set { m with col := c }
  let m ← get
  let r ← liftRes (maskSet m.row j false)
  set { m with row := r }
  let m ← get
  let d ← liftRes (subU w chk m.deg 1)
  set { m with deg := d }

/-- `SubmatrixMask::include`, src/matrix/square.rs:96-100, with `deg += 1` on machine words. -/
def includeU (w : Nat) (chk : Bool) (i j : Nat) : Eff (Mask N) Unit := do
  let m ← get
  let c ← liftRes (maskSet m.col i true)
  set { m with col := c }
  let m ← get
  let r ← liftRes (maskSet m.row j true)
  set { m with row := r }
  let m ← get
  let d ← liftRes (addU w chk m.deg 1)
  set { m with deg := d }

/-- `Determinator::cofactor`, src/matrix/square.rs:118-126, with `ri + rj` on machine words. -/
def cofactorWithU [Neg T] (w : Nat) (chk : Bool) (det : Eff (Mask N) T) (ir jr : Nat × Nat) : Eff (Mask N) T := do
  excludeU w chk ir.1 jr.1
  let a ← det
  let k ← liftRes (addU w chk ir.2 jr.2)
  let a := if k % 2 ≠ 0 then -a else a
  includeU w chk ir.1 jr.1
  pure a

/-- `Determinator::det`, src/matrix/square.rs:127-141, with `j += 1` on machine words. -/
def detAuxU [Neg T] [Add T] [Mul T] [Zero T] [One T] (w : Nat) (chk : Bool) (A : Mat T N N) : (fuel : Nat) → Eff (Mask N) T
  | 0 => throw .outOfFuel
  | n + 1 => do
    let m ← get
    if m.deg = 0 then pure 1
    else do
      let i ← liftRes (maskFindU w chk m.col (N + 1) 0)
      let r ← forRange m.deg 0 ((0 : Nat), (0 : T)) fun rj s => do
        let m ← get
        let j ← liftRes (maskFindU w chk m.row (N + 1) s.1)
        let x ← liftRes (A.index (i, j))
        let c ← cofactorWithU w chk (detAuxU w chk A n) (i, 0) (j, rj)
        let j' ← liftRes (addU w chk j 1)
        pure (j', s.2 + x * c)
      pure r.2

/-- `Matrix::cofactor`, src/matrix/square.rs:149-152, on machine words. -/
def cofactorU [Neg T] [Add T] [Mul T] [Zero T] [One T] (w : Nat) (chk : Bool) (A : Mat T N N) (i j : Nat) : Res T :=
  if i < N ∧ j < N then (Eff.exec (cofactorWithU w chk (detAuxU w chk A (N + 1)) (i, i) (j, j)) Mask.new).1
  else .error .assertFailed
/-- `Matrix::det`, src/matrix/square.rs:155-157, on machine words. -/
def detU [Neg T] [Add T] [Mul T] [Zero T] [One T] (w : Nat) (chk : Bool) (A : Mat T N N) : Res T :=
  (Eff.exec (detAuxU w chk A (N + 1)) Mask.new).1
/-- `Matrix::adj`, src/matrix/square.rs:160-162, on machine words. -/
def adjU [Neg T] [Add T] [Mul T] [Zero T] [One T] (w : Nat) (chk : Bool) (A : Mat T N N) : Res (Mat T N N) := do
  let I ← indicesU (M := N) (N := N) w chk
  I.mapM fun p => A.cofactorU w chk p.2 p.1
/-- `Matrix::inv`, src/matrix/square.rs:165-167, on machine words. -/
def invU [Neg T] [Add T] [Mul T] [Div T] [Zero T] [One T] (w : Nat) (chk : Bool) (A : Mat T N N) : Res (Mat T N N) := do
  let a ← A.adjU w chk
  let d ← A.detU w chk
  pure (a.divS d)

end Mat
end Vecmat
