import Verif.Model.VectorOps
import Verif.Model.Iter
/-!
# `Matrix<T, M, N>`: construction, indexing, iteration, conversions, transposition
Models `src/matrix/base/{mod,init,iter,convert}.rs`, `src/matrix/transpose.rs`.
-/
namespace Vecmat
variable {T U S σ : Type} {M N : Nat} {m : Type → Type}

/-- `struct Matrix<T, M, N> { data: Vector<Vector<T, N>, M> }`, src/matrix/base/mod.rs:9-14: `M` rows of length `N`. -/
@[ext] structure Mat (T : Type) (M N : Nat) where
  data : Vec (Vec T N) M
deriving DecidableEq, Repr

namespace Mat

/-- Proof-carrying row access used in specifications (never faults): `A[i][j]` is the element in row `i`, column `j`. Reads what src/matrix/base/init.rs:75-85 (`Index`) reads. -/
instance : GetElem (Mat T M N) Nat (Vec T N) (fun _ i => i < M) where
  getElem A i h := A.data[i]

/-! ## src/matrix/base/init.rs -/

/-- `Matrix::init`, src/matrix/base/init.rs:37-41: `Vector::init(|| Vector::init(&mut f))`. -/
def initM [Monad m] [MonadExcept Fault m] (f : m T) : m (Mat T M N) := do
  let d ← Vec.initM (Vec.initM f)
  pure ⟨d⟩
/-- `Matrix::init` with a stateful non-panicking closure (through the pure version of `Vector::init`). See `initM`. -/
def initS (f : σ → T × σ) (s : σ) : Mat T M N × σ :=
  let r := Vec.initS (fun s => Vec.initS (N := N) f s) s
  (⟨r.1⟩, r.2)
/-- `Matrix::fill`, src/matrix/base/init.rs:66-68 (and `fill_ref`, 70-72). -/
def fill (x : T) : Mat T M N := (initS (fun _ : Unit => (x, ())) ()).1
/-- `Default::default` / `Matrix::new`, src/matrix/base/init.rs:43-60. -/
def default [Inhabited T] : Mat T M N := (initS (fun _ : Unit => (Inhabited.default, ())) ()).1

/-- `Index<(usize, usize)>`, src/matrix/base/init.rs:75-80: `&self.data[j][i]`. -/
def index (A : Mat T M N) (p : Nat × Nat) : Res T := do
  let r ← A.data.index p.1
  r.index p.2
/-- Writing through `IndexMut`, src/matrix/base/init.rs:81-85. -/
def indexSet (A : Mat T M N) (p : Nat × Nat) (x : T) : Res (Mat T M N) := do
  let r ← A.data.index p.1
  let r ← r.indexSet p.2 x
  let d ← A.data.indexSet p.1 r
  pure ⟨d⟩
/-- `row_ref`/`row`, src/matrix/base/init.rs:88-90, 99-101. -/
def rowR (A : Mat T M N) (i : Nat) : Res (Vec T N) := A.data.index i
/-- `col`, src/matrix/base/init.rs:102-104: `Vector::indices().map(|i| self[(i, j)])`. -/
def colR (A : Mat T M N) (j : Nat) : Res (Vec T M) := (Vec.indices (N := M)).mapM fun i => A.index (i, j)
/-- `get_unchecked`, src/matrix/base/init.rs:116-120. -/
def getUnchecked (A : Mat T M N) (i j : Nat) : Res T := do
  let r ← A.data.getUnchecked i
  r.getUnchecked j
/-- Writing through `get_unchecked_mut`, src/matrix/base/init.rs:121-125. -/
def setUnchecked (A : Mat T M N) (i j : Nat) (x : T) : Res (Mat T M N) := do
  let r ← A.data.getUnchecked i
  let r ← r.setUnchecked j x
  let d ← A.data.setUnchecked i r
  pure ⟨d⟩

/-! ## src/matrix/base/iter.rs -/

/-- Iterator state of `Matrix::iter` / `into_iter`: the rows left and the rest of the current row. src/matrix/base/iter.rs:5-45 (`FlatIter`). -/
abbrev IterSt (T : Type) (N : Nat) := List (Vec T N) × List T
/-- `next` of `Matrix::iter()` / `into_iter()` (a `FlatIter` over array iterators), src/matrix/base/iter.rs:47-86. -/
def iterNext : Eff (IterSt T N) (Option T) := flatNext listNext Vec.toList listNext
/-- `Matrix::iter`, `Matrix::into_iter` (and `&Matrix`), src/matrix/base/iter.rs:49-51, 68-70, 75-77:
`FlatIter::new(self.data.iter()).unwrap()`. -/
def iterNew (A : Mat T M N) : Res (IterSt T N) := flatNew listNext Vec.toList A.data.toList >>= unwrap

/-- Iterator state of `Matrix::iter_mut`; a `&mut T` is represented by the position it points to, a `&mut Vector` by its
row number. src/matrix/base/iter.rs:5-45 (`FlatIter` of `iter_mut`). -/
abbrev IterMutSt := List Nat × List (Nat × Nat)
/-- `next` of `Matrix::iter_mut`, src/matrix/base/iter.rs:53-55, 83-85. -/
def iterMutNext (N : Nat) : Eff IterMutSt (Option (Nat × Nat)) :=
  flatNext listNext (fun i => (List.range N).map fun j => (i, j)) listNext
/-- `Matrix::iter_mut`, src/matrix/base/iter.rs:53-55. -/
def iterMutNew (_A : Mat T M N) : Res IterMutSt :=
  flatNew listNext (fun i => (List.range N).map fun j => (i, j)) (List.range M) >>= unwrap

/-- Enough `next` calls to exhaust any iterator over an `M × N` matrix. Bound for the loops over src/matrix/base/iter.rs; nothing in src/ corresponds to it. -/
def fuelFor (M N : Nat) : Nat := M * N + 1

/-- `Matrix::for_each`, src/matrix/base/iter.rs:97-99. -/
def forEachM [Monad m] (f : T → m Unit) (A : Mat T M N) : m Unit := A.data.forEachM fun a => a.forEachM f
/-- `Matrix::map`, src/matrix/base/iter.rs:101-103, with an effectful closure. -/
def mapM [Monad m] (f : T → m U) (A : Mat T M N) : m (Mat U M N) := do
  let d ← A.data.mapM fun a => a.mapM f
  pure ⟨d⟩
/-- `Matrix::map` with a pure closure. See `mapM`. -/
def map (f : T → U) (A : Mat T M N) : Mat U M N := ⟨A.data.map fun a => a.map f⟩
/-- `Matrix::zip`, src/matrix/base/iter.rs:105-107. -/
def zip (A : Mat T M N) (B : Mat U M N) : Mat (T × U) M N := ⟨(A.data.zip B.data).map fun p => p.1.zip p.2⟩
/-- `Matrix::unzip`, src/matrix/base/iter.rs:111-114. -/
def unzip (A : Mat (T × U) M N) : Mat T M N × Mat U M N :=
  let z := (A.data.map fun a => a.unzip).unzip
  (⟨z.1⟩, ⟨z.2⟩)
/-- `Matrix::fold`, src/matrix/base/iter.rs:117-119. -/
def foldM [Monad m] (f : S → T → m S) (s : S) (A : Mat T M N) : m S := A.data.foldM (fun t a => a.foldM f t) s
/-- `Matrix::fold` with a pure closure. See `foldM`. -/
def fold (f : S → T → S) (s : S) (A : Mat T M N) : S := A.data.fold (fun t a => a.fold f t) s
/-- `Matrix::fold_first`, src/matrix/base/iter.rs:120-124: `fold_first` on the first row, `fold` on the others. -/
def foldFirstM [Monad m] [MonadExcept Fault m] (f : T → T → m T) (A : Mat T M N) : m T := do
  let a ← unwrap A.data.toList.head?
  let s ← a.foldFirstM f
  A.data.toList.tail.foldlM (fun t a => a.foldM f t) s
/-- `Matrix::fold_first` with a pure closure. See `foldFirstM`. -/
def foldFirstR (f : T → T → T) (A : Mat T M N) : Res T := A.foldFirstM (m := Res) fun x y => pure (f x y)
/-- The innermost closure `|r, x| f(*r, x)` of `Matrix::scan`, src/matrix/base/iter.rs:125-129: the scan state `s` behind the
reference `r` lives next to the closure's own state. -/
def scanBody (f : S → T → Eff σ (U × S)) (x : T) : Eff (S × σ) U := ExceptT.mk fun (s, t) =>
  match (f s x).exec t with
  | (.ok (u, s'), t') => (.ok u, (s', t'))
  | (.error e, t') => (.error e, (s, t'))
/-- `Matrix::scan`, src/matrix/base/iter.rs:125-129: `self.data.scan(&mut s, |r, a| a.scan(r, |r, x| f(*r, x)))`.
The scan state of both vector scans is a *reference* to `s`, so it carries no information of its own. -/
def scanE (A : Mat T M N) (s : S) (f : S → T → Eff σ (U × S)) : Eff σ (Mat U M N) :=
  ExceptT.mk fun t =>
    match (A.data.scanE () fun _ a => do
      let r ← a.scanE () fun _ x => do
        let u ← scanBody f x
        pure (u, ())
      pure (r, ())).exec (s, t) with
    | (.ok d, (_, t')) => (.ok ⟨d⟩, t')
    | (.error e, (_, t')) => (.error e, t')

/-! ## src/matrix/base/convert.rs -/

/-- `from_vector_of_vectors`, src/matrix/base/convert.rs:5-7 (also `From`, 27-31, 58-65). -/
def fromVecVec (a : Vec (Vec T N) M) : Mat T M N := ⟨a⟩
/-- `from_array_of_vectors`, src/matrix/base/convert.rs:8-10 (also `From`, 32-36, 66-73). -/
def fromArrVec (a : Vector (Vec T N) M) : Mat T M N := fromVecVec (Vec.fromArray a)
/-- `from_array_of_arrays`, src/matrix/base/convert.rs:11-13 (also `From`, 37-41, 74-81). -/
def fromArrArr (a : Vector (Vector T N) M) : Mat T M N := fromVecVec ((Vec.fromArray a).map Vec.fromArray)
/-- `into_vector_of_vectors`, src/matrix/base/convert.rs:14-16 (also `From`, 42-46; `as_…`, 83-88, 102-111, 135-148). -/
def intoVecVec (A : Mat T M N) : Vec (Vec T N) M := A.data
/-- `into_array_of_vectors`, src/matrix/base/convert.rs:17-19 (also `From`, 47-51; `as_…`, 89-94). -/
def intoArrVec (A : Mat T M N) : Vector (Vec T N) M := A.intoVecVec.intoArray
/-- `into_array_of_arrays`, src/matrix/base/convert.rs:20-24 (also `From`, 52-56). -/
def intoArrArr (A : Mat T M N) : Vector (Vector T N) M := (A.intoVecVec.map Vec.intoArray).intoArray

/-- `try_from_iter_of_vectors`, src/matrix/base/convert.rs:161-166. -/
def tryFromIterVec [Monad m] [MonadExcept Fault m] (next : m (Option (Vec T N))) : m (Option (Mat T M N)) := do
  let o ← Vec.tryFromIter next
  pure (o.map fromVecVec)
/-- `try_from_iter`, src/matrix/base/convert.rs:167-172: rows are grouped with `GroupIter`. -/
def tryFromIter [Monad m] [MonadExcept Fault m] (next : m (Option T)) : m (Option (Mat T M N)) :=
  tryFromIterVec (Vec.groupNext N next)
/-- `TryFrom<&[Vector<T, N>]>`, src/matrix/base/convert.rs:174-186. -/
def tryFromSliceVec (s : List (Vec T N)) : Res (Option (Mat T M N)) :=
  if s.length = M then do
    let o := (Eff.exec (tryFromIterVec (M := M) listNext) s).1
    let o ← o
    let A ← unwrap o
    pure (some A)
  else pure none
/-- `TryFrom<&[T]>`, src/matrix/base/convert.rs:187-199. -/
def tryFromSlice (s : List T) : Res (Option (Mat T M N)) :=
  if s.length = M * N then do
    let o ← (Eff.exec (tryFromIter (M := M) (N := N) listNext) s).1
    let A ← unwrap o
    pure (some A)
  else pure none

/-- `Matrix::indices`, src/matrix/base/iter.rs:88-93: `try_from_iter((0..M*N).map(|x| (x / N, x % N))).unwrap()`. -/
def indicesR : Res (Mat (Nat × Nat) M N) :=
  (Eff.exec (tryFromIter (M := M) (N := N) listNext) ((List.range (M * N)).map fun x => (x / N, x % N))).1 >>= unwrap

/-! ## src/matrix/transpose.rs -/

/-- Memory of `transpose`: source `s` and destination `d`, both `Matrix<MaybeUninit<T>, …>`. src/matrix/transpose.rs:8-12. -/
abbrev TrSt (T : Type) (M N : Nat) := Vector (Vector (Option T) N) M × Vector (Vector (Option T) M) N
/-- `mem::swap(d.get_unchecked_mut(j, i), s.get_unchecked_mut(i, j))`, src/matrix/transpose.rs:16-18. -/
def swapCell (i j : Nat) (st : TrSt T M N) : Res (TrSt T M N) :=
  if h : i < M ∧ j < N then
    have h1 := h.1
    have h2 := h.2
    .ok (st.1.set i (st.1[i].set j st.2[j][i]), st.2.set j (st.2[j].set i st.1[i][j]))
  else .error .ub
/-- The two loops of `transpose`, src/matrix/transpose.rs:9-20. -/
def transposeLoop (A : Mat T M N) : Res (TrSt T M N) :=
  forRange M 0 ((A.data.data.map fun a => a.data.map some), Vector.replicate N (Vector.replicate M none)) fun i st =>
    forRange N 0 st fun j st => swapCell i j st
/-- `assume_init`, src/matrix/base/init.rs:28-33: undefined behaviour if any cell is uninitialised. -/
def assumeInit (d : Vector (Vector (Option T) N) M) : Res (Mat T M N) :=
  if h : ∀ (i : Fin M) (j : Fin N), (d[i][j]).isSome then
    .ok ⟨⟨Vector.ofFn fun i => ⟨Vector.ofFn fun j => (d[i][j]).get (h i j)⟩⟩⟩
  else .error .ub
/-- `Matrix::transpose`, src/matrix/transpose.rs:7-23. -/
def transposeR (A : Mat T M N) : Res (Mat T N M) := do
  let st ← transposeLoop A
  assumeInit st.2

end Mat
end Vecmat
