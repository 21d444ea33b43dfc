import Verif.Model.Base
/-!
# `Vector<T, N>`: construction, indexing, iteration
Models `src/vector/base/{mod,init,iter}.rs`.
-/
namespace Vecmat
variable {T U S : Type} {N : Nat} {m : Type → Type}

/-- `struct Vector<T, const N: usize> { data: [T; N] }`, src/vector/base/mod.rs:11-15. -/
@[ext] structure Vec (T : Type) (N : Nat) where
  data : Vector T N
deriving DecidableEq, Repr

namespace Vec

/-- Proof-carrying read access used in specifications (never faults). Reads what src/vector/base/init.rs:139-142 reads. -/
instance : GetElem (Vec T N) Nat T (fun _ i => i < N) where
  getElem v i h := v.data[i]

/-- The elements as a list, index 0 first.  Models `into_iter` / `iter`
(src/vector/base/iter.rs:12-35): the array iterator yields the elements in index order. -/
def toList (v : Vec T N) : List T := v.data.toList

/-- `MaybeUninit` array of `N` uninitialised slots: `Vector::uninit`, src/vector/base/init.rs:24-26. -/
def uninit : Vector (Option T) N := Vector.replicate N none

/-- `assume_init`, src/vector/base/init.rs:30-32: undefined behaviour if any slot is uninitialised. -/
def assumeInit (a : Vector (Option T) N) : Res (Vec T N) :=
  if h : ∀ i : Fin N, (a[i]).isSome then .ok ⟨Vector.ofFn fun i => (a[i]).get (h i)⟩ else .error .ub

/-- `Vector::init`, src/vector/base/init.rs:37-45: loop over the uninitialised slots storing `f()`,
then `assume_init`. -/
def initM [Monad m] [MonadExcept Fault m] (f : m T) : m (Vec T N) := do
  let a ← forRange N 0 (uninit : Vector (Option T) N) fun i a => do
    let x ← f
    pure (a.setIfInBounds i (some x))
  liftRes (assumeInit a)

/-- `Vector::from_array`, src/vector/base/init.rs:80-82 (also `From<[T; N]>`, `From<&[T; N]>`, 97-109). -/
def fromArray (a : Vector T N) : Vec T N := ⟨a⟩
/-- `Vector::into_array`, src/vector/base/init.rs:84-86 (also `From<Vector> for [T; N]`, 110-114). -/
def intoArray (v : Vec T N) : Vector T N := v.data

/-- `Index::index`, src/vector/base/init.rs:137-142: `&self.data[i]` panics when out of range. -/
def index (v : Vec T N) (i : Nat) : Res T :=
  if h : i < N then .ok v.data[i] else .error .indexOob

/-- Writing through `IndexMut::index_mut`, src/vector/base/init.rs:144-148. -/
def indexSet (v : Vec T N) (i : Nat) (x : T) : Res (Vec T N) :=
  if h : i < N then .ok ⟨v.data.set i x⟩ else .error .indexOob

/-- `get_unchecked`, src/vector/base/init.rs:160-162: undefined behaviour when out of range. -/
def getUnchecked (v : Vec T N) (i : Nat) : Res T :=
  if h : i < N then .ok v.data[i] else .error .ub

/-- The filling loop of `try_from_iter`, src/vector/base/iter.rs:65-69:
`for (x, y) in a.iter_mut().zip(iter) { *x = MaybeUninit::new(y); pos += 1; }`.
`Zip` asks the slot iterator first, so `next` is not called once the slots are used up;
`n` is the number of slots left, `pos` the next slot. -/
def fillLoop [Monad m] (next : m (Option T)) :
    (n : Nat) → Vector (Option T) N → (pos : Nat) → m (Vector (Option T) N × Nat)
  | 0, a, pos => pure (a, pos)
  | n + 1, a, pos => do
    match ← next with
    | none => pure (a, pos)
    | some y => fillLoop next n (a.setIfInBounds pos (some y)) (pos + 1)

/-- The drop loop of `try_from_iter`, src/vector/base/iter.rs:79-83: take the items out of slots
`0..pos` and drop them; taking from an uninitialised slot would be undefined behaviour. -/
def dropLoop (pos : Nat) (a : Vector (Option T) N) : Res (Vector (Option T) N) :=
  forRange pos 0 a fun i a =>
    match a[i]? with
    | some (some _) => .ok (a.setIfInBounds i none)
    | _ => .error .ub

/-- `Vector::try_from_iter`, src/vector/base/iter.rs:59-86.  `next` is the iterator's `next`. -/
def tryFromIter [Monad m] [MonadExcept Fault m] (next : m (Option T)) : m (Option (Vec T N)) := do
  let (a, pos) ← fillLoop next N (uninit : Vector (Option T) N) 0
  if pos > N then
    throw .unreachableCode
  else if pos = N then do
    let v ← liftRes (assumeInit a)
    pure (some v)
  else do
    let _ ← liftRes (dropLoop pos a)
    pure none

/-- `Vector::indices`, src/vector/base/iter.rs:91-93: `try_from_iter(0..N).unwrap()`. -/
def indicesR : Res (Vec Nat N) :=
  ((tryFromIter (N := N) (listNext (T := Nat))).exec (List.range N)).1 >>= unwrap

/-- `Vector::map`, src/vector/base/iter.rs:102-104, with an arbitrary effectful closure.
`[T; N]::map` (core, `listMapM`) calls the closure on the elements in index order. -/
def mapM [Monad m] (f : T → m U) (v : Vec T N) : m (Vec U N) := do
  let d ← listMapM f v.intoArray.toList
  pure (fromArray ⟨d.1.toArray, by simp [d.2]⟩)

/-- `Vector::map` with a pure closure: the same function run without effects. See `mapM`, src/vector/base/iter.rs:101-104. -/
def map (f : T → U) (v : Vec T N) : Vec U N := Id.run (v.mapM (m := Id) fun x => pure (f x))

/-- `Vector::for_each`, src/vector/base/iter.rs:98-100: `into_iter().for_each(f)`. -/
def forEachM [Monad m] (f : T → m Unit) (v : Vec T N) : m Unit :=
  v.toList.foldlM (fun _ x => f x) ()

/-- `Vector::zip`, src/vector/base/iter.rs:106-108:
`try_from_iter(&mut self.into_iter().zip(other.into_iter())).unwrap()`. -/
def zipR (v : Vec T N) (w : Vec U N) : Res (Vec (T × U) N) :=
  ((tryFromIter (N := N) (zipNext (T := T) (U := U))).exec (v.toList, w.toList)).1 >>= unwrap

/-- `Vector::unzip`, src/vector/base/iter.rs:117-127: store the halves of element `i` in slot `i` of two
uninitialised vectors, then `assume_init` both. -/
def unzipR (v : Vec (T × U) N) : Res (Vec T N × Vec U N) := do
  let (a, b) ← forRange (m := Res) N 0 ((uninit : Vector (Option T) N), (uninit : Vector (Option U) N))
    fun i (a, b) => do
      let (x, y) ← v.index i
      pure (a.setIfInBounds i (some x), b.setIfInBounds i (some y))
  let a ← assumeInit a
  let b ← assumeInit b
  pure (a, b)

/-- `Vector::fold`, src/vector/base/iter.rs:131-133: `into_iter().fold(s, f)`. -/
def foldM [Monad m] (f : S → T → m S) (s : S) (v : Vec T N) : m S := v.toList.foldlM f s

/-- `Vector::fold` with a pure closure. See `foldM`. -/
def fold (f : S → T → S) (s : S) (v : Vec T N) : S := Id.run (v.foldM (m := Id) (fun s x => pure (f s x)) s)

/-- `Vector::fold_first`, src/vector/base/iter.rs:134-138: take the first item (`unwrap` panics when the
vector is empty) and fold over the rest. -/
def foldFirstM [Monad m] [MonadExcept Fault m] (f : T → T → m T) (v : Vec T N) : m T := do
  let x ← unwrap v.toList.head?
  v.toList.tail.foldlM f x

/-- `Vector::fold_first` with a pure closure. See `foldFirstM`. -/
def foldFirstR (f : T → T → T) (v : Vec T N) : Res T := v.foldFirstM (m := Res) fun x y => pure (f x y)

/-- `iter::Scan::next` (core) over an array iterator, for the always-`Some` closure built in `scan`.
The iterator state is the remaining items and the scan state; `f` may have further effects `σ`. Called through src/vector/base/iter.rs:139-142 (`scan`). -/
def scanNext {σ : Type} (f : S → T → Eff σ (U × S)) : Eff (List T × S × σ) (Option U) :=
  ExceptT.mk fun
    | ([], s, t) => (.ok none, ([], s, t))
    | (x :: l, s, t) =>
      match (f s x).exec t with
      | (.ok (u, s'), t') => (.ok (some u), (l, s', t'))
      | (.error e, t') => (.error e, (l, s, t'))

/-- `Vector::scan`, src/vector/base/iter.rs:139-141:
`try_from_iter(&mut self.into_iter().scan(s, |s, x| Some(f(s, x)))).unwrap()`.
`f : FnMut(&mut S, T) -> U` becomes a function returning the result and the new `S`; the scan state is
internal to the call, the closure's captured state `σ` is returned. -/
def scanE {σ : Type} (v : Vec T N) (s : S) (f : S → T → Eff σ (U × S)) : Eff σ (Vec U N) :=
  ExceptT.mk fun t =>
    match ((tryFromIter (N := N) (scanNext f)).exec (v.toList, s, t)) with
    | (.ok (some w), (_, _, t')) => (.ok w, t')
    | (.ok none, (_, _, t')) => (.error .unwrapNone, t')
    | (.error e, (_, _, t')) => (.error e, t')

/-- `TryFrom<&[T]>`, src/vector/base/iter.rs:45-53: slice-to-array conversion (core) succeeds exactly when the
lengths agree. -/
def tryFromSlice (s : List T) : Option (Vec T N) :=
  if h : s.length = N then some (fromArray ⟨s.toArray, by simpa using h⟩) else none

/-- `GroupIter::next`, src/vector/base/iter.rs:159-167 (`new`, 154-156, stores the iterator): `try_from_iter(&mut self.iter)`. -/
def groupNext [Monad m] [MonadExcept Fault m] (N : Nat) (next : m (Option T)) : m (Option (Vec T N)) :=
  tryFromIter next

end Vec
end Vecmat
