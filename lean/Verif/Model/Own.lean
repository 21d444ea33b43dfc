import Verif.Model.Matrix
import Mathlib.Algebra.Order.Group.Multiset
import Mathlib.Data.Multiset.MapFold
/-!
# Ownership
The unsafe constructors of the crate once more, this time with *ownership events*: which items are handed to the function, which
are dropped (their destructor runs) and which are leaked (their memory is forgotten without running the destructor).
`Verif/Props/Own.lean` proves that these functions return the same values as the models in `Model/Vector.lean` and
`Model/Matrix.lean`.

Memory is modelled as in Rust's abstract machine: an array of `MaybeUninit<T>` slots lives in a stack *frame*; `MaybeUninit` has no
drop glue, so overwriting a slot, and leaving the frame, leak whatever the slot contains.
-/
namespace Vecmat
namespace Own
variable {σ A T U W α : Type} {M N : Nat}

/-- An ownership event for the item `a`. Language (ownership); used for src/vector/base/init.rs:34-45 and src/vector/base/iter.rs:60-130. -/
inductive Ev (A : Type) where
  /-- The caller's closure or iterator handed the item to the crate. -/
  | got (a : A)
  /-- The item's destructor ran. -/
  | dropped (a : A)
  /-- The memory of the item was given up without running its destructor. -/
  | leaked (a : A)
deriving DecidableEq, Repr

/-- The caller's state together with the events so far (newest first). Language (ownership); used for src/vector/base/init.rs:34-45 and src/vector/base/iter.rs:60-130. -/
structure World (σ A : Type) where
  user : σ
  log : List (Ev A)

/-- A memory with an event log.  `held w` are the items in the slots of the frames that are still active. Language (ownership); used for src/vector/base/init.rs:34-45 and src/vector/base/iter.rs:60-130. -/
class Ledger (W : Type) (A : outParam Type) where
  log : W → List (Ev A)
  tell : Ev A → W → W
  held : W → Multiset A

/-- Language (ownership), see `Ledger`; src/vector/base/init.rs:34-45. -/
instance : Ledger (World σ A) A where
  log w := w.log
  tell e w := ⟨w.user, e :: w.log⟩
  held _ := 0

/-- A function's stack frame with `N` slots of type `MaybeUninit<T>` on top of the memory `W`; `own x` are the items a value `x : T`
owns. Language (ownership); used for src/vector/base/init.rs:34-45 and src/vector/base/iter.rs:60-130. -/
structure Frame (W : Type) {A T : Type} (own : T → List A) (N : Nat) where
  under : W
  slots : Vector (Option T) N

/-- The items owned by the initialised slots. Language (ownership); used for src/vector/base/init.rs:34-45 and src/vector/base/iter.rs:60-130. -/
def slotItems (own : T → List A) (a : List (Option T)) : List A := a.flatMap fun o => o.elim [] own

/-- Language (ownership), see `Ledger`; src/vector/base/init.rs:34-45. -/
instance [Ledger W A] (own : T → List A) : Ledger (Frame W own N) A where
  log f := Ledger.log f.under
  tell e f := ⟨Ledger.tell e f.under, f.slots⟩
  held f := Ledger.held f.under + (slotItems own f.slots.toList : Multiset A)

variable [Ledger W A]
/-- Record that the items were leaked. Language (ownership); used for src/vector/base/init.rs:34-45 and src/vector/base/iter.rs:60-130. -/
def leakAll (l : List A) (w : W) : W := l.foldl (fun w a => Ledger.tell (.leaked a) w) w

/-- Run the caller's closure or iterator `x`; the item it returns now belongs to the crate. src/vector/base/init.rs:41. -/
def recv (x : Eff σ A) : Eff (World σ A) A := ExceptT.mk fun w =>
  match x.exec w.user with
  | (.ok a, s) => (.ok a, ⟨s, .got a :: w.log⟩)
  | (.error e, s) => (.error e, ⟨s, w.log⟩)
/-- The same for `Iterator::next`. src/vector/base/iter.rs:66. -/
def recvOpt (x : Eff σ (Option A)) : Eff (World σ A) (Option A) := ExceptT.mk fun w =>
  match x.exec w.user with
  | (.ok (some a), s) => (.ok (some a), ⟨s, .got a :: w.log⟩)
  | (.ok none, s) => (.ok none, ⟨s, w.log⟩)
  | (.error e, s) => (.error e, ⟨s, w.log⟩)
/-- Drop an item: its destructor `d`, which may panic, runs once. src/vector/base/iter.rs:81. -/
def dropItem (d : A → Eff σ Unit) (a : A) : Eff (World σ A) Unit := ExceptT.mk fun w =>
  let r := (d a).exec w.user
  (r.1, ⟨r.2, .dropped a :: w.log⟩)
/-- Drop glue of an array or of the remaining items of an array iterator (core): every element is dropped, in order, even if the
destructor of an earlier one panics; the first panic goes on afterwards.  (Simplification: a second panic would abort the process.) Language (ownership); used for src/vector/base/init.rs:34-45 and src/vector/base/iter.rs:60-130. -/
def dropAll (drop : T → Eff W Unit) : List T → Eff W Unit
  | [] => pure ()
  | x :: l => ExceptT.mk fun w =>
    match (drop x).exec w with
    | (.ok _, w) => (dropAll drop l).exec w
    | (.error e, w) => (.error e, ((dropAll drop l).exec w).2)

/-- Enter a function with `N` uninitialised slots (`Vector::uninit`, src/vector/base/init.rs:24-26), run its body, and leave it, by
returning or by unwinding: `[MaybeUninit<T>; N]` has no drop glue, so what is still in the slots is leaked. -/
def frame {own : T → List A} (body : Eff (Frame W own N) α) : Eff W α := ExceptT.mk fun w =>
  let r := body.exec ⟨w, Vec.uninit⟩
  (r.1, leakAll (slotItems own r.2.slots.toList) r.2.under)
/-- Run `x`, which does not touch the slots of the frame. Language (ownership); used for src/vector/base/init.rs:34-45 and src/vector/base/iter.rs:60-130. -/
def lower {own : T → List A} (x : Eff W α) : Eff (Frame W own N) α := ExceptT.mk fun f =>
  let r := x.exec f.under
  (r.1, ⟨r.2, f.slots⟩)
/-- `*slot = MaybeUninit::new(x)` or `let _ = mem::replace(slot, MaybeUninit::new(x))`: the old content, if any, is leaked.
Writing outside of the array would be undefined behaviour. src/vector/base/init.rs:41, src/vector/base/iter.rs:67, 122-123. -/
def write {own : T → List A} (i : Nat) (x : T) : Eff (Frame W own N) Unit := ExceptT.mk fun f =>
  if h : i < N then (.ok (), ⟨leakAll (f.slots[i].elim [] own) f.under, f.slots.set i (some x)⟩) else (.error .ub, f)
/-- `mem::replace(slot, MaybeUninit::uninit()).assume_init()`: undefined behaviour if the slot is uninitialised. src/vector/base/iter.rs:81. -/
def take {own : T → List A} (i : Nat) : Eff (Frame W own N) T := ExceptT.mk fun f =>
  if h : i < N then
    match f.slots[i] with
    | some x => (.ok x, ⟨f.under, f.slots.set i none⟩)
    | none => (.error .ub, f)
  else (.error .ub, f)
/-- `a.assume_init()`, src/vector/base/init.rs:30-32: `a` is moved out of the frame, so that leaving it does not drop or leak it
(`into_uninit` reads the array bitwise and the original has no drop glue, 17-20). -/
def assumeInit {own : T → List A} : Eff (Frame W own N) (Vec T N) := ExceptT.mk fun f =>
  match Vec.assumeInit f.slots with
  | .ok v => (.ok v, ⟨f.under, Vec.uninit⟩)
  | .error e => (.error e, f)

/-- `Vector::init`, src/vector/base/init.rs:37-45. -/
def init (own : T → List A) (f : Eff W T) : Eff W (Vec T N) := frame (own := own) do
  forRange N 0 () fun i _ => do
    let x ← lower f
    write i x
  assumeInit

/-- The filling loop of `try_from_iter`, src/vector/base/iter.rs:65-69: `n` slots left, `pos` items stored. -/
def fill {own : T → List A} (next : Eff W (Option T)) : (n pos : Nat) → Eff (Frame W own N) Nat
  | 0, pos => pure pos
  | n + 1, pos => do
    match ← lower next with
    | none => pure pos
    | some y => do
      write pos y
      fill next n (pos + 1)

/-- `Vector::try_from_iter`, src/vector/base/iter.rs:59-86; `drop` is the drop glue of `T`. -/
def tryFromIter (own : T → List A) (drop : T → Eff W Unit) (next : Eff W (Option T)) : Eff W (Option (Vec T N)) :=
  frame (own := own) (N := N) do
    let pos ← fill next N 0
    if pos > N then
      throw .unreachableCode
    else if pos = N then do
      let v ← assumeInit
      pure (some v)
    else do
      forRange pos 0 () fun i _ => do
        let x ← take i
        lower (drop x)
      pure none

/-- The loop of `unzip`, src/vector/base/iter.rs:121-124, over the remaining items; `i` is the number of slots already used.  `Zip` asks
the item iterator first; if the slots are used up the item, and then the rest of the iterator, are dropped. -/
def unzipLoop {ownT : T → List A} {ownU : U → List A} (drop : T × U → Eff W Unit) :
    List (T × U) → Nat → Eff (Frame (Frame W ownT N) ownU N) Unit
  | [], _ => pure ()
  | (x, y) :: l, i =>
    if i < N then do
      lower (write i x)
      write i y
      unzipLoop drop l (i + 1)
    else lower (lower (dropAll drop ((x, y) :: l)))

/-- `Vector::unzip`, src/vector/base/iter.rs:117-127. -/
def unzip (ownT : T → List A) (ownU : U → List A) (drop : T × U → Eff W Unit) (v : Vec (T × U) N) : Eff W (Vec T N × Vec U N) :=
  frame (own := ownT) (N := N) <| frame (own := ownU) (N := N) do
    unzipLoop drop v.toList 0
    let a ← lower assumeInit
    let b ← assumeInit
    pure (a, b)

/-- `mem::forget` (core) of a variable: afterwards the variable holds nothing to drop; no destructor has run. src/matrix/transpose.rs:10. -/
def forget (_ : Option α) : Option α := none

/-- `Matrix::transpose`, src/matrix/transpose.rs:7-23.  `this` is the variable `self`: `ptr::read` (9) copies its bytes into `s`, then
`mem::forget(self)` (10) empties it without running destructors.  When the function returns, `self` is dropped if it still holds a
matrix, and what is left in the slots of `s` is leaked. -/
def transpose (own : T → List A) (drop : T → Eff W Unit) (C : Mat T M N) : Eff W (Mat T N M) := do
  let this : Option (Mat T M N) := some C
  let s0 := C
  let this := forget this
  let (s, d) ← liftRes (Mat.transposeLoop s0)
  let R ← liftRes (Mat.assumeInit d)
  ExceptT.mk fun w => (.ok (), leakAll (s.toList.flatMap fun r => slotItems own r.toList) w)
  match this with
  | none => pure ()
  | some (C : Mat T M N) => dropAll (dropAll drop) (C.data.toList.map Vec.toList)
  pure R

/-- The items of a vector. Language (ownership); used for src/vector/base/init.rs:34-45 and src/vector/base/iter.rs:60-130. -/
def ownVec (own : T → List A) (v : Vec T N) : List A := v.toList.flatMap own
/-- The items of a matrix. The field of src/matrix/base/mod.rs:11-14. -/
def ownMat (own : T → List A) (C : Mat T M N) : List A := C.data.toList.flatMap (ownVec own)
/-- Drop glue of a vector. Language (ownership); used for src/vector/base/init.rs:34-45 and src/vector/base/iter.rs:60-130. -/
def dropVec (drop : T → Eff W Unit) (v : Vec T N) : Eff W Unit := dropAll drop v.toList

/-- `Matrix::init`, src/matrix/base/init.rs:37-41. -/
def matInit (own : T → List A) (f : Eff W T) : Eff W (Mat T M N) := do
  let d ← init (N := M) (ownVec own) (init (N := N) own f)
  pure ⟨d⟩
/-- `Matrix::try_from_iter`, src/matrix/base/convert.rs:161-172: the outer `try_from_iter` over the rows produced by
`GroupIter::next`, src/vector/base/iter.rs:159-167. -/
def matTryFromIter (own : T → List A) (drop : T → Eff W Unit) (next : Eff W (Option T)) : Eff W (Option (Mat T M N)) := do
  let o ← tryFromIter (N := M) (ownVec own) (dropVec drop) (tryFromIter (N := N) own drop next)
  pure (o.map Mat.fromVecVec)
end Own
end Vecmat
