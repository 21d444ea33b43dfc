import Verif.Model.Own
/-!
# Ownership, continued: functions that take vectors and matrices by value
`map`, `zip`, `for_each`, `fold`, `fold_first`, `scan`, the operators built on them, and `into_iter`, with ownership events.
The closure of the caller is an arbitrary computation on the memory `W` that takes over its arguments (also when it panics).

`core::array::IntoIter`, the guard of `[T; N]::map` and the state of `iter::Scan` are local variables with drop glue.
-/
namespace Vecmat
namespace Own
variable {σ A S T U W X α : Type} {M N : Nat}

/-- A local variable with the value `val : X` on top of the memory `W`; `own x` are the items the value `x` owns. Language (ownership) and core iterators; used for src/vector/base/iter.rs:98-150 and src/matrix/base/iter.rs:5-130. -/
structure Local (W : Type) {A X : Type} (own : X → List A) where
  under : W
  val : X

/-- Language (ownership), see `Ledger`; src/vector/base/iter.rs:98-150. -/
instance [Ledger W A] (own : X → List A) : Ledger (Local W own) A where
  log f := Ledger.log f.under
  tell e f := ⟨Ledger.tell e f.under, f.val⟩
  held f := Ledger.held f.under + (own f.val : Multiset A)

/-- The items of a list of values. Language (ownership) and core iterators; used for src/vector/base/iter.rs:98-150 and src/matrix/base/iter.rs:5-130. -/
def ownList (own : T → List A) (l : List T) : List A := l.flatMap own
/-- The items of a pair. Language (ownership) and core iterators; used for src/vector/base/iter.rs:98-150 and src/matrix/base/iter.rs:5-130. -/
def ownPair (ownT : T → List A) (ownU : U → List A) (p : T × U) : List A := ownT p.1 ++ ownU p.2

/-- Drop glue of a pair (the language): both halves are dropped, in order, also if the first destructor panics. Language (ownership) and core iterators; used for src/vector/base/iter.rs:98-150 and src/matrix/base/iter.rs:5-130. -/
def dropPair (dropT : T → Eff W Unit) (dropU : U → Eff W Unit) (p : T × U) : Eff W Unit := ExceptT.mk fun w =>
  match (dropT p.1).exec w with
  | (.ok _, w) => (dropU p.2).exec w
  | (.error e, w) => (.error e, ((dropU p.2).exec w).2)

variable [Ledger W A]

/-- Declare a local variable, run the body, and leave the scope, by returning or by unwinding: the variable is dropped.
(Simplifications: a second panic during unwinding would abort the process; if the destructor panics after the body has returned, the
result, which owns `res a`, counts as leaked.) Language (ownership) and core iterators; used for src/vector/base/iter.rs:98-150 and src/matrix/base/iter.rs:5-130. -/
def scope {own : X → List A} (res : α → List A) (drop : X → Eff W Unit) (x : X) (body : Eff (Local W own) α) : Eff W α :=
  ExceptT.mk fun w =>
    let r := body.exec ⟨w, x⟩
    let d := (drop r.2.val).exec r.2.under
    match r.1, d.1 with
    | .ok a, .ok _ => (.ok a, d.2)
    | .ok a, .error e => (.error e, leakAll (res a) d.2)
    | .error e, _ => (.error e, d.2)
omit [Ledger W A] in
/-- Run `x`, which does not touch the local variable. Language (ownership) and core iterators; used for src/vector/base/iter.rs:98-150 and src/matrix/base/iter.rs:5-130. -/
def inner {own : X → List A} (x : Eff W α) : Eff (Local W own) α := ExceptT.mk fun f =>
  let r := x.exec f.under
  (r.1, ⟨r.2, f.val⟩)
omit [Ledger W A] in
/-- `array::IntoIter::next` (core): the local variable is the list of the remaining items. src/vector/base/iter.rs:12-35. -/
def nextItem {own : T → List A} : Eff (Local W (ownList own)) (Option T) := ExceptT.mk fun f =>
  match f.val with
  | [] => (.ok none, f)
  | x :: l => (.ok (some x), ⟨f.under, l⟩)

/-! ## src/vector/base/iter.rs -/

omit [Ledger W A] in
/-- `Iterator::fold` of an array iterator (core): `while let Some(x) = self.next() { s = f(s, x) }`, at most `n` rounds. src/vector/base/iter.rs:98-100 and `fold` there. -/
def foldLoop {own : T → List A} (f : S → T → Eff W S) : Nat → S → Eff (Local W (ownList own)) S
  | 0, s => pure s
  | n + 1, s => do
    match ← nextItem with
    | none => pure s
    | some x => do
      let s ← inner (f s x)
      foldLoop f n s
/-- `Vector::for_each`, src/vector/base/iter.rs:98-100. -/
def forEach (own : T → List A) (drop : T → Eff W Unit) (f : T → Eff W Unit) (v : Vec T N) : Eff W Unit :=
  scope (own := ownList own) (fun _ => []) (dropAll drop) v.toList (foldLoop (fun _ x => f x) (N + 1) ())
/-- `Vector::fold`, src/vector/base/iter.rs:131-133. -/
def fold (own : T → List A) (ownS : S → List A) (drop : T → Eff W Unit) (f : S → T → Eff W S) (s : S) (v : Vec T N) : Eff W S :=
  scope (own := ownList own) ownS (dropAll drop) v.toList (foldLoop f (N + 1) s)
/-- `Vector::fold_first`, src/vector/base/iter.rs:134-138. -/
def foldFirst (own : T → List A) (drop : T → Eff W Unit) (f : T → T → Eff W T) (v : Vec T N) : Eff W T :=
  scope (own := ownList own) own (dropAll drop) v.toList do
    let o ← nextItem
    let x ← unwrap o
    foldLoop f (N + 1) x

omit [Ledger W A] in
/-- Store an item in the guard of `[T; N]::map` (core). Called through src/vector/base/iter.rs:103. -/
def push {own : U → List A} (y : U) : Eff (Local W (ownList own)) Unit := ExceptT.mk fun f => (.ok (), ⟨f.under, f.val ++ [y]⟩)
omit [Ledger W A] in
/-- `mem::forget(guard)` and `array_assume_init` (core): the stored items become the result. Called through src/vector/base/iter.rs:103. -/
def takeAll {own : U → List A} : Eff (Local W (ownList own)) (Vec U N) := ExceptT.mk fun f =>
  if h : f.val.length = N then (.ok ⟨⟨f.val.toArray, by simpa using h⟩⟩, ⟨f.under, []⟩) else (.error .ub, f)
omit [Ledger W A] in
/-- The loop of `[T; N]::map` (core): the remaining arguments are in the outer, the results so far in the inner local variable. Called through src/vector/base/iter.rs:103. -/
def mapLoop {ownT : T → List A} {ownU : U → List A} (f : T → Eff W U) :
    Nat → Eff (Local (Local W (ownList ownT)) (ownList ownU)) Unit
  | 0 => pure ()
  | n + 1 => do
    match ← inner nextItem with
    | none => pure ()
    | some x => do
      let y ← inner (inner (f x))
      push y
      mapLoop f n
/-- `Vector::map`, src/vector/base/iter.rs:102-104: `[T; N]::map` (core). If the closure panics, the results so far are dropped, then
the remaining arguments. -/
def map (ownT : T → List A) (ownU : U → List A) (dropT : T → Eff W Unit) (dropU : U → Eff W Unit) (f : T → Eff W U) (v : Vec T N) :
    Eff W (Vec U N) :=
  scope (own := ownList ownT) (ownVec ownU) (dropAll dropT) v.toList <|
    scope (own := ownList ownU) (ownVec ownU) (dropAll fun y => inner (dropU y)) [] do
      mapLoop f N
      takeAll

omit [Ledger W A] in
/-- `iter::Zip::next` (core) of two array iterators: `let x = self.a.next()?; let y = self.b.next()?; Some((x, y))`. The inner local
variable is `a`, the outer one `b` (the fields are dropped in this order). src/vector/base/iter.rs:106 (`zip`), src/vector/ops/base.rs:101. -/
def zipItem {ownT : T → List A} {ownU : U → List A} (dropT : T → Eff W Unit) :
    Eff (Local (Local W (ownList ownU)) (ownList ownT)) (Option (T × U)) := do
  match ← nextItem with
  | none => pure none
  | some x => do
    match ← inner nextItem with
    | none => do
      inner (inner (dropT x))
      pure none
    | some y => pure (some (x, y))
/-- `Vector::zip`, src/vector/base/iter.rs:106-108. -/
def zip (ownT : T → List A) (ownU : U → List A) (dropT : T → Eff W Unit) (dropU : U → Eff W Unit) (v : Vec T N) (u : Vec U N) :
    Eff W (Vec (T × U) N) :=
  scope (own := ownList ownU) (ownVec (ownPair ownT ownU)) (dropAll dropU) u.toList <|
    scope (own := ownList ownT) (ownVec (ownPair ownT ownU)) (dropAll fun x => inner (dropT x)) v.toList do
      let o ← tryFromIter (ownPair ownT ownU) (dropPair (fun x => inner (inner (dropT x))) (fun y => inner (inner (dropU y)))) (zipItem dropT)
      unwrap o
/-- `Vector::enumerate`, src/vector/base/iter.rs:110-112; `indices` is a vector of numbers, which own nothing. -/
def enumerate (own : T → List A) (drop : T → Eff W Unit) (v : Vec T N) : Eff W (Vec (Nat × T) N) := do
  let i ← liftRes Vec.indicesR
  zip (fun _ => []) own (fun _ => pure ()) drop i v

omit [Ledger W A] in
/-- `iter::Scan::next` (core) over an array iterator; the scan state is part of the memory `W` the closure works on. src/vector/base/iter.rs:139-142 (`scan`). -/
def scanItem {ownT : T → List A} (f : T → Eff W U) : Eff (Local W (ownList ownT)) (Option U) := do
  match ← nextItem with
  | none => pure none
  | some x => do
    let y ← inner (f x)
    pure (some y)
/-- `try_from_iter(&mut self.into_iter().scan(…)).unwrap()` with a scan state that lives elsewhere (a reference). src/vector/base/iter.rs:139-142 (`scan`). -/
def scanRef (ownT : T → List A) (ownU : U → List A) (dropT : T → Eff W Unit) (dropU : U → Eff W Unit) (f : T → Eff W U) (v : Vec T N) :
    Eff W (Vec U N) :=
  scope (own := ownList ownT) (ownVec ownU) (dropAll dropT) v.toList do
    let o ← tryFromIter ownU (fun y => inner (dropU y)) (scanItem f)
    unwrap o
/-- `Vector::scan`, src/vector/base/iter.rs:139-141: the scan state `s` is a field of the iterator, dropped after the array iterator. -/
def scan (ownT : T → List A) (ownU : U → List A) (ownS : S → List A) (dropT : T → Eff W Unit) (dropU : U → Eff W Unit)
    (dropS : S → Eff W Unit) (s : S) (f : T → Eff (Local W ownS) U) (v : Vec T N) : Eff W (Vec U N) :=
  scope (own := ownS) (ownVec ownU) dropS s <|
    scanRef (W := Local W ownS) ownT ownU (fun x => inner (dropT x)) (fun y => inner (dropU y)) f v

/-! ## Operators, src/vector/ops/base.rs, src/matrix/ops/base.rs -/

/-- The binary operators, src/vector/ops/base.rs:22-66 (also src/vector/ops/bit.rs, int.rs): `self.zip(vec).map(|(x, y)| x op y)`. -/
def binOp (own : T → List A) (drop : T → Eff W Unit) (f : T → T → Eff W T) (v u : Vec T N) : Eff W (Vec T N) := do
  let p ← zip own own drop drop v u
  map (ownPair own own) own (dropPair drop drop) drop (fun p => f p.1 p.2) p
omit [Ledger W A] in
/-- The loop of the compound assignments, src/vector/ops/base.rs:96-145: `Zip` asks the iterator over the components first, so at most
`n` operands are taken; `f i x` is `self[i] op= x`. -/
def assignLoop {own : T → List A} (f : Nat → T → Eff W Unit) : Nat → Nat → Eff (Local W (ownList own)) Unit
  | 0, _ => pure ()
  | n + 1, i => do
    match ← nextItem with
    | none => pure ()
    | some x => do
      inner (f i x)
      assignLoop f n (i + 1)
/-- `AddAssign` etc., src/vector/ops/base.rs:96-145; the target is in the memory `f` works on. -/
def opAssign (own : T → List A) (drop : T → Eff W Unit) (f : Nat → T → Eff W Unit) (v : Vec T N) : Eff W Unit :=
  scope (own := ownList own) (fun _ => []) (dropAll drop) v.toList (assignLoop f N 0)

/-! ## Matrices, src/matrix/base/iter.rs -/

/-- `Matrix::for_each`, src/matrix/base/iter.rs:97-99. -/
def matForEach (own : T → List A) (drop : T → Eff W Unit) (f : T → Eff W Unit) (C : Mat T M N) : Eff W Unit :=
  forEach (ownVec own) (dropVec drop) (fun a => forEach own drop f a) C.data
/-- `Matrix::map`, src/matrix/base/iter.rs:101-103. -/
def matMap (ownT : T → List A) (ownU : U → List A) (dropT : T → Eff W Unit) (dropU : U → Eff W Unit) (f : T → Eff W U) (C : Mat T M N) :
    Eff W (Mat U M N) := do
  let d ← map (ownVec ownT) (ownVec ownU) (dropVec dropT) (dropVec dropU) (fun a => map ownT ownU dropT dropU f a) C.data
  pure ⟨d⟩
/-- `Matrix::zip`, src/matrix/base/iter.rs:105-107. -/
def matZip (ownT : T → List A) (ownU : U → List A) (dropT : T → Eff W Unit) (dropU : U → Eff W Unit) (C : Mat T M N) (D : Mat U M N) :
    Eff W (Mat (T × U) M N) := do
  let z ← zip (ownVec ownT) (ownVec ownU) (dropVec dropT) (dropVec dropU) C.data D.data
  let d ← map (ownPair (ownVec ownT) (ownVec ownU)) (ownVec (ownPair ownT ownU)) (dropPair (dropVec dropT) (dropVec dropU))
    (dropVec (dropPair dropT dropU)) (fun p => zip ownT ownU dropT dropU p.1 p.2) z
  pure ⟨d⟩
/-- `Matrix::unzip`, src/matrix/base/iter.rs:111-114. -/
def matUnzip (ownT : T → List A) (ownU : U → List A) (dropT : T → Eff W Unit) (dropU : U → Eff W Unit) (C : Mat (T × U) M N) :
    Eff W (Mat T M N × Mat U M N) := do
  let z ← map (ownVec (ownPair ownT ownU)) (ownPair (ownVec ownT) (ownVec ownU)) (dropVec (dropPair dropT dropU))
    (dropPair (dropVec dropT) (dropVec dropU)) (fun a => unzip ownT ownU (dropPair dropT dropU) a) C.data
  let r ← unzip (ownVec ownT) (ownVec ownU) (dropPair (dropVec dropT) (dropVec dropU)) z
  pure (⟨r.1⟩, ⟨r.2⟩)
/-- `Matrix::fold`, src/matrix/base/iter.rs:117-119. -/
def matFold (own : T → List A) (ownS : S → List A) (drop : T → Eff W Unit) (f : S → T → Eff W S) (s : S) (C : Mat T M N) : Eff W S :=
  fold (ownVec own) ownS (dropVec drop) (fun t a => fold own ownS drop f t a) s C.data
/-- `Matrix::fold_first`, src/matrix/base/iter.rs:120-124. -/
def matFoldFirst (own : T → List A) (drop : T → Eff W Unit) (f : T → T → Eff W T) (C : Mat T M N) : Eff W T :=
  scope (own := ownList (ownVec own)) own (dropAll (dropVec drop)) C.data.toList do
    let o ← nextItem
    let a ← unwrap o
    let s ← inner (foldFirst own drop f a)
    foldLoop (fun t a => fold own own drop f t a) (M + 1) s
/-- `Matrix::scan`, src/matrix/base/iter.rs:125-129: the state `s` is a parameter of the function, the scans of the rows borrow it. -/
def matScan (ownT : T → List A) (ownU : U → List A) (ownS : S → List A) (dropT : T → Eff W Unit) (dropU : U → Eff W Unit)
    (dropS : S → Eff W Unit) (s : S) (f : T → Eff (Local W ownS) U) (C : Mat T M N) : Eff W (Mat U M N) :=
  scope (own := ownS) (ownMat ownU) dropS s do
    let d ← scanRef (W := Local W ownS) (ownVec ownT) (ownVec ownU) (dropVec fun x => inner (dropT x)) (dropVec fun y => inner (dropU y))
      (fun a => scanRef ownT ownU (fun x => inner (dropT x)) (fun y => inner (dropU y)) f a) C.data
    pure ⟨d⟩
/-- The binary operators of matrices, src/matrix/ops/base.rs:22-66. -/
def matBinOp (own : T → List A) (drop : T → Eff W Unit) (f : T → T → Eff W T) (C D : Mat T M N) : Eff W (Mat T M N) := do
  let p ← matZip own own drop drop C D
  matMap (ownPair own own) own (dropPair drop drop) drop (fun p => f p.1 p.2) p

/-! ## `into_iter` of a matrix: `FlatIter` by value, src/matrix/base/iter.rs:5-44, 56-69 -/

/-- The items of a `FlatIter`: those of the remaining rows (`iter`) and the rest of the current row (`subiter`). src/matrix/base/iter.rs:5-45 (`FlatIter`). -/
def ownFlat (own : T → List A) (s : List (Vec T N) × List T) : List A := ownList (ownVec own) s.1 ++ ownList own s.2
/-- Drop glue of `FlatIter`: the fields in the order of their declaration. src/matrix/base/iter.rs:5-45 (`FlatIter`). -/
def dropFlat (drop : T → Eff W Unit) : List (Vec T N) × List T → Eff W Unit := dropPair (dropAll (dropVec drop)) (dropAll drop)
/-- `FlatIter::new(iter).unwrap()`, src/matrix/base/iter.rs:22-27, 68: the first row becomes the current one. -/
def flatNew (C : Mat T M N) : Res (List (Vec T N) × List T) :=
  match C.data.toList with
  | [] => .error .unwrapNone
  | a :: l => .ok (l, a.toList)
/-- `FlatIter::next`, src/matrix/base/iter.rs:36-43; assigning `self.subiter` drops the old iterator. -/
def flatNext {own : T → List A} (drop : T → Eff W Unit) : Eff (Local W (ownFlat (N := N) own)) (Option T) := ExceptT.mk fun f =>
  match f.val with
  | (rows, x :: l) => (.ok (some x), ⟨f.under, (rows, l)⟩)
  | ([], []) => (.ok none, f)
  | (a :: rows, []) =>
    let d := (dropAll drop []).exec f.under
    match d.1, a.toList with
    | .error e, l => (.error e, ⟨d.2, (rows, l)⟩)
    | .ok _, [] => (.ok none, ⟨d.2, (rows, [])⟩)
    | .ok _, x :: l => (.ok (some x), ⟨d.2, (rows, l)⟩)
/-- The loop of the compound assignments of matrices, src/matrix/ops/base.rs:96-145; `f k x` is `op= x` of the `k`-th component in
row-major order. -/
def matAssignLoop {own : T → List A} (drop : T → Eff W Unit) (f : Nat → T → Eff W Unit) :
    Nat → Nat → Eff (Local W (ownFlat (N := N) own)) Unit
  | 0, _ => pure ()
  | n + 1, k => do
    match ← flatNext drop with
    | none => pure ()
    | some x => do
      inner (f k x)
      matAssignLoop drop f n (k + 1)
/-- `AddAssign` etc. for matrices, src/matrix/ops/base.rs:96-145: without rows, `self.iter_mut()` panics first. -/
def matOpAssign (own : T → List A) (drop : T → Eff W Unit) (f : Nat → T → Eff W Unit) (C : Mat T M N) : Eff W Unit :=
  if M = 0 then throw .unwrapNone
  else do
    let s ← liftRes (flatNew C)
    scope (own := ownFlat own) (fun _ => []) (dropFlat drop) s (matAssignLoop drop f (M * N) 0)

/-! ## The caller -/

/-- The caller of the crate: the state `user` of its closures, the items `given` to them (in order), and the events so far. Language (ownership) and core iterators; used for src/vector/base/iter.rs:98-150 and src/matrix/base/iter.rs:5-130. -/
structure Client (σ A : Type) where
  user : σ
  given : List A
  log : List (Ev A)
/-- Language (ownership), see `Ledger`; src/vector/base/iter.rs:98-150. -/
instance : Ledger (Client σ A) A where
  log w := w.log
  tell e w := ⟨w.user, w.given, e :: w.log⟩
  held w := w.given
/-- Run the caller's closure `x` with the items `args` as arguments: it takes them over (also if it panics); its result hands over `res b`. Language (ownership) and core iterators; used for src/vector/base/iter.rs:98-150 and src/matrix/base/iter.rs:5-130. -/
def hand {β : Type} (args : List A) (res : β → List A) (x : Eff σ β) : Eff (Client σ A) β := ExceptT.mk fun w =>
  match x.exec w.user with
  | (.ok b, s) => (.ok b, ⟨s, w.given ++ args, ((res b).map .got).reverse ++ w.log⟩)
  | (.error e, s) => (.error e, ⟨s, w.given ++ args, w.log⟩)
/-- The closure of `scan` as a computation on the memory with the scan state: `f s x` returns the result and the new scan state. Language (ownership) and core iterators; used for src/vector/base/iter.rs:98-150 and src/matrix/base/iter.rs:5-130. -/
def withState {own : S → List A} (f : S → T → Eff W (U × S)) (x : T) : Eff (Local W own) U := ExceptT.mk fun g =>
  match (f g.val x).exec g.under with
  | (.ok (u, t), w) => (.ok u, ⟨w, t⟩)
  | (.error e, w) => (.error e, ⟨w, g.val⟩)
/-- Drop an item: its destructor `d`, which may panic, runs once. Language (ownership) and core iterators; used for src/vector/base/iter.rs:98-150 and src/matrix/base/iter.rs:5-130. -/
def dropC (d : A → Eff σ Unit) (a : A) : Eff (Client σ A) Unit := ExceptT.mk fun w =>
  let r := (d a).exec w.user
  (r.1, ⟨r.2, w.given, .dropped a :: w.log⟩)
end Own
end Vecmat
