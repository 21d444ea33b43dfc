/-!
# Execution model shared by all modelled functions

* `Fault`  – the ways a Rust computation of this crate can fail to return a value.
* `Res α`  – a computation that returns or faults (no state).
* `Eff σ α` – a computation with caller-visible state `σ` (the captured state of an `FnMut`, the
  state of an `Iterator`, an RNG) that returns or faults; the state survives the fault.
* `forRange` – a Rust `for i in lo..lo+n` loop.
-/
namespace Vecmat

/-- Reasons why a call does not return.  `ub` is undefined behaviour (reading an uninitialised
`MaybeUninit`, unchecked out-of-bounds access): a theorem that a function never produces `ub`
is a memory-safety statement.  `user` is a panic raised by a caller-supplied closure. Panics: indexing src/vector/base/init.rs:139-147, `unwrap` src/vector/base/iter.rs:92; undefined behaviour: src/vector/base/init.rs:30-32, 160-166. -/
inductive Fault where
  | unwrapNone
  | indexOob
  | assertFailed
  | subOverflow
  | arithOverflow
  | unreachableCode
  | unimplementedOp
  | ub
  | outOfFuel
  | user (code : Nat)
deriving DecidableEq, Repr

/-- A computation that returns a value or faults. Every function of src/ that can panic, see `Fault`. -/
abbrev Res (α : Type) : Type := Except Fault α

/-- A computation over a caller-visible state `σ` (Rust `FnMut`, `Iterator::next`, RNG). Closures of src/vector/base/init.rs:34-45 and src/vector/base/iter.rs:98-150, generators of src/vector/distr.rs. -/
abbrev Eff (σ : Type) (α : Type) : Type := ExceptT Fault (StateM σ) α

/-- Run an effectful computation from state `s`. A call of such a function, e.g. src/vector/base/init.rs:41. -/
def Eff.exec {σ α : Type} (x : Eff σ α) (s : σ) : Res α × σ := (ExceptT.run x).run s

/-- Build an effectful computation from a step function. A closure that does not panic, e.g. the `f` of src/vector/base/init.rs:34-45. -/
def Eff.ofStep {σ α : Type} (f : σ → α × σ) : Eff σ α :=
  ExceptT.mk (fun s => let r := f s; (Except.ok r.1, r.2))

/-- Value of a computation that is known not to fault. A call that returns; nothing in src/ corresponds to the proof. -/
def Res.get {α : Type} : (r : Res α) → (∃ a, r = .ok a) → α
  | .ok a, _ => a
  | .error _, h => absurd h (by simp)

/-- `Option::unwrap` (core): panics on `None`. Calls: src/vector/base/iter.rs:92, src/vector/spec.rs:154-176. -/
def unwrap {m : Type → Type} [Monad m] [MonadExcept Fault m] {α : Type} : Option α → m α
  | some a => pure a
  | none => throw .unwrapNone

/-- Inject a pure-or-faulting computation into any monad with faults. A call of a function without side effects inside one with side effects, e.g. src/vector/base/iter.rs:76. -/
def liftRes {m : Type → Type} [Monad m] [MonadExcept Fault m] {α : Type} : Res α → m α
  | .ok a => pure a
  | .error e => throw e

/-- A Rust loop `for i in lo..(lo+n) { s = body(i, s) }`. Loops: src/matrix/transpose.rs:14-20, src/vector/base/format.rs:10-12. -/
def forRange {m : Type → Type} [Monad m] {S : Type} : (n lo : Nat) → S → (Nat → S → m S) → m S
  | 0, _, s, _ => pure s
  | n + 1, lo, s, body => do
    let s ← body lo s
    forRange n (lo + 1) s body

/-- `array::IntoIter::next` / `slice::Iter::next` (core): pop the first remaining item. Used through src/vector/base/iter.rs:12-35. -/
def listNext {T : Type} : Eff (List T) (Option T) :=
  Eff.ofStep fun
    | [] => (none, [])
    | x :: l => (some x, l)

/-- `iter::Zip::next` (core) over two array iterators: the first iterator is asked first; the second
one is asked only if the first produced an item. Calls: src/vector/base/iter.rs:66, src/vector/ops/base.rs:101. -/
def zipNext {T U : Type} : Eff (List T × List U) (Option (T × U)) :=
  Eff.ofStep fun
    | ([], b) => (none, ([], b))
    | (_ :: a, []) => (none, (a, []))
    | (x :: a, y :: b) => (some (x, y), (a, b))

/-- `[T; N]::map` (core): call `f` on the elements in index order and collect the results (the length is
preserved, which is why it is carried along). Call: src/vector/base/iter.rs:103. -/
def listMapM {m : Type → Type} [Monad m] {T U : Type} (f : T → m U) : (l : List T) → m {k : List U // k.length = l.length}
  | [] => pure ⟨[], rfl⟩
  | x :: l => do
    let y ← f x
    let r ← listMapM f l
    pure ⟨y :: r.1, by simp [r.2]⟩

end Vecmat
