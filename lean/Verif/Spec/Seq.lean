import Verif.Model.Base
/-!
# Specification vocabulary: sequences of calls
Independent of the model: these definitions only talk about calling a closure / an iterator.
-/
namespace Vecmat.Spec
variable {T U S : Type} {m : Type → Type}

/-- Call `f` exactly `n` times, one after another, and list the results in call order.  If a call
faults, the whole computation faults there (no further call). -/
def callN [Monad m] (f : m T) : Nat → m (List T)
  | 0 => pure []
  | n + 1 => do
    let x ← f
    let l ← callN f n
    pure (x :: l)

/-- Pull at most `n` items from an iterator, stopping at the first `None`; list the items. -/
def takeN [Monad m] (next : m (Option T)) : Nat → m (List T)
  | 0 => pure []
  | n + 1 => do
    match ← next with
    | none => pure []
    | some x => do
      let l ← takeN next n
      pure (x :: l)

/-- `f` instrumented with a call counter. -/
def counted {σ : Type} (f : Eff σ T) : Eff (σ × Nat) T :=
  ExceptT.mk fun s => let r := f.exec s.1; (r.1, (r.2, s.2 + 1))

/-- Ask an iterator at most `fuel` times and list the items before the first `None`. -/
def drain {σ : Type} (next : Eff σ (Option T)) : Nat → σ → Res (List T)
  | 0, _ => .ok []
  | n + 1, s =>
    match next.exec s with
    | (.error e, _) => .error e
    | (.ok none, _) => .ok []
    | (.ok (some x), s') => do
      let l ← drain next n s'
      pure (x :: l)

/-- The iterator, asked repeatedly from state `s`, returns exactly the items of the list and then `None` (no fault). -/
inductive Yields {σ : Type} (next : Eff σ (Option T)) : σ → List T → Prop
  | done {s s' : σ} (h : next.exec s = (.ok none, s')) : Yields next s []
  | step {s s' : σ} {x : T} {l : List T} (h : next.exec s = (.ok (some x), s')) (t : Yields next s' l) :
      Yields next s (x :: l)

/-- Call `f` on the items of a list from left to right, threading a scan state; list the results. -/
def scanCalls [Monad m] (f : S → T → m (U × S)) : S → List T → m (List U)
  | _, [] => pure []
  | s, x :: l => do
    let (u, s') ← f s x
    let us ← scanCalls f s' l
    pure (u :: us)

/-- A source whose `n`-th call returns `g n`; the state is the number of calls made so far. -/
def stream (g : Nat → T) : Eff Nat T := Eff.ofStep fun n => (g n, n + 1)

end Vecmat.Spec
