import Verif.Model.Base
/-!
# Generic iterator combinators (core) and `FlatIter` (src/matrix/base/iter.rs)
An iterator is an `Eff σ (Option T)` (`next`) together with a state `σ`.
-/
namespace Vecmat
variable {σ τ ρ A B S T : Type}

/-- `FlatIter::new`, src/matrix/base/iter.rs:22-27: pull the first sub-sequence; `None` if there is none. The state of a
`FlatIter` is the state of `iter` and of `subiter`. -/
def flatNew (next : Eff σ (Option A)) (into : A → τ) (s : σ) : Res (Option (σ × τ)) :=
  match next.exec s with
  | (.ok (some a), s') => .ok (some (s', into a))
  | (.ok none, _) => .ok none
  | (.error e, _) => .error e

/-- `FlatIter::next`, src/matrix/base/iter.rs:37-44: ask the sub-iterator; if it is exhausted take the **next** sub-sequence
and ask it **once**. -/
def flatNext (next : Eff σ (Option A)) (into : A → τ) (sub : Eff τ (Option T)) : Eff (σ × τ) (Option T) :=
  ExceptT.mk fun (s, t) =>
    match sub.exec t with
    | (.error e, t') => (.error e, (s, t'))
    | (.ok (some x), t') => (.ok (some x), (s, t'))
    | (.ok none, t') =>
      match next.exec s with
      | (.error e, s') => (.error e, (s', t'))
      | (.ok none, s') => (.ok none, (s', t'))
      | (.ok (some a), s') =>
        match sub.exec (into a) with
        | (r, t'') => (r, (s', t''))

/-- `iter::Zip::next` (core) on arbitrary iterators: the first is asked first, the second only if the first produced. Call: src/matrix/ops/base.rs:101 (on `iter_mut` and `into_iter` of matrices). -/
def zipIterNext (na : Eff σ (Option A)) (nb : Eff τ (Option B)) : Eff (σ × τ) (Option (A × B)) :=
  ExceptT.mk fun (s, t) =>
    match na.exec s with
    | (.error e, s') => (.error e, (s', t))
    | (.ok none, s') => (.ok none, (s', t))
    | (.ok (some a), s') =>
      match nb.exec t with
      | (.error e, t') => (.error e, (s', t'))
      | (.ok none, t') => (.ok none, (s', t'))
      | (.ok (some b), t') => (.ok (some (a, b)), (s', t'))

/-- `Iterator::fold` / `for_each` (core): `while let Some(x) = self.next() { acc = f(acc, x) }`. `fuel` bounds the number
of `next` calls; running out of it is reported as `outOfFuel`. Calls: src/vector/ops/base.rs:101-180, src/vector/ops/iter.rs:10-16. -/
def iterFold (next : Eff σ (Option A)) (body : S → A → Res S) : (fuel : Nat) → σ → S → Res S
  | 0, _, _ => .error .outOfFuel
  | n + 1, it, s =>
    match next.exec it with
    | (.error e, _) => .error e
    | (.ok none, _) => .ok s
    | (.ok (some a), it') => do
      let s ← body s a
      iterFold next body n it' s

/-- `Iterator::all` (core): stops at the first `false`. Calls: src/vector/ops/base.rs:209, src/vector/ops/bit.rs:80. -/
def iterAll (next : Eff σ (Option A)) (p : A → Bool) : (fuel : Nat) → σ → Res Bool
  | 0, _ => .error .outOfFuel
  | n + 1, it =>
    match next.exec it with
    | (.error e, _) => .error e
    | (.ok none, _) => .ok true
    | (.ok (some a), it') => if p a then iterAll next p n it' else .ok false

/-- `Iterator::any` (core): stops at the first `true`. Call: src/vector/ops/bit.rs:75. -/
def iterAny (next : Eff σ (Option A)) (p : A → Bool) : (fuel : Nat) → σ → Res Bool
  | 0, _ => .error .outOfFuel
  | n + 1, it =>
    match next.exec it with
    | (.error e, _) => .error e
    | (.ok none, _) => .ok false
    | (.ok (some a), it') => if p a then .ok true else iterAny next p n it'

end Vecmat
