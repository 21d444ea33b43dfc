import Verif.Model.Own
/-!
# Specification of ownership-correct functions
-/
namespace Vecmat
namespace Own
variable {σ A T U W α : Type} {M N : Nat}

/-- The items handed to the crate. -/
def gots (l : List (Ev A)) : Multiset A := (l.filterMap fun | .got a => some a | _ => none : List A)
/-- The items whose destructor ran (with multiplicity: a double drop counts twice). -/
def drops (l : List (Ev A)) : Multiset A := (l.filterMap fun | .dropped a => some a | _ => none : List A)
/-- The items that were leaked. -/
def leaks (l : List (Ev A)) : Multiset A := (l.filterMap fun | .leaked a => some a | _ => none : List A)

variable [Ledger W A]
/-- The books balance: everything handed over has been dropped once, or leaked, or is in a live slot, or belongs to `B` (the variables
of the rest of the program). -/
def Balanced (w : W) (B : Multiset A) : Prop :=
  gots (Ledger.log w) = drops (Ledger.log w) + leaks (Ledger.log w) + Ledger.held w + B

/-- `x` treats ownership correctly when it takes the items `pre` from the caller and, if it returns `a`, gives the items `post a`
back: the books balance afterwards, also after a panic; nothing is leaked unless there is a panic; and there is no undefined behaviour. -/
def Good (x : Eff W α) (pre : Multiset A) (post : α → Multiset A) : Prop :=
  ∀ w B, Balanced w (B + pre) →
    match x.exec w with
    | (.ok a, w') => Balanced w' (B + post a) ∧ leaks (Ledger.log w') = leaks (Ledger.log w)
    | (.error e, w') => Balanced w' B ∧ e ≠ .ub

/-- As `Good`, and nothing is ever leaked, not even after a panic. -/
def Clean (x : Eff W α) (pre : Multiset A) (post : α → Multiset A) : Prop :=
  ∀ w B, Balanced w (B + pre) →
    match x.exec w with
    | (.ok a, w') => Balanced w' (B + post a) ∧ leaks (Ledger.log w') = leaks (Ledger.log w)
    | (.error e, w') => Balanced w' B ∧ e ≠ .ub ∧ leaks (Ledger.log w') = leaks (Ledger.log w)
end Own
end Vecmat

namespace Vecmat
namespace Spec
variable {S T U W : Type}
/-- Call `f` on the items of a list, in order, until the first panic: the results of the calls that returned, the panic (if any), and
the state at the end. The number of calls is the number of results, plus one if there was a panic. -/
def callEach (f : T → Eff W U) : List T → W → List U × Option Fault × W
  | [], w => ([], none, w)
  | x :: l, w =>
    match (f x).exec w with
    | (.ok y, w) => let r := callEach f l w; (y :: r.1, r.2)
    | (.error e, w) => ([], some e, w)
/-- Left fold until the first panic: the items not reached, the outcome, and the state at the end. -/
def foldEach (f : S → T → Eff W S) : List T → S → W → List T × Res S × W
  | [], s, w => ([], .ok s, w)
  | x :: l, s, w =>
    match (f s x).exec w with
    | (.ok s, w) => foldEach f l s w
    | (.error e, w) => (l, .error e, w)
/-- A closure `|s, x|` that updates its argument `s` in place, as a computation on the pair of `s` and its own state. -/
def inPlace (f : S → T → Eff W (U × S)) (x : T) : Eff (S × W) U := ExceptT.mk fun p =>
  match (f p.1 x).exec p.2 with
  | (.ok (u, t), w) => (.ok u, (t, w))
  | (.error e, w) => (.error e, (p.1, w))
/-- `x` does what `y` does, except that it may do more after a panic (clean up). -/
def SameUpToPanic {α : Type} (x y : Eff W α) : Prop := ∀ w,
  match y.exec w with
  | (.ok a, w') => x.exec w = (.ok a, w')
  | (.error e, _) => (x.exec w).1 = .error e
end Spec
end Vecmat
