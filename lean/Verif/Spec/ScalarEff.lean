import Verif.Model.ScalarEff
import Verif.Model.TransformEff
import Verif.Model.MachineInt
import Mathlib.Data.List.Basic
/-!
# Specification vocabulary: calls of scalar operators
Independent of the modelled functions: sequences of calls, expressions evaluated from left to right, and logs of calls.
-/
namespace Vecmat.Spec
variable {T α β σ : Type}

/-- Make the calls of a list one after another and list the results; a panic ends the sequence. -/
def inOrder : List (Eff σ α) → Eff σ (List α)
  | [] => pure []
  | c :: cs => do
    let x ← c
    let xs ← inOrder cs
    pure (x :: xs)

/-- Add up a non-empty list from the left: `((x₀ + x₁) + x₂) + …`; for an empty list `unwrap` panics. -/
def addUp (o : ScalarE σ T) : List T → Eff σ T
  | [] => throw .unwrapNone
  | x :: l => l.foldlM o.add x

/-- Expressions over a scalar type. -/
inductive Expr (T : Type) where
  | lit (x : T)
  | zero
  | one
  | neg (a : Expr T)
  | add (a b : Expr T)
  | sub (a b : Expr T)
  | mul (a b : Expr T)

/-- Evaluation: operands from left to right, then the operator. -/
def Expr.eval (o : ScalarE σ T) : Expr T → Eff σ T
  | lit x => pure x
  | zero => o.zero
  | one => o.one
  | neg a => do
    let x ← a.eval o
    o.neg x
  | add a b => do
    let x ← a.eval o
    let y ← b.eval o
    o.add x y
  | sub a b => do
    let x ← a.eval o
    let y ← b.eval o
    o.sub x y
  | mul a b => do
    let x ← a.eval o
    let y ← b.eval o
    o.mul x y
instance : Neg (Expr T) := ⟨.neg⟩
instance : Add (Expr T) := ⟨.add⟩
instance : Sub (Expr T) := ⟨.sub⟩
instance : Mul (Expr T) := ⟨.mul⟩
instance : Coe T (Expr T) := ⟨.lit⟩

/-- The expansion along the first of the rows `R` of the submatrix with rows `R` and columns `C`:
`((0 + a·m₀) + a·(-m₁)) + a·m₂ …`, where `m_k` is the expansion of the minor without the `k`-th of the columns. -/
def laplace {ι κ : Type} (a : ι → κ → T) : List ι → List κ → Expr T
  | [], _ => .one
  | i :: R, C => C.zipIdx.foldl (fun e jk =>
      let m := laplace a R (C.eraseIdx jk.2)
      .add e (.mul (.lit (a i jk.1)) (if jk.2 % 2 = 1 then .neg m else m))) .zero

/-- Names of the operators. -/
inductive Op where
  | add | sub | mul | div | rem | neg | zero | one
deriving DecidableEq

/-- Note a call in the log, then make it. -/
def note (n : Op) (c : Eff σ α) : Eff (σ × List Op) α := ExceptT.mk fun (s, log) =>
  let r := c.exec s
  (r.1, (r.2, log ++ [n]))

/-- The same scalar type, with a log of all calls of its operators. -/
def logged (o : ScalarE σ T) : ScalarE (σ × List Op) T where
  add x y := note .add (o.add x y)
  sub x y := note .sub (o.sub x y)
  mul x y := note .mul (o.mul x y)
  div x y := note .div (o.div x y)
  rem x y := note .rem (o.rem x y)
  neg x := note .neg (o.neg x)
  zero := note .zero o.zero
  one := note .one o.one

/-- The computation makes exactly the calls `l`, in this order, if it returns, and an initial part of them if it panics. -/
def Makes (c : Eff (σ × List Op) α) (l : List Op) : Prop :=
  ∀ s log, ∃ r t p, c.exec (s, log) = (r, (t, log ++ p)) ∧ p <+: l ∧ ((∃ x, r = .ok x) → p = l)

/-- The calls made by the expansion of an `N × N` determinant. -/
def detCalls : Nat → List Op
  | 0 => [.one]
  | n + 1 => .zero :: (List.range (n + 1)).flatMap fun k => detCalls n ++ (if k % 2 = 1 then [.neg] else []) ++ [.mul, .add]

/-- A scalar type whose operators have no effects. -/
def plain [Add T] [Sub T] [Mul T] [Div T] [Mod T] [Neg T] [Zero T] [One T] : ScalarE σ T where
  add x y := pure (x + y)
  sub x y := pure (x - y)
  mul x y := pure (x * y)
  div x y := pure (x / y)
  rem x y := pure (x % y)
  neg x := pure (-x)
  zero := pure 0
  one := pure 1

/-- An integer in range, or an overflow panic. -/
def inRange (lo hi x : Int) : Eff σ Int := if lo ≤ x ∧ x ≤ hi then pure x else throw .arithOverflow

/-- Integers with overflow checks (`i32` etc. in a debug build): a result out of range panics. Division truncates and panics also
for a zero divisor; `%` panics exactly when `/` does. -/
def checked (lo hi : Int) : ScalarE σ Int where
  add x y := inRange lo hi (x + y)
  sub x y := inRange lo hi (x - y)
  mul x y := inRange lo hi (x * y)
  div x y := if y = 0 then throw .arithOverflow else inRange lo hi (x.tdiv y)
  rem x y := if y = 0 then throw .arithOverflow else do
    let _ ← inRange lo hi (x.tdiv y)
    pure (x.tmod y)
  neg x := inRange lo hi (-x)
  zero := pure 0
  one := pure 1

/-- What a checked computation returns: the value, or an overflow panic. -/
def outcome {lo hi : Int} (x : Chk lo hi) : Eff σ Int :=
  match x.val with
  | some x => pure x
  | none => throw .arithOverflow

/-- A compound assignment that works on the components `ps` one after another, `g p` being `*component op= …`: `old` are the
components before it, `new` after it, `s` and `s'` the states of the world, `r` how it ended. There is a number `k` of components
that were completely processed, in the order of `ps`; if these are all, the assignment returned; otherwise the operator panicked at
the next one (which is left as the operator left it). All further components are untouched. -/
def OneByOne {ι : Type} (g : ι → Eff (T × σ) Unit) (ps : List ι) (old new : ι → T) (s s' : σ) (r : Res Unit) : Prop :=
  ∃ (k : Nat) (st : Nat → σ), k ≤ ps.length ∧ st 0 = s ∧
    (∀ i (h : i < ps.length), i < k → (g ps[i]).exec (old ps[i], st i) = (.ok (), (new ps[i], st (i + 1)))) ∧
    (∀ i (h : i < ps.length), k < i → new ps[i] = old ps[i]) ∧
    (k = ps.length → r = .ok () ∧ s' = st k) ∧
    (∀ h : k < ps.length, ∃ e, r = .error e ∧ (g ps[k]).exec (old ps[k], st k) = (.error e, (new ps[k], s')))

/-- Whenever the computation returns, it returns the value of `r`. -/
def Only (c : Eff σ α) (r : Res α) : Prop := ∀ s x t, c.exec s = (.ok x, t) → r = .ok x

/-- The computation never returns a value: it always panics. -/
def Never (c : Eff σ α) : Prop := ∀ s x t, c.exec s ≠ (.ok x, t)

/-- A scalar type with partial operators: whenever an operator returns, it returns the result of the total operation. (It may panic
instead, and have side effects.) -/
structure PartialOf [Add T] [Sub T] [Mul T] [Div T] [Mod T] [Neg T] [Zero T] [One T] (o : ScalarE σ T) : Prop where
  add : ∀ x y, Only (o.add x y) (.ok (x + y))
  sub : ∀ x y, Only (o.sub x y) (.ok (x - y))
  mul : ∀ x y, Only (o.mul x y) (.ok (x * y))
  div : ∀ x y, Only (o.div x y) (.ok (x / y))
  rem : ∀ x y, Only (o.rem x y) (.ok (x % y))
  neg : ∀ x, Only (o.neg x) (.ok (-x))
  zero : Only o.zero (.ok 0)
  one : Only o.one (.ok 1)

/-- Exact arithmetic in which only division by zero panics (`num_rational::Ratio<BigInt>`). -/
def strict [Add T] [Sub T] [Mul T] [Div T] [Mod T] [Neg T] [Zero T] [One T] [DecidableEq T] : ScalarE σ T where
  add x y := pure (x + y)
  sub x y := pure (x - y)
  mul x y := pure (x * y)
  div x y := if y = 0 then throw .arithOverflow else pure (x / y)
  rem x y := if y = 0 then throw .arithOverflow else pure (x % y)
  neg x := pure (-x)
  zero := pure 0
  one := pure 1

/-- A transformation with partial functions: whenever a function of it returns, it returns the result of the total function. -/
structure PartialTransform {A X : Type} [Transform A X] (a : TransformE σ A X) : Prop where
  identity : Only a.identity (.ok (Transform.identity X))
  inv : ∀ t, Only (a.inv t) (.ok (Transform.inv X t))
  apply : ∀ t x, Only (a.apply t x) (.ok (Transform.apply t x))
  deriv : ∀ t x v, Only (a.deriv t x v) (.ok (Transform.deriv t x v))
  chain : ∀ t u, Only (a.chain t u) (.ok (Transform.chain X t u))

/-- A transformation whose functions always return and have no side effects. -/
structure TotalTransform {A X : Type} [Transform A X] (a : TransformE σ A X) : Prop where
  identity : ∀ s, a.identity.exec s = (.ok (Transform.identity X), s)
  inv : ∀ t s, (a.inv t).exec s = (.ok (Transform.inv X t), s)
  apply : ∀ t x s, (a.apply t x).exec s = (.ok (Transform.apply t x), s)
  deriv : ∀ t x v s, (a.deriv t x v).exec s = (.ok (Transform.deriv t x v), s)
  chain : ∀ t u s, (a.chain t u).exec s = (.ok (Transform.chain X t u), s)

end Vecmat.Spec
