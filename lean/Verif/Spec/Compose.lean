import Mathlib.Data.List.Basic
import Mathlib.Data.Matrix.Mul
import Mathlib.Data.Real.Basic
/-! # Specification: compositions in an arbitrary bracketing -/
namespace Vecmat.Spec

/-- A way to combine a non-empty sequence of items with a binary operation: every bracketing of every length. -/
inductive Bracketing (α : Type) where
  | one (a : α)
  | two (l r : Bracketing α)

namespace Bracketing
variable {α β : Type}
/-- The items from left to right. -/
def items : Bracketing α → List α
  | one a => [a]
  | two l r => l.items ++ r.items
/-- The result of combining with `op`. -/
def eval (op : α → α → α) : Bracketing α → α
  | one a => a
  | two l r => op (l.eval op) (r.eval op)
/-- Apply a function to every item. -/
def map (f : α → β) : Bracketing α → Bracketing β
  | one a => one (f a)
  | two l r => two (l.map f) (r.map f)
end Bracketing

/-! Affine maps `x ↦ A x + b` as pairs `(A, b)` -/
section
variable {N : Nat}
/-- The composition: first the second map, then the first. -/
def affMul (f g : Matrix (Fin N) (Fin N) ℝ × (Fin N → ℝ)) : Matrix (Fin N) (Fin N) ℝ × (Fin N → ℝ) := (f.1 * g.1, f.1.mulVec g.2 + f.2)
/-- The composition of a sequence of maps; the last map of the list is applied first. -/
def affProd (l : List (Matrix (Fin N) (Fin N) ℝ × (Fin N → ℝ))) : Matrix (Fin N) (Fin N) ℝ × (Fin N → ℝ) := l.foldr affMul (1, 0)
/-- Absolute values of all coefficients. -/
def affAbs (f : Matrix (Fin N) (Fin N) ℝ × (Fin N → ℝ)) : Matrix (Fin N) (Fin N) ℝ × (Fin N → ℝ) := (f.1.map abs, fun i => |f.2 i|)
end
end Vecmat.Spec
