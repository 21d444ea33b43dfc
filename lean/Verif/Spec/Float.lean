import Mathlib.Analysis.SpecialFunctions.Pow.Real
/-! # Specification: the standard model of floating-point arithmetic -/
namespace Vecmat.Spec

/-- `F` rounds with relative error at most `u` whenever it delivers a number. -/
def Rounding (u : ℝ) (F : ℝ → Option ℝ) : Prop := 0 ≤ u ∧ ∀ x y, F x = some y → |y - x| ≤ u * |x|

/-- `r` is `x` up to `k` relative perturbations of size at most `u`. -/
def RelClose (u : ℝ) (k : ℕ) (r x : ℝ) : Prop := ∃ θ, r = x * θ ∧ (1 - u) ^ k ≤ θ ∧ θ ≤ ((1 - u) ^ k)⁻¹

/-- The classical error factor of `k` roundings. -/
noncomputable def gam (u : ℝ) (k : ℕ) : ℝ := (1 + u) ^ k - 1

/-- Integers up to `B` in magnitude are representable and not rounded. -/
def ExactInts (B : ℕ) (F : ℝ → Option ℝ) : Prop := ∀ n : ℤ, n.natAbs ≤ B → F (n : ℝ) = some (n : ℝ)

end Vecmat.Spec
