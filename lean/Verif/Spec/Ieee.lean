import Verif.Model.Ieee
import Verif.Model.Float
import Verif.Spec.Float
/-! # Specification: IEEE-754 data -/
namespace Vecmat.Spec
open Vecmat

/-- The parameters describe a binary format in which `1/2`, `1` and `2` are normal numbers. -/
def WF (φ : Fmt) : Prop := 2 ≤ φ.p ∧ φ.emin ≤ -1 ∧ 1 ≤ φ.emax

/-- `x` is a number of the format: an integer significand of `p` bits times a power of two in the exponent range. -/
def Representable (φ : Fmt) (x : ℝ) : Prop :=
  ∃ m e : ℤ, x = m * 2 ^ e ∧ |m| < 2 ^ φ.p ∧ φ.emin - φ.p + 1 ≤ e ∧ e ≤ φ.emax - φ.p + 1

/-- A datum that exists in the format `φ`. -/
def Datum {φ : Fmt} : Ieee φ → Prop
  | .num x _ => Representable φ x
  | _ => True

/-- Neither NaN nor infinite. -/
def Finite {φ : Fmt} (a : Ieee φ) : Prop := a ≠ .nan ∧ ∀ s, a ≠ .inf s

/-- The same datum up to the sign of a zero. -/
def Same {φ : Fmt} (a b : Ieee φ) : Prop := a = b ∨ ∃ s t, a = .zero s ∧ b = .zero t

/-- Unit roundoff `u`: half the distance from `1` to the next larger number. -/
noncomputable def roundoff (φ : Fmt) : ℝ := 1 / 2 ^ φ.p
/-- Half the smallest positive number: the largest error of a result that underflows. -/
noncomputable def tiny (φ : Fmt) : ℝ := 2 ^ (φ.emin - φ.p)
/-- The first power of two beyond the largest number. -/
noncomputable def huge (φ : Fmt) : ℝ := 2 ^ (φ.emax + 1)

/-- Error bound of an expression with terms of total magnitude `m`, at most `k` roundings on the way of a term, and `c` products that may
underflow: `((1+u)^k - 1) m + c η (1+u)^k`. -/
noncomputable def errBound (φ : Fmt) (k c : ℕ) (m : ℝ) : ℝ := gam (roundoff φ) k * m + c * tiny φ * (1 + roundoff φ) ^ k
/-- If `d` is finite it is within the error bound of `x`; and it is finite unless the magnitude is near the overflow threshold. -/
def Close {φ : Fmt} (k c : ℕ) (m : ℝ) (d : Ieee φ) (x : ℝ) : Prop :=
  (∀ r, d.toReal? = some r → |r - x| ≤ errBound φ k c m) ∧ (m + errBound φ k c m < huge φ → ∃ r, d.toReal? = some r)

open Classical in
/-- Rounding of `φ` with overflow and (inexact) underflow trapped. -/
noncomputable def trapping (φ : Fmt) (x : ℝ) : Option ℝ :=
  if |φ.near x - x| ≤ roundoff φ * |x| ∧ |φ.near x| < huge φ then some (φ.near x) else none
/-- The datum as an operand of the trapping arithmetic. -/
def _root_.Vecmat.Ieee.trap {φ : Fmt} (a : Ieee φ) : Fl (trapping φ) := ⟨a.toReal?⟩

end Vecmat.Spec
