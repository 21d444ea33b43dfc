import Verif.Spec.IeeeRun
import Verif.Model.Moebius
/-! # Specification: Möbius transformations with floating-point coefficients -/
namespace Vecmat.Spec
open Vecmat
variable {φ : Fmt}
/-- The coefficients of `m` are finite and have the values of those of `M`. -/
def ValMoebius (m : Moebius (Cpx (Ieee φ))) (M : Moebius (Cpx ℝ)) : Prop :=
  ValC m.a M.a ∧ ValC m.b M.b ∧ ValC m.c M.c ∧ ValC m.d M.d
/-- `|a| r + |b|`, an upper bound of `|a z + b|` for `|z| = r`. -/
noncomputable def upper (M : Moebius (Cpx ℝ)) (r : ℝ) : ℝ := M.a.norm * r + M.b.norm
/-- `|c| r + |d|`, an upper bound of `|c z + d|` for `|z| = r`. -/
noncomputable def lower (M : Moebius (Cpx ℝ)) (r : ℝ) : ℝ := M.c.norm * r + M.d.norm
/-- The moduli of the coefficients. -/
noncomputable def moduli (M : Moebius (Cpx ℝ)) : Moebius ℝ := .new M.a.norm M.b.norm M.c.norm M.d.norm
/-- All coefficients have modulus at most `r`. -/
def Below (M : Moebius (Cpx ℝ)) (r : ℝ) : Prop := M.a.norm ≤ r ∧ M.b.norm ≤ r ∧ M.c.norm ≤ r ∧ M.d.norm ≤ r
/-- Each coefficient of `V` differs from that of `W` by at most `k` times that of `E`, plus `t`. -/
def Within (V W : Moebius (Cpx ℝ)) (E : Moebius ℝ) (k t : ℝ) : Prop :=
  (V.a - W.a).norm ≤ k * E.a + t ∧ (V.b - W.b).norm ≤ k * E.b + t ∧ (V.c - W.c).norm ≤ k * E.c + t ∧ (V.d - W.d).norm ≤ k * E.d + t
end Vecmat.Spec
