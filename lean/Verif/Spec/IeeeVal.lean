import Verif.Spec.Ieee
import Verif.Spec.Hom
import Mathlib.Analysis.Quaternion
import Mathlib.Analysis.Complex.Norm
/-! # Specification: the numbers held by complex numbers and quaternions of IEEE data -/
namespace Vecmat.Spec
open Vecmat
variable {φ : Fmt}

/-- Both parts are finite and have the given values. -/
def IsC (z : Cpx (Ieee φ)) (Z : ℂ) : Prop := z.re.toReal? = some Z.re ∧ z.im.toReal? = some Z.im
/-- All components are finite and have the given values. -/
def IsQ (q : Quat (Ieee φ)) (Q : Quaternion ℝ) : Prop :=
  q.w.toReal? = some Q.re ∧ q.x.toReal? = some Q.imI ∧ q.y.toReal? = some Q.imJ ∧ q.z.toReal? = some Q.imK
end Vecmat.Spec
