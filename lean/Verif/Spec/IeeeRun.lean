import Verif.Spec.IeeeVal
import Verif.Model.Transforms
/-! # Specification: `f64` data and the exact values they hold -/
namespace Vecmat.Spec
open Vecmat
variable {φ : Fmt}

/-- Every component of `v` is finite and the values are those of the real vector `X`. -/
def ValV {N : Nat} (v : Vec (Ieee φ) N) (X : Vec ℝ N) : Prop := ∀ i : Fin N, v[i.1].toReal? = some X[i.1]
/-- Every entry of `A` is finite and the values are those of the real matrix `B`. -/
def ValM {M N : Nat} (A : Mat (Ieee φ) M N) (B : Mat ℝ M N) : Prop :=
  ∀ (i : Fin M) (j : Fin N), A[i.1][j.1].toReal? = some B[i.1][j.1]
/-- Both parts of `z` are finite and the values are those of `Z`. -/
def ValC (z : Cpx (Ieee φ)) (Z : Cpx ℝ) : Prop := z.re.toReal? = some Z.re ∧ z.im.toReal? = some Z.im
/-- All components of `q` are finite and the values are those of `Q`. -/
def ValQ (q : Quat (Ieee φ)) (Q : Quat ℝ) : Prop :=
  q.w.toReal? = some Q.w ∧ q.x.toReal? = some Q.x ∧ q.y.toReal? = some Q.y ∧ q.z.toReal? = some Q.z
/-- A rotation of the plane whose complex number is, up to `δ`, a unit. -/
def NearUnit2 (δ : ℝ) (R : Rotation2 ℝ) : Prop := |R.intoComplex.norm - 1| ≤ δ
/-- A rotation of space whose quaternion is, up to `δ`, a unit. -/
def NearUnit3 (δ : ℝ) (R : Rotation3 ℝ) : Prop := |R.intoQuaternion.norm - 1| ≤ δ
end Vecmat.Spec
