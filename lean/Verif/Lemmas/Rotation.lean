import Verif.Lemmas.Transforms
import Mathlib.Tactic.LinearCombination
/-! Helper lemmas: the rotations component by component. -/
namespace Vecmat
open Spec
variable {T : Type}

section
variable [CommRing T] (r s : Rotation2 T) (v p : Vec T 2)
theorem Rotation2.apply_0 : (Transform.apply r v)[0] = v[0] * r.comp.re - v[1] * r.comp.im := by
  show (Cpx.fromVector v * r.comp).vec[0] = _
  simp [Cpx.fromVector]
theorem Rotation2.apply_1 : (Transform.apply r v)[1] = v[0] * r.comp.im + v[1] * r.comp.re := by
  show (Cpx.fromVector v * r.comp).vec[1] = _
  simp [Cpx.fromVector]
theorem Rotation2.deriv_eq : Transform.deriv r p v = Transform.apply r v := rfl
theorem Rotation2.comp_chain : (Transform.chain (Vec T 2) r s).comp = r.comp * s.comp := rfl
theorem Rotation2.comp_inv : (Transform.inv (Vec T 2) r).comp = r.comp.conj := rfl
theorem Rotation2.comp_identity : (Transform.identity (Vec T 2) : Rotation2 T).comp = 1 := rfl
end
section
variable [CommRing T] (r s : Rotation3 T) (v p : Vec T 3)
theorem Rotation3.apply_eq : Transform.apply r v = (r.quat * Quat.fromScalarAndVector3 0 v * r.quat.conj).intoScalarAndVector3.2 := rfl
theorem Rotation3.apply_0 : (Transform.apply r v)[0] =
    (r.quat.w * r.quat.w + r.quat.x * r.quat.x - r.quat.y * r.quat.y - r.quat.z * r.quat.z) * v[0] +
    2 * (r.quat.x * r.quat.y - r.quat.w * r.quat.z) * v[1] + 2 * (r.quat.x * r.quat.z + r.quat.w * r.quat.y) * v[2] := by
  rw [Rotation3.apply_eq]; simp; ring
theorem Rotation3.apply_1 : (Transform.apply r v)[1] =
    2 * (r.quat.x * r.quat.y + r.quat.w * r.quat.z) * v[0] +
    (r.quat.w * r.quat.w - r.quat.x * r.quat.x + r.quat.y * r.quat.y - r.quat.z * r.quat.z) * v[1] +
    2 * (r.quat.y * r.quat.z - r.quat.w * r.quat.x) * v[2] := by
  rw [Rotation3.apply_eq]; simp; ring
theorem Rotation3.apply_2 : (Transform.apply r v)[2] =
    2 * (r.quat.x * r.quat.z - r.quat.w * r.quat.y) * v[0] + 2 * (r.quat.y * r.quat.z + r.quat.w * r.quat.x) * v[1] +
    (r.quat.w * r.quat.w - r.quat.x * r.quat.x - r.quat.y * r.quat.y + r.quat.z * r.quat.z) * v[2] := by
  rw [Rotation3.apply_eq]; simp; ring
theorem Rotation3.deriv_eq : Transform.deriv r p v = Transform.apply r v := rfl
theorem Rotation3.quat_chain : (Transform.chain (Vec T 3) r s).quat = r.quat * s.quat := rfl
theorem Rotation3.quat_inv : (Transform.inv (Vec T 3) r).quat = r.quat.conj := rfl
theorem Rotation3.quat_identity : (Transform.identity (Vec T 3) : Rotation3 T).quat = 1 := rfl
/-- The sandwich product of a pure quaternion is pure. -/
theorem Rotation3.sandwich_w : (r.quat * Quat.fromScalarAndVector3 0 v * r.quat.conj).w = 0 := by simp; ring
end

/-! ### linearity and matrices -/
section
variable [CommRing T]
theorem Rotation2.apply_add (r : Rotation2 T) (v w : Vec T 2) : Transform.apply r (v + w) = Transform.apply r v + Transform.apply r w := by
  apply Vec.ext2 <;> simp only [Rotation2.apply_0, Rotation2.apply_1, Vec.getElem_add] <;> ring
theorem Rotation2.apply_mulS (r : Rotation2 T) (v : Vec T 2) (s : T) : Transform.apply r (v.mulS s) = (Transform.apply r v).mulS s := by
  apply Vec.ext2 <;> simp only [Rotation2.apply_0, Rotation2.apply_1, Vec.getElem_mulS] <;> ring
theorem Rotation3.apply_add (r : Rotation3 T) (v w : Vec T 3) : Transform.apply r (v + w) = Transform.apply r v + Transform.apply r w := by
  apply Vec.ext3 <;> simp only [Rotation3.apply_0, Rotation3.apply_1, Rotation3.apply_2, Vec.getElem_add] <;> ring
theorem Rotation3.apply_mulS (r : Rotation3 T) (v : Vec T 3) (s : T) : Transform.apply r (v.mulS s) = (Transform.apply r v).mulS s := by
  apply Vec.ext3 <;> simp only [Rotation3.apply_0, Rotation3.apply_1, Rotation3.apply_2, Vec.getElem_mulS] <;> ring
theorem Rotation3.apply_neg (r : Rotation3 T) (v : Vec T 3) : Transform.apply r (-v) = -Transform.apply r v := by
  apply Vec.ext3 <;> simp only [Rotation3.apply_0, Rotation3.apply_1, Rotation3.apply_2, Vec.getElem_neg] <;> ring
end
theorem Rotation2.toMatrix_toLinear [Neg T] (r : Rotation2 T) :
    r.toLinear.lin.toMatrix = !![r.comp.re, -r.comp.im; r.comp.im, r.comp.re] := by
  unfold Rotation2.toLinear; ext i j; fin_cases i <;> fin_cases j <;> rfl
theorem Rotation3.toMatrix_toLinear [NumConst T] [Add T] [Sub T] [Mul T] [One T] (r : Rotation3 T) :
    r.toLinear.lin.toMatrix = !![
    1 - two * r.quat.y * r.quat.y - two * r.quat.z * r.quat.z, two * r.quat.x * r.quat.y - two * r.quat.z * r.quat.w,
      two * r.quat.x * r.quat.z + two * r.quat.y * r.quat.w;
    two * r.quat.x * r.quat.y + two * r.quat.z * r.quat.w, 1 - two * r.quat.x * r.quat.x - two * r.quat.z * r.quat.z,
      two * r.quat.y * r.quat.z - two * r.quat.x * r.quat.w;
    two * r.quat.x * r.quat.z - two * r.quat.y * r.quat.w, two * r.quat.y * r.quat.z + two * r.quat.x * r.quat.w,
      1 - two * r.quat.x * r.quat.x - two * r.quat.y * r.quat.y] := by
  unfold Rotation3.toLinear; ext i j; fin_cases i <;> fin_cases j <;> rfl
theorem Mat.toMatrix_cols3 (a b c : Vec T 3) : (Mat.fromArrVec #v[a, b, c]).transpose.toMatrix =
    !![a[0], b[0], c[0]; a[1], b[1], c[1]; a[2], b[2], c[2]] := by
  rw [Mat.toMatrix_transpose]; ext i j; fin_cases i <;> fin_cases j <;> rfl
theorem Linear.apply_coords [CommRing T] [Div T] {N : Nat} (l : Linear T N) (v : Vec T N) :
    coords (Transform.apply l v) = l.lin.toMatrix.mulVec (coords v) := Mat.coords_dotV l.lin v
theorem Linear.lin_chain [CommRing T] [Div T] {N : Nat} (l m : Linear T N) :
    (Transform.chain (Vec T N) l m).lin = l.lin.dotM m.lin := rfl
theorem Linear.lin_inv [CommRing T] [Div T] {N : Nat} (l : Linear T N) :
    (Transform.inv (Vec T N) l).lin = l.lin.inv := rfl
end Vecmat
