import Verif.Model.Transforms
import Verif.Spec.Transform
import Verif.Lemmas.Square
import Verif.Lemmas.Quaternion
import Mathlib.Data.Matrix.Mul
/-! Helper lemmas: vectors as coordinate functions; the transformations entry by entry. -/
namespace Vecmat
open Spec
variable {T : Type} {N M : Nat}

theorem Vec.coords_inj {v w : Vec T N} (h : coords v = coords w) : v = w := by
  apply Vec.ext_getElem; intro i hi; exact congrFun h ⟨i, hi⟩
@[simp] theorem Vec.coords_ofCoords (f : Fin N → T) : coords (ofCoords f) = f := by
  funext i; show (Vector.ofFn f)[i.1] = _; simp
@[simp] theorem Vec.ofCoords_coords (v : Vec T N) : ofCoords (coords v) = v := Vec.coords_inj (by simp)
theorem Vec.coords_add [Add T] (v w : Vec T N) : coords (v + w) = coords v + coords w := by funext i; simp [coords]
theorem Vec.coords_sub [Sub T] (v w : Vec T N) : coords (v - w) = coords v - coords w := by funext i; simp [coords]
theorem Vec.coords_neg [Neg T] (v : Vec T N) : coords (-v) = -coords v := by funext i; simp [coords]
theorem Vec.coords_zero [Zero T] : coords (0 : Vec T N) = 0 := by funext i; simp [coords]
theorem Vec.coords_mulS [CommMonoid T] (v : Vec T N) (s : T) : coords (v.mulS s) = s • coords v := by
  funext i; simp [coords, mul_comm]
theorem Vec.dot_coords [NeZero N] [NonUnitalNonAssocSemiring T] (v w : Vec T N) : v.dot w = dotProduct (coords v) (coords w) := by
  rw [Vec.dot_eq_sum]; rfl
theorem Mat.coords_dotV [NonUnitalNonAssocSemiring T] (A : Mat T N N) (v : Vec T N) :
    coords (A.dotV v) = A.toMatrix.mulVec (coords v) := by
  funext i; exact Mat.getElem_dotV_sum A v i.1 i.2
theorem Mat.dotV_dotM [NonUnitalSemiring T] (A B : Mat T N N) (v : Vec T N) : (A.dotM B).dotV v = A.dotV (B.dotV v) := by
  apply Vec.coords_inj; simp only [Mat.coords_dotV, Mat.toMatrix_dotM, Matrix.mulVec_mulVec]
theorem Mat.one_dotV [NonAssocSemiring T] (v : Vec T N) : (1 : Mat T N N).dotV v = v := by
  apply Vec.coords_inj; simp only [Mat.coords_dotV, Mat.toMatrix_one, Matrix.one_mulVec]
theorem Mat.inv_dotM [Field T] (A : Mat T N N) (h : A.det ≠ 0) : A.inv.dotM A = 1 ∧ A.dotM A.inv = 1 := by
  have hd : IsUnit A.toMatrix.det := by rw [← Mat.det_eq]; exact h.isUnit
  constructor <;> apply Mat.toMatrix_inj <;> simp only [Mat.toMatrix_dotM, Mat.toMatrix_inv, Mat.toMatrix_one]
  · exact Matrix.nonsing_inv_mul _ hd
  · exact Matrix.mul_nonsing_inv _ hd
theorem Mat.dotV_add [NonUnitalNonAssocSemiring T] (A : Mat T N N) (v w : Vec T N) : A.dotV (v + w) = A.dotV v + A.dotV w := by
  apply Vec.coords_inj; simp only [Mat.coords_dotV, Vec.coords_add, Matrix.mulVec_add]
theorem Mat.dotV_mulS [CommSemiring T] (A : Mat T N N) (v : Vec T N) (s : T) : A.dotV (v.mulS s) = (A.dotV v).mulS s := by
  apply Vec.coords_inj; simp only [Mat.coords_dotV, Vec.coords_mulS, Matrix.mulVec_smul]

/-! ### three-dimensional vectors -/

theorem Vec.ext3 {v w : Vec T 3} (h0 : v[0] = w[0]) (h1 : v[1] = w[1]) (h2 : v[2] = w[2]) : v = w := by
  apply Vec.ext_getElem; intro i hi
  match i with
  | 0 => exact h0
  | 1 => exact h1
  | 2 => exact h2
  | i + 3 => omega
theorem Vec.ext2 {v w : Vec T 2} (h0 : v[0] = w[0]) (h1 : v[1] = w[1]) : v = w := by
  apply Vec.ext_getElem; intro i hi
  match i with
  | 0 => exact h0
  | 1 => exact h1
  | i + 2 => omega
section
variable (a b c : T)
@[simp] theorem Vec.fromArray3_0 : (Vec.fromArray #v[a, b, c])[0] = a := rfl
@[simp] theorem Vec.fromArray3_1 : (Vec.fromArray #v[a, b, c])[1] = b := rfl
@[simp] theorem Vec.fromArray3_2 : (Vec.fromArray #v[a, b, c])[2] = c := rfl
@[simp] theorem Vec.fromTuple3_0 : (Vec.fromTuple3 (a, b, c))[0] = a := rfl
@[simp] theorem Vec.fromTuple3_1 : (Vec.fromTuple3 (a, b, c))[1] = b := rfl
@[simp] theorem Vec.fromTuple3_2 : (Vec.fromTuple3 (a, b, c))[2] = c := rfl
end
theorem Vec.dot3 [NonUnitalNonAssocSemiring T] (v w : Vec T 3) : v.dot w = v[0] * w[0] + v[1] * w[1] + v[2] * w[2] := by
  rw [Vec.dot_eq_sum, Fin.sum_univ_three]; rfl
theorem Vec.dot2 [NonUnitalNonAssocSemiring T] (v w : Vec T 2) : v.dot w = v[0] * w[0] + v[1] * w[1] := by
  rw [Vec.dot_eq_sum, Fin.sum_univ_two]; rfl
theorem Vec.squareLength3 [NonUnitalNonAssocSemiring T] (v : Vec T 3) : v.squareLength = v[0] * v[0] + v[1] * v[1] + v[2] * v[2] := by
  rw [Vec.squareLength_eq_sum, Fin.sum_univ_three]; rfl
theorem Vec.squareLength2 [NonUnitalNonAssocSemiring T] (v : Vec T 2) : v.squareLength = v[0] * v[0] + v[1] * v[1] := by
  rw [Vec.squareLength_eq_sum, Fin.sum_univ_two]; rfl
section
variable [Mul T] [Sub T] (a b : Vec T 3)
@[simp] theorem Vec.cross3_0 : (a.cross3 b)[0] = a[1] * b[2] - a[2] * b[1] := by simp [Vec.cross3]
@[simp] theorem Vec.cross3_1 : (a.cross3 b)[1] = a[2] * b[0] - a[0] * b[2] := by simp [Vec.cross3]
@[simp] theorem Vec.cross3_2 : (a.cross3 b)[2] = a[0] * b[1] - a[1] * b[0] := by simp [Vec.cross3]
end

namespace Quat
@[simp] theorem sv_fst (q : Quat T) : q.intoScalarAndVector3.1 = q.w := by simp [intoScalarAndVector3]
@[simp] theorem sv_0 (q : Quat T) : q.intoScalarAndVector3.2[0] = q.x := by simp [intoScalarAndVector3]
@[simp] theorem sv_1 (q : Quat T) : q.intoScalarAndVector3.2[1] = q.y := by simp [intoScalarAndVector3]
@[simp] theorem sv_2 (q : Quat T) : q.intoScalarAndVector3.2[2] = q.z := by simp [intoScalarAndVector3]
@[simp] theorem w_fsv (s : T) (v : Vec T 3) : (fromScalarAndVector3 s v).w = s := by simp [fromScalarAndVector3]
@[simp] theorem x_fsv (s : T) (v : Vec T 3) : (fromScalarAndVector3 s v).x = v[0] := by simp [fromScalarAndVector3]
@[simp] theorem y_fsv (s : T) (v : Vec T 3) : (fromScalarAndVector3 s v).y = v[1] := by simp [fromScalarAndVector3]
@[simp] theorem z_fsv (s : T) (v : Vec T 3) : (fromScalarAndVector3 s v).z = v[2] := by simp [fromScalarAndVector3]
end Quat
end Vecmat
