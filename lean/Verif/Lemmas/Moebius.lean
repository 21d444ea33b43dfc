import Verif.Model.Moebius
import Verif.Lemmas.Square
import Verif.Lemmas.Quaternion
/-! Helper lemmas about `Moebius`. -/
namespace Vecmat
variable {T U : Type}
namespace Moebius

@[simp] theorem a_eq (m : Moebius T) : m.a = m.mat[0][0] := Res.get_eq (Mat.index_lt ..) _
@[simp] theorem b_eq (m : Moebius T) : m.b = m.mat[0][1] := Res.get_eq (Mat.index_lt ..) _
@[simp] theorem c_eq (m : Moebius T) : m.c = m.mat[1][0] := Res.get_eq (Mat.index_lt ..) _
@[simp] theorem d_eq (m : Moebius T) : m.d = m.mat[1][1] := Res.get_eq (Mat.index_lt ..) _
@[simp] theorem new_00 (a b c d : T) : (new a b c d).mat[0][0] = a := rfl
@[simp] theorem new_01 (a b c d : T) : (new a b c d).mat[0][1] = b := rfl
@[simp] theorem new_10 (a b c d : T) : (new a b c d).mat[1][0] = c := rfl
@[simp] theorem new_11 (a b c d : T) : (new a b c d).mat[1][1] = d := rfl

theorem ext_entries {m n : Moebius T} (h0 : m.mat[0][0] = n.mat[0][0]) (h1 : m.mat[0][1] = n.mat[0][1])
    (h2 : m.mat[1][0] = n.mat[1][0]) (h3 : m.mat[1][1] = n.mat[1][1]) : m = n := by
  apply Moebius.ext
  apply Mat.ext_getElem
  intro i hi j hj
  match i, j with
  | 0, 0 => exact h0
  | 0, 1 => exact h1
  | 1, 0 => exact h2
  | 1, 1 => exact h3
  | i + 2, _ => omega
  | _, j + 2 => omega

theorem dotM_entry [NonUnitalNonAssocSemiring T] (A B : Mat T 2 2) (i j : Nat) (hi : i < 2) (hj : j < 2) :
    (A.dotM B)[i][j] = A[i][0] * B[0][j] + A[i][1] * B[1][j] := by
  rw [Mat.getElem_dotM_sum, Fin.sum_univ_two]; rfl

/-- Composition law in any division ring `U` the coefficients map to. -/
theorem apply_chain [NonUnitalNonAssocSemiring T] [DivisionRing U] [HMul T U U] [HAdd U T U] (ι : T → U)
    (hm : ∀ (s : T) (x : U), HMul.hMul s x = ι s * x) (ha : ∀ (s : T) (x : U), HAdd.hAdd x s = x + ι s)
    (im : ∀ s t, ι (s * t) = ι s * ι t) (ia : ∀ s t, ι (s + t) = ι s + ι t) (m n : Moebius T) (x : U)
    (hn : ι n.c * x + ι n.d ≠ 0) : (m.chain n).apply x = m.apply (n.apply x) := by
  simp only [apply, hm, ha, a_eq, b_eq, c_eq, d_eq, chain, dotM_entry, im, ia] at *
  set v := ι n.mat[1][0] * x + ι n.mat[1][1]
  set u := ι n.mat[0][0] * x + ι n.mat[0][1]
  have key : ∀ p q : U, (p * ι n.mat[0][0] + q * ι n.mat[1][0]) * x + (p * ι n.mat[0][1] + q * ι n.mat[1][1]) =
      (p * (u / v) + q) * v := by
    intro p q
    have : (p * (u / v) + q) * v = p * u + q * v := by rw [add_mul, mul_assoc p, div_mul_cancel₀ _ hn]
    rw [this]
    simp only [u, v, mul_add, add_mul, mul_assoc]
    abel
  rw [key, key, mul_div_mul_right _ _ hn]

/-- The pair `(a x + b, c x + d)` of a product of matrices. -/
theorem row_mul [NonUnitalNonAssocSemiring T] [Ring U] (ι : T → U)
    (im : ∀ s t, ι (s * t) = ι s * ι t) (ia : ∀ s t, ι (s + t) = ι s + ι t) (m n : Moebius T) (x : U) (i : Nat) (hi : i < 2) :
    ι (m.chain n).mat[i][0] * x + ι (m.chain n).mat[i][1] =
      ι m.mat[i][0] * (ι n.mat[0][0] * x + ι n.mat[0][1]) + ι m.mat[i][1] * (ι n.mat[1][0] * x + ι n.mat[1][1]) := by
  simp only [chain, dotM_entry, im, ia, add_mul, mul_add, mul_assoc]
  abel

theorem apply_identity [NonAssocSemiring T] [DivisionRing U] [HMul T U U] [HAdd U T U] (ι : T → U)
    (hm : ∀ (s : T) (x : U), HMul.hMul s x = ι s * x) (ha : ∀ (s : T) (x : U), HAdd.hAdd x s = x + ι s)
    (i0 : ι 0 = 0) (i1 : ι 1 = 1) (x : U) : (identity : Moebius T).apply x = x := by
  have h : ∀ i j : Nat, ∀ hi hj, ((1 : Mat T 2 2)[i]'hi)[j]'hj = if i = j then 1 else 0 := by
    intro i j hi hj; exact congrFun (congrFun Mat.toMatrix_one ⟨i, hi⟩) ⟨j, hj⟩ |>.trans (by simp [Matrix.one_apply])
  simp [apply, hm, ha, identity, h, i0, i1]

theorem inv_chain [Field T] (m : Moebius T) (h : m.det ≠ 0) : m.inv.chain m = identity ∧ m.chain m.inv = identity := by
  have hd : IsUnit m.mat.toMatrix.det := by rw [← Mat.det_eq]; exact h.isUnit
  constructor <;> apply Moebius.ext <;> apply Mat.toMatrix_inj <;>
    simp only [chain, inv, fromMatrix, intoMatrix, identity, Mat.toMatrix_dotM, Mat.toMatrix_inv, Mat.toMatrix_one]
  · exact Matrix.nonsing_inv_mul _ hd
  · exact Matrix.mul_nonsing_inv _ hd

/-- `inv` undoes `apply`, generic coefficients. -/
theorem apply_inv_of_chain [NonAssocSemiring T] [DivisionRing U] [HMul T U U] [HAdd U T U] (ι : T → U)
    (hm : ∀ (s : T) (x : U), HMul.hMul s x = ι s * x) (ha : ∀ (s : T) (x : U), HAdd.hAdd x s = x + ι s)
    (im : ∀ s t, ι (s * t) = ι s * ι t) (ia : ∀ s t, ι (s + t) = ι s + ι t)
    (i0 : ι 0 = 0) (i1 : ι 1 = 1) (m n : Moebius T) (x : U)
    (hmn : m.chain n = identity) (hn : ι n.c * x + ι n.d ≠ 0) :
    m.apply (n.apply x) = x ∧ ι m.c * n.apply x + ι m.d ≠ 0 := by
  refine ⟨by rw [← apply_chain ι hm ha im ia m n x hn, hmn, apply_identity ι hm ha i0 i1], fun h0 => ?_⟩
  have h : ∀ i j : Nat, ∀ hi hj, ((1 : Mat T 2 2)[i]'hi)[j]'hj = if i = j then 1 else 0 := by
    intro i j hi hj; exact congrFun (congrFun Mat.toMatrix_one ⟨i, hi⟩) ⟨j, hj⟩ |>.trans (by simp [Matrix.one_apply])
  have h1 := row_mul ι im ia m n x 1 (by omega)
  rw [hmn] at h1
  simp only [identity, h, i0, i1] at h1
  simp only [apply, hm, ha, a_eq, b_eq, c_eq, d_eq] at *
  set v := ι n.mat[1][0] * x + ι n.mat[1][1]
  set u := ι n.mat[0][0] * x + ι n.mat[0][1]
  have : (ι m.mat[1][0] * (u / v) + ι m.mat[1][1]) * v = 1 := by
    rw [add_mul, mul_assoc, div_mul_cancel₀ _ hn, ← h1]; simp [i0, i1]
  rw [h0, zero_mul] at this
  exact zero_ne_one this

theorem det_two [CommRing T] (m : Moebius T) : m.det = m.a * m.d - m.b * m.c := by
  simp only [det, Mat.det_eq, Matrix.det_fin_two]
  simp

end Moebius
end Vecmat
