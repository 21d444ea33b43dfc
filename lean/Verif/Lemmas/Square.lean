import Verif.Model.SquarePure
import Mathlib.LinearAlgebra.Matrix.Adjugate
import Mathlib.LinearAlgebra.Matrix.NonsingularInverse
import Mathlib.Tactic.Ring
import Mathlib.Tactic.Abel
/-! Helper lemmas: square matrices over a commutative ring agree with Mathlib's matrices. -/
namespace Vecmat
variable {T : Type} {L M N n : Nat}
namespace Mat

/-- The mathematical matrix with the entries of `A`. -/
def toMatrix (A : Mat T M N) : Matrix (Fin M) (Fin N) T := Matrix.of fun i j => A[i.1][j.1]
@[simp] theorem toMatrix_apply (A : Mat T M N) (i : Fin M) (j : Fin N) : A.toMatrix i j = A[i.1][j.1] := rfl
theorem toMatrix_inj {A B : Mat T M N} (h : A.toMatrix = B.toMatrix) : A = B := by
  apply ext_getElem; intro i hi j hj
  exact congrFun (congrFun h ⟨i, hi⟩) ⟨j, hj⟩

@[simp] theorem getElem_outer [Mul T] (v : Vec T M) (w : Vec T N) (i : Nat) (hi : i < M) (j : Nat) (hj : j < N) :
    (outer v w)[i][j] = v[i] * w[j] := by
  obtain ⟨A, h1, h2⟩ := outerR_ok v w
  rw [getElem_congr_mat (show outer v w = A from Res.get_eq h1 _) i hi j hj, h2]
@[simp] theorem getElem_diagonal [Zero T] (d : Vec T N) (i : Nat) (hi : i < N) (j : Nat) (hj : j < N) :
    (diagonal d)[i][j] = if i = j then d[i] else 0 := by
  obtain ⟨A, h1, h2⟩ := diagonalR_ok d
  rw [getElem_congr_mat (show diagonal d = A from Res.get_eq h1 _) i hi j hj, h2]
@[simp] theorem getElem_dotV [Mul T] [Add T] [NeZero N] (A : Mat T N N) (v : Vec T N) (i : Nat) (hi : i < N) :
    (A.dotV v)[i] = A[i].dot v := by
  rw [Vec.getElem_congr_vec (show A.dotV v = _ from Res.get_eq (dotVR_get A v) _) i hi]; simp
@[simp] theorem getElem_vDot [Mul T] [Add T] [NeZero N] (A : Mat T N N) (v : Vec T N) (i : Nat) (hi : i < N) :
    (vDot v A)[i] = v.dot (A.colOf i hi) := by
  rw [Vec.getElem_congr_vec (show vDot v A = _ from Res.get_eq (vDotR_get v A) _) i hi]; simp
@[simp] theorem getElem_dotM [Mul T] [Add T] [NeZero N] (A B : Mat T N N) (i : Nat) (hi : i < N) (j : Nat) (hj : j < N) :
    (A.dotM B)[i][j] = A[i].dot (B.colOf j hj) := by
  rw [getElem_congr_mat (show A.dotM B = _ from Res.get_eq (dotMR_get A B) _) i hi j hj]; simp

theorem getElem_dotV_sum [NonUnitalNonAssocSemiring T] (A : Mat T N N) (v : Vec T N) (i : Nat) (hi : i < N) :
    (A.dotV v)[i] = ∑ k : Fin N, A[i][k.1] * v[k.1] := by
  have : NeZero N := ⟨by omega⟩
  simp [Vec.dot_eq_sum]
theorem getElem_vDot_sum [NonUnitalNonAssocSemiring T] (A : Mat T N N) (v : Vec T N) (i : Nat) (hi : i < N) :
    (vDot v A)[i] = ∑ k : Fin N, v[k.1] * A[k.1][i] := by
  have : NeZero N := ⟨by omega⟩
  simp [Vec.dot_eq_sum]
theorem getElem_dotM_sum [NonUnitalNonAssocSemiring T] (A B : Mat T N N) (i : Nat) (hi : i < N) (j : Nat) (hj : j < N) :
    (A.dotM B)[i][j] = ∑ k : Fin N, A[i][k.1] * B[k.1][j] := by
  have : NeZero N := ⟨by omega⟩
  simp [Vec.dot_eq_sum]

theorem toMatrix_dotM [NonUnitalNonAssocSemiring T] (A B : Mat T N N) : (A.dotM B).toMatrix = A.toMatrix * B.toMatrix := by
  ext i j; simp [Matrix.mul_apply, getElem_dotM_sum]
theorem toMatrix_one [Zero T] [One T] : (1 : Mat T N N).toMatrix = 1 := by
  ext i j; simp [Matrix.one_apply, Fin.ext_iff]
theorem toMatrix_diagonal [Zero T] (d : Vec T N) : (diagonal d).toMatrix = Matrix.diagonal fun i => d[i.1] := by
  ext i j; simp [Matrix.diagonal_apply, Fin.ext_iff]
theorem toMatrix_transpose (A : Mat T M N) : A.transpose.toMatrix = A.toMatrix.transpose := by
  ext i j; simp
theorem toMatrix_mulS [CommMonoid T] (A : Mat T M N) (s : T) : (A.mulS s).toMatrix = s • A.toMatrix := by
  ext i j; simp [mul_comm]

/-! ### determinant -/

theorem sgn_eq [Ring T] (k : Nat) (a : T) : sgn k a = (-1) ^ k * a := by
  unfold sgn
  split
  · rw [Odd.neg_one_pow (by rw [Nat.odd_iff]; omega)]; simp
  · rw [Even.neg_one_pow (by rw [Nat.even_iff]; omega)]; simp

theorem foldl_range_add [AddCommMonoid T] (g : Nat → T) (n : Nat) :
    (List.range n).foldl (fun a k => a + g k) 0 = ∑ k : Fin n, g k.1 := by
  induction n with
  | zero => simp
  | succ n ih => rw [List.range_succ, List.foldl_append, ih, Fin.sum_univ_castSucc]; simp

/-- The Laplace expansion computed by the code is the determinant of the selected rows and columns. -/
theorem lap_eq_det [CommRing T] (f : Nat → Nat → T) (n : Nat) (R C : List Nat) (hR : R.length = n) (hC : C.length = n) :
    lap f R C = (Matrix.of fun a b : Fin n => f (R[a.1]'(by omega)) (C[b.1]'(by omega))).det := by
  induction n generalizing R C with
  | zero =>
    have : R = [] := List.length_eq_zero_iff.mp hR
    subst this; simp [lap]
  | succ n ih =>
    cases R with
    | nil => simp at hR
    | cons i R =>
      rw [lap, show List.range C.length = List.range (n + 1) by rw [hC], foldl_range_add, Matrix.det_succ_row_zero]
      refine Finset.sum_congr rfl fun k _ => ?_
      have hk : k.1 < C.length := by omega
      rw [ih R (C.eraseIdx k) (by simpa using hR) (by rw [List.length_eraseIdx_of_lt hk]; omega), sgn_eq]
      have e : (Matrix.of fun a b : Fin n => f (R[a.1]'(by simp at hR; omega))
            ((C.eraseIdx k.1)[b.1]'(by rw [List.length_eraseIdx_of_lt hk]; omega))) =
          ((Matrix.of fun a b : Fin (n + 1) => f ((i :: R)[a.1]'(by omega)) (C[b.1]'(by omega))).submatrix Fin.succ k.succAbove) := by
        ext a b
        simp only [Matrix.of_apply, Matrix.submatrix_apply, Fin.val_succ, List.getElem_cons_succ]
        congr 1
        rw [List.getElem_eraseIdx]
        by_cases h : b.1 < k.1
        · rw [dif_pos h]
          simp [Fin.succAbove, Fin.lt_def, h]
        · rw [dif_neg h]
          simp [Fin.succAbove, Fin.lt_def, h]
      rw [e]
      simp only [Matrix.of_apply, Fin.val_zero, List.getElem_cons_zero]
      rw [List.getElem?_eq_getElem hk]
      simp only [Option.getD_some]
      ring

theorem det_eq [CommRing T] (A : Mat T N N) : A.det = A.toMatrix.det := by
  have h := detR_eq A
  rw [show A.det = _ from Res.get_eq h _, lap_eq_det (ent A) N _ _ (by simp) (by simp)]
  congr 1
  ext a b
  simp [ent_lt]

theorem lap_erase [CommRing T] (A : Mat T (n + 1) (n + 1)) (i j : Fin (n + 1)) :
    lap (ent A) ((List.range (n + 1)).eraseIdx i) ((List.range (n + 1)).eraseIdx j) =
      (A.toMatrix.submatrix i.succAbove j.succAbove).det := by
  rw [lap_eq_det (ent A) n _ _ (by rw [List.length_eraseIdx_of_lt (by simp; omega)]; simp)
    (by rw [List.length_eraseIdx_of_lt (by simp; omega)]; simp)]
  congr 1
  ext a b
  simp only [Matrix.of_apply, Matrix.submatrix_apply, toMatrix_apply]
  have key : ∀ (i : Fin (n + 1)) (a : Fin n) h, ((List.range (n + 1)).eraseIdx i.1)[a.1]'h = (i.succAbove a).1 := by
    intro i a h
    rw [List.getElem_eraseIdx]
    by_cases h : a.1 < i.1
    · rw [dif_pos h]; simp [Fin.succAbove, Fin.lt_def, h]
    · rw [dif_neg h]; simp [Fin.succAbove, Fin.lt_def, h]
  rw [key, key, ent_lt]

theorem cofactorR_eq_det [CommRing T] (A : Mat T (n + 1) (n + 1)) (i j : Fin (n + 1)) :
    A.cofactorR i j = .ok ((-1) ^ (i.1 + j.1) * (A.toMatrix.submatrix i.succAbove j.succAbove).det) := by
  rw [cofactorR_eq A i j i.2 j.2, sgn_eq, lap_erase]

theorem toMatrix_adj [CommRing T] (A : Mat T N N) : A.adj.toMatrix = A.toMatrix.adjugate := by
  cases N with
  | zero => ext i; exact i.elim0
  | succ n =>
    ext i j
    obtain ⟨B, h1, h2⟩ := adjR_ok A
    rw [toMatrix_apply, getElem_congr_mat (show A.adj = B from Res.get_eq h1 _) i i.2 j j.2, h2, sgn_eq, lap_erase,
      Matrix.adjugate_fin_succ_eq_det_submatrix]

theorem inv_eq [Neg T] [Add T] [Mul T] [Div T] [Zero T] [One T] (A : Mat T N N) : A.inv = A.adj.divS A.det := by
  refine Res.get_eq ?_ _
  unfold invR
  rw [Res.ok_get A.adjR ((adjR_ok A).imp fun _ h => h.1), Res.ok_get A.detR (detR_ok A)]
  rfl

theorem toMatrix_inv [Field T] (A : Mat T N N) : A.inv.toMatrix = A.toMatrix⁻¹ := by
  rw [inv_eq, Matrix.inv_def, ← toMatrix_adj]
  ext i j
  simp [div_eq_inv_mul, det_eq]

end Mat
end Vecmat
