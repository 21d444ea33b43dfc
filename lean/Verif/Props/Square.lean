import Verif.Lemmas.Square
import Verif.Props.MatrixBase
import Mathlib.Tactic.NormNum
import Mathlib.Data.Rat.Defs
import Mathlib.Algebra.Field.Rat
/-!
# C30–C36: products, determinant, cofactors, inverse, identity
-/
namespace Vecmat
variable {T : Type} {K L M N n : Nat}

/-! ## C30 products -/

theorem C30_outer [Mul T] (v : Vec T M) (w : Vec T N) : Mat.outerR v w = .ok (Mat.outer v w) ∧
    ∀ i (hi : i < M) j (hj : j < N), (Mat.outer v w)[i][j] = v[i] * w[j] := ⟨Res.ok_get _ _, by intros; simp⟩

/-- For any scalars: entry `i` of `A.dot(v)` is the vector dot product of row `i` with `v` (so the terms are combined left to
right, `C16_dot_order`), and similarly for the other two products. -/
theorem C30_products_are_dots [Mul T] [Add T] (hM : 0 < M) (A : Mat T L M) (B : Mat T M N) (v : Vec T M) :
    (∃ w, A.dotVR v = .ok w ∧ ∀ i (hi : i < L), A[i].dotR v = .ok w[i]) ∧
    (∃ w, Mat.vDotR v B = .ok w ∧ ∀ j (hj : j < N) (c : Vec T M), (∀ k (hk : k < M), c[k] = B[k][j]) → v.dotR c = .ok w[j]) ∧
    ∃ C, A.dotMR B = .ok C ∧ ∀ i (hi : i < L) j (hj : j < N) (c : Vec T M), (∀ k (hk : k < M), c[k] = B[k][j]) →
      A[i].dotR c = .ok C[i][j] := by
  have : NeZero M := ⟨by omega⟩
  have hc : ∀ j (hj : j < N) (c : Vec T M), (∀ k (hk : k < M), c[k] = B[k][j]) → c = B.colOf j hj := by
    intro j hj c h; apply Vec.ext_getElem; intro k hk; simp [h k hk]
  refine ⟨⟨_, Mat.dotVR_get A v, ?_⟩, ⟨_, Mat.vDotR_get v B, ?_⟩, ⟨_, Mat.dotMR_get A B, ?_⟩⟩
  · intro i hi; rw [Vec.dot_ok]; simp
  · intro j hj c h; rw [Vec.dot_ok, hc j hj c h]; simp
  · intro i hi j hj c h; rw [Vec.dot_ok, hc j hj c h]; simp

/-- With exact scalars the three products are the textbook sums. -/
theorem C30_matrix_vector [NonUnitalNonAssocSemiring T] (hN : 0 < N) (A : Mat T M N) (v : Vec T N) :
    ∃ w, A.dotVR v = .ok w ∧ ∀ i (hi : i < M), w[i] = ∑ k : Fin N, A[i][k.1] * v[k.1] := by
  have : NeZero N := ⟨by omega⟩
  exact ⟨_, Mat.dotVR_get A v, fun i hi => by simp [Vec.dot_eq_sum]⟩
theorem C30_vector_matrix [NonUnitalNonAssocSemiring T] (hM : 0 < M) (v : Vec T M) (A : Mat T M N) :
    ∃ w, Mat.vDotR v A = .ok w ∧ ∀ j (hj : j < N), w[j] = ∑ k : Fin M, v[k.1] * A[k.1][j] := by
  have : NeZero M := ⟨by omega⟩
  exact ⟨_, Mat.vDotR_get v A, fun i hi => by simp [Vec.dot_eq_sum]⟩
theorem C30_matrix_matrix [NonUnitalNonAssocSemiring T] (hM : 0 < M) (A : Mat T L M) (B : Mat T M N) :
    ∃ C, A.dotMR B = .ok C ∧ ∀ i (hi : i < L) j (hj : j < N), C[i][j] = ∑ k : Fin M, A[i][k.1] * B[k.1][j] := by
  have : NeZero M := ⟨by omega⟩
  exact ⟨_, Mat.dotMR_get A B, fun i hi j hj => by simp [Vec.dot_eq_sum]⟩

/-- The products panic exactly when the inner dimension is `0` and the result has at least one element. -/
theorem C30_panics [Mul T] [Add T] (A : Mat T L M) (B : Mat T M N) (v : Vec T M) :
    ((∃ e, A.dotVR v = .error e) ↔ M = 0 ∧ 0 < L) ∧ ((∃ e, Mat.vDotR v B = .error e) ↔ M = 0 ∧ 0 < N) ∧
    ((∃ e, A.dotMR B = .error e) ↔ M = 0 ∧ 0 < L ∧ 0 < N) := by
  cases M with
  | succ m =>
    obtain ⟨⟨_, h1, _⟩, ⟨_, h2, _⟩, ⟨_, h3, _⟩⟩ := C30_products_are_dots (by omega) A B v
    simp [h1, h2, h3]
  | zero =>
    have hdot : ∀ a b : Vec T 0, a.dotR b = .error .unwrapNone := by intro a b; simp [Vec.dotR, Vec.sumR_zero]
    simp only [true_and]
    refine ⟨?_, ?_, ?_⟩
    · by_cases hL : 0 < L
      · have : A.dotVR v = .error .unwrapNone :=
          Mat.vec_mapM_error 0 hL (by simp [Mat.rowR_lt A 0 hL, hdot])
            fun j hj => .inr (by simp [Mat.rowR_lt A j hj, hdot])
        simp [this, hL]
      · have h0 : L = 0 := by omega
        subst h0
        have : A.dotVR v = .ok ⟨#v[]⟩ := Mat.vec_mapM_ok (by omega)
        simp [this]
    · by_cases hN : 0 < N
      · have : Mat.vDotR v B = .error .unwrapNone :=
          Mat.vec_mapM_error 0 hN (by simp [Mat.colR_lt B 0 hN, hdot])
            fun j hj => .inr (by simp [Mat.colR_lt B j hj, hdot])
        simp [this, hN]
      · have h0 : N = 0 := by omega
        subst h0
        have : Mat.vDotR v B = .ok ⟨#v[]⟩ := Mat.vec_mapM_ok (by omega)
        simp [this]
    · by_cases h : 0 < L ∧ 0 < N
      · have : A.dotMR B = .error .unwrapNone :=
          Mat.mapM_error 0 h.1 0 h.2 (by simp [Mat.rowR_lt A 0 h.1, Mat.colR_lt B 0 h.2, hdot])
            fun i hi j hj => .inr (by simp [Mat.rowR_lt A i hi, Mat.colR_lt B j hj, hdot])
        simp [this, h]
      · have : ∃ C, A.dotMR B = .ok C := by
          refine ⟨⟨⟨Vector.ofFn fun i => ⟨Vector.ofFn fun j => absurd ⟨Nat.lt_of_le_of_lt (Nat.zero_le _) i.2,
            Nat.lt_of_le_of_lt (Nat.zero_le _) j.2⟩ h⟩⟩⟩, Mat.mapM_ok ?_⟩
          intro i hi j hj
          exact absurd ⟨by omega, by omega⟩ h
        obtain ⟨C, hC⟩ := this
        simp [hC, h]

/-- Associativity, for every shape with positive inner dimensions. -/
theorem C30_assoc [Semiring T] (hL : 0 < L) (hM : 0 < M) (A : Mat T K L) (B : Mat T L M) (C : Mat T M N) :
    ∃ AB BC R, A.dotMR B = .ok AB ∧ B.dotMR C = .ok BC ∧ AB.dotMR C = .ok R ∧ A.dotMR BC = .ok R := by
  obtain ⟨AB, h1, e1⟩ := C30_matrix_matrix hL A B
  obtain ⟨BC, h2, e2⟩ := C30_matrix_matrix hM B C
  obtain ⟨R, h3, e3⟩ := C30_matrix_matrix hM AB C
  obtain ⟨R', h4, e4⟩ := C30_matrix_matrix hL A BC
  refine ⟨AB, BC, R, h1, h2, h3, ?_⟩
  rw [h4]; congr 1
  apply Mat.ext_getElem; intro i hi j hj
  rw [e3 i hi j hj, e4 i hi j hj]
  simp only [e1 i hi _ (Fin.isLt _), e2 _ (Fin.isLt _) j hj, Finset.mul_sum, Finset.sum_mul, mul_assoc]
  rw [Finset.sum_comm]
/-- `(A·B)·v = A·(B·v)`. -/
theorem C30_assoc_vector [Semiring T] (hL : 0 < L) (hM : 0 < M) (A : Mat T K L) (B : Mat T L M) (v : Vec T M) :
    ∃ AB Bv R, A.dotMR B = .ok AB ∧ B.dotVR v = .ok Bv ∧ AB.dotVR v = .ok R ∧ A.dotVR Bv = .ok R := by
  obtain ⟨AB, h1, e1⟩ := C30_matrix_matrix hL A B
  obtain ⟨Bv, h2, e2⟩ := C30_matrix_vector hM B v
  obtain ⟨R, h3, e3⟩ := C30_matrix_vector hM AB v
  obtain ⟨R', h4, e4⟩ := C30_matrix_vector hL A Bv
  refine ⟨AB, Bv, R, h1, h2, h3, ?_⟩
  rw [h4]; congr 1
  apply Vec.ext_getElem; intro i hi
  rw [e3 i hi, e4 i hi]
  simp only [e1 i hi _ (Fin.isLt _), e2 _ (Fin.isLt _), Finset.mul_sum, Finset.sum_mul, mul_assoc]
  rw [Finset.sum_comm]
theorem C30_distrib [Semiring T] (hM : 0 < M) (A A' : Mat T L M) (B B' : Mat T M N) :
    ∃ AB AB' A'B, A.dotMR B = .ok AB ∧ A.dotMR B' = .ok AB' ∧ A'.dotMR B = .ok A'B ∧
      A.dotMR (B + B') = .ok (AB + AB') ∧ (A + A').dotMR B = .ok (AB + A'B) := by
  obtain ⟨AB, h1, e1⟩ := C30_matrix_matrix hM A B
  obtain ⟨AB', h2, e2⟩ := C30_matrix_matrix hM A B'
  obtain ⟨A'B, h3, e3⟩ := C30_matrix_matrix hM A' B
  obtain ⟨X, h4, e4⟩ := C30_matrix_matrix hM A (B + B')
  obtain ⟨Y, h5, e5⟩ := C30_matrix_matrix hM (A + A') B
  refine ⟨AB, AB', A'B, h1, h2, h3, ?_, ?_⟩
  · rw [h4]; congr 1
    apply Mat.ext_getElem; intro i hi j hj
    simp [e1 i hi j hj, e2 i hi j hj, e4 i hi j hj, mul_add, Finset.sum_add_distrib]
  · rw [h5]; congr 1
    apply Mat.ext_getElem; intro i hi j hj
    simp [e1 i hi j hj, e3 i hi j hj, e5 i hi j hj, add_mul, Finset.sum_add_distrib]
theorem C30_one_dot [Semiring T] (A : Mat T M N) (hM : 0 < M) (hN : 0 < N) :
    (1 : Mat T M M).dotMR A = .ok A ∧ A.dotMR (1 : Mat T N N) = .ok A ∧
    ∀ v : Vec T M, (1 : Mat T M M).dotVR v = .ok v := by
  obtain ⟨X, h1, e1⟩ := C30_matrix_matrix hM (1 : Mat T M M) A
  obtain ⟨Y, h2, e2⟩ := C30_matrix_matrix hN A (1 : Mat T N N)
  refine ⟨?_, ?_, ?_⟩
  · rw [h1]; congr 1; apply Mat.ext_getElem; intro i hi j hj
    rw [e1 i hi j hj, Finset.sum_eq_single ⟨i, hi⟩]
    · simp
    · intro b _ hb
      have : ¬ i = b.1 := fun h => hb (Fin.ext h.symm)
      simp [this]
    · simp
  · rw [h2]; congr 1; apply Mat.ext_getElem; intro i hi j hj
    rw [e2 i hi j hj, Finset.sum_eq_single ⟨j, hj⟩]
    · simp
    · intro b _ hb
      have : ¬ b.1 = j := fun h => hb (Fin.ext h)
      simp [this]
    · simp
  · intro v
    obtain ⟨w, h3, e3⟩ := C30_matrix_vector hM (1 : Mat T M M) v
    rw [h3]; congr 1; apply Vec.ext_getElem; intro i hi
    rw [e3 i hi, Finset.sum_eq_single ⟨i, hi⟩]
    · simp
    · intro b _ hb
      have : ¬ i = b.1 := fun h => hb (Fin.ext h.symm)
      simp [this]
    · simp
/-- `(A·B)ᵀ = Bᵀ·Aᵀ` over a commutative ring. -/
theorem C30_transpose_product [CommSemiring T] (hM : 0 < M) (A : Mat T L M) (B : Mat T M N) :
    ∃ AB, A.dotMR B = .ok AB ∧ B.transpose.dotMR A.transpose = .ok AB.transpose := by
  obtain ⟨AB, h1, e1⟩ := C30_matrix_matrix hM A B
  obtain ⟨X, h2, e2⟩ := C30_matrix_matrix hM B.transpose A.transpose
  refine ⟨AB, h1, ?_⟩
  rw [h2]; congr 1
  apply Mat.ext_getElem; intro i hi j hj
  rw [e2 i hi j hj, Mat.getElem_transpose, e1 j hj i hi]
  exact Finset.sum_congr rfl fun k _ => by simp [mul_comm]

/-- Square products never panic (even for `N = 0`), and together with `one()` and `+` they form a ring. -/
theorem C30_square_ok [Mul T] [Add T] (A B : Mat T N N) (v : Vec T N) :
    A.dotMR B = .ok (A.dotM B) ∧ A.dotVR v = .ok (A.dotV v) ∧ Mat.vDotR v A = .ok (Mat.vDot v A) :=
  ⟨Res.ok_get _ _, Res.ok_get _ _, Res.ok_get _ _⟩
theorem C30_square_ring [Ring T] (A B C : Mat T N N) :
    (A.dotM B).dotM C = A.dotM (B.dotM C) ∧ A.dotM 1 = A ∧ (1 : Mat T N N).dotM A = A ∧
    A.dotM (B + C) = A.dotM B + A.dotM C ∧ (A + B).dotM C = A.dotM C + B.dotM C := by
  refine ⟨?_, ?_, ?_, ?_, ?_⟩
  · apply Mat.toMatrix_inj; simp only [Mat.toMatrix_dotM, mul_assoc]
  · apply Mat.toMatrix_inj; simp only [Mat.toMatrix_dotM, Mat.toMatrix_one, mul_one]
  · apply Mat.toMatrix_inj; simp only [Mat.toMatrix_dotM, Mat.toMatrix_one, one_mul]
  · apply Mat.ext_getElem; intro i hi j hj
    simp [Mat.getElem_dotM_sum, mul_add, Finset.sum_add_distrib]
  · apply Mat.ext_getElem; intro i hi j hj
    simp [Mat.getElem_dotM_sum, add_mul, Finset.sum_add_distrib]

example : (⟨⟨#v[⟨#v[1, 2]⟩, ⟨#v[3, 4]⟩]⟩⟩ : Mat Int 2 2).dotMR ⟨⟨#v[⟨#v[0, 1]⟩, ⟨#v[1, 1]⟩]⟩⟩ =
    .ok ⟨⟨#v[⟨#v[2, 3]⟩, ⟨#v[4, 7]⟩]⟩⟩ := by decide

/-! ## C31 determinant -/

/-- `det()` never panics: not on the mask search, not on the degree counter, not on indexing, for every `N` and any scalar
operations; and the mask it works with is restored. -/
theorem C31_det_ok [Neg T] [Add T] [Mul T] [Zero T] [One T] (A : Mat T N N) :
    A.detR = .ok A.det ∧ (Mat.detAux A (N + 1)).exec Mat.Mask.new = (.ok A.det, Mat.Mask.new) := by
  have h : A.detR = .ok A.det := Res.ok_get _ _
  refine ⟨h, ?_⟩
  have h2 := Mat.exec_detAux A (N + 1) Mat.MaskOk.new (by simp)
  rw [h2]
  rw [Mat.detR, h2] at h
  exact Prod.ext h rfl
/-- Over a commutative ring `det()` is the Leibniz sum over permutations. -/
theorem C31_det_leibniz [CommRing T] (A : Mat T N N) :
    A.det = ∑ p : Equiv.Perm (Fin N), ((Equiv.Perm.sign p : ℤ) : T) * ∏ i : Fin N, A[(p i).1][i.1] := by
  rw [Mat.det_eq, Matrix.det_apply']; simp
/-- `det` of the empty matrix is `1`. -/
theorem C31_det_zero [Neg T] [Add T] [Mul T] [Zero T] [One T] (A : Mat T 0 0) : A.det = 1 := rfl

example : (⟨⟨#v[⟨#v[1, 2]⟩, ⟨#v[3, 4]⟩]⟩⟩ : Mat Int 2 2).det = -2 := by
  rw [Mat.det_eq, Matrix.det_fin_two]; rfl

/-! ## C32 cofactor -/

theorem C32_cofactor [CommRing T] (A : Mat T (n + 1) (n + 1)) (i j : Fin (n + 1)) :
    A.cofactorR i j = .ok ((-1) ^ (i.1 + j.1) *
      (Matrix.of fun a b : Fin n => A[(i.succAbove a).1][(j.succAbove b).1]).det) := Mat.cofactorR_eq_det A i j
/-- The same in terms of the crate's own `det()`: `B` is `A` without row `i` and column `j`. -/
theorem C32_cofactor_minor [CommRing T] (A : Mat T (n + 1) (n + 1)) (i j : Nat) (hi : i < n + 1) (hj : j < n + 1)
    (B : Mat T n n) (hB : ∀ a (ha : a < n) b (hb : b < n),
      B[a][b] = (A[if a < i then a else a + 1]'(by split <;> omega))[if b < j then b else b + 1]'(by split <;> omega)) :
    A.cofactorR i j = .ok ((-1) ^ (i + j) * B.det) := by
  rw [C32_cofactor A ⟨i, hi⟩ ⟨j, hj⟩, Mat.det_eq]
  congr 3
  ext a b
  have hs : ∀ (i : Nat) (hi : i < n + 1) (a : Fin n), ((⟨i, hi⟩ : Fin (n + 1)).succAbove a).1 = if a.1 < i then a.1 else a.1 + 1 := by
    intro i hi a
    simp only [Fin.succAbove, Fin.lt_def, Fin.val_castSucc]
    split <;> simp
  simp only [Matrix.of_apply, Mat.toMatrix_apply, hB a.1 a.2 b.1 b.2, hs]
theorem C32_cofactor_panics [Neg T] [Add T] [Mul T] [Zero T] [One T] (A : Mat T N N) (i j : Nat) :
    (∃ e, A.cofactorR i j = .error e) ↔ N ≤ i ∨ N ≤ j := by
  by_cases h : i < N ∧ j < N
  · obtain ⟨a, ha⟩ := Mat.cofactorR_ok A i j h.1 h.2
    simp [ha]; omega
  · simp only [Mat.cofactorR, if_neg h]
    simp; omega

example : (⟨⟨#v[⟨#v[1, 2]⟩, ⟨#v[3, 4]⟩]⟩⟩ : Mat Int 2 2).cofactorR 0 1 = .ok (-3) := by
  rw [C32_cofactor_minor _ 0 1 (by omega) (by omega) ⟨⟨#v[⟨#v[3]⟩]⟩⟩ (by
    intro a ha b hb
    have : a = 0 := by omega
    have : b = 0 := by omega
    subst_vars; rfl), Mat.det_eq, Matrix.det_fin_one]
  rfl

/-! ## C33 adjugate and inverse -/

theorem C33_adj_ok [Neg T] [Add T] [Mul T] [Div T] [Zero T] [One T] (A : Mat T N N) :
    A.adjR = .ok A.adj ∧ A.invR = .ok A.inv := ⟨Res.ok_get _ _, Res.ok_get _ _⟩
theorem C33_adj [CommRing T] (A : Mat T N N) :
    A.dotM A.adj = (1 : Mat T N N).mulS A.det ∧ A.adj.dotM A = (1 : Mat T N N).mulS A.det := by
  constructor <;> apply Mat.toMatrix_inj <;>
    simp only [Mat.toMatrix_dotM, Mat.toMatrix_adj, Mat.toMatrix_mulS, Mat.toMatrix_one, Mat.det_eq,
      Matrix.mul_adjugate, Matrix.adjugate_mul]
/-- Entry `(i, j)` of the adjugate is the cofactor `(j, i)`. -/
theorem C33_adj_entries [Neg T] [Add T] [Mul T] [Zero T] [One T] (A : Mat T N N) (i : Nat) (hi : i < N) (j : Nat) (hj : j < N) :
    A.cofactorR j i = .ok A.adj[i][j] := by
  obtain ⟨B, h1, h2⟩ := Mat.adjR_ok A
  rw [Mat.cofactorR_eq A j i hj hi, Mat.getElem_congr_mat (show A.adj = B from Res.get_eq h1 _) i hi j hj, h2 i hi j hj]
section Inv
variable [Field T]
theorem C33_inv (A : Mat T N N) (h : A.det ≠ 0) : A.dotM A.inv = 1 ∧ A.inv.dotM A = 1 := by
  rw [Mat.det_eq] at h
  have hu : IsUnit A.toMatrix.det := isUnit_iff_ne_zero.mpr h
  constructor <;> apply Mat.toMatrix_inj <;> simp only [Mat.toMatrix_dotM, Mat.toMatrix_inv, Mat.toMatrix_one]
  · exact Matrix.mul_nonsing_inv _ hu
  · exact Matrix.nonsing_inv_mul _ hu
theorem C33_inv_unique (A B : Mat T N N) (h : A.dotM B = 1) : B = A.inv := by
  have h1 : A.toMatrix * B.toMatrix = 1 := by rw [← Mat.toMatrix_dotM, h, Mat.toMatrix_one]
  apply Mat.toMatrix_inj
  rw [Mat.toMatrix_inv, Matrix.inv_eq_right_inv h1]
theorem C33_inv_inv (A : Mat T N N) (h : A.det ≠ 0) : A.inv.inv = A :=
  (C33_inv_unique _ _ (C33_inv A h).2).symm
theorem C33_inv_mul (A B : Mat T N N) : (A.dotM B).inv = B.inv.dotM A.inv := by
  apply Mat.toMatrix_inj
  simp only [Mat.toMatrix_inv, Mat.toMatrix_dotM, Matrix.mul_inv_rev]
theorem C33_det_inv (A : Mat T N N) (_h : A.det ≠ 0) : A.inv.det = A.det⁻¹ := by
  rw [Mat.det_eq, Mat.toMatrix_inv, Matrix.det_nonsing_inv, ← Mat.det_eq, Ring.inverse_eq_inv]
end Inv

/-- The hypothesis `det ≠ 0` is satisfiable: a `2×2` rational matrix with determinant `-2` and its inverse. -/
example : (⟨⟨#v[⟨#v[1, 2]⟩, ⟨#v[3, 4]⟩]⟩⟩ : Mat ℚ 2 2).det = -2 := by
  rw [Mat.det_eq, Matrix.det_fin_two]; simp; norm_num

/-! ## C34 determinant laws -/

theorem C34_det_mul [CommRing T] (A B : Mat T N N) : (A.dotM B).det = A.det * B.det := by
  simp only [Mat.det_eq, Mat.toMatrix_dotM, Matrix.det_mul]
theorem C34_det_transpose [CommRing T] (A : Mat T N N) : A.transpose.det = A.det := by
  simp only [Mat.det_eq, Mat.toMatrix_transpose, Matrix.det_transpose]
theorem C34_det_one [CommRing T] : (1 : Mat T N N).det = 1 := by
  simp only [Mat.det_eq, Mat.toMatrix_one, Matrix.det_one]
theorem C34_det_diagonal [CommRing T] (d : Vec T N) : (Mat.diagonal d).det = ∏ i : Fin N, d[i.1] := by
  simp only [Mat.det_eq, Mat.toMatrix_diagonal, Matrix.det_diagonal]
theorem C34_det_repeated_row [CommRing T] (A : Mat T N N) (i j : Nat) (hi : i < N) (hj : j < N) (hij : i ≠ j)
    (h : ∀ k (hk : k < N), A[i][k] = A[j][k]) : A.det = 0 := by
  rw [Mat.det_eq]
  apply Matrix.det_zero_of_row_eq (i := ⟨i, hi⟩) (j := ⟨j, hj⟩)
  · simpa using hij
  · ext k; exact h k.1 k.2
theorem C34_det_scale [CommRing T] (A : Mat T N N) (s : T) : (A.mulS s).det = s ^ N * A.det := by
  simp only [Mat.det_eq, Mat.toMatrix_mulS, Matrix.det_smul]; simp
/-- Swapping two rows changes the sign. -/
theorem C34_det_swap [CommRing T] (A B : Mat T N N) (i j : Fin N) (hij : i ≠ j)
    (h : ∀ (a : Fin N) (k : Fin N), B[a.1][k.1] = A[(Equiv.swap i j a).1][k.1]) : B.det = -A.det := by
  rw [Mat.det_eq, Mat.det_eq]
  have : B.toMatrix = A.toMatrix.submatrix (Equiv.swap i j) id := by ext a k; simp [h]
  rw [this, Matrix.det_permute, Equiv.Perm.sign_swap hij]; simp
/-- A matrix is invertible (for `dot`) exactly when its determinant is not zero. -/
theorem C34_invertible_iff [Field T] (A : Mat T N N) : (∃ B : Mat T N N, A.dotM B = 1) ↔ A.det ≠ 0 := by
  constructor
  · rintro ⟨B, hB⟩ h
    have := C34_det_mul A B
    rw [hB, h, C34_det_one, zero_mul] at this
    exact one_ne_zero this
  · intro h; exact ⟨_, (C33_inv A h).1⟩

/-! ## C35 `diagonal`, `one` -/

theorem C35_diagonal [Zero T] (d : Vec T N) : Mat.diagonalR d = .ok (Mat.diagonal d) ∧
    ∀ i (hi : i < N) j (hj : j < N), (Mat.diagonal d)[i][j] = if i = j then d[i] else 0 :=
  ⟨Res.ok_get _ _, by intros; simp⟩
theorem C35_one [Zero T] [One T] : (1 : Mat T N N) = Mat.diagonal (Vec.fill 1) ∧
    ∀ i (hi : i < N) j (hj : j < N), (1 : Mat T N N)[i][j] = if i = j then 1 else 0 := by
  refine ⟨?_, by intros; simp⟩
  apply Mat.ext_getElem; intro i hi j hj; simp

example : Mat.diagonalR (⟨#v[2, 3]⟩ : Vec Int 2) = .ok ⟨⟨#v[⟨#v[2, 0]⟩, ⟨#v[0, 3]⟩]⟩⟩ := by decide

/-! ## C36 `one()` and `*` -/

/-- `one()` is neutral for the (component-wise) `*` when `N ≤ 1` … -/
theorem C36_one_mul_small [MulZeroOneClass T] (hN : N ≤ 1) (A : Mat T N N) : 1 * A = A ∧ A * 1 = A := by
  constructor <;> apply Mat.ext_getElem <;> intro i hi j hj <;> (have : i = j := by omega) <;> simp [this]
/-- … and fails for every `N ≥ 2` over every nontrivial scalar type: some matrix is changed by `one() * a`. -/
theorem C36_one_mul_refuted [MulZeroOneClass T] [Nontrivial T] (hN : 2 ≤ N) :
    (∃ A : Mat T N N, 1 * A ≠ A) ∧ ∃ A : Mat T N N, A * 1 ≠ A := by
  refine ⟨⟨Mat.fill 1, fun h => ?_⟩, ⟨Mat.fill 1, fun h => ?_⟩⟩ <;>
    (have := Mat.getElem_congr_mat h 0 (by omega) 1 (by omega); simp at this)
/-- `one()` is the unit of `dot` instead. -/
theorem C36_one_dot [Ring T] (A : Mat T N N) : (1 : Mat T N N).dotM A = A ∧ A.dotM 1 = A :=
  ⟨(C30_square_ring A A A).2.2.1, (C30_square_ring A A A).2.1⟩

/-! ## further cases: the hypotheses are satisfiable -/
/-- A `2x3`, a `3x2` and an invertible `3x3` matrix. -/
def Ex.A23' : Mat ℚ 2 3 := Mat.fromArrArr #v[#v[1, -2, 3], #v[4, 5, 5]]
def Ex.B32 : Mat ℚ 3 2 := Mat.fromArrArr #v[#v[7, 8], #v[-9, 1], #v[2, 3]]
def Ex.C33 : Mat ℚ 3 3 := Mat.fromArrArr #v[#v[2, 3, 1], #v[4, 5, -1], #v[0, 2, 7]]
theorem Ex.C33_det : Ex.C33.det = -2 := by decide +kernel
theorem Ex.C33_ne : Ex.C33.det ≠ 0 := by rw [Ex.C33_det]; norm_num
example := C30_assoc (by decide) (by decide) Ex.A23' Ex.B32 Ex.A23'
example := C30_assoc_vector (by decide) (by decide) Ex.A23' Ex.B32 ⟨#v[1, 2]⟩
example := C30_distrib (by decide) Ex.A23' (Ex.A23' + Ex.A23') Ex.B32 Ex.B32
example := C30_matrix_matrix (by decide) Ex.A23' Ex.B32
example := C30_matrix_vector (by decide) Ex.A23' ⟨#v[1, 2, 3]⟩
example := C30_one_dot Ex.A23' (by decide) (by decide)
example := C30_products_are_dots (by decide) Ex.A23' Ex.B32 ⟨#v[1, 2, 3]⟩
example := C30_transpose_product (by decide) Ex.A23' Ex.B32
example := C30_vector_matrix (by decide) ⟨#v[1, 2]⟩ Ex.A23'
example := C33_inv Ex.C33 Ex.C33_ne
example := C33_det_inv Ex.C33 Ex.C33_ne
example := C33_inv_inv Ex.C33 Ex.C33_ne
example : (Mat.fromArrArr #v[#v[1/2, -1/2], #v[0, 1]] : Mat ℚ 2 2) = (Mat.fromArrArr #v[#v[2, 1], #v[0, 1]] : Mat ℚ 2 2).inv :=
  C33_inv_unique _ _ (by decide +kernel)
example := C34_det_repeated_row (Mat.fromArrArr #v[#v[2, 1, 5], #v[0, 1, 4], #v[2, 1, 5]] : Mat ℤ 3 3) 0 2 (by decide) (by decide) (by decide) (by decide)
example := C34_det_swap Ex.C33 (Mat.fromArrArr #v[#v[0, 2, 7], #v[4, 5, -1], #v[2, 3, 1]]) 0 2 (by decide) (by decide)
example := C36_one_mul_refuted (T := ℤ) (N := 3) (by decide)
example := C36_one_mul_small (T := ℤ) (N := 1) (by decide) (Mat.fromArrArr #v[#v[5]])

end Vecmat
