import Verif.Lemmas.MatrixIter
/-! Helper lemmas: a matrix as the vector of its elements in row-major order. -/
namespace Vecmat
open Spec
variable {T U : Type} {M N : Nat}
namespace Mat

/-- The elements in row-major order, as a vector of length `M·N`. -/
def flat (A : Mat T M N) : Vec T (M * N) := Vec.ofList (rowMajor A) (length_rowMajor A)
@[simp] theorem toList_flat (A : Mat T M N) : A.flat.toList = rowMajor A := by simp [flat]

theorem idx_lt {i j : Nat} (hi : i < M) (hj : j < N) : i * N + j < M * N := by
  calc i * N + j < i * N + N := by omega
    _ = (i + 1) * N := by rw [Nat.succ_mul]
    _ ≤ M * N := Nat.mul_le_mul_right _ hi

theorem getElem_flat (A : Mat T M N) (i j : Nat) (hi : i < M) (hj : j < N) :
    A.flat[i * N + j]'(idx_lt hi hj) = A[i][j] := by
  have h : ∀ (M : Nat) (g : Fin M → List T) (_ : ∀ a, (g a).length = N) (i : Fin M) (j : Nat) (_ : j < N),
      ((List.finRange M).flatMap g)[i.1 * N + j]? = (g i)[j]? := by
    intro M
    induction M with
    | zero => intro g hg i; exact i.elim0
    | succ M ih =>
      intro g hg i j hj
      rw [List.finRange_succ, List.flatMap_cons, List.flatMap_map]
      cases i using Fin.cases with
      | zero =>
        rw [List.getElem?_append_left (by rw [hg]; simp; omega)]; simp
      | succ i =>
        rw [List.getElem?_append_right (by rw [hg]; simp only [Fin.val_succ, Nat.succ_mul]; omega), hg]
        have := ih (fun a => g a.succ) (fun a => hg _) i j hj
        rw [← this]
        congr 1
        simp only [Fin.val_succ, Nat.succ_mul]; omega
  have h1 := h M (fun i => (List.finRange N).map fun j => A[i.1][j.1]) (by simp) ⟨i, hi⟩ j hj
  have h2 : (rowMajor A)[i * N + j]? = some A[i][j] := by
    rw [rowMajor, h1]; simp [hj]
  have h3 := Vec.getElem_toList A.flat (i * N + j) (by rw [toList_flat, length_rowMajor]; exact idx_lt hi hj)
  rw [← h3]
  have h4 : (i * N + j) < (rowMajor A).length := by rw [length_rowMajor]; exact idx_lt hi hj
  rw [List.getElem?_eq_getElem h4] at h2
  simp only [toList_flat]
  exact Option.some.inj h2

theorem flat_idx {k : Nat} (hk : k < M * N) : ∃ i j, ∃ _ : i < M, ∃ _ : j < N, k = i * N + j := by
  have hN : 0 < N := by
    rcases Nat.eq_zero_or_pos N with h | h
    · subst h; simp at hk
    · exact h
  refine ⟨k / N, k % N, ?_, Nat.mod_lt _ hN, ?_⟩
  · exact Nat.div_lt_of_lt_mul (by rwa [Nat.mul_comm])
  · exact (Nat.div_add_mod' k N).symm

theorem flat_map (f : T → U) (A : Mat T M N) : (A.map f).flat = A.flat.map f := by
  apply Vec.ext_getElem; intro k hk
  obtain ⟨i, j, hi, hj, rfl⟩ := flat_idx hk
  rw [getElem_flat _ i j hi hj, Vec.getElem_map, getElem_flat _ i j hi hj, getElem_map]

theorem foldFirstR_flat (f : T → T → T) (A : Mat T M N) : A.foldFirstR f = A.flat.foldFirstR f := by
  rw [Vec.foldFirstR_eq, toList_flat]
  by_cases hM : 0 < M
  · by_cases hN : 0 < N
    · rw [foldFirstR_ok hM hN]
      obtain ⟨n, rfl⟩ : ∃ n, M = n + 1 := ⟨M - 1, by omega⟩
      obtain ⟨k, rfl⟩ : ∃ k, N = k + 1 := ⟨N - 1, by omega⟩
      have : rowMajor A = A[0][0] :: (rowMajor A).tail := by
        rw [rowMajor, List.finRange_succ (n := n), List.flatMap_cons, List.finRange_succ (n := k)]; simp
      generalize (rowMajor A).tail = l at this
      rw [this]
    · have : N = 0 := by omega
      subst this
      obtain ⟨n, rfl⟩ : ∃ n, M = n + 1 := ⟨M - 1, by omega⟩
      have : rowMajor A = [] := List.length_eq_zero_iff.mp (by rw [length_rowMajor]; simp)
      rw [this]
      simp [Mat.foldFirstR, Mat.foldFirstM, Vec.toList_cons, Vec.foldFirstM, Vec.toList_zero]
  · have : M = 0 := by omega
    subst this
    have : rowMajor A = [] := List.length_eq_zero_iff.mp (by rw [length_rowMajor]; simp)
    rw [this]
    simp [Mat.foldFirstR, Mat.foldFirstM, Vec.toList_zero]

theorem sumR_flat [Add T] (A : Mat T M N) : A.sumR = A.flat.sumR := foldFirstR_flat _ A
theorem maxR_flat [RPartialOrd T] (A : Mat T M N) : A.maxR = A.flat.maxR := foldFirstR_flat _ A
theorem minR_flat [RPartialOrd T] (A : Mat T M N) : A.minR = A.flat.minR := foldFirstR_flat _ A
theorem normL1R_flat [ScalarNorm T] [Add T] (A : Mat T M N) : A.normL1R = A.flat.normL1R := by
  rw [normL1R, sumR_flat, flat_map]; rfl
theorem normL2SqrR_flat [Mul T] [Add T] (A : Mat T M N) : A.normL2SqrR = A.flat.normL2SqrR := by
  rw [normL2SqrR, sumR_flat, flat_map]; rfl
theorem normL2R_flat [FloatOps T] [Mul T] [Add T] (A : Mat T M N) : A.normL2R = A.flat.normL2R := by
  rw [normL2R, normL2SqrR_flat]; rfl
theorem normLInfR_flat [ScalarNorm T] [RPartialOrd T] (A : Mat T M N) : A.normLInfR = A.flat.normLInfR := by
  rw [normLInfR, maxR_flat, flat_map]; rfl

theorem flat_add [Add T] (A B : Mat T M N) : (A + B).flat = A.flat + B.flat := by
  apply Vec.ext_getElem; intro k hk
  obtain ⟨i, j, hi, hj, rfl⟩ := flat_idx hk
  simp [getElem_flat _ i j hi hj]
theorem flat_mulS [Mul T] (A : Mat T M N) (s : T) : (A.mulS s).flat = A.flat.mulS s := flat_map _ A
theorem flat_zero [Zero T] : (0 : Mat T M N).flat = 0 := by
  apply Vec.ext_getElem; intro k hk
  obtain ⟨i, j, hi, hj, rfl⟩ := flat_idx hk
  simp [getElem_flat _ i j hi hj]
theorem flat_inj {A B : Mat T M N} (h : A.flat = B.flat) : A = B := by
  apply rowMajor_inj; rw [← toList_flat, ← toList_flat, h]

theorem sum_flat [AddCommMonoid T] (A : Mat T M N) :
    ∑ k : Fin (M * N), A.flat[k.1] = ∑ i : Fin M, ∑ j : Fin N, A[i.1][j.1] := by
  rw [← Fintype.sum_prod_type', ← Fintype.sum_equiv finProdFinEquiv]
  rintro ⟨i, j⟩
  show A[i.1][j.1] = A.flat[(finProdFinEquiv (i, j)).1]
  rw [← getElem_flat A i j i.2 j.2]
  congr 1
  simp [finProdFinEquiv, Nat.mul_comm, Nat.add_comm]

end Mat
end Vecmat
