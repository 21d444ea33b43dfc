import Mathlib.LinearAlgebra.Matrix.Permanent
import Mathlib.GroupTheory.Perm.Fin
/-! Helper lemma: Laplace expansion of the permanent along the first row. -/
namespace Vecmat
open Equiv Equiv.Perm

theorem permanent_succ_column_zero {R : Type*} [CommRing R] {n : ℕ} (M : Matrix (Fin (n + 1)) (Fin (n + 1)) R) :
    M.permanent = ∑ p : Fin (n + 1), M p 0 * (M.submatrix p.succAbove Fin.succ).permanent := by
  unfold Matrix.permanent
  rw [← Fintype.sum_equiv decomposeFin.symm (fun x => ∏ i, M (decomposeFin.symm x i) i) _ (fun _ => rfl), Fintype.sum_prod_type]
  refine Finset.sum_congr rfl fun p _ => ?_
  rw [Finset.mul_sum]
  have key : ∀ (f : Fin n → Fin (n + 1)), (∃ c : Perm (Fin n), ∀ j, p.succAbove (c j) = f j) →
      ∑ e : Perm (Fin n), M p 0 * ∏ i, M (f (e i)) i.succ =
      ∑ e : Perm (Fin n), M p 0 * ∏ i, M.submatrix p.succAbove Fin.succ (e i) i := by
    rintro f ⟨c, hc⟩
    refine Fintype.sum_equiv (Equiv.mulLeft c) _ _ fun e => ?_
    congr 1
    refine Finset.prod_congr rfl fun i _ => ?_
    simp [hc]
  rw [← key (fun j => swap 0 p j.succ)]
  · refine Finset.sum_congr rfl fun e _ => ?_
    rw [Fin.prod_univ_succ]
    simp [decomposeFin_symm_apply_succ]
  · rcases Fin.eq_zero_or_eq_succ p with rfl | ⟨i, rfl⟩
    · exact ⟨1, fun j => by simp⟩
    · exact ⟨i.cycleRange, fun j => Fin.succAbove_cycleRange i j⟩

theorem permanent_succ_row_zero {R : Type*} [CommRing R] {n : ℕ} (M : Matrix (Fin (n + 1)) (Fin (n + 1)) R) :
    M.permanent = ∑ p : Fin (n + 1), M 0 p * (M.submatrix Fin.succ p.succAbove).permanent := by
  rw [← Matrix.permanent_transpose, permanent_succ_column_zero]
  refine Finset.sum_congr rfl fun p _ => ?_
  rw [← Matrix.permanent_transpose]; rfl

end Vecmat
