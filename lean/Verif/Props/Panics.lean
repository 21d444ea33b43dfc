import Verif.Props.VectorBase
import Verif.Props.VectorOps
import Verif.Props.MatrixBase
import Verif.Props.MatrixOps
import Verif.Props.Square
/-!
# The panics of C06, C07, C14, C16–C18, C26, C29, C30 and C32: when, and with what

Elsewhere the conditions under which these functions panic are stated as `(∃ e, call = error e) ↔ condition`. That leaves open
what the failure is; in particular it would also hold of a function that ran into undefined behaviour there. Here each is
`Spec.PanicsIff call fault condition`: under the condition the call ends in exactly the named ordinary panic, and otherwise
it returns a value.
-/
namespace Vecmat
namespace Spec

/-- `r` ends in the fault `f` if `c` holds, and returns a value otherwise. -/
def PanicsIff {α : Type} (r : Res α) (f : Fault) (c : Prop) : Prop := (c → r = .error f) ∧ (¬ c → ∃ a, r = .ok a)

end Spec
open Spec
variable {T : Type} {L M N : Nat}

private theorem panicsIff {α : Type} {r : Res α} {f : Fault} {c : Prop} (h : (∃ e, r = .error e) ↔ c)
    (hf : c → r = .error f) : PanicsIff r f c := by
  refine ⟨hf, fun hc => ?_⟩
  cases hr : r with
  | ok a => exact ⟨a, rfl⟩
  | error e => exact absurd (h.mp ⟨e, hr⟩) hc

private theorem panicsBind {α β : Type} {r : Res α} {f : Fault} {c : Prop} {g : α → β} (h : PanicsIff r f c) :
    PanicsIff (do let a ← r; pure (g a)) f c := by
  refine ⟨fun hc => by rw [h.1 hc]; rfl, fun hc => ?_⟩
  obtain ⟨a, ha⟩ := h.2 hc
  exact ⟨g a, by rw [ha]; rfl⟩

theorem C07_index_panics_exact (v : Vec T N) (i : Nat) (x : T) :
    PanicsIff (v.index i) .indexOob (N ≤ i) ∧ PanicsIff (v.indexSet i x) .indexOob (N ≤ i) := by
  refine ⟨panicsIff (C07_index_panics v i) (Vec.index_ge v i), panicsIff (C07_index_set_panics v i x) fun h => ?_⟩
  simp [Vec.indexSet, Nat.not_lt.mpr h]

theorem C07_mat_index_panics_exact (A : Mat T M N) (i j : Nat) (x : T) :
    PanicsIff (A.index (i, j)) .indexOob (M ≤ i ∨ N ≤ j) ∧
    PanicsIff (A.indexSet (i, j) x) .indexOob (M ≤ i ∨ N ≤ j) := by
  refine ⟨panicsIff (C07_mat_index_panics A i j) (Mat.index_ge A i j),
    panicsIff (C07_mat_index_set_panics A i j x) fun h => ?_⟩
  by_cases hi : i < M
  · have hj : ¬ j < N := by omega
    simp only [Mat.indexSet, Vec.index_lt _ _ hi, Vec.indexSet, hj, Res.bind_ok, dite_false, Res.bind_error]
  · simp only [Mat.indexSet, Vec.index_ge _ _ (Nat.not_lt.mp hi), Res.bind_error]

theorem C06_fold_first_panics_exact (f : T → T → T) (v : Vec T N) :
    PanicsIff (v.foldFirstR f) .unwrapNone (N = 0) := by
  refine panicsIff (C06_fold_first_panics f v) fun h => ?_
  subst h
  simp [Vec.foldFirstR_eq, Vec.toList_zero]

theorem C26_fold_first_panics_exact (f : T → T → T) (A : Mat T M N) :
    PanicsIff (A.foldFirstR f) .unwrapNone (M = 0 ∨ N = 0) := by
  refine panicsIff (C26_fold_first_panics f A) fun h => ?_
  cases M with
  | zero => simp [Mat.foldFirstR, Mat.foldFirstM, Vec.toList_zero]
  | succ n =>
    obtain rfl : N = 0 := by omega
    simp [Mat.foldFirstR, Mat.foldFirstM, Vec.toList_cons, Vec.foldFirstM, Vec.toList_zero]

/-- `Matrix::iter()` and `iter_mut()` panic exactly on a matrix without rows. -/
theorem C26_iter_panics_exact (A : Mat T M N) :
    PanicsIff (Mat.iterNew A) .unwrapNone (M = 0) ∧ PanicsIff (Mat.iterMutNew A) .unwrapNone (M = 0) := by
  refine ⟨panicsIff (C26_iter_panics A).1 fun h => ?_, panicsIff (C26_iter_panics A).2 fun h => ?_⟩
  · subst h; simp [Mat.iterNew_zero]
  · subst h; simp [Mat.iterMutNew_zero]

theorem C29_row_col_panics_exact (A : Mat T M N) (i j : Nat) :
    PanicsIff (A.rowR i) .indexOob (M ≤ i) ∧ PanicsIff (A.colR j) .indexOob (N ≤ j ∧ 0 < M) := by
  refine ⟨panicsIff (C29_row_panics A i) (Vec.index_ge _ _), panicsIff (C29_col_panics A j) fun ⟨hj, hM⟩ => ?_⟩
  unfold Mat.colR
  exact Mat.vec_mapM_error 0 hM (Mat.index_ge _ _ _ (.inr (by omega))) fun i hi => .inr (Mat.index_ge _ _ _ (.inr (by omega)))

theorem C16_panics_exact [Mul T] [Add T] [Div T] [FloatOps T] (v w : Vec T N) :
    PanicsIff v.sumR .unwrapNone (N = 0) ∧ PanicsIff (v.dotR w) .unwrapNone (N = 0) ∧
    PanicsIff v.squareLengthR .unwrapNone (N = 0) ∧ PanicsIff v.lengthR .unwrapNone (N = 0) ∧
    PanicsIff v.normalizeR .unwrapNone (N = 0) := by
  by_cases h : N = 0
  · subst h
    obtain ⟨h1, h2, h3, h4, h5⟩ := C16_empty_panics v w
    exact ⟨⟨fun _ => h1, fun h => absurd rfl h⟩, ⟨fun _ => h2, fun h => absurd rfl h⟩,
      ⟨fun _ => h3, fun h => absurd rfl h⟩, ⟨fun _ => h4, fun h => absurd rfl h⟩, ⟨fun _ => h5, fun h => absurd rfl h⟩⟩
  · obtain ⟨h1, h2, h3, h4, h5⟩ := C16_no_panic (by omega) v w
    exact ⟨⟨fun e => absurd e h, fun _ => h1⟩, ⟨fun e => absurd e h, fun _ => h2⟩, ⟨fun e => absurd e h, fun _ => h3⟩,
      ⟨fun e => absurd e h, fun _ => h4⟩, ⟨fun e => absurd e h, fun _ => h5⟩⟩

theorem C16_mat_sum_panics_exact [Add T] (A : Mat T M N) : PanicsIff A.sumR .unwrapNone (M = 0 ∨ N = 0) := by
  refine panicsIff (C16_mat_sum_panics A) fun h => ?_
  rw [Mat.sumR_flat, Vec.sumR, Vec.foldFirstR_eq, Mat.toList_flat]
  have hl : (Spec.rowMajor A).length = M * N := Mat.length_rowMajor A
  rw [← Nat.mul_eq_zero] at h
  rw [List.length_eq_zero_iff.mp (hl.trans h)]

theorem C17_panics_exact [RPartialOrd T] (v : Vec T N) :
    PanicsIff v.maxR .unwrapNone (N = 0) ∧ PanicsIff v.minR .unwrapNone (N = 0) := by
  refine ⟨panicsIff (C17_panics v).1 fun h => ?_, panicsIff (C17_panics v).2 fun h => ?_⟩ <;>
  · subst h
    simp [Vec.maxR, Vec.minR, Vec.foldFirstR_eq, Vec.toList_zero]

theorem C17_mat_panics_exact [RPartialOrd T] (A : Mat T M N) :
    PanicsIff A.maxR .unwrapNone (M = 0 ∨ N = 0) ∧ PanicsIff A.minR .unwrapNone (M = 0 ∨ N = 0) := by
  rw [Mat.maxR_flat, Mat.minR_flat, ← Nat.mul_eq_zero]
  exact C17_panics_exact _

/-- The norms of an empty vector or matrix panic (they are folds without a start value); all other norms are defined. -/
theorem C18_panics_exact [FloatOps T] [ScalarNorm T] [Mul T] [Add T] [RPartialOrd T] (v : Vec T N) :
    PanicsIff v.normL1R .unwrapNone (N = 0) ∧ PanicsIff v.normL2SqrR .unwrapNone (N = 0) ∧
    PanicsIff v.normL2R .unwrapNone (N = 0) ∧ PanicsIff v.normLInfR .unwrapNone (N = 0) := by
  have hs : ∀ w : Vec T N, PanicsIff w.sumR .unwrapNone (N = 0) := fun w =>
    C06_fold_first_panics_exact _ w
  refine ⟨hs _, hs _, panicsBind (hs _), (C17_panics_exact _).1⟩

theorem C18_mat_panics_exact [FloatOps T] [ScalarNorm T] [Mul T] [Add T] [RPartialOrd T] (A : Mat T M N) :
    PanicsIff A.normL1R .unwrapNone (M = 0 ∨ N = 0) ∧ PanicsIff A.normL2SqrR .unwrapNone (M = 0 ∨ N = 0) ∧
    PanicsIff A.normL2R .unwrapNone (M = 0 ∨ N = 0) ∧ PanicsIff A.normLInfR .unwrapNone (M = 0 ∨ N = 0) :=
  ⟨C16_mat_sum_panics_exact _, C16_mat_sum_panics_exact _, panicsBind (C16_mat_sum_panics_exact _),
    (C17_mat_panics_exact _).1⟩

/-- `iter_mut()`-driven assignment, `is_zero`, `any`, `all` on a matrix panic exactly when it has no rows (whatever the number
of columns). -/
theorem C14_mat_assign_panics_exact [Add T] [Sub T] [Mul T] [Div T] [Mod T] (A B : Mat T M N) (a : T) :
    PanicsIff (A.addAssignR B) .unwrapNone (M = 0) ∧ PanicsIff (A.subAssignR B) .unwrapNone (M = 0) ∧
    PanicsIff (A.mulAssignR B) .unwrapNone (M = 0) ∧ PanicsIff (A.divAssignR B) .unwrapNone (M = 0) ∧
    PanicsIff (A.remAssignR B) .unwrapNone (M = 0) ∧ PanicsIff (A.mulAssignSR a) .unwrapNone (M = 0) ∧
    PanicsIff (A.divAssignSR a) .unwrapNone (M = 0) ∧ PanicsIff (A.remAssignSR a) .unwrapNone (M = 0) := by
  have h1 : ∀ f : T → T → T, PanicsIff (Mat.assignWithR f A B) .unwrapNone (M = 0) := fun f => by
    refine ⟨fun h => ?_, fun h => ⟨_, Mat.assignWithR_ok (by omega) f A B⟩⟩
    subst h; simp [Mat.assignWithR, Mat.iterMutNew_zero]
  have h2 : ∀ f : T → T, PanicsIff (Mat.assignEachR f A) .unwrapNone (M = 0) := fun f => by
    refine ⟨fun h => ?_, fun h => ⟨_, Mat.assignEachR_ok (by omega) f A⟩⟩
    subst h; simp [Mat.assignEachR, Mat.iterMutNew_zero]
  exact ⟨h1 _, h1 _, h1 _, h1 _, h1 _, h2 _, h2 _, h2 _⟩

theorem C30_panics_exact [Mul T] [Add T] (A : Mat T L M) (B : Mat T M N) (v : Vec T M) :
    PanicsIff (A.dotVR v) .unwrapNone (M = 0 ∧ 0 < L) ∧ PanicsIff (Mat.vDotR v B) .unwrapNone (M = 0 ∧ 0 < N) ∧
    PanicsIff (A.dotMR B) .unwrapNone (M = 0 ∧ 0 < L ∧ 0 < N) := by
  obtain ⟨h1, h2, h3⟩ := C30_panics A B v
  have hdot : ∀ a b : Vec T 0, a.dotR b = .error .unwrapNone := by intro a b; simp [Vec.dotR, Vec.sumR_zero]
  refine ⟨panicsIff h1 ?_, panicsIff h2 ?_, panicsIff h3 ?_⟩
  · rintro ⟨rfl, hL⟩
    exact Mat.vec_mapM_error 0 hL (by simp [Mat.rowR_lt A 0 hL, hdot])
      fun j hj => .inr (by simp [Mat.rowR_lt A j hj, hdot])
  · rintro ⟨rfl, hN⟩
    exact Mat.vec_mapM_error 0 hN (by simp [Mat.colR_lt B 0 hN, hdot])
      fun j hj => .inr (by simp [Mat.colR_lt B j hj, hdot])
  · rintro ⟨rfl, hL, hN⟩
    exact Mat.mapM_error 0 hL 0 hN (by simp [Mat.rowR_lt A 0 hL, Mat.colR_lt B 0 hN, hdot])
      fun i hi j hj => .inr (by simp [Mat.rowR_lt A i hi, Mat.colR_lt B j hj, hdot])

/-- `A.cofactor(i, j)` fails its own assertion exactly when a coordinate is out of range. -/
theorem C32_cofactor_panics_exact [Neg T] [Add T] [Mul T] [Zero T] [One T] (A : Mat T N N) (i j : Nat) :
    PanicsIff (A.cofactorR i j) .assertFailed (N ≤ i ∨ N ≤ j) := by
  refine panicsIff (C32_cofactor_panics A i j) fun h => ?_
  have : ¬ (i < N ∧ j < N) := by omega
  simp only [Mat.cofactorR, if_neg this]

-- Both sides of each condition occur.
example : (⟨#v[1, 2, 3]⟩ : Vec Int 3).index 3 = .error .indexOob := (C07_index_panics_exact _ 3 0).1.1 (by omega)
example : ∃ a, (⟨#v[1, 2, 3]⟩ : Vec Int 3).index 2 = .ok a := (C07_index_panics_exact _ 2 0).1.2 (by omega)
example : (⟨#v[]⟩ : Vec Int 0).sumR = .error .unwrapNone := by decide
example : (⟨⟨#v[⟨#v[1, 2]⟩, ⟨#v[3, 4]⟩]⟩⟩ : Mat Int 2 2).cofactorR 2 0 = .error .assertFailed :=
  (C32_cofactor_panics_exact _ 2 0).1 (.inl (by omega))
example : (⟨⟨#v[⟨#v[]⟩]⟩⟩ : Mat Int 1 0).dotVR ⟨#v[]⟩ = .error .unwrapNone :=
  (C30_panics_exact _ (⟨⟨#v[]⟩⟩ : Mat Int 0 1) _).1.1 ⟨rfl, by omega⟩
example : (⟨⟨#v[⟨#v[1, 2]⟩]⟩⟩ : Mat Int 1 2).colR 5 = .error .indexOob :=
  (C29_row_col_panics_exact _ 0 5).2.1 (by omega)

end Vecmat
