import Verif.Lemmas.Matrix
/-! Helper lemmas: the swap loops of `transpose`. -/
namespace Vecmat
variable {T : Type} {M N : Nat}
namespace Mat

/-- Cells moved before reaching cell `(i, j)` of the double loop. -/
def movedBefore (i j a b : Nat) : Prop := a < i ∨ (a = i ∧ b < j)
instance (i j a b : Nat) : Decidable (movedBefore i j a b) := by unfold movedBefore; infer_instance

/-- Memory of `transpose` when the double loop reaches `(i, j)`. -/
def trSt (A : Mat T M N) (i j : Nat) : TrSt T M N :=
  (Vector.ofFn fun a => Vector.ofFn fun b => if movedBefore i j a.1 b.1 then none else some A[a.1][b.1],
   Vector.ofFn fun b => Vector.ofFn fun a => if movedBefore i j a.1 b.1 then some A[a.1][b.1] else none)

theorem swapCell_trSt (A : Mat T M N) (i j : Nat) (hi : i < M) (hj : j < N) :
    swapCell i j (trSt A i j) = .ok (trSt A i (j + 1)) := by
  unfold swapCell
  rw [dif_pos ⟨hi, hj⟩]
  show Except.ok _ = Except.ok _
  congr 1
  apply Prod.ext
  · apply Vector.ext; intro a ha; apply Vector.ext; intro b hb
    simp only [trSt, Vector.getElem_set, Vector.getElem_ofFn]
    by_cases h1 : i = a
    · subst h1
      simp only [if_true, Vector.getElem_set, Vector.getElem_ofFn]
      by_cases h2 : j = b
      · subst h2
        rw [if_pos rfl, if_neg (by unfold movedBefore; omega), if_pos (by unfold movedBefore; omega)]
      · rw [if_neg h2]
        congr 1
        unfold movedBefore; simp only [Nat.lt_irrefl, false_or, true_and, eq_iff_iff]; omega
    · simp only [if_neg h1, Vector.getElem_ofFn]
      congr 1
      unfold movedBefore; simp only [eq_iff_iff]; omega
  · apply Vector.ext; intro b hb; apply Vector.ext; intro a ha
    simp only [trSt, Vector.getElem_set, Vector.getElem_ofFn]
    by_cases h2 : j = b
    · subst h2
      simp only [if_true, Vector.getElem_set, Vector.getElem_ofFn]
      by_cases h1 : i = a
      · subst h1
        rw [if_pos rfl, if_neg (by unfold movedBefore; omega), if_pos (by unfold movedBefore; omega)]
      · rw [if_neg h1]
        congr 1
        unfold movedBefore; simp only [eq_iff_iff]; omega
    · simp only [if_neg h2, Vector.getElem_ofFn]
      congr 1
      unfold movedBefore; simp only [eq_iff_iff]; omega

theorem inner_loop (A : Mat T M N) (i : Nat) (hi : i < M) (n j : Nat) (h : j + n = N) :
    forRange (m := Res) n j (trSt A i j) (fun j st => swapCell i j st) = .ok (trSt A i N) := by
  induction n generalizing j with
  | zero => simp only [forRange]; rw [show j = N by omega]; rfl
  | succ n ih =>
    simp only [forRange]
    rw [swapCell_trSt A i j hi (by omega)]
    exact ih (j + 1) (by omega)

theorem trSt_row (A : Mat T M N) (i : Nat) : trSt A i N = trSt A (i + 1) 0 := by
  unfold trSt
  apply Prod.ext
  · apply Vector.ext; intro a ha; apply Vector.ext; intro b hb
    simp only [Vector.getElem_ofFn]
    congr 1
    unfold movedBefore; simp only [eq_iff_iff]; omega
  · apply Vector.ext; intro b hb; apply Vector.ext; intro a ha
    simp only [Vector.getElem_ofFn]
    congr 1
    unfold movedBefore; simp only [eq_iff_iff]; omega

theorem outer_loop (A : Mat T M N) (n i : Nat) (h : i + n = M) :
    forRange (m := Res) n i (trSt A i 0) (fun i st => forRange N 0 st fun j st => swapCell i j st) = .ok (trSt A M 0) := by
  induction n generalizing i with
  | zero => simp only [forRange]; rw [show i = M by omega]; rfl
  | succ n ih =>
    simp only [forRange]
    rw [inner_loop A i (by omega) N 0 (by omega), trSt_row]
    exact ih (i + 1) (by omega)

theorem transposeLoop_eq (A : Mat T M N) : transposeLoop A = .ok (trSt A M 0) := by
  rw [← outer_loop A M 0 (by omega)]
  unfold transposeLoop
  congr 1
  unfold trSt
  apply Prod.ext
  · apply Vector.ext; intro a ha; apply Vector.ext; intro b hb
    simp only [Vector.getElem_map, Vector.getElem_ofFn]
    rw [if_neg (by unfold movedBefore; omega)]; rfl
  · apply Vector.ext; intro b hb; apply Vector.ext; intro a ha
    simp only [Vector.getElem_ofFn, Vector.getElem_replicate]
    rw [if_neg (by unfold movedBefore; omega)]

theorem transposeR_ok (A : Mat T M N) : ∃ B, transposeR A = .ok B ∧ ∀ i (hi : i < M) j (hj : j < N), B[j][i] = A[i][j] := by
  unfold transposeR
  rw [transposeLoop_eq]
  have hb : ∀ (j : Fin N) (i : Fin M), (trSt A M 0).2[j][i] = some A[i.1][j.1] := by
    intro j i
    simp only [trSt, Fin.getElem_fin, Vector.getElem_ofFn]
    rw [if_pos (by unfold movedBefore; omega)]
  have h : ∀ (j : Fin N) (i : Fin M), ((trSt A M 0).2[j][i]).isSome := by intro j i; rw [hb]; rfl
  simp only [Res.bind_ok, assumeInit]
  rw [dif_pos h]
  refine ⟨_, rfl, ?_⟩
  intro i hi j hj
  simp only [getElem_mk, Vec.getElem_mk, Vector.getElem_ofFn]
  have := hb ⟨j, hj⟩ ⟨i, hi⟩
  simp only [this, Option.get_some]

end Mat
end Vecmat
