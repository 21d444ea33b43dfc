import Verif.Lemmas.Ieee
import Verif.Model.Matrix
/-!
# Concrete `f64` values
Used to show that the hypotheses of the theorems about IEEE arithmetic are satisfiable.
-/
namespace Vecmat
open Spec Ieee
variable {φ : Fmt} {L M N : Nat}
namespace IeeeEx
/-- The `f64` number `x` (`+0` for `0`). -/
noncomputable def lit (x : ℝ) : Ieee Fmt.f64 := ofReal false x
theorem lit_val (x : ℝ) : (lit x).toReal? = some x := by
  unfold lit ofReal; split
  · next h => subst h; rfl
  · rfl
theorem lit_datum {x : ℝ} (h : Representable Fmt.f64 x) : Datum (lit x) := by
  unfold lit ofReal; split
  · trivial
  · exact h
theorem lit_int (n : ℤ) (h : n.natAbs < 2 ^ 53) : Datum (lit n) :=
  lit_datum ⟨n, 0, by simp, by rw [Int.abs_eq_natAbs]; exact_mod_cast h, by decide, by decide⟩
/-- A vector of `f64`. -/
noncomputable def vec (x : Fin N → ℝ) : Vec (Ieee Fmt.f64) N := Vec.fromArray (Vector.ofFn fun i => lit (x i))
theorem vec_get (x : Fin N → ℝ) (i : Fin N) : (vec x)[i.1] = lit (x i) := Vector.getElem_ofFn i.2
theorem vec_val (x : Fin N → ℝ) (i : Fin N) : (vec x)[i.1].toReal? = some (x i) := by rw [vec_get, lit_val]
/-- A matrix of `f64`. -/
noncomputable def mat (a : Matrix (Fin M) (Fin N) ℝ) : Mat (Ieee Fmt.f64) M N := Mat.fromArrVec (Vector.ofFn fun i => vec (a i))
theorem mat_val (a : Matrix (Fin M) (Fin N) ℝ) (i : Fin M) (j : Fin N) : (mat a)[i.1][j.1].toReal? = some (a i j) := by
  have : (mat a)[i.1] = vec (a i) := Vector.getElem_ofFn i.2
  rw [this, vec_val]
theorem lit_finite (x : ℝ) : Finite (lit x) := by
  unfold lit ofReal; split <;> exact ⟨by simp, by simp⟩
theorem vec_ok (x : Fin N → ℤ) (h : ∀ i, (x i).natAbs < 2 ^ 53) (i : Nat) (hi : i < N) :
    Datum (vec fun i => (x i : ℝ))[i] ∧ Finite (vec fun i => (x i : ℝ))[i] := by
  have := vec_get (fun i => (x i : ℝ)) ⟨i, hi⟩
  simp only at this
  rw [this]
  exact ⟨lit_int _ (h _), lit_finite _⟩
theorem mat_ok (a : Matrix (Fin M) (Fin N) ℤ) (h : ∀ i j, (a i j).natAbs < 2 ^ 53) (i : Nat) (hi : i < M) (j : Nat) (hj : j < N) :
    Datum ((mat fun i j => (a i j : ℝ))[i]'hi)[j] ∧ Finite ((mat fun i j => (a i j : ℝ))[i]'hi)[j] := by
  have : (mat fun i j => (a i j : ℝ))[i] = vec fun j => (a ⟨i, hi⟩ j : ℝ) := Vector.getElem_ofFn hi
  rw [this]
  exact vec_ok (a ⟨i, hi⟩) (h _) j hj
end IeeeEx
end Vecmat
