import Verif.Lemmas.IeeeEx
/-!
# Concrete `f32` values
Used to show that the hypotheses of the theorems about single-precision arithmetic are satisfiable.
-/
namespace Vecmat
open Spec Ieee
variable {M N : Nat}
namespace F32Lit
/-- The `f32` number `x` (`+0` for `0`). -/
noncomputable def lit (x : ℝ) : Ieee Fmt.f32 := ofReal false x
theorem lit_val (x : ℝ) : (lit x).toReal? = some x := by
  unfold lit ofReal; split
  · next h => subst h; rfl
  · rfl
theorem lit_datum {x : ℝ} (h : Representable Fmt.f32 x) : Datum (lit x) := by
  unfold lit ofReal; split
  · trivial
  · exact h
theorem lit_int (n : ℤ) (h : n.natAbs < 2 ^ 24) : Datum (lit n) :=
  lit_datum ⟨n, 0, by simp, by rw [Int.abs_eq_natAbs]; exact_mod_cast h, by decide, by decide⟩
/-- A vector of `f32`. -/
noncomputable def vec (x : Fin N → ℝ) : Vec (Ieee Fmt.f32) N := Vec.fromArray (Vector.ofFn fun i => lit (x i))
theorem vec_get (x : Fin N → ℝ) (i : Fin N) : (vec x)[i.1] = lit (x i) := Vector.getElem_ofFn i.2
theorem vec_val (x : Fin N → ℝ) (i : Fin N) : (vec x)[i.1].toReal? = some (x i) := by rw [vec_get, lit_val]
/-- A matrix of `f32`. -/
noncomputable def mat (a : Matrix (Fin M) (Fin N) ℝ) : Mat (Ieee Fmt.f32) M N := Mat.fromArrVec (Vector.ofFn fun i => vec (a i))
theorem mat_val (a : Matrix (Fin M) (Fin N) ℝ) (i : Fin M) (j : Fin N) : (mat a)[i.1][j.1].toReal? = some (a i j) := by
  have : (mat a)[i.1] = vec (a i) := Vector.getElem_ofFn i.2
  rw [this, vec_val]
end F32Lit
end Vecmat
