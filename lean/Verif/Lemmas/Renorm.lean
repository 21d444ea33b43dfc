import Verif.Lemmas.F64Vec
/-! # One step of a composition that is normalised after every product -/
namespace Vecmat.Renorm
variable {E : Type*} [NormedDivisionRing E] [NormedAlgebra ℝ E]

/-- The unit element in the direction of `x`. -/
noncomputable def dir (x : E) : E := ‖x‖⁻¹ • x
theorem norm_dir {x : E} (h : x ≠ 0) : ‖dir x‖ = 1 := by
  rw [dir, norm_smul, norm_inv, norm_norm, inv_mul_cancel₀ (norm_ne_zero_iff.2 h)]
theorem dir_mul (x y : E) : dir (x * y) = dir x * dir y := by
  rw [dir, dir, dir, norm_mul, mul_inv, smul_mul_smul_comm]
theorem dir_self {x : E} (h : x ≠ 0) : ‖dir x - x‖ = |‖x‖ - 1| := by
  have hx := norm_ne_zero_iff.2 h
  rw [show dir x - x = (‖x‖⁻¹ - 1) • x by rw [dir, sub_smul, one_smul], norm_smul, Real.norm_eq_abs]
  rw [← abs_norm x, ← abs_mul, abs_norm, sub_mul, inv_mul_cancel₀ hx, one_mul, abs_sub_comm]
/-- A product with relative error `c`, normalised with error `η`: the distance to the exact direction grows by `2η + 2c`. -/
theorem step {A P R V W : E} {η c e : ℝ} (hP : P ≠ 0) (hA0 : A ≠ 0) (hR : R ≠ 0) (hV : V ≠ 0) (hA : |‖A‖ - 1| ≤ η) (he : ‖A - dir P‖ ≤ e)
    (h : ‖V - A * R‖ ≤ c * (‖A‖ * ‖R‖)) (hW : ‖W - dir V‖ ≤ η) : ‖W - dir (P * R)‖ ≤ e + (2 * η + 2 * c) := by
  have n0 : 0 < ‖A * R‖ := norm_pos_iff.2 (mul_ne_zero hA0 hR)
  have h1 : ‖dir V - dir (A * R)‖ ≤ 2 * c := by
    refine (F64.unit_sub hV (mul_ne_zero hA0 hR)).trans ?_
    rw [div_le_iff₀ n0]
    rw [norm_mul]; linarith
  have h2 : ‖dir (A * R) - dir (P * R)‖ ≤ η + e := by
    rw [dir_mul, dir_mul, ← sub_mul, norm_mul, norm_dir hR, mul_one]
    calc ‖dir A - dir P‖ = ‖(dir A - A) + (A - dir P)‖ := by congr 1; abel
      _ ≤ _ := norm_add_le _ _
      _ ≤ _ := by rw [dir_self hA0]; exact add_le_add hA he
  calc ‖W - dir (P * R)‖ = ‖(W - dir V) + (dir V - dir (A * R)) + (dir (A * R) - dir (P * R))‖ := by congr 1; abel
    _ ≤ η + 2 * c + (η + e) := (norm_add_le _ _).trans (add_le_add ((norm_add_le _ _).trans (add_le_add hW h1)) h2)
    _ = _ := by ring
/-- The norm of an approximation of a unit. -/
theorem near {W V : E} {η : ℝ} (hV : V ≠ 0) (hW : ‖W - dir V‖ ≤ η) : |‖W‖ - 1| ≤ η := by
  have := (abs_norm_sub_norm_le W (dir V)).trans hW
  rwa [norm_dir hV] at this
end Vecmat.Renorm
