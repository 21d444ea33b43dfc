import Mathlib.Analysis.Normed.Module.Basic
import Mathlib.Analysis.Normed.Field.Basic
import Mathlib.Tactic.Linarith
import Mathlib.Tactic.GCongr
import Mathlib.Tactic.NormNum
import Mathlib.Tactic.Positivity
import Mathlib.Tactic.NoncommRing
/-! # Propagation of relative errors through products of any kind -/
namespace Vecmat.Bilin
variable {E G H : Type*} [SeminormedAddCommGroup E] [SeminormedAddCommGroup G] [SeminormedAddCommGroup H]

theorem le_of_close {V P : E} {m e : ℝ} (hP : ‖P‖ ≤ m) (hV : ‖V - P‖ ≤ e * m) : ‖V‖ ≤ (1 + e) * m := by
  calc ‖V‖ = ‖(V - P) + P‖ := by congr 1; abel
    _ ≤ _ := norm_add_le _ _
    _ ≤ e * m + m := add_le_add hV hP
    _ = _ := by ring
/-- Both factors known up to relative errors `e`, `f`; the product is formed with relative error `ku` and an underflow term `t`. -/
theorem pert (B : E → G → H) (hl : ∀ x x' y, B x y - B x' y = B (x - x') y) (hr : ∀ x y y', B x y - B x y' = B x (y - y'))
    (hb : ∀ x y, ‖B x y‖ ≤ ‖x‖ * ‖y‖) {P V : E} {Q W : G} {Z : H} {m n e f k u t K : ℝ} (hP : ‖P‖ ≤ m) (hQ : ‖Q‖ ≤ n)
    (hV : ‖V - P‖ ≤ e * m) (hW : ‖W - Q‖ ≤ f * n) (e0 : 0 ≤ e) (f0 : 0 ≤ f) (e1 : e ≤ 1 / 2 ^ 10) (f1 : f ≤ 1 / 2 ^ 10) (k0 : 0 ≤ k) (u0 : 0 ≤ u)
    (hZ : ‖Z - B V W‖ ≤ k * u * (‖V‖ * ‖W‖) + t) (ht : t ≤ u / 4 * (m * n)) (hK : k * (1 + 1 / 2 ^ 8) + 1 / 4 ≤ K) :
    ‖Z - B P Q‖ ≤ ((1 + 1 / 2 ^ 9) * (e + f) + K * u) * (m * n) := by
  have m0 : 0 ≤ m := (norm_nonneg _).trans hP
  have n0 : 0 ≤ n := (norm_nonneg _).trans hQ
  have mn : 0 ≤ m * n := mul_nonneg m0 n0
  have nV := le_of_close hP hV
  have nW := le_of_close hQ hW
  have a1 : ‖B V W - B P Q‖ ≤ (e * (1 + f) + f) * (m * n) := by
    calc ‖B V W - B P Q‖ = ‖(B V W - B P W) + (B P W - B P Q)‖ := by congr 1; abel
      _ ≤ ‖B V W - B P W‖ + ‖B P W - B P Q‖ := norm_add_le _ _
      _ ≤ e * m * ((1 + f) * n) + m * (f * n) := by
        rw [hl, hr]
        refine add_le_add ((hb _ _).trans ?_) ((hb _ _).trans ?_) <;> gcongr
      _ = _ := by ring
  have a2 : k * u * (‖V‖ * ‖W‖) ≤ k * (1 + 1 / 2 ^ 8) * u * (m * n) := by
    calc k * u * (‖V‖ * ‖W‖) ≤ k * u * (((1 + 1 / 2 ^ 10) * m) * ((1 + 1 / 2 ^ 10) * n)) := by
          have b1 : ‖V‖ ≤ (1 + 1 / 2 ^ 10) * m := nV.trans (by gcongr)
          have b2 : ‖W‖ ≤ (1 + 1 / 2 ^ 10) * n := nW.trans (by gcongr)
          have : 0 ≤ k * u := mul_nonneg k0 u0
          gcongr
      _ = k * u * (m * n) * ((1 + 1 / 2 ^ 10) * (1 + 1 / 2 ^ 10)) := by ring
      _ ≤ k * u * (m * n) * (1 + 1 / 2 ^ 8) := by
        have : 0 ≤ k * u * (m * n) := mul_nonneg (mul_nonneg k0 u0) mn
        gcongr; norm_num
      _ = _ := by ring
  have a3 : e * (1 + f) + f ≤ (1 + 1 / 2 ^ 9) * (e + f) := by
    have : e * f ≤ e * (1 / 2 ^ 10) := by gcongr
    norm_num at this ⊢; linarith
  have a4 : (k * (1 + 1 / 2 ^ 8) + 1 / 4) * (u * (m * n)) ≤ K * (u * (m * n)) := by gcongr
  have a5 := mul_le_mul_of_nonneg_right a3 mn
  calc ‖Z - B P Q‖ = ‖(Z - B V W) + (B V W - B P Q)‖ := by congr 1; abel
    _ ≤ _ := norm_add_le _ _
    _ ≤ (k * (1 + 1 / 2 ^ 8) * u * (m * n) + u / 4 * (m * n)) + (1 + 1 / 2 ^ 9) * (e + f) * (m * n) := by linarith
    _ = (k * (1 + 1 / 2 ^ 8) + 1 / 4) * (u * (m * n)) + (1 + 1 / 2 ^ 9) * (e + f) * (m * n) := by ring
    _ ≤ K * (u * (m * n)) + (1 + 1 / 2 ^ 9) * (e + f) * (m * n) := by gcongr
    _ = _ := by ring
/-- Sums. -/
theorem sum {P V Q W Z : E} {m n e f u t : ℝ} (hP : ‖P‖ ≤ m) (hQ : ‖Q‖ ≤ n)
    (hV : ‖V - P‖ ≤ e * m) (hW : ‖W - Q‖ ≤ f * n) (e1 : e ≤ 1 / 2 ^ 10) (f1 : f ≤ 1 / 2 ^ 10) (u0 : 0 ≤ u)
    (hZ : ‖Z - (V + W)‖ ≤ u * ‖V + W‖ + t) (ht : t ≤ u / 8 * (m + n)) :
    ‖Z - (P + Q)‖ ≤ (e + 5 / 4 * u) * m + (f + 5 / 4 * u) * n := by
  have m0 : 0 ≤ m := (norm_nonneg _).trans hP
  have n0 : 0 ≤ n := (norm_nonneg _).trans hQ
  have nV : ‖V‖ ≤ (1 + 1 / 2 ^ 10) * m := (le_of_close hP hV).trans (by gcongr)
  have nW : ‖W‖ ≤ (1 + 1 / 2 ^ 10) * n := (le_of_close hQ hW).trans (by gcongr)
  have nS : u * ‖V + W‖ ≤ u * ((1 + 1 / 2 ^ 10) * m + (1 + 1 / 2 ^ 10) * n) := by
    gcongr
    exact (norm_add_le _ _).trans (add_le_add nV nW)
  have um := mul_nonneg u0 m0
  have un := mul_nonneg u0 n0
  calc ‖Z - (P + Q)‖ = ‖(Z - (V + W)) + ((V - P) + (W - Q))‖ := by congr 1; abel
    _ ≤ (u * ‖V + W‖ + t) + (e * m + f * n) := (norm_add_le _ _).trans (add_le_add hZ ((norm_add_le _ _).trans (add_le_add hV hW)))
    _ ≤ (u * ((1 + 1 / 2 ^ 10) * m + (1 + 1 / 2 ^ 10) * n) + u / 8 * (m + n)) + (e * m + f * n) := by gcongr
    _ ≤ _ := by norm_num; nlinarith
/-- Reciprocal of a positive number known up to a relative error. -/
theorem recip {n N f : ℝ} (hN : 0 < N) (h : |n - N| ≤ f * N) (f1 : f ≤ 1 / 2 ^ 11) :
    0 < n ∧ |n⁻¹ - N⁻¹| ≤ (1 + 1 / 2 ^ 9) * f * N⁻¹ := by
  have f0 : 0 ≤ f := by
    by_contra hc; push Not at hc
    have := (abs_nonneg _).trans h
    nlinarith
  obtain ⟨a, -⟩ := abs_le.1 h
  have hf : f * N ≤ 1 / 2 ^ 11 * N := by gcongr
  have hn : (1 - 1 / 2 ^ 11) * N ≤ n := by linarith
  have n0 : 0 < n := by norm_num at hn; linarith
  refine ⟨n0, ?_⟩
  rw [show n⁻¹ - N⁻¹ = -((n - N) / (n * N)) by field_simp; ring, abs_neg, abs_div, abs_of_pos (mul_pos n0 hN), div_le_iff₀ (mul_pos n0 hN)]
  have : (1 + 1 / 2 ^ 9) * f * N⁻¹ * (n * N) = (1 + 1 / 2 ^ 9) * f * n := by field_simp
  rw [this]
  refine h.trans ?_
  calc f * N ≤ f * ((1 + 1 / 2 ^ 9) * ((1 - 1 / 2 ^ 11) * N)) := by gcongr; norm_num; nlinarith
    _ ≤ f * ((1 + 1 / 2 ^ 9) * n) := by gcongr
    _ = _ := by ring
end Vecmat.Bilin
