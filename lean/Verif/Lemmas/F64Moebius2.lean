import Verif.Props.F64Moebius
/-! # Products of `f64` complex 2×2 matrices, their determinant and adjugate -/
namespace Vecmat
open Spec Ieee
set_option exponentiation.threshold 3000
namespace F64
/-- One step of a sum of products. -/
theorem cacc {s a m : Cpx F} {S A M : ℂ} (hs : IsC s S) (ha : IsC a A) (hm : IsC m M) (h : ‖S‖ + ‖A‖ * ‖M‖ ≤ 2 ^ 900) :
    ∃ V, IsC (s + a * m) V ∧ ‖V - (S + A * M)‖ ≤ 41 / 2 ^ 56 * (‖S‖ + ‖A‖ * ‖M‖) + 1 / 2 ^ 1071 := by
  have hp : 0 ≤ ‖A‖ * ‖M‖ := by positivity
  have hB := norm_nonneg S
  obtain ⟨W, hW, eW⟩ := cmul ha hm ((le_add_of_nonneg_left hB).trans (h.trans (by norm_num)))
  have n : ‖S + W‖ ≤ (1 + 4 / 2 ^ 53) * (‖S‖ + ‖A‖ * ‖M‖) + 1 / 2 ^ 1072 := by
    calc ‖S + W‖ = ‖(W - A * M) + A * M + S‖ := by congr 1; ring
      _ ≤ ‖W - A * M‖ + ‖A * M‖ + ‖S‖ := norm_add₃_le
      _ ≤ (4 / 2 ^ 53 * (‖A‖ * ‖M‖) + 1 / 2 ^ 1072) + ‖A‖ * ‖M‖ + ‖S‖ := by rw [norm_mul]; gcongr
      _ ≤ _ := by
        generalize 1 / (2:ℝ) ^ 1072 = t
        norm_num; linarith
  obtain ⟨V, hV, eV⟩ := cadd hs hW (n.trans (by
    calc _ ≤ (1 + 4 / 2 ^ 53 : ℝ) * 2 ^ 900 + 1 / 2 ^ 1072 := by gcongr
      _ ≤ _ := by norm_num))
  refine ⟨V, hV, ?_⟩
  calc ‖V - (S + A * M)‖ = ‖(V - (S + W)) + (W - A * M)‖ := by congr 1; ring
    _ ≤ _ := norm_add_le _ _
    _ ≤ (1 / 2 ^ 53 * ((1 + 4 / 2 ^ 53) * (‖S‖ + ‖A‖ * ‖M‖) + 1 / 2 ^ 1072) + 1 / 2 ^ 1074) + (4 / 2 ^ 53 * (‖A‖ * ‖M‖) + 1 / 2 ^ 1072) :=
      add_le_add (eV.trans (by gcongr)) eW
    _ ≤ _ := by
      rw [show (2:ℝ) ^ 1072 = 2 * 2 ^ 1071 by ring, show (2:ℝ) ^ 1074 = 8 * 2 ^ 1071 by ring, one_div_mul_eq_div, one_div (2 * _), one_div (8 * _), mul_inv, mul_inv]
      rw [← one_div ((2:ℝ) ^ 1071)]
      have : (0:ℝ) < 1 / 2 ^ 1071 := by positivity
      generalize 1 / (2:ℝ) ^ 1071 = t at *
      norm_num; linarith
/-- A sum of two products. -/
theorem cdot2 {a b x y : Cpx F} {A B X Y : ℂ} (ha : IsC a A) (hb : IsC b B) (hx : IsC x X) (hy : IsC y Y) (h : ‖A‖ * ‖X‖ + ‖B‖ * ‖Y‖ ≤ 2 ^ 800) :
    ∃ V, IsC (a * x + b * y) V ∧ ‖V - (A * X + B * Y)‖ ≤ 10 / 2 ^ 53 * (‖A‖ * ‖X‖ + ‖B‖ * ‖Y‖) + 1 / 2 ^ 1070 := by
  have p1 : 0 ≤ ‖A‖ * ‖X‖ := by positivity
  have p2 : 0 ≤ ‖B‖ * ‖Y‖ := by positivity
  obtain ⟨W, hW, eW⟩ := cmul ha hx ((le_add_of_nonneg_right p2).trans (h.trans (by norm_num)))
  have n : ‖W‖ + ‖B‖ * ‖Y‖ ≤ (1 + 4 / 2 ^ 53) * (‖A‖ * ‖X‖ + ‖B‖ * ‖Y‖) + 1 / 2 ^ 1072 := by
    calc ‖W‖ + ‖B‖ * ‖Y‖ = ‖(W - A * X) + A * X‖ + ‖B‖ * ‖Y‖ := by congr 2; ring
      _ ≤ ‖W - A * X‖ + ‖A * X‖ + ‖B‖ * ‖Y‖ := by gcongr; exact norm_add_le _ _
      _ ≤ (4 / 2 ^ 53 * (‖A‖ * ‖X‖) + 1 / 2 ^ 1072) + ‖A‖ * ‖X‖ + ‖B‖ * ‖Y‖ := by rw [norm_mul]; gcongr
      _ ≤ _ := by
        generalize 1 / (2:ℝ) ^ 1072 = t
        norm_num; linarith
  obtain ⟨V, hV, eV⟩ := cacc hW hb hy (n.trans (by
    calc _ ≤ (1 + 4 / 2 ^ 53 : ℝ) * 2 ^ 800 + 1 / 2 ^ 1072 := by gcongr
      _ ≤ _ := by norm_num))
  refine ⟨V, hV, ?_⟩
  calc ‖V - (A * X + B * Y)‖ = ‖(V - (W + B * Y)) + (W - A * X)‖ := by congr 1; ring
    _ ≤ _ := norm_add_le _ _
    _ ≤ (41 / 2 ^ 56 * ((1 + 4 / 2 ^ 53) * (‖A‖ * ‖X‖ + ‖B‖ * ‖Y‖) + 1 / 2 ^ 1072) + 1 / 2 ^ 1071) + (4 / 2 ^ 53 * (‖A‖ * ‖X‖) + 1 / 2 ^ 1072) :=
      add_le_add (eV.trans (by gcongr)) eW
    _ ≤ _ := by
      rw [show (2:ℝ) ^ 1072 = 4 * 2 ^ 1070 by ring, show (2:ℝ) ^ 1071 = 2 * 2 ^ 1070 by ring, one_div (4 * _), one_div (2 * _), mul_inv, mul_inv]
      rw [← one_div ((2:ℝ) ^ 1070)]
      have : (0:ℝ) < 1 / 2 ^ 1070 := by positivity
      generalize 1 / (2:ℝ) ^ 1070 = t at *
      norm_num; linarith
theorem isC_zero : IsC (0 : Cpx F) 0 := ⟨rfl, rfl⟩
theorem isC_one : IsC (1 : Cpx F) 1 := ⟨rfl, rfl⟩
theorem isC_neg {z : Cpx F} {Z : ℂ} (h : IsC z Z) : IsC (-z) (-Z) := ⟨by simpa [Val] using val_neg h.1, by simpa [Val] using val_neg h.2⟩
/-- A 1×1 minor. -/
theorem cminor {x : Cpx F} {X : ℂ} (h : IsC x X) (hr : ‖X‖ ≤ 2 ^ 900) : ∃ V, IsC (0 + x * 1) V ∧ ‖V - X‖ ≤ 41 / 2 ^ 56 * ‖X‖ + 1 / 2 ^ 1071 := by
  obtain ⟨V, hV, eV⟩ := cacc isC_zero h isC_one (by simpa using hr)
  exact ⟨V, hV, by simpa using eV⟩
/-- `det` and the entries of `adj` of a 2×2 matrix, as the code evaluates them. -/
theorem det2 {T : Type} [Neg T] [Add T] [Mul T] [Zero T] [One T] (A : Mat T 2 2) :
    A.det = ((0 : T) + A[0][0] * ((0 : T) + A[1][1] * (1 : T))) + A[0][1] * (-((0 : T) + A[1][0] * (1 : T))) := by
  rw [show A.det = _ from Res.get_eq (Mat.detR_eq A) _]
  simp [Mat.lap, List.range_succ, Mat.sgn, Mat.ent]
theorem adj2 {T : Type} [Neg T] [Add T] [Mul T] [Zero T] [One T] (A : Mat T 2 2) :
    A.adj[0][0] = (0 : T) + A[1][1] * (1 : T) ∧ A.adj[0][1] = -((0 : T) + A[0][1] * (1 : T)) ∧ A.adj[1][0] = -((0 : T) + A[1][0] * (1 : T)) ∧
      A.adj[1][1] = (0 : T) + A[0][0] * (1 : T) := by
  obtain ⟨B, h1, h2⟩ := Mat.adjR_ok A
  have e : A.adj = B := Res.get_eq h1 _
  rw [e]
  refine ⟨?_, ?_, ?_, ?_⟩ <;> rw [h2] <;> simp [Mat.lap, List.range_succ, Mat.sgn, Mat.ent]
theorem dotM2 {T : Type} [Add T] [Mul T] (A B : Mat T 2 2) (i j : Nat) (hi : i < 2) (hj : j < 2) :
    (A.dotM B)[i][j] = A[i][0] * B[0][j] + A[i][1] * B[1][j] := by
  rw [Mat.getElem_dotM _ _ i hi j hj]
  have h : (A[i].dot (B.colOf j hj)) = (A[i].zip (B.colOf j hj) |>.map fun p => p.1 * p.2).sum := rfl
  rw [h, Vec.sum, Vec.foldFirst_congr (Vec.foldFirstR_succ (n := 1) _ _)]
  simp [List.ofFn_succ]
/-- The determinant. -/
theorem cdet {a b c d : Cpx F} {A B C D : ℂ} (ha : IsC a A) (hb : IsC b B) (hc : IsC c C) (hd : IsC d D) (rA : ‖A‖ ≤ 2 ^ 300) (rB : ‖B‖ ≤ 2 ^ 300)
    (rC : ‖C‖ ≤ 2 ^ 300) (rD : ‖D‖ ≤ 2 ^ 300) :
    ∃ V, IsC ((0 + a * (0 + d * 1)) + b * (-(0 + c * 1))) V ∧ ‖V - (A * D - B * C)‖ ≤ 16 / 2 ^ 53 * (‖A‖ * ‖D‖ + ‖B‖ * ‖C‖) + 1 / 2 ^ 760 := by
  obtain ⟨D', hD', eD⟩ := cminor hd (rD.trans (by norm_num))
  obtain ⟨C', hC', eC⟩ := cminor hc (rC.trans (by norm_num))
  have nD : ‖D'‖ ≤ (1 + 41 / 2 ^ 56) * ‖D‖ + 1 / 2 ^ 1071 := by
    calc ‖D'‖ = ‖(D' - D) + D‖ := by congr 1; ring
      _ ≤ ‖D' - D‖ + ‖D‖ := norm_add_le _ _
      _ ≤ _ := by linarith
  have nC : ‖C'‖ ≤ (1 + 41 / 2 ^ 56) * ‖C‖ + 1 / 2 ^ 1071 := by
    calc ‖C'‖ = ‖(C' - C) + C‖ := by congr 1; ring
      _ ≤ ‖C' - C‖ + ‖C‖ := norm_add_le _ _
      _ ≤ _ := by linarith
  have at' : ‖A‖ * (1 / 2 ^ 1071) ≤ 1 / 2 ^ 771 := by
    calc _ ≤ (2:ℝ) ^ 300 * (1 / 2 ^ 1071) := by gcongr
      _ = _ := by norm_num
  have bt : ‖B‖ * (1 / 2 ^ 1071) ≤ 1 / 2 ^ 771 := by
    calc _ ≤ (2:ℝ) ^ 300 * (1 / 2 ^ 1071) := by gcongr
      _ = _ := by norm_num
  have pAD : 0 ≤ ‖A‖ * ‖D‖ := by positivity
  have pBC : 0 ≤ ‖B‖ * ‖C‖ := by positivity
  have rAD : ‖A‖ * ‖D‖ ≤ 2 ^ 600 := by
    calc _ ≤ (2:ℝ) ^ 300 * 2 ^ 300 := by gcongr
      _ = _ := by norm_num
  have rBC : ‖B‖ * ‖C‖ ≤ 2 ^ 600 := by
    calc _ ≤ (2:ℝ) ^ 300 * 2 ^ 300 := by gcongr
      _ = _ := by norm_num
  have mAD : ‖A‖ * ‖D'‖ ≤ (1 + 41 / 2 ^ 56) * (‖A‖ * ‖D‖) + 1 / 2 ^ 771 := by
    calc _ ≤ ‖A‖ * ((1 + 41 / 2 ^ 56) * ‖D‖ + 1 / 2 ^ 1071) := by gcongr
      _ = (1 + 41 / 2 ^ 56) * (‖A‖ * ‖D‖) + ‖A‖ * (1 / 2 ^ 1071) := by ring
      _ ≤ _ := by gcongr
  have mBC : ‖B‖ * ‖C'‖ ≤ (1 + 41 / 2 ^ 56) * (‖B‖ * ‖C‖) + 1 / 2 ^ 771 := by
    calc _ ≤ ‖B‖ * ((1 + 41 / 2 ^ 56) * ‖C‖ + 1 / 2 ^ 1071) := by gcongr
      _ = (1 + 41 / 2 ^ 56) * (‖B‖ * ‖C‖) + ‖B‖ * (1 / 2 ^ 1071) := by ring
      _ ≤ _ := by gcongr
  have eAD : ‖A * D' - A * D‖ ≤ 41 / 2 ^ 56 * (‖A‖ * ‖D‖) + 1 / 2 ^ 771 := by
    rw [← mul_sub, norm_mul]
    calc _ ≤ ‖A‖ * (41 / 2 ^ 56 * ‖D‖ + 1 / 2 ^ 1071) := by gcongr
      _ = 41 / 2 ^ 56 * (‖A‖ * ‖D‖) + ‖A‖ * (1 / 2 ^ 1071) := by ring
      _ ≤ _ := by gcongr
  have eBC : ‖B * C' - B * C‖ ≤ 41 / 2 ^ 56 * (‖B‖ * ‖C‖) + 1 / 2 ^ 771 := by
    rw [← mul_sub, norm_mul]
    calc _ ≤ ‖B‖ * (41 / 2 ^ 56 * ‖C‖ + 1 / 2 ^ 1071) := by gcongr
      _ = 41 / 2 ^ 56 * (‖B‖ * ‖C‖) + ‖B‖ * (1 / 2 ^ 1071) := by ring
      _ ≤ _ := by gcongr
  obtain ⟨S, hS, eS⟩ := cacc isC_zero ha hD' (by
    rw [norm_zero, zero_add]
    calc _ ≤ (1 + 41 / 2 ^ 56 : ℝ) * 2 ^ 600 + 1 / 2 ^ 771 := mAD.trans (by gcongr)
      _ ≤ _ := by norm_num)
  rw [norm_zero, zero_add, zero_add] at eS
  have t1 : (1:ℝ) / 2 ^ 1071 ≤ 1 / 2 ^ 771 := by norm_num
  have eS' : ‖S - A * D‖ ≤ 83 / 2 ^ 56 * (‖A‖ * ‖D‖) + 3 * (1 / 2 ^ 771) := by
    calc ‖S - A * D‖ = ‖(S - A * D') + (A * D' - A * D)‖ := by congr 1; ring
      _ ≤ _ := norm_add_le _ _
      _ ≤ (41 / 2 ^ 56 * ((1 + 41 / 2 ^ 56) * (‖A‖ * ‖D‖) + 1 / 2 ^ 771) + 1 / 2 ^ 771) + (41 / 2 ^ 56 * (‖A‖ * ‖D‖) + 1 / 2 ^ 771) :=
        add_le_add (eS.trans (by gcongr)) eAD
      _ ≤ _ := by
        have : (0:ℝ) < 1 / 2 ^ 771 := by positivity
        generalize (1:ℝ) / 2 ^ 771 = t at *
        norm_num; linarith
  have nS : ‖S‖ ≤ (1 + 83 / 2 ^ 56) * (‖A‖ * ‖D‖) + 3 * (1 / 2 ^ 771) := by
    calc ‖S‖ = ‖(S - A * D) + A * D‖ := by congr 1; ring
      _ ≤ ‖S - A * D‖ + ‖A * D‖ := norm_add_le _ _
      _ ≤ _ := by rw [norm_mul]; linarith
  obtain ⟨V, hV, eV⟩ := cacc hS hb (isC_neg hC') (by
    rw [norm_neg]
    calc _ ≤ ((1 + 83 / 2 ^ 56) * 2 ^ 600 + 3 * (1 / 2 ^ 771)) + ((1 + 41 / 2 ^ 56 : ℝ) * 2 ^ 600 + 1 / 2 ^ 771) :=
          add_le_add (nS.trans (by gcongr)) (mBC.trans (by gcongr))
      _ ≤ _ := by norm_num)
  rw [norm_neg] at eV
  refine ⟨V, hV, ?_⟩
  calc ‖V - (A * D - B * C)‖ = ‖(V - (S + B * -C')) + (S - A * D) + -(B * C' - B * C)‖ := by congr 1; ring
    _ ≤ ‖V - (S + B * -C')‖ + ‖S - A * D‖ + ‖-(B * C' - B * C)‖ := norm_add₃_le
    _ ≤ (41 / 2 ^ 56 * (((1 + 83 / 2 ^ 56) * (‖A‖ * ‖D‖) + 3 * (1 / 2 ^ 771)) + ((1 + 41 / 2 ^ 56) * (‖B‖ * ‖C‖) + 1 / 2 ^ 771)) + 1 / 2 ^ 771) +
        (83 / 2 ^ 56 * (‖A‖ * ‖D‖) + 3 * (1 / 2 ^ 771)) + (41 / 2 ^ 56 * (‖B‖ * ‖C‖) + 1 / 2 ^ 771) := by
      rw [norm_neg]
      exact add_le_add (add_le_add (eV.trans (by gcongr)) eS') eBC
    _ ≤ _ := by
      rw [show (1:ℝ) / 2 ^ 760 = 2048 * (1 / 2 ^ 771) by norm_num]
      have : (0:ℝ) < 1 / 2 ^ 771 := by positivity
      generalize (1:ℝ) / 2 ^ 771 = t at *
      norm_num; linarith
end F64
end Vecmat
