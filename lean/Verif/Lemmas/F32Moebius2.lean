import Verif.Props.F32Moebius

/-! # Products of `f32` complex 2×2 matrices, their determinant and adjugate -/
namespace Vecmat
open Spec Ieee
open F64 (abs_re_le abs_im_le complex_mix inH inH_re inH_imI inH_imJ inH_imK norm_inH toH_ofC join join_re join_imI join_imJ join_imK half₁ half₂ norm_halves norm_half₁ norm_half₂ half₁_mul half₂_mul inH_half toC_add toH_add det2 adj2 dotM2)
set_option exponentiation.threshold 3000
namespace F32
/-- One step of a sum of products. -/
theorem cacc {s a m : Cpx F} {S A M : ℂ} (hs : IsC s S) (ha : IsC a A) (hm : IsC m M) (h : ‖S‖ + ‖A‖ * ‖M‖ ≤ 2 ^ 108) :
    ∃ V, IsC (s + a * m) V ∧ ‖V - (S + A * M)‖ ≤ 41 / 2 ^ 27 * (‖S‖ + ‖A‖ * ‖M‖) + 1 / 2 ^ 146 := by
  have hp : 0 ≤ ‖A‖ * ‖M‖ := by positivity
  have hB := norm_nonneg S
  obtain ⟨W, hW, eW⟩ := cmul ha hm ((le_add_of_nonneg_left hB).trans (h.trans (by norm_num)))
  have n : ‖S + W‖ ≤ (1 + 4 / 2 ^ 24) * (‖S‖ + ‖A‖ * ‖M‖) + 1 / 2 ^ 147 := by
    calc ‖S + W‖ = ‖(W - A * M) + A * M + S‖ := by congr 1; ring
      _ ≤ ‖W - A * M‖ + ‖A * M‖ + ‖S‖ := norm_add₃_le
      _ ≤ (4 / 2 ^ 24 * (‖A‖ * ‖M‖) + 1 / 2 ^ 147) + ‖A‖ * ‖M‖ + ‖S‖ := by rw [norm_mul]; gcongr
      _ ≤ _ := by
        generalize 1 / (2:ℝ) ^ 147 = t
        norm_num; linarith
  obtain ⟨V, hV, eV⟩ := cadd hs hW (n.trans (by
    calc _ ≤ (1 + 4 / 2 ^ 24 : ℝ) * 2 ^ 108 + 1 / 2 ^ 147 := by gcongr
      _ ≤ _ := by norm_num))
  refine ⟨V, hV, ?_⟩
  calc ‖V - (S + A * M)‖ = ‖(V - (S + W)) + (W - A * M)‖ := by congr 1; ring
    _ ≤ _ := norm_add_le _ _
    _ ≤ (1 / 2 ^ 24 * ((1 + 4 / 2 ^ 24) * (‖S‖ + ‖A‖ * ‖M‖) + 1 / 2 ^ 147) + 1 / 2 ^ 149) + (4 / 2 ^ 24 * (‖A‖ * ‖M‖) + 1 / 2 ^ 147) :=
      add_le_add (eV.trans (by gcongr)) eW
    _ ≤ _ := by
      rw [show (2:ℝ) ^ 147 = 2 * 2 ^ 146 by ring, show (2:ℝ) ^ 149 = 8 * 2 ^ 146 by ring, one_div_mul_eq_div, one_div (2 * _), one_div (8 * _), mul_inv, mul_inv]
      rw [← one_div ((2:ℝ) ^ 146)]
      have : (0:ℝ) < 1 / 2 ^ 146 := by positivity
      generalize 1 / (2:ℝ) ^ 146 = t at *
      norm_num; linarith
/-- A sum of two products. -/
theorem cdot2 {a b x y : Cpx F} {A B X Y : ℂ} (ha : IsC a A) (hb : IsC b B) (hx : IsC x X) (hy : IsC y Y) (h : ‖A‖ * ‖X‖ + ‖B‖ * ‖Y‖ ≤ 2 ^ 80) :
    ∃ V, IsC (a * x + b * y) V ∧ ‖V - (A * X + B * Y)‖ ≤ 10 / 2 ^ 24 * (‖A‖ * ‖X‖ + ‖B‖ * ‖Y‖) + 1 / 2 ^ 145 := by
  have p1 : 0 ≤ ‖A‖ * ‖X‖ := by positivity
  have p2 : 0 ≤ ‖B‖ * ‖Y‖ := by positivity
  obtain ⟨W, hW, eW⟩ := cmul ha hx ((le_add_of_nonneg_right p2).trans (h.trans (by norm_num)))
  have n : ‖W‖ + ‖B‖ * ‖Y‖ ≤ (1 + 4 / 2 ^ 24) * (‖A‖ * ‖X‖ + ‖B‖ * ‖Y‖) + 1 / 2 ^ 147 := by
    calc ‖W‖ + ‖B‖ * ‖Y‖ = ‖(W - A * X) + A * X‖ + ‖B‖ * ‖Y‖ := by congr 2; ring
      _ ≤ ‖W - A * X‖ + ‖A * X‖ + ‖B‖ * ‖Y‖ := by gcongr; exact norm_add_le _ _
      _ ≤ (4 / 2 ^ 24 * (‖A‖ * ‖X‖) + 1 / 2 ^ 147) + ‖A‖ * ‖X‖ + ‖B‖ * ‖Y‖ := by rw [norm_mul]; gcongr
      _ ≤ _ := by
        generalize 1 / (2:ℝ) ^ 147 = t
        norm_num; linarith
  obtain ⟨V, hV, eV⟩ := cacc hW hb hy (n.trans (by
    calc _ ≤ (1 + 4 / 2 ^ 24 : ℝ) * 2 ^ 80 + 1 / 2 ^ 147 := by gcongr
      _ ≤ _ := by norm_num))
  refine ⟨V, hV, ?_⟩
  calc ‖V - (A * X + B * Y)‖ = ‖(V - (W + B * Y)) + (W - A * X)‖ := by congr 1; ring
    _ ≤ _ := norm_add_le _ _
    _ ≤ (41 / 2 ^ 27 * ((1 + 4 / 2 ^ 24) * (‖A‖ * ‖X‖ + ‖B‖ * ‖Y‖) + 1 / 2 ^ 147) + 1 / 2 ^ 146) + (4 / 2 ^ 24 * (‖A‖ * ‖X‖) + 1 / 2 ^ 147) :=
      add_le_add (eV.trans (by gcongr)) eW
    _ ≤ _ := by
      rw [show (2:ℝ) ^ 147 = 4 * 2 ^ 145 by ring, show (2:ℝ) ^ 146 = 2 * 2 ^ 145 by ring, one_div (4 * _), one_div (2 * _), mul_inv, mul_inv]
      rw [← one_div ((2:ℝ) ^ 145)]
      have : (0:ℝ) < 1 / 2 ^ 145 := by positivity
      generalize 1 / (2:ℝ) ^ 145 = t at *
      norm_num; linarith
theorem isC_zero : IsC (0 : Cpx F) 0 := ⟨rfl, rfl⟩
theorem isC_one : IsC (1 : Cpx F) 1 := ⟨rfl, rfl⟩
theorem isC_neg {z : Cpx F} {Z : ℂ} (h : IsC z Z) : IsC (-z) (-Z) := ⟨by simpa [Val] using val_neg h.1, by simpa [Val] using val_neg h.2⟩
/-- A 1×1 minor. -/
theorem cminor {x : Cpx F} {X : ℂ} (h : IsC x X) (hr : ‖X‖ ≤ 2 ^ 108) : ∃ V, IsC (0 + x * 1) V ∧ ‖V - X‖ ≤ 41 / 2 ^ 27 * ‖X‖ + 1 / 2 ^ 146 := by
  obtain ⟨V, hV, eV⟩ := cacc isC_zero h isC_one (by simpa using hr)
  exact ⟨V, hV, by simpa using eV⟩
/-- The determinant. -/
theorem cdet {a b c d : Cpx F} {A B C D : ℂ} (ha : IsC a A) (hb : IsC b B) (hc : IsC c C) (hd : IsC d D) (rA : ‖A‖ ≤ 2 ^ 38) (rB : ‖B‖ ≤ 2 ^ 38)
    (rC : ‖C‖ ≤ 2 ^ 38) (rD : ‖D‖ ≤ 2 ^ 38) :
    ∃ V, IsC ((0 + a * (0 + d * 1)) + b * (-(0 + c * 1))) V ∧ ‖V - (A * D - B * C)‖ ≤ 16 / 2 ^ 24 * (‖A‖ * ‖D‖ + ‖B‖ * ‖C‖) + 1 / 2 ^ 97 := by
  obtain ⟨D', hD', eD⟩ := cminor hd (rD.trans (by norm_num))
  obtain ⟨C', hC', eC⟩ := cminor hc (rC.trans (by norm_num))
  have nD : ‖D'‖ ≤ (1 + 41 / 2 ^ 27) * ‖D‖ + 1 / 2 ^ 146 := by
    calc ‖D'‖ = ‖(D' - D) + D‖ := by congr 1; ring
      _ ≤ ‖D' - D‖ + ‖D‖ := norm_add_le _ _
      _ ≤ _ := by linarith
  have nC : ‖C'‖ ≤ (1 + 41 / 2 ^ 27) * ‖C‖ + 1 / 2 ^ 146 := by
    calc ‖C'‖ = ‖(C' - C) + C‖ := by congr 1; ring
      _ ≤ ‖C' - C‖ + ‖C‖ := norm_add_le _ _
      _ ≤ _ := by linarith
  have at' : ‖A‖ * (1 / 2 ^ 146) ≤ 1 / 2 ^ 108 := by
    calc _ ≤ (2:ℝ) ^ 38 * (1 / 2 ^ 146) := by gcongr
      _ = _ := by norm_num
  have bt : ‖B‖ * (1 / 2 ^ 146) ≤ 1 / 2 ^ 108 := by
    calc _ ≤ (2:ℝ) ^ 38 * (1 / 2 ^ 146) := by gcongr
      _ = _ := by norm_num
  have pAD : 0 ≤ ‖A‖ * ‖D‖ := by positivity
  have pBC : 0 ≤ ‖B‖ * ‖C‖ := by positivity
  have rAD : ‖A‖ * ‖D‖ ≤ 2 ^ 76 := by
    calc _ ≤ (2:ℝ) ^ 38 * 2 ^ 38 := by gcongr
      _ = _ := by norm_num
  have rBC : ‖B‖ * ‖C‖ ≤ 2 ^ 76 := by
    calc _ ≤ (2:ℝ) ^ 38 * 2 ^ 38 := by gcongr
      _ = _ := by norm_num
  have mAD : ‖A‖ * ‖D'‖ ≤ (1 + 41 / 2 ^ 27) * (‖A‖ * ‖D‖) + 1 / 2 ^ 108 := by
    calc _ ≤ ‖A‖ * ((1 + 41 / 2 ^ 27) * ‖D‖ + 1 / 2 ^ 146) := by gcongr
      _ = (1 + 41 / 2 ^ 27) * (‖A‖ * ‖D‖) + ‖A‖ * (1 / 2 ^ 146) := by ring
      _ ≤ _ := by gcongr
  have mBC : ‖B‖ * ‖C'‖ ≤ (1 + 41 / 2 ^ 27) * (‖B‖ * ‖C‖) + 1 / 2 ^ 108 := by
    calc _ ≤ ‖B‖ * ((1 + 41 / 2 ^ 27) * ‖C‖ + 1 / 2 ^ 146) := by gcongr
      _ = (1 + 41 / 2 ^ 27) * (‖B‖ * ‖C‖) + ‖B‖ * (1 / 2 ^ 146) := by ring
      _ ≤ _ := by gcongr
  have eAD : ‖A * D' - A * D‖ ≤ 41 / 2 ^ 27 * (‖A‖ * ‖D‖) + 1 / 2 ^ 108 := by
    rw [← mul_sub, norm_mul]
    calc _ ≤ ‖A‖ * (41 / 2 ^ 27 * ‖D‖ + 1 / 2 ^ 146) := by gcongr
      _ = 41 / 2 ^ 27 * (‖A‖ * ‖D‖) + ‖A‖ * (1 / 2 ^ 146) := by ring
      _ ≤ _ := by gcongr
  have eBC : ‖B * C' - B * C‖ ≤ 41 / 2 ^ 27 * (‖B‖ * ‖C‖) + 1 / 2 ^ 108 := by
    rw [← mul_sub, norm_mul]
    calc _ ≤ ‖B‖ * (41 / 2 ^ 27 * ‖C‖ + 1 / 2 ^ 146) := by gcongr
      _ = 41 / 2 ^ 27 * (‖B‖ * ‖C‖) + ‖B‖ * (1 / 2 ^ 146) := by ring
      _ ≤ _ := by gcongr
  obtain ⟨S, hS, eS⟩ := cacc isC_zero ha hD' (by
    rw [norm_zero, zero_add]
    calc _ ≤ (1 + 41 / 2 ^ 27 : ℝ) * 2 ^ 76 + 1 / 2 ^ 108 := mAD.trans (by gcongr)
      _ ≤ _ := by norm_num)
  rw [norm_zero, zero_add, zero_add] at eS
  have t1 : (1:ℝ) / 2 ^ 146 ≤ 1 / 2 ^ 108 := by norm_num
  have eS' : ‖S - A * D‖ ≤ 83 / 2 ^ 27 * (‖A‖ * ‖D‖) + 3 * (1 / 2 ^ 108) := by
    calc ‖S - A * D‖ = ‖(S - A * D') + (A * D' - A * D)‖ := by congr 1; ring
      _ ≤ _ := norm_add_le _ _
      _ ≤ (41 / 2 ^ 27 * ((1 + 41 / 2 ^ 27) * (‖A‖ * ‖D‖) + 1 / 2 ^ 108) + 1 / 2 ^ 108) + (41 / 2 ^ 27 * (‖A‖ * ‖D‖) + 1 / 2 ^ 108) :=
        add_le_add (eS.trans (by gcongr)) eAD
      _ ≤ _ := by
        have : (0:ℝ) < 1 / 2 ^ 108 := by positivity
        generalize (1:ℝ) / 2 ^ 108 = t at *
        norm_num; linarith
  have nS : ‖S‖ ≤ (1 + 83 / 2 ^ 27) * (‖A‖ * ‖D‖) + 3 * (1 / 2 ^ 108) := by
    calc ‖S‖ = ‖(S - A * D) + A * D‖ := by congr 1; ring
      _ ≤ ‖S - A * D‖ + ‖A * D‖ := norm_add_le _ _
      _ ≤ _ := by rw [norm_mul]; linarith
  obtain ⟨V, hV, eV⟩ := cacc hS hb (isC_neg hC') (by
    rw [norm_neg]
    calc _ ≤ ((1 + 83 / 2 ^ 27) * 2 ^ 76 + 3 * (1 / 2 ^ 108)) + ((1 + 41 / 2 ^ 27 : ℝ) * 2 ^ 76 + 1 / 2 ^ 108) :=
          add_le_add (nS.trans (by gcongr)) (mBC.trans (by gcongr))
      _ ≤ _ := by norm_num)
  rw [norm_neg] at eV
  refine ⟨V, hV, ?_⟩
  calc ‖V - (A * D - B * C)‖ = ‖(V - (S + B * -C')) + (S - A * D) + -(B * C' - B * C)‖ := by congr 1; ring
    _ ≤ ‖V - (S + B * -C')‖ + ‖S - A * D‖ + ‖-(B * C' - B * C)‖ := norm_add₃_le
    _ ≤ (41 / 2 ^ 27 * (((1 + 83 / 2 ^ 27) * (‖A‖ * ‖D‖) + 3 * (1 / 2 ^ 108)) + ((1 + 41 / 2 ^ 27) * (‖B‖ * ‖C‖) + 1 / 2 ^ 108)) + 1 / 2 ^ 108) +
        (83 / 2 ^ 27 * (‖A‖ * ‖D‖) + 3 * (1 / 2 ^ 108)) + (41 / 2 ^ 27 * (‖B‖ * ‖C‖) + 1 / 2 ^ 108) := by
      rw [norm_neg]
      exact add_le_add (add_le_add (eV.trans (by gcongr)) eS') eBC
    _ ≤ _ := by
      rw [show (1:ℝ) / 2 ^ 97 = 2048 * (1 / 2 ^ 108) by norm_num]
      have : (0:ℝ) < 1 / 2 ^ 108 := by positivity
      generalize (1:ℝ) / 2 ^ 108 = t at *
      norm_num; linarith
end F32
end Vecmat
