import Verif.Lemmas.F32Moebius2

/-!
# C110 (continued): composition, determinant, normalization and inverse of Möbius transformations in single precision
-/
namespace Vecmat
open Spec Ieee F32
open F64 (abs_re_le abs_im_le complex_mix inH inH_re inH_imI inH_imJ inH_imK norm_inH toH_ofC join join_re join_imI join_imJ join_imK half₁ half₂ norm_halves norm_half₁ norm_half₂ half₁_mul half₂_mul inH_half toC_add toH_add det2 adj2 dotM2 toC_neg det_toC inv_toC)
set_option exponentiation.threshold 3000
namespace F32
/-- A quotient by a computed determinant. -/
theorem cquot {x y : Cpx F} {X X' Δ Δ' : ℂ} {K κ : ℝ} (hx : IsC x X') (eX : ‖X' - X‖ ≤ 41 / 2 ^ 27 * ‖X‖ + 1 / 2 ^ 146) (hy : IsC y Δ')
    (eY : ‖Δ' - Δ‖ ≤ 16 / 2 ^ 24 * K + 1 / 2 ^ 97) (rX : ‖X‖ ≤ 2 ^ 36) (hΔ : 1 / 2 ^ 36 ≤ ‖Δ‖) (hK : ‖Δ‖ ≤ K) (rK : K ≤ 2 ^ 36)
    (hκ : K ≤ κ * ‖Δ‖) (rκ : κ ≤ 2 ^ 9) : ∃ V, IsC (x / y) V ∧ ‖V - X / Δ‖ ≤ (17 + 20 * κ) / 2 ^ 24 * ‖X / Δ‖ + 1 / 2 ^ 105 := by
  have d0 : 0 < ‖Δ‖ := lt_of_lt_of_le (by positivity) hΔ
  have k0 : 0 < K := d0.trans_le hK
  have eY' : ‖Δ' - Δ‖ ≤ 41 / 2 ^ 27 * (16 / 5 * K) + 1 / 2 ^ 146 := by
    have : (1:ℝ) / 2 ^ 97 ≤ 1 / 2 ^ 27 * K := by
      calc (1:ℝ) / 2 ^ 97 ≤ 1 / 2 ^ 27 * (1 / 2 ^ 36) := by norm_num
        _ ≤ _ := by gcongr; exact hΔ.trans hK
    have t0 : (0:ℝ) < 1 / 2 ^ 146 := by positivity
    generalize (1:ℝ) / 2 ^ 146 = t at *
    generalize (1:ℝ) / 2 ^ 97 = t' at *
    norm_num at *; linarith
  have t1 : (1:ℝ) / 2 ^ 146 ≤ 1 / 2 ^ 145 := by norm_num
  have hl : (1:ℝ) / 2 ^ 38 ≤ ‖Δ‖ := le_trans (by norm_num) hΔ
  have hS : ‖Δ‖ ≤ 16 / 5 * K := by linarith
  have hk : 16 / 5 * K ≤ 2 ^ 11 * ‖Δ‖ := by
    have : K ≤ 2 ^ 9 * ‖Δ‖ := hκ.trans (by gcongr)
    norm_num at *; linarith
  have r1 : ‖X‖ ≤ 2 ^ 38 := rX.trans (by norm_num)
  have r2 : 16 / 5 * K ≤ 2 ^ 38 := by
    calc _ ≤ (16 / 5 : ℝ) * 2 ^ 36 := by gcongr
      _ ≤ _ := by norm_num
  obtain ⟨a1, a2, a3⟩ := quot_range le_rfl r1 hl hS r2 hk (by positivity) t1 eX eY'
  obtain ⟨V, hV, eV⟩ := cdiv0 hx hy a1 a2 a3
  refine ⟨V, hV, ?_⟩
  have := quot_err (κ := 11) le_rfl hl hS hk (by positivity) t1 eX eY' (by norm_num) (by norm_num) (eV.trans (by gcongr; norm_num; norm_num))
  refine this.trans ?_
  gcongr
  rw [norm_div]
  have : K / ‖Δ‖ ≤ κ := by rw [div_le_iff₀ d0]; exact hκ
  have m0 : 0 ≤ ‖X‖ / ‖Δ‖ := by positivity
  calc _ = (17 * (‖X‖ / ‖Δ‖) + 96 / 5 * ((‖X‖ / ‖Δ‖) * (K / ‖Δ‖))) / 2 ^ 24 := by ring
    _ ≤ (17 * (‖X‖ / ‖Δ‖) + 20 * ((‖X‖ / ‖Δ‖) * κ)) / 2 ^ 24 := by
      gcongr
      norm_num
    _ = _ := by ring
end F32

/-- `chain`: every coefficient of the composition has an error of at most `10u` times the same coefficient of the product of the matrices of moduli. -/
theorem C110_chain (m n : Moebius (Cpx F)) (M N : Moebius (Cpx ℝ)) (hm : ValMoebius m M) (hn : ValMoebius n N) (h₁ : Below M (2 ^ 38)) (h₂ : Below N (2 ^ 38)) :
    ∃ V, ValMoebius (m.chain n) V ∧ Within V (M.chain N) ((moduli M).chain (moduli N)) (10 / 2 ^ 24) (1 / 2 ^ 145) := by
  have step : ∀ {a b x y : Cpx F} {A B X Y : Cpx ℝ}, ValC a A → ValC b B → ValC x X → ValC y Y → A.norm ≤ 2 ^ 38 → B.norm ≤ 2 ^ 38 → X.norm ≤ 2 ^ 38 →
      Y.norm ≤ 2 ^ 38 → ∃ V, ValC (a * x + b * y) V ∧ (V - (A * X + B * Y)).norm ≤ 10 / 2 ^ 24 * (A.norm * X.norm + B.norm * Y.norm) + 1 / 2 ^ 145 := by
    intro a b x y A B X Y ha hb hx hy r1 r2 r3 r4
    simp only [cnorm_eq] at *
    obtain ⟨V, hV, eV⟩ := cdot2 (A := A.toC) (B := B.toC) (X := X.toC) (Y := Y.toC) ha hb hx hy (by
      calc _ ≤ (2:ℝ) ^ 38 * 2 ^ 38 + 2 ^ 38 * 2 ^ 38 := by gcongr
        _ ≤ _ := by norm_num)
    exact ⟨ofC V, valC_ofC hV, by rw [toC_sub, toC_ofC, toC_add, toC_mul, toC_mul]; exact eV⟩
  obtain ⟨a1, b1, c1, d1⟩ := hm
  obtain ⟨a2, b2, c2, d2⟩ := hn
  obtain ⟨ra1, rb1, rc1, rd1⟩ := h₁
  obtain ⟨ra2, rb2, rc2, rd2⟩ := h₂
  obtain ⟨A, hA, eA⟩ := step a1 b1 a2 c2 ra1 rb1 ra2 rc2
  obtain ⟨B, hB, eB⟩ := step a1 b1 b2 d2 ra1 rb1 rb2 rd2
  obtain ⟨C, hC, eC⟩ := step c1 d1 a2 c2 rc1 rd1 ra2 rc2
  obtain ⟨D, hD, eD⟩ := step c1 d1 b2 d2 rc1 rd1 rb2 rd2
  refine ⟨.new A B C D, ?_, ?_⟩
  · simp only [ValMoebius, Moebius.a_eq, Moebius.b_eq, Moebius.c_eq, Moebius.d_eq, Moebius.chain, dotM2, Moebius.new_00, Moebius.new_01, Moebius.new_10, Moebius.new_11] at *
    exact ⟨hA, hB, hC, hD⟩
  · simp only [Within, moduli, Moebius.a_eq, Moebius.b_eq, Moebius.c_eq, Moebius.d_eq, Moebius.chain, dotM2, Moebius.new_00, Moebius.new_01, Moebius.new_10, Moebius.new_11] at *
    exact ⟨eA, eB, eC, eD⟩

/-- `det`: error at most `16u (|a||d| + |b||c|)`. -/
theorem C110_det (m : Moebius (Cpx F)) (M : Moebius (Cpx ℝ)) (hm : ValMoebius m M) (h : Below M (2 ^ 38)) :
    ∃ V, ValC m.det V ∧ (V - (M.a * M.d - M.b * M.c)).norm ≤ 16 / 2 ^ 24 * (M.a.norm * M.d.norm + M.b.norm * M.c.norm) + 1 / 2 ^ 97 := by
  obtain ⟨a1, b1, c1, d1⟩ := hm
  obtain ⟨ra, rb, rc, rd⟩ := h
  simp only [cnorm_eq] at *
  obtain ⟨V, hV, eV⟩ := cdet (A := M.a.toC) (B := M.b.toC) (C := M.c.toC) (D := M.d.toC) a1 b1 c1 d1 ra rb rc rd
  refine ⟨ofC V, ?_, ?_⟩
  · rw [Moebius.det, det2]
    simp only [Moebius.a_eq, Moebius.b_eq, Moebius.c_eq, Moebius.d_eq] at hV
    exact valC_ofC hV
  · rw [toC_sub, toC_ofC, toC_sub, toC_mul, toC_mul]; exact eV

namespace F32
end F32

/-- `inv`: with `κ` the ratio of `|a||d| + |b||c|` and `|det|`, every coefficient of the inverse has a relative error of at most `(17 + 20κ) u`. -/
theorem C110_inv (m : Moebius (Cpx F)) (M : Moebius (Cpx ℝ)) (hm : ValMoebius m M) (h : Below M (2 ^ 17)) (hd : 1 / 2 ^ 36 ≤ M.det.norm) (κ : ℝ)
    (hκ : M.a.norm * M.d.norm + M.b.norm * M.c.norm ≤ κ * M.det.norm) (rκ : κ ≤ 2 ^ 9) :
    ∃ V, ValMoebius m.inv V ∧ Within V M.inv (moduli M.inv) ((17 + 20 * κ) / 2 ^ 24) (1 / 2 ^ 105) := by
  have up : (2:ℝ) ^ 17 ≤ 2 ^ 38 := by norm_num
  obtain ⟨Δ', hΔ', eΔ⟩ := C110_det m M hm ⟨h.1.trans up, h.2.1.trans up, h.2.2.1.trans up, h.2.2.2.trans up⟩
  obtain ⟨a1, b1, c1, d1⟩ := hm
  obtain ⟨ra, rb, rc, rd⟩ := h
  have e : m.inv.mat = m.mat.adj.divS m.det := Mat.inv_eq m.mat
  obtain ⟨g1, g2, g3, g4⟩ := adj2 m.mat
  obtain ⟨i1, i2, i3, i4⟩ := inv_toC M
  have hΔn : ‖M.det.toC‖ ≤ ‖M.a.toC‖ * ‖M.d.toC‖ + ‖M.b.toC‖ * ‖M.c.toC‖ := by
    rw [det_toC]; exact (norm_sub_le _ _).trans (by rw [norm_mul, norm_mul])
  have eΔ' : (Δ' - (M.a * M.d - M.b * M.c)).toC = Δ'.toC - M.det.toC := by rw [toC_sub, toC_sub, toC_mul, toC_mul, det_toC]
  simp only [cnorm_eq, eΔ'] at *
  have rK : ‖M.a.toC‖ * ‖M.d.toC‖ + ‖M.b.toC‖ * ‖M.c.toC‖ ≤ 2 ^ 36 := by
    calc _ ≤ (2:ℝ) ^ 17 * 2 ^ 17 + 2 ^ 17 * 2 ^ 17 := by gcongr
      _ ≤ _ := by norm_num
  have step : ∀ {x : Cpx F} {X : ℂ}, IsC x X → ‖X‖ ≤ 2 ^ 17 → ∃ V, IsC ((0 + x * 1) / m.det) V ∧
      ‖V - X / M.det.toC‖ ≤ (17 + 20 * κ) / 2 ^ 24 * ‖X / M.det.toC‖ + 1 / 2 ^ 105 := by
    intro x X hx rX
    obtain ⟨X', hX', eX⟩ := cminor hx (rX.trans (by norm_num))
    exact cquot (Δ' := Δ'.toC) hX' eX hΔ' eΔ (rX.trans (by norm_num)) hd hΔn rK hκ rκ
  have stepn : ∀ {x : Cpx F} {X : ℂ}, IsC x X → ‖X‖ ≤ 2 ^ 17 → ∃ V, IsC (-(0 + x * 1) / m.det) V ∧
      ‖V - -X / M.det.toC‖ ≤ (17 + 20 * κ) / 2 ^ 24 * ‖-X / M.det.toC‖ + 1 / 2 ^ 105 := by
    intro x X hx rX
    obtain ⟨X', hX', eX⟩ := cminor hx (rX.trans (by norm_num))
    refine cquot (X := -X) (Δ' := Δ'.toC) (isC_neg hX') ?_ hΔ' eΔ (by rw [norm_neg]; exact rX.trans (by norm_num)) hd hΔn rK hκ rκ
    rw [norm_neg, show -X' - -X = -(X' - X) by ring, norm_neg]; exact eX
  obtain ⟨A, hA, eA⟩ := step (X := M.d.toC) d1 rd
  obtain ⟨B, hB, eB⟩ := stepn (X := M.b.toC) b1 rb
  obtain ⟨C, hC, eC⟩ := stepn (X := M.c.toC) c1 rc
  obtain ⟨D, hD, eD⟩ := step (X := M.a.toC) a1 ra
  refine ⟨.new (ofC A) (ofC B) (ofC C) (ofC D), ?_, ?_⟩
  · simp only [ValMoebius, Moebius.a_eq, Moebius.b_eq, Moebius.c_eq, Moebius.d_eq, e, Mat.getElem_divS, g1, g2, g3, g4, Moebius.new_00, Moebius.new_01,
      Moebius.new_10, Moebius.new_11] at *
    exact ⟨valC_ofC hA, valC_ofC hB, valC_ofC hC, valC_ofC hD⟩
  · simp only [Within, moduli, Moebius.a_eq, Moebius.b_eq, Moebius.c_eq, Moebius.d_eq, Moebius.new_00, Moebius.new_01, Moebius.new_10, Moebius.new_11,
      cnorm_eq, toC_sub, toC_ofC] at *
    rw [i1, i2, i3, i4]
    exact ⟨eA, eB, eC, eD⟩

/-- `normalize`: every coefficient has a relative error of at most `(17 + 20κ) u`. -/
theorem C110_normalize (m : Moebius (Cpx F)) (M : Moebius (Cpx ℝ)) (hm : ValMoebius m M) (h : Below M (2 ^ 17)) (hd : 1 / 2 ^ 36 ≤ M.det.norm) (κ : ℝ)
    (hκ : M.a.norm * M.d.norm + M.b.norm * M.c.norm ≤ κ * M.det.norm) (rκ : κ ≤ 2 ^ 9) :
    ∃ V, ValMoebius m.normalize V ∧ Within V M.normalize (moduli M.normalize) ((17 + 20 * κ) / 2 ^ 24) (1 / 2 ^ 105) := by
  have up : (2:ℝ) ^ 17 ≤ 2 ^ 38 := by norm_num
  obtain ⟨Δ', hΔ', eΔ⟩ := C110_det m M hm ⟨h.1.trans up, h.2.1.trans up, h.2.2.1.trans up, h.2.2.2.trans up⟩
  obtain ⟨a1, b1, c1, d1⟩ := hm
  obtain ⟨ra, rb, rc, rd⟩ := h
  have hΔn : ‖M.det.toC‖ ≤ ‖M.a.toC‖ * ‖M.d.toC‖ + ‖M.b.toC‖ * ‖M.c.toC‖ := by
    rw [det_toC]; exact (norm_sub_le _ _).trans (by rw [norm_mul, norm_mul])
  have eΔ' : (Δ' - (M.a * M.d - M.b * M.c)).toC = Δ'.toC - M.det.toC := by rw [toC_sub, toC_sub, toC_mul, toC_mul, det_toC]
  simp only [cnorm_eq, eΔ'] at *
  have rK : ‖M.a.toC‖ * ‖M.d.toC‖ + ‖M.b.toC‖ * ‖M.c.toC‖ ≤ 2 ^ 36 := by
    calc _ ≤ (2:ℝ) ^ 17 * 2 ^ 17 + 2 ^ 17 * 2 ^ 17 := by gcongr
      _ ≤ _ := by norm_num
  have step : ∀ {x : Cpx F} {X : ℂ}, IsC x X → ‖X‖ ≤ 2 ^ 17 → ∃ V, IsC (x / m.det) V ∧
      ‖V - X / M.det.toC‖ ≤ (17 + 20 * κ) / 2 ^ 24 * ‖X / M.det.toC‖ + 1 / 2 ^ 105 := by
    intro x X hx rX
    exact cquot (Δ' := Δ'.toC) hx (by rw [sub_self, norm_zero]; positivity) hΔ' eΔ (rX.trans (by norm_num)) hd hΔn rK hκ rκ
  obtain ⟨A, hA, eA⟩ := step (X := M.a.toC) a1 ra
  obtain ⟨B, hB, eB⟩ := step (X := M.b.toC) b1 rb
  obtain ⟨C, hC, eC⟩ := step (X := M.c.toC) c1 rc
  obtain ⟨D, hD, eD⟩ := step (X := M.d.toC) d1 rd
  refine ⟨.new (ofC A) (ofC B) (ofC C) (ofC D), ?_, ?_⟩
  · simp only [ValMoebius, Moebius.a_eq, Moebius.b_eq, Moebius.c_eq, Moebius.d_eq, Moebius.normalize, Mat.getElem_divS, Moebius.new_00, Moebius.new_01,
      Moebius.new_10, Moebius.new_11] at *
    exact ⟨valC_ofC hA, valC_ofC hB, valC_ofC hC, valC_ofC hD⟩
  · simp only [Within, moduli, Moebius.a_eq, Moebius.b_eq, Moebius.c_eq, Moebius.d_eq, Moebius.new_00, Moebius.new_01, Moebius.new_10, Moebius.new_11,
      Moebius.normalize, Mat.getElem_divS, cnorm_eq, toC_sub, toC_ofC, toC_div] at *
    exact ⟨eA, eB, eC, eD⟩
end Vecmat
