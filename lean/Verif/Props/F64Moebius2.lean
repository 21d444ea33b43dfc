import Verif.Lemmas.F64Moebius2
/-!
# C103 (continued): composition, determinant, normalization and inverse of Möbius transformations in double precision
-/
namespace Vecmat
open Spec Ieee F64
set_option exponentiation.threshold 3000
namespace F64
theorem toC_neg (P : Cpx ℝ) : (-P).toC = -P.toC := by apply Complex.ext <;> simp [Cpx.toC]
/-- A quotient by a computed determinant. -/
theorem cquot {x y : Cpx F} {X X' Δ Δ' : ℂ} {K κ : ℝ} (hx : IsC x X') (eX : ‖X' - X‖ ≤ 41 / 2 ^ 56 * ‖X‖ + 1 / 2 ^ 1071) (hy : IsC y Δ')
    (eY : ‖Δ' - Δ‖ ≤ 16 / 2 ^ 53 * K + 1 / 2 ^ 760) (rX : ‖X‖ ≤ 2 ^ 250) (hΔ : 1 / 2 ^ 250 ≤ ‖Δ‖) (hK : ‖Δ‖ ≤ K) (rK : K ≤ 2 ^ 250)
    (hκ : K ≤ κ * ‖Δ‖) (rκ : κ ≤ 2 ^ 38) : ∃ V, IsC (x / y) V ∧ ‖V - X / Δ‖ ≤ (17 + 20 * κ) / 2 ^ 53 * ‖X / Δ‖ + 1 / 2 ^ 700 := by
  have d0 : 0 < ‖Δ‖ := lt_of_lt_of_le (by positivity) hΔ
  have k0 : 0 < K := d0.trans_le hK
  have eY' : ‖Δ' - Δ‖ ≤ 41 / 2 ^ 56 * (16 / 5 * K) + 1 / 2 ^ 1071 := by
    have : (1:ℝ) / 2 ^ 760 ≤ 1 / 2 ^ 56 * K := by
      calc (1:ℝ) / 2 ^ 760 ≤ 1 / 2 ^ 56 * (1 / 2 ^ 250) := by norm_num
        _ ≤ _ := by gcongr; exact hΔ.trans hK
    have t0 : (0:ℝ) < 1 / 2 ^ 1071 := by positivity
    generalize (1:ℝ) / 2 ^ 1071 = t at *
    generalize (1:ℝ) / 2 ^ 760 = t' at *
    norm_num at *; linarith
  have t1 : (1:ℝ) / 2 ^ 1071 ≤ 1 / 2 ^ 1070 := by norm_num
  have hl : (1:ℝ) / 2 ^ 300 ≤ ‖Δ‖ := le_trans (by norm_num) hΔ
  have hS : ‖Δ‖ ≤ 16 / 5 * K := by linarith
  have hk : 16 / 5 * K ≤ 2 ^ 40 * ‖Δ‖ := by
    have : K ≤ 2 ^ 38 * ‖Δ‖ := hκ.trans (by gcongr)
    norm_num at *; linarith
  have r1 : ‖X‖ ≤ 2 ^ 300 := rX.trans (by norm_num)
  have r2 : 16 / 5 * K ≤ 2 ^ 300 := by
    calc _ ≤ (16 / 5 : ℝ) * 2 ^ 250 := by gcongr
      _ ≤ _ := by norm_num
  obtain ⟨a1, a2, a3⟩ := quot_range le_rfl r1 hl hS r2 hk (by positivity) t1 eX eY'
  obtain ⟨V, hV, eV⟩ := cdiv0 hx hy a1 a2 a3
  refine ⟨V, hV, ?_⟩
  have := quot_err (κ := 11) le_rfl hl hS hk (by positivity) t1 eX eY' (by norm_num) (by norm_num) (eV.trans (by gcongr; norm_num; norm_num))
  refine this.trans ?_
  gcongr
  rw [norm_div]
  have : K / ‖Δ‖ ≤ κ := by rw [div_le_iff₀ d0]; exact hκ
  have m0 : 0 ≤ ‖X‖ / ‖Δ‖ := by positivity
  calc _ = (17 * (‖X‖ / ‖Δ‖) + 96 / 5 * ((‖X‖ / ‖Δ‖) * (K / ‖Δ‖))) / 2 ^ 53 := by ring
    _ ≤ (17 * (‖X‖ / ‖Δ‖) + 20 * ((‖X‖ / ‖Δ‖) * κ)) / 2 ^ 53 := by
      gcongr
      norm_num
    _ = _ := by ring
end F64

/-- `chain`: every coefficient of the composition has an error of at most `10u` times the same coefficient of the product of the matrices of moduli. -/
theorem C103_chain (m n : Moebius (Cpx F)) (M N : Moebius (Cpx ℝ)) (hm : ValMoebius m M) (hn : ValMoebius n N) (h₁ : Below M (2 ^ 300)) (h₂ : Below N (2 ^ 300)) :
    ∃ V, ValMoebius (m.chain n) V ∧ Within V (M.chain N) ((moduli M).chain (moduli N)) (10 / 2 ^ 53) (1 / 2 ^ 1070) := by
  have step : ∀ {a b x y : Cpx F} {A B X Y : Cpx ℝ}, ValC a A → ValC b B → ValC x X → ValC y Y → A.norm ≤ 2 ^ 300 → B.norm ≤ 2 ^ 300 → X.norm ≤ 2 ^ 300 →
      Y.norm ≤ 2 ^ 300 → ∃ V, ValC (a * x + b * y) V ∧ (V - (A * X + B * Y)).norm ≤ 10 / 2 ^ 53 * (A.norm * X.norm + B.norm * Y.norm) + 1 / 2 ^ 1070 := by
    intro a b x y A B X Y ha hb hx hy r1 r2 r3 r4
    simp only [cnorm_eq] at *
    obtain ⟨V, hV, eV⟩ := cdot2 (A := A.toC) (B := B.toC) (X := X.toC) (Y := Y.toC) ha hb hx hy (by
      calc _ ≤ (2:ℝ) ^ 300 * 2 ^ 300 + 2 ^ 300 * 2 ^ 300 := by gcongr
        _ ≤ _ := by norm_num)
    exact ⟨ofC V, valC_ofC hV, by rw [toC_sub, toC_ofC, toC_add, toC_mul, toC_mul]; exact eV⟩
  obtain ⟨a1, b1, c1, d1⟩ := hm
  obtain ⟨a2, b2, c2, d2⟩ := hn
  obtain ⟨ra1, rb1, rc1, rd1⟩ := h₁
  obtain ⟨ra2, rb2, rc2, rd2⟩ := h₂
  obtain ⟨A, hA, eA⟩ := step a1 b1 a2 c2 ra1 rb1 ra2 rc2
  obtain ⟨B, hB, eB⟩ := step a1 b1 b2 d2 ra1 rb1 rb2 rd2
  obtain ⟨C, hC, eC⟩ := step c1 d1 a2 c2 rc1 rd1 ra2 rc2
  obtain ⟨D, hD, eD⟩ := step c1 d1 b2 d2 rc1 rd1 rb2 rd2
  refine ⟨.new A B C D, ?_, ?_⟩
  · simp only [ValMoebius, Moebius.a_eq, Moebius.b_eq, Moebius.c_eq, Moebius.d_eq, Moebius.chain, dotM2, Moebius.new_00, Moebius.new_01, Moebius.new_10, Moebius.new_11] at *
    exact ⟨hA, hB, hC, hD⟩
  · simp only [Within, moduli, Moebius.a_eq, Moebius.b_eq, Moebius.c_eq, Moebius.d_eq, Moebius.chain, dotM2, Moebius.new_00, Moebius.new_01, Moebius.new_10, Moebius.new_11] at *
    exact ⟨eA, eB, eC, eD⟩

/-- `det`: error at most `16u (|a||d| + |b||c|)`. -/
theorem C103_det (m : Moebius (Cpx F)) (M : Moebius (Cpx ℝ)) (hm : ValMoebius m M) (h : Below M (2 ^ 300)) :
    ∃ V, ValC m.det V ∧ (V - (M.a * M.d - M.b * M.c)).norm ≤ 16 / 2 ^ 53 * (M.a.norm * M.d.norm + M.b.norm * M.c.norm) + 1 / 2 ^ 760 := by
  obtain ⟨a1, b1, c1, d1⟩ := hm
  obtain ⟨ra, rb, rc, rd⟩ := h
  simp only [cnorm_eq] at *
  obtain ⟨V, hV, eV⟩ := cdet (A := M.a.toC) (B := M.b.toC) (C := M.c.toC) (D := M.d.toC) a1 b1 c1 d1 ra rb rc rd
  refine ⟨ofC V, ?_, ?_⟩
  · rw [Moebius.det, det2]
    simp only [Moebius.a_eq, Moebius.b_eq, Moebius.c_eq, Moebius.d_eq] at hV
    exact valC_ofC hV
  · rw [toC_sub, toC_ofC, toC_sub, toC_mul, toC_mul]; exact eV

namespace F64
theorem det_toC (M : Moebius (Cpx ℝ)) : M.det.toC = M.a.toC * M.d.toC - M.b.toC * M.c.toC := by
  rw [(C51_det_formula M).1, toC_sub, toC_mul, toC_mul]
theorem inv_toC (M : Moebius (Cpx ℝ)) : M.inv.a.toC = M.d.toC / M.det.toC ∧ M.inv.b.toC = -M.b.toC / M.det.toC ∧ M.inv.c.toC = -M.c.toC / M.det.toC ∧
    M.inv.d.toC = M.a.toC / M.det.toC := by
  have e : M.inv.mat = M.mat.adj.divS M.det := Mat.inv_eq M.mat
  obtain ⟨h1, h2, h3, h4⟩ := adj2 M.mat
  simp only [Moebius.a_eq, Moebius.b_eq, Moebius.c_eq, Moebius.d_eq, e, Mat.getElem_divS, h1, h2, h3, h4, toC_div, toC_neg, zero_add, mul_one, and_self]
end F64

/-- `inv`: with `κ` the ratio of `|a||d| + |b||c|` and `|det|`, every coefficient of the inverse has a relative error of at most `(17 + 20κ) u`. -/
theorem C103_inv (m : Moebius (Cpx F)) (M : Moebius (Cpx ℝ)) (hm : ValMoebius m M) (h : Below M (2 ^ 120)) (hd : 1 / 2 ^ 250 ≤ M.det.norm) (κ : ℝ)
    (hκ : M.a.norm * M.d.norm + M.b.norm * M.c.norm ≤ κ * M.det.norm) (rκ : κ ≤ 2 ^ 38) :
    ∃ V, ValMoebius m.inv V ∧ Within V M.inv (moduli M.inv) ((17 + 20 * κ) / 2 ^ 53) (1 / 2 ^ 700) := by
  have up : (2:ℝ) ^ 120 ≤ 2 ^ 300 := by norm_num
  obtain ⟨Δ', hΔ', eΔ⟩ := C103_det m M hm ⟨h.1.trans up, h.2.1.trans up, h.2.2.1.trans up, h.2.2.2.trans up⟩
  obtain ⟨a1, b1, c1, d1⟩ := hm
  obtain ⟨ra, rb, rc, rd⟩ := h
  have e : m.inv.mat = m.mat.adj.divS m.det := Mat.inv_eq m.mat
  obtain ⟨g1, g2, g3, g4⟩ := adj2 m.mat
  obtain ⟨i1, i2, i3, i4⟩ := inv_toC M
  have hΔn : ‖M.det.toC‖ ≤ ‖M.a.toC‖ * ‖M.d.toC‖ + ‖M.b.toC‖ * ‖M.c.toC‖ := by
    rw [det_toC]; exact (norm_sub_le _ _).trans (by rw [norm_mul, norm_mul])
  have eΔ' : (Δ' - (M.a * M.d - M.b * M.c)).toC = Δ'.toC - M.det.toC := by rw [toC_sub, toC_sub, toC_mul, toC_mul, det_toC]
  simp only [cnorm_eq, eΔ'] at *
  have rK : ‖M.a.toC‖ * ‖M.d.toC‖ + ‖M.b.toC‖ * ‖M.c.toC‖ ≤ 2 ^ 250 := by
    calc _ ≤ (2:ℝ) ^ 120 * 2 ^ 120 + 2 ^ 120 * 2 ^ 120 := by gcongr
      _ ≤ _ := by norm_num
  have step : ∀ {x : Cpx F} {X : ℂ}, IsC x X → ‖X‖ ≤ 2 ^ 120 → ∃ V, IsC ((0 + x * 1) / m.det) V ∧
      ‖V - X / M.det.toC‖ ≤ (17 + 20 * κ) / 2 ^ 53 * ‖X / M.det.toC‖ + 1 / 2 ^ 700 := by
    intro x X hx rX
    obtain ⟨X', hX', eX⟩ := cminor hx (rX.trans (by norm_num))
    exact cquot (Δ' := Δ'.toC) hX' eX hΔ' eΔ (rX.trans (by norm_num)) hd hΔn rK hκ rκ
  have stepn : ∀ {x : Cpx F} {X : ℂ}, IsC x X → ‖X‖ ≤ 2 ^ 120 → ∃ V, IsC (-(0 + x * 1) / m.det) V ∧
      ‖V - -X / M.det.toC‖ ≤ (17 + 20 * κ) / 2 ^ 53 * ‖-X / M.det.toC‖ + 1 / 2 ^ 700 := by
    intro x X hx rX
    obtain ⟨X', hX', eX⟩ := cminor hx (rX.trans (by norm_num))
    refine cquot (X := -X) (Δ' := Δ'.toC) (isC_neg hX') ?_ hΔ' eΔ (by rw [norm_neg]; exact rX.trans (by norm_num)) hd hΔn rK hκ rκ
    rw [norm_neg, show -X' - -X = -(X' - X) by ring, norm_neg]; exact eX
  obtain ⟨A, hA, eA⟩ := step (X := M.d.toC) d1 rd
  obtain ⟨B, hB, eB⟩ := stepn (X := M.b.toC) b1 rb
  obtain ⟨C, hC, eC⟩ := stepn (X := M.c.toC) c1 rc
  obtain ⟨D, hD, eD⟩ := step (X := M.a.toC) a1 ra
  refine ⟨.new (ofC A) (ofC B) (ofC C) (ofC D), ?_, ?_⟩
  · simp only [ValMoebius, Moebius.a_eq, Moebius.b_eq, Moebius.c_eq, Moebius.d_eq, e, Mat.getElem_divS, g1, g2, g3, g4, Moebius.new_00, Moebius.new_01,
      Moebius.new_10, Moebius.new_11] at *
    exact ⟨valC_ofC hA, valC_ofC hB, valC_ofC hC, valC_ofC hD⟩
  · simp only [Within, moduli, Moebius.a_eq, Moebius.b_eq, Moebius.c_eq, Moebius.d_eq, Moebius.new_00, Moebius.new_01, Moebius.new_10, Moebius.new_11,
      cnorm_eq, toC_sub, toC_ofC] at *
    rw [i1, i2, i3, i4]
    exact ⟨eA, eB, eC, eD⟩

/-- `normalize`: every coefficient has a relative error of at most `(17 + 20κ) u`. -/
theorem C103_normalize (m : Moebius (Cpx F)) (M : Moebius (Cpx ℝ)) (hm : ValMoebius m M) (h : Below M (2 ^ 120)) (hd : 1 / 2 ^ 250 ≤ M.det.norm) (κ : ℝ)
    (hκ : M.a.norm * M.d.norm + M.b.norm * M.c.norm ≤ κ * M.det.norm) (rκ : κ ≤ 2 ^ 38) :
    ∃ V, ValMoebius m.normalize V ∧ Within V M.normalize (moduli M.normalize) ((17 + 20 * κ) / 2 ^ 53) (1 / 2 ^ 700) := by
  have up : (2:ℝ) ^ 120 ≤ 2 ^ 300 := by norm_num
  obtain ⟨Δ', hΔ', eΔ⟩ := C103_det m M hm ⟨h.1.trans up, h.2.1.trans up, h.2.2.1.trans up, h.2.2.2.trans up⟩
  obtain ⟨a1, b1, c1, d1⟩ := hm
  obtain ⟨ra, rb, rc, rd⟩ := h
  have hΔn : ‖M.det.toC‖ ≤ ‖M.a.toC‖ * ‖M.d.toC‖ + ‖M.b.toC‖ * ‖M.c.toC‖ := by
    rw [det_toC]; exact (norm_sub_le _ _).trans (by rw [norm_mul, norm_mul])
  have eΔ' : (Δ' - (M.a * M.d - M.b * M.c)).toC = Δ'.toC - M.det.toC := by rw [toC_sub, toC_sub, toC_mul, toC_mul, det_toC]
  simp only [cnorm_eq, eΔ'] at *
  have rK : ‖M.a.toC‖ * ‖M.d.toC‖ + ‖M.b.toC‖ * ‖M.c.toC‖ ≤ 2 ^ 250 := by
    calc _ ≤ (2:ℝ) ^ 120 * 2 ^ 120 + 2 ^ 120 * 2 ^ 120 := by gcongr
      _ ≤ _ := by norm_num
  have step : ∀ {x : Cpx F} {X : ℂ}, IsC x X → ‖X‖ ≤ 2 ^ 120 → ∃ V, IsC (x / m.det) V ∧
      ‖V - X / M.det.toC‖ ≤ (17 + 20 * κ) / 2 ^ 53 * ‖X / M.det.toC‖ + 1 / 2 ^ 700 := by
    intro x X hx rX
    exact cquot (Δ' := Δ'.toC) hx (by rw [sub_self, norm_zero]; positivity) hΔ' eΔ (rX.trans (by norm_num)) hd hΔn rK hκ rκ
  obtain ⟨A, hA, eA⟩ := step (X := M.a.toC) a1 ra
  obtain ⟨B, hB, eB⟩ := step (X := M.b.toC) b1 rb
  obtain ⟨C, hC, eC⟩ := step (X := M.c.toC) c1 rc
  obtain ⟨D, hD, eD⟩ := step (X := M.d.toC) d1 rd
  refine ⟨.new (ofC A) (ofC B) (ofC C) (ofC D), ?_, ?_⟩
  · simp only [ValMoebius, Moebius.a_eq, Moebius.b_eq, Moebius.c_eq, Moebius.d_eq, Moebius.normalize, Mat.getElem_divS, Moebius.new_00, Moebius.new_01,
      Moebius.new_10, Moebius.new_11] at *
    exact ⟨valC_ofC hA, valC_ofC hB, valC_ofC hC, valC_ofC hD⟩
  · simp only [Within, moduli, Moebius.a_eq, Moebius.b_eq, Moebius.c_eq, Moebius.d_eq, Moebius.new_00, Moebius.new_01, Moebius.new_10, Moebius.new_11,
      Moebius.normalize, Mat.getElem_divS, cnorm_eq, toC_sub, toC_ofC, toC_div] at *
    exact ⟨eA, eB, eC, eD⟩
end Vecmat
