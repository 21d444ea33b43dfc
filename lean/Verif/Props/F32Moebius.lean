import Verif.Lemmas.F32Moebius

/-!
# C110: Möbius transformations in single precision, for every input in range
-/
namespace Vecmat
open Spec Ieee F32
open F64 (abs_re_le abs_im_le complex_mix inH inH_re inH_imI inH_imJ inH_imK norm_inH toH_ofC join join_re join_imI join_imJ join_imK half₁ half₂ norm_halves norm_half₁ norm_half₂ half₁_mul half₂_mul inH_half toC_add toH_add)
set_option exponentiation.threshold 3000
namespace F32
/-- A perturbed dividend and a perturbed divisor stay in the range of the division. -/
theorem quot_range {D : Type*} [NormedDivisionRing D] {P Q P' Q' : D} {S₁ S₂ t : ℝ} (hP : ‖P‖ ≤ S₁) (h₁ : S₁ ≤ 2 ^ 38) (hQ : 1 / 2 ^ 38 ≤ ‖Q‖)
    (hS : ‖Q‖ ≤ S₂) (h₂ : S₂ ≤ 2 ^ 38) (hk : S₂ ≤ 2 ^ 11 * ‖Q‖) (ht : 0 ≤ t) (ht' : t ≤ 1 / 2 ^ 145) (e₁ : ‖P' - P‖ ≤ 41 / 2 ^ 27 * S₁ + t)
    (e₂ : ‖Q' - Q‖ ≤ 41 / 2 ^ 27 * S₂ + t) : ‖P'‖ ≤ 2 ^ 40 ∧ 1 / 2 ^ 40 ≤ ‖Q'‖ ∧ ‖Q'‖ ≤ 2 ^ 40 := by
  have nP : ‖P'‖ ≤ ‖P' - P‖ + ‖P‖ := by
    calc ‖P'‖ = ‖(P' - P) + P‖ := by congr 1; abel
      _ ≤ _ := norm_add_le _ _
  have nQ : ‖Q'‖ ≤ ‖Q' - Q‖ + ‖Q‖ := by
    calc ‖Q'‖ = ‖(Q' - Q) + Q‖ := by congr 1; abel
      _ ≤ _ := norm_add_le _ _
  have nQ' : ‖Q‖ ≤ ‖Q'‖ + ‖Q' - Q‖ := by
    calc ‖Q‖ = ‖Q' - (Q' - Q)‖ := by congr 1; abel
      _ ≤ _ := norm_sub_le _ _
  refine ⟨?_, ?_, ?_⟩
  · calc ‖P'‖ ≤ (41 / 2 ^ 27 * 2 ^ 38 + 1 / 2 ^ 145) + 2 ^ 38 := nP.trans (add_le_add (e₁.trans (by gcongr)) (hP.trans h₁))
      _ ≤ _ := by norm_num
  · have a : t ≤ 1 / 2 ^ 8 * ‖Q‖ := by
      calc t ≤ 1 / 2 ^ 145 := ht'
        _ ≤ 1 / 2 ^ 8 * (1 / 2 ^ 38) := by norm_num
        _ ≤ _ := by gcongr
    have b : ‖Q' - Q‖ ≤ 41 / 2 ^ 27 * (2 ^ 11 * ‖Q‖) + 1 / 2 ^ 8 * ‖Q‖ := e₂.trans (by gcongr)
    have c : 1 / 2 * ‖Q‖ ≤ ‖Q'‖ := by
      have q0 := norm_nonneg Q
      norm_num at b; linarith
    calc (1:ℝ) / 2 ^ 40 ≤ 1 / 2 * (1 / 2 ^ 38) := by norm_num
      _ ≤ 1 / 2 * ‖Q‖ := by gcongr
      _ ≤ _ := c
  · calc ‖Q'‖ ≤ (41 / 2 ^ 27 * 2 ^ 38 + 1 / 2 ^ 145) + 2 ^ 38 := nQ.trans (add_le_add (e₂.trans (by gcongr)) (hS.trans h₂))
      _ ≤ _ := by norm_num
end F32

/-- `apply` on a complex point `z` away from the pole (`|c z + d|` is not smaller than `2^-11 (|c||z| + |d|)`): the result is finite, and its
error is at most `17u (|a||z| + |b|) + 6u |m(z)| (|c||z| + |d|)`, divided by `|c z + d|` (plus an underflow unit). -/
theorem C110_apply_complex (m : Moebius (Cpx F)) (M : Moebius (Cpx ℝ)) (z : Cpx F) (Z : Cpx ℝ) (hm : ValMoebius m M) (hz : ValC z Z)
    (h₁ : upper M Z.norm ≤ 2 ^ 38) (h₂ : lower M Z.norm ≤ 2 ^ 38) (hl : 1 / 2 ^ 38 ≤ (M.c * Z + M.d).norm)
    (hk : lower M Z.norm ≤ 2 ^ 11 * (M.c * Z + M.d).norm) :
    ∃ V, ValC (m.apply z) V ∧ (V - M.apply Z).norm ≤
      (17 * upper M Z.norm + 6 * ((M.apply Z).norm * lower M Z.norm)) / (M.c * Z + M.d).norm / 2 ^ 24 + 1 / 2 ^ 105 := by
  obtain ⟨ha, hb, hc, hd⟩ := hm
  have hap : (M.apply Z).toC = (M.a.toC * Z.toC + M.b.toC) / (M.c.toC * Z.toC + M.d.toC) := by
    rw [(C48_apply_formula M Z 0).1, toC_div, toC_add, toC_add, toC_mul, toC_mul]
  simp only [upper, lower, cnorm_eq, toC_add, toC_mul, toC_sub, hap] at *
  obtain ⟨P', hP', e₁⟩ := caff (A := M.a.toC) (B := M.b.toC) (Z := Z.toC) ha hb hz (h₁.trans (by norm_num))
  obtain ⟨Q', hQ', e₂⟩ := caff (A := M.c.toC) (B := M.d.toC) (Z := Z.toC) hc hd hz (h₂.trans (by norm_num))
  have nP : ‖M.a.toC * Z.toC + M.b.toC‖ ≤ ‖M.a.toC‖ * ‖Z.toC‖ + ‖M.b.toC‖ := (norm_add_le _ _).trans (by rw [norm_mul])
  have nQ : ‖M.c.toC * Z.toC + M.d.toC‖ ≤ ‖M.c.toC‖ * ‖Z.toC‖ + ‖M.d.toC‖ := (norm_add_le _ _).trans (by rw [norm_mul])
  have t1 : (1:ℝ) / 2 ^ 146 ≤ 1 / 2 ^ 145 := by norm_num
  obtain ⟨r1, r2, r3⟩ := quot_range nP h₁ hl nQ h₂ hk (by positivity) t1 e₁ e₂
  obtain ⟨V, hV, eV⟩ := cdiv0 hP' hQ' r1 r2 r3
  refine ⟨ofC V, valC_ofC hV, ?_⟩
  have := quot_err (κ := 11) nP hl nQ hk (by positivity) t1 e₁ e₂ (by norm_num) (by norm_num) (eV.trans (by gcongr; norm_num; norm_num))
  rw [toC_ofC]
  norm_num only at this ⊢
  exact this
/-- `apply` on a quaternion point. -/
theorem C110_apply_quaternion (m : Moebius (Cpx F)) (M : Moebius (Cpx ℝ)) (q : Quat F) (Q : Quat ℝ) (hm : ValMoebius m M) (hq : ValQ q Q)
    (h₁ : upper M Q.norm ≤ 2 ^ 38) (h₂ : lower M Q.norm ≤ 2 ^ 38) (hl : 1 / 2 ^ 38 ≤ (M.c * Q + M.d).norm)
    (hk : lower M Q.norm ≤ 2 ^ 11 * (M.c * Q + M.d).norm) :
    ∃ V, ValQ (m.apply q) V ∧ (V - M.apply Q).norm ≤
      (24 * upper M Q.norm + 6 * ((M.apply Q).norm * lower M Q.norm)) / (M.c * Q + M.d).norm / 2 ^ 24 + 1 / 2 ^ 105 := by
  obtain ⟨ha, hb, hc, hd⟩ := hm
  have hap : (M.apply Q).toH = (inH M.a.toC * Q.toH + inH M.b.toC) / (inH M.c.toC * Q.toH + inH M.d.toC) := by
    rw [(C48_apply_formula M 0 Q).2, toH_div, toH_add, toH_add, toH_mul, toH_mul, toH_ofC, toH_ofC, toH_ofC, toH_ofC]
  have hden : (M.c * Q + M.d).toH = inH M.c.toC * Q.toH + inH M.d.toC := by
    rw [Quat.hAdd_C, Quat.hMul_C, toH_add, toH_mul, toH_ofC, toH_ofC]
  simp only [upper, lower, cnorm_eq, norm_eq, toH_sub, hap, hden] at *
  obtain ⟨P', hP', e₁⟩ := qaff (A := M.a.toC) (B := M.b.toC) (Q := Q.toH) ha hb hq (h₁.trans (by norm_num))
  obtain ⟨Q', hQ', e₂⟩ := qaff (A := M.c.toC) (B := M.d.toC) (Q := Q.toH) hc hd hq (h₂.trans (by norm_num))
  have nP : ‖inH M.a.toC * Q.toH + inH M.b.toC‖ ≤ ‖M.a.toC‖ * ‖Q.toH‖ + ‖M.b.toC‖ := (norm_add_le _ _).trans (by rw [norm_mul, norm_inH, norm_inH])
  have nQ : ‖inH M.c.toC * Q.toH + inH M.d.toC‖ ≤ ‖M.c.toC‖ * ‖Q.toH‖ + ‖M.d.toC‖ := (norm_add_le _ _).trans (by rw [norm_mul, norm_inH, norm_inH])
  obtain ⟨r1, r2, r3⟩ := quot_range nP h₁ hl nQ h₂ hk (by positivity) le_rfl e₁ e₂
  obtain ⟨V, hV, eV⟩ := qdiv0 hP' hQ' r1 r2 r3
  refine ⟨ofH V, valQ_ofH hV, ?_⟩
  have := quot_err (κ := 18) nP hl nQ hk (by positivity) le_rfl e₁ e₂ (by norm_num) (by norm_num) (eV.trans (by gcongr; norm_num; norm_num))
  rw [toH_ofH]
  norm_num only at this ⊢
  exact this
end Vecmat
