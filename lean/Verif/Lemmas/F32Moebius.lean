import Verif.Props.F32Rotation
import Verif.Props.F64MoebiusDeriv

/-! # Sums, affine expressions and quotients of `f32` complex numbers and quaternions -/
namespace Vecmat
open Spec Ieee
open F64 (abs_re_le abs_im_le complex_mix inH inH_re inH_imI inH_imJ inH_imK norm_inH toH_ofC join join_re join_imI join_imJ join_imK half₁ half₂ norm_halves norm_half₁ norm_half₂ half₁_mul half₂_mul inH_half)
set_option exponentiation.threshold 3000
namespace F32
/-- One addition. -/
theorem add_comp {a b : F} {x y : ℝ} (ha : a.toReal? = some x) (hb : b.toReal? = some y) (h : |x + y| ≤ 2 ^ 120) :
    ∃ r, (a + b).toReal? = some r ∧ |r - (x + y)| ≤ 1 / 2 ^ 24 * |x + y| + 1 / 2 ^ 150 := by
  have e := near_err_add (φ := Fmt.f32) (x + y)
  rw [u_eq, tiny_eq] at e
  have hf : |Fmt.f32.near (x + y)| < huge Fmt.f32 := by
    rw [huge_eq]
    calc _ = |(Fmt.f32.near (x + y) - (x + y)) + (x + y)| := by congr 1; ring
      _ ≤ _ := abs_add_le _ _
      _ ≤ (1 / 2 ^ 24 * 2 ^ 120 + 1 / 2 ^ 150) + 2 ^ 120 := by
        refine add_le_add (e.trans ?_) h
        gcongr
      _ < _ := by norm_num
  exact ⟨_, val_add_iff.2 ⟨x, y, ha, hb, rfl, hf⟩, e⟩
/-- Sum of complex numbers. -/
theorem cadd {z w : Cpx F} {Z W : ℂ} (hz : IsC z Z) (hw : IsC w W) (h : ‖Z + W‖ ≤ 2 ^ 120) :
    ∃ V, IsC (z + w) V ∧ ‖V - (Z + W)‖ ≤ 1 / 2 ^ 24 * ‖Z + W‖ + 1 / 2 ^ 149 := by
  obtain ⟨a, ha, ea⟩ := add_comp hz.1 hw.1 ((abs_re_le (Z + W)).trans h)
  obtain ⟨b, hb, eb⟩ := add_comp hz.2 hw.2 ((abs_im_le (Z + W)).trans h)
  refine ⟨⟨a, b⟩, ⟨by simpa using ha, by simpa using hb⟩, ?_⟩
  have := complex_mix (V := ⟨a, b⟩) (Z := Z + W) (by positivity) (by positivity) ea eb
  refine this.trans (le_of_eq ?_)
  rw [show (2:ℝ) ^ 150 = 2 * 2 ^ 149 by ring]; field_simp
/-- `a z + b`. -/
theorem caff {a b z : Cpx F} {A B Z : ℂ} (ha : IsC a A) (hb : IsC b B) (hz : IsC z Z) (h : ‖A‖ * ‖Z‖ + ‖B‖ ≤ 2 ^ 108) :
    ∃ V, IsC (a * z + b) V ∧ ‖V - (A * Z + B)‖ ≤ 41 / 2 ^ 27 * (‖A‖ * ‖Z‖ + ‖B‖) + 1 / 2 ^ 146 := by
  have hp : 0 ≤ ‖A‖ * ‖Z‖ := by positivity
  have hB := norm_nonneg B
  obtain ⟨W, hW, eW⟩ := cmul ha hz ((le_add_of_nonneg_right hB).trans (h.trans (by norm_num)))
  have n : ‖W + B‖ ≤ (1 + 4 / 2 ^ 24) * (‖A‖ * ‖Z‖ + ‖B‖) + 1 / 2 ^ 147 := by
    calc ‖W + B‖ = ‖(W - A * Z) + A * Z + B‖ := by congr 1; ring
      _ ≤ ‖W - A * Z‖ + ‖A * Z‖ + ‖B‖ := norm_add₃_le
      _ ≤ (4 / 2 ^ 24 * (‖A‖ * ‖Z‖) + 1 / 2 ^ 147) + ‖A‖ * ‖Z‖ + ‖B‖ := by rw [norm_mul]; gcongr
      _ ≤ _ := by
        generalize 1 / (2:ℝ) ^ 147 = t
        norm_num; linarith
  obtain ⟨V, hV, eV⟩ := cadd hW hb (n.trans (by
    calc _ ≤ (1 + 4 / 2 ^ 24 : ℝ) * 2 ^ 108 + 1 / 2 ^ 147 := by gcongr
      _ ≤ _ := by norm_num))
  refine ⟨V, hV, ?_⟩
  calc ‖V - (A * Z + B)‖ = ‖(V - (W + B)) + (W - A * Z)‖ := by congr 1; ring
    _ ≤ _ := norm_add_le _ _
    _ ≤ (1 / 2 ^ 24 * ((1 + 4 / 2 ^ 24) * (‖A‖ * ‖Z‖ + ‖B‖) + 1 / 2 ^ 147) + 1 / 2 ^ 149) + (4 / 2 ^ 24 * (‖A‖ * ‖Z‖) + 1 / 2 ^ 147) :=
      add_le_add (eV.trans (by gcongr)) eW
    _ ≤ _ := by
      rw [show (2:ℝ) ^ 147 = 2 * 2 ^ 146 by ring, show (2:ℝ) ^ 149 = 8 * 2 ^ 146 by ring, one_div_mul_eq_div, one_div (2 * _), one_div (8 * _), mul_inv, mul_inv]
      rw [← one_div ((2:ℝ) ^ 146)]
      have : (0:ℝ) < 1 / 2 ^ 146 := by positivity
      generalize 1 / (2:ℝ) ^ 146 = t at *
      norm_num; linarith
/-- Quotient, without a lower bound on the dividend. -/
theorem cdiv0 {p q : Cpx F} {P Q : ℂ} (hp : IsC p P) (hq : IsC q Q) (pr : ‖P‖ ≤ 2 ^ 40)
    (hl : 1 / 2 ^ 40 ≤ ‖Q‖) (hr : ‖Q‖ ≤ 2 ^ 40) : ∃ V, IsC (p / q) V ∧ ‖V - P / Q‖ ≤ 11 / 2 ^ 24 * (‖P‖ / ‖Q‖) + 1 / 2 ^ 147 := by
  obtain ⟨I, hI, eI⟩ := cinv hq hl hr
  have hQ : 0 < ‖Q‖ := lt_of_lt_of_le (by positivity) hl
  have nI : ‖I‖ ≤ (1 + 1 / 2 ^ 21) * (1 / ‖Q‖) := by
    calc ‖I‖ = ‖(I - Q⁻¹) + Q⁻¹‖ := by congr 1; abel
      _ ≤ _ := norm_add_le _ _
      _ ≤ 8 / 2 ^ 24 * (1 / ‖Q‖) + 1 / ‖Q‖ := by
        rw [norm_inv, ← one_div ‖Q‖]; gcongr; refine eI.trans ?_; gcongr; norm_num
      _ = _ := by ring
  have hm : ‖P‖ * ‖I‖ ≤ (1 + 1 / 2 ^ 21) * (‖P‖ / ‖Q‖) := by
    calc ‖P‖ * ‖I‖ ≤ ‖P‖ * ((1 + 1 / 2 ^ 21) * (1 / ‖Q‖)) := by gcongr
      _ = _ := by ring
  have hq2 : ‖P‖ / ‖Q‖ ≤ 2 ^ 80 := by
    calc _ ≤ (2:ℝ) ^ 40 / (1 / 2 ^ 40) := by gcongr
      _ = _ := by norm_num
  obtain ⟨V, hV, eV⟩ := cmul hp hI (hm.trans (by
    calc _ ≤ (1 + 1 / 2 ^ 21 : ℝ) * 2 ^ 80 := by gcongr
      _ ≤ _ := by norm_num))
  refine ⟨V, hV, ?_⟩
  have e2 : ‖P * I - P / Q‖ ≤ 6 / 2 ^ 24 * (‖P‖ / ‖Q‖) := by
    rw [div_eq_mul_inv, ← mul_sub, norm_mul]
    calc _ ≤ ‖P‖ * (6 / 2 ^ 24 * (1 / ‖Q‖)) := by gcongr
      _ = _ := by ring
  calc ‖V - P / Q‖ = ‖(V - P * I) + (P * I - P / Q)‖ := by congr 1; ring
    _ ≤ _ := norm_add_le _ _
    _ ≤ (4 / 2 ^ 24 * (‖P‖ * ‖I‖) + 1 / 2 ^ 147) + 6 / 2 ^ 24 * (‖P‖ / ‖Q‖) := add_le_add eV e2
    _ ≤ (4 / 2 ^ 24 * ((1 + 1 / 2 ^ 21) * (‖P‖ / ‖Q‖)) + 1 / 2 ^ 147) + 6 / 2 ^ 24 * (‖P‖ / ‖Q‖) := by gcongr
    _ ≤ _ := by
      have : 0 ≤ ‖P‖ / ‖Q‖ := by positivity
      generalize ‖P‖ / ‖Q‖ = m at *
      generalize 1 / (2:ℝ) ^ 147 = t
      norm_num; linarith
/-- The quotient of two perturbed numbers. -/
theorem quot_err {D : Type*} [NormedDivisionRing D] {P Q P' Q' V : D} {S₁ S₂ t κ : ℝ} (hP : ‖P‖ ≤ S₁) (hQ : 1 / 2 ^ 38 ≤ ‖Q‖) (hS : ‖Q‖ ≤ S₂)
    (hk : S₂ ≤ 2 ^ 11 * ‖Q‖) (ht : 0 ≤ t) (ht' : t ≤ 1 / 2 ^ 145) (e₁ : ‖P' - P‖ ≤ 41 / 2 ^ 27 * S₁ + t) (e₂ : ‖Q' - Q‖ ≤ 41 / 2 ^ 27 * S₂ + t)
    (hκ : 0 ≤ κ) (hκ' : κ ≤ 20) (hV : ‖V - P' / Q'‖ ≤ κ / 2 ^ 24 * (‖P'‖ / ‖Q'‖) + t) :
    ‖V - P / Q‖ ≤ ((κ + 6) * S₁ + 6 * (‖P / Q‖ * S₂)) / ‖Q‖ / 2 ^ 24 + 1 / 2 ^ 105 := by
  have q0 : 0 < ‖Q‖ := lt_of_lt_of_le (by positivity) hQ
  have s1 : 0 ≤ S₁ := (norm_nonneg _).trans hP
  have s2 : 0 < S₂ := q0.trans_le hS
  have e₂' : ‖Q' - Q‖ ≤ 42 / 2 ^ 27 * S₂ := by
    have : t ≤ 1 / 2 ^ 27 * S₂ := by
      calc t ≤ 1 / 2 ^ 145 := ht'
        _ ≤ 1 / 2 ^ 27 * (1 / 2 ^ 38) := by norm_num
        _ ≤ _ := by gcongr; exact hQ.trans hS
    linarith
  have hb : ‖Q' - Q‖ ≤ 1 / 2 ^ 10 * ‖Q‖ := by
    calc _ ≤ 42 / 2 ^ 27 * (2 ^ 11 * ‖Q‖) := e₂'.trans (by gcongr)
      _ ≤ _ := by norm_num; linarith
  have hQ' : (1 - 1 / 2 ^ 10) * ‖Q‖ ≤ ‖Q'‖ := by
    have : ‖Q‖ ≤ ‖Q'‖ + ‖Q' - Q‖ := by
      calc ‖Q‖ = ‖Q' - (Q' - Q)‖ := by congr 1; abel
        _ ≤ _ := norm_sub_le _ _
    linarith
  have q0' : 0 < ‖Q'‖ := lt_of_lt_of_le (mul_pos (by norm_num) q0) hQ'
  have inv' : 1 / ‖Q'‖ ≤ (1 + 1 / 2 ^ 9) * (1 / ‖Q‖) := by
    rw [mul_one_div, div_le_div_iff₀ q0' q0]
    nlinarith
  have nP : ‖P'‖ ≤ (1 + 41 / 2 ^ 27) * S₁ + t := by
    calc ‖P'‖ = ‖(P' - P) + P‖ := by congr 1; abel
      _ ≤ _ := norm_add_le _ _
      _ ≤ _ := by linarith
  have hQn : Q ≠ 0 := norm_pos_iff.1 q0
  have hQn' : Q' ≠ 0 := norm_pos_iff.1 q0'
  have split : P' / Q' - P / Q = (P' - P) * Q'⁻¹ - P * (Q⁻¹ * (Q' - Q) * Q'⁻¹) := by
    have : Q⁻¹ * (Q' - Q) * Q'⁻¹ = Q⁻¹ - Q'⁻¹ := by
      rw [mul_sub, sub_mul, inv_mul_cancel₀ hQn, one_mul, mul_assoc, mul_inv_cancel₀ hQn', mul_one]
    rw [this, div_eq_mul_inv, div_eq_mul_inv]; noncomm_ring
  have e3 : ‖P' / Q' - P / Q‖ ≤ (41 / 2 ^ 27 * S₁ + t) * (1 / ‖Q'‖) + ‖P / Q‖ * (42 / 2 ^ 27 * S₂) * (1 / ‖Q'‖) := by
    rw [split]
    refine (norm_sub_le _ _).trans (add_le_add ?_ ?_)
    · rw [norm_mul, norm_inv, one_div]; gcongr
    · rw [norm_mul, norm_mul, norm_mul, norm_inv, norm_inv, norm_div, one_div, div_eq_mul_inv]
      calc _ = ‖P‖ * ‖Q‖⁻¹ * ‖Q' - Q‖ * ‖Q'‖⁻¹ := by ring
        _ ≤ _ := by gcongr
  have e4 : ‖P'‖ / ‖Q'‖ ≤ ((1 + 41 / 2 ^ 27) * S₁ + t) * ((1 + 1 / 2 ^ 9) * (1 / ‖Q‖)) := by
    rw [div_eq_mul_one_div]; gcongr
  have e5 : ‖P' / Q' - P / Q‖ ≤ (41 / 2 ^ 27 * S₁ + t) * ((1 + 1 / 2 ^ 9) * (1 / ‖Q‖)) + ‖P / Q‖ * (42 / 2 ^ 27 * S₂) * ((1 + 1 / 2 ^ 9) * (1 / ‖Q‖)) :=
    e3.trans (by gcongr)
  have tq : t * (1 / ‖Q‖) ≤ 1 / 2 ^ 107 := by
    calc _ ≤ (1 / 2 ^ 145 : ℝ) * (1 / (1 / 2 ^ 38)) := by gcongr
      _ = _ := by norm_num
  calc ‖V - P / Q‖ = ‖(V - P' / Q') + (P' / Q' - P / Q)‖ := by congr 1; abel
    _ ≤ _ := norm_add_le _ _
    _ ≤ (κ / 2 ^ 24 * (((1 + 41 / 2 ^ 27) * S₁ + t) * ((1 + 1 / 2 ^ 9) * (1 / ‖Q‖))) + t) + ((41 / 2 ^ 27 * S₁ + t) * ((1 + 1 / 2 ^ 9) * (1 / ‖Q‖)) +
        ‖P / Q‖ * (42 / 2 ^ 27 * S₂) * ((1 + 1 / 2 ^ 9) * (1 / ‖Q‖))) := by
      refine add_le_add (hV.trans ?_) e5
      gcongr
    _ = (κ / 2 ^ 24 * ((1 + 41 / 2 ^ 27) * (1 + 1 / 2 ^ 9)) + 41 / 2 ^ 27 * (1 + 1 / 2 ^ 9)) * (S₁ * (1 / ‖Q‖)) +
        42 / 2 ^ 27 * (1 + 1 / 2 ^ 9) * (‖P / Q‖ * S₂ * (1 / ‖Q‖)) + ((κ / 2 ^ 24 + 1) * (1 + 1 / 2 ^ 9) * (t * (1 / ‖Q‖)) + t) := by ring
    _ ≤ (κ + 6) / 2 ^ 24 * (S₁ * (1 / ‖Q‖)) + 6 / 2 ^ 24 * (‖P / Q‖ * S₂ * (1 / ‖Q‖)) + 1 / 2 ^ 105 := by
      have a0 : 0 ≤ S₁ * (1 / ‖Q‖) := by positivity
      have b0 : 0 ≤ ‖P / Q‖ * S₂ * (1 / ‖Q‖) := by positivity
      refine add_le_add (add_le_add ?_ ?_) ?_
      · apply mul_le_mul_of_nonneg_right _ a0
        norm_num; linarith
      · apply mul_le_mul_of_nonneg_right _ b0
        norm_num
      · calc _ ≤ (20 / 2 ^ 24 + 1) * (1 + 1 / 2 ^ 9) * (1 / 2 ^ 107) + 1 / 2 ^ 145 := by gcongr
          _ ≤ (1:ℝ) / 2 ^ 105 := by norm_num
    _ = _ := by ring

/-! ## quaternion points, complex coefficients -/
/-- Complex number times quaternion. -/
theorem qcmul {c : Cpx F} {q : Quat F} {C : ℂ} {Q : Quaternion ℝ} (hc : IsC c C) (hq : IsQ q Q) (hr : ‖C‖ * ‖Q‖ ≤ 2 ^ 120) :
    ∃ V, IsQ (c * q) V ∧ ‖V - inH C * Q‖ ≤ 4 / 2 ^ 24 * (‖C‖ * ‖Q‖) + 1 / 2 ^ 146 := by
  obtain ⟨h0, h1, h2, h3⟩ := hq
  have i1 : IsC (Cpx.new q.w q.x) (half₁ Q) := ⟨h0, h1⟩
  have i2 : IsC (Cpx.new q.y q.z) (half₂ Q) := ⟨h2, h3⟩
  have b1 : ‖C‖ * ‖half₁ Q‖ ≤ ‖C‖ * ‖Q‖ := by gcongr; exact norm_half₁ Q
  have b2 : ‖C‖ * ‖half₂ Q‖ ≤ ‖C‖ * ‖Q‖ := by gcongr; exact norm_half₂ Q
  obtain ⟨V₁, k1, e1⟩ := cmul hc i1 (b1.trans hr)
  obtain ⟨V₂, k2, e2⟩ := cmul hc i2 (b2.trans hr)
  refine ⟨join V₁ V₂, ⟨?_, ?_, ?_, ?_⟩, ?_⟩
  · show (Quat.cMul c q).w.toReal? = some V₁.re
    rw [← k1.1]; simp [Quat.cMul]
  · show (Quat.cMul c q).x.toReal? = some V₁.im
    rw [← k1.2]; simp [Quat.cMul]
  · show (Quat.cMul c q).y.toReal? = some V₂.re
    rw [← k2.1]; simp [Quat.cMul]
  · show (Quat.cMul c q).z.toReal? = some V₂.im
    rw [← k2.2]; simp [Quat.cMul]
  · have x1 : half₁ (join V₁ V₂ - inH C * Q) = V₁ - C * half₁ Q := by
      rw [← half₁_mul]; apply Complex.ext <;> simp [half₁]
    have x2 : half₂ (join V₁ V₂ - inH C * Q) = V₂ - C * half₂ Q := by
      rw [← half₂_mul]; apply Complex.ext <;> simp [half₂]
    have n := norm_halves (join V₁ V₂ - inH C * Q)
    rw [x1, x2] at n
    have q1 := norm_half₁ Q
    have q2 := norm_half₂ Q
    have nq := norm_halves Q
    have c0 := norm_nonneg C
    have a0 := norm_nonneg (half₁ Q)
    have b0 := norm_nonneg (half₂ Q)
    have f1 := pow_le_pow_left₀ (norm_nonneg _) e1 2
    have f2 := pow_le_pow_left₀ (norm_nonneg _) e2 2
    apply le_of_sq_le_sq _ (by positivity)
    rw [n]
    refine (add_le_add f1 f2).trans ?_
    rw [show (1:ℝ) / 2 ^ 146 = 2 * (1 / 2 ^ 147) by rw [show (2:ℝ) ^ 147 = 2 * 2 ^ 146 by ring]; field_simp]
    have t0 : (0:ℝ) < 1 / 2 ^ 147 := by positivity
    have kk : (0:ℝ) ≤ 4 / 2 ^ 24 := by positivity
    generalize (1:ℝ) / 2 ^ 147 = t at *
    generalize (4:ℝ) / 2 ^ 24 = k at *
    have hab : ‖half₁ Q‖ + ‖half₂ Q‖ ≤ 2 * ‖Q‖ := by linarith
    have k0 : 0 ≤ k * ‖C‖ * t := by positivity
    have := mul_le_mul_of_nonneg_left hab k0
    have e : (k * (‖C‖ * ‖half₁ Q‖) + t) ^ 2 + (k * (‖C‖ * ‖half₂ Q‖) + t) ^ 2 =
      k ^ 2 * ‖C‖ ^ 2 * ‖Q‖ ^ 2 + 2 * (k * ‖C‖ * t * (‖half₁ Q‖ + ‖half₂ Q‖)) + 2 * t ^ 2 := by rw [nq]; ring
    rw [e]
    nlinarith [sq_nonneg t]
/-- Quaternion plus complex number. -/
theorem qaddc {b : Cpx F} {q : Quat F} {B : ℂ} {Q : Quaternion ℝ} (hb : IsC b B) (hq : IsQ q Q) (hr : ‖Q + inH B‖ ≤ 2 ^ 120) :
    ∃ V, IsQ (q + b) V ∧ ‖V - (Q + inH B)‖ ≤ 1 / 2 ^ 24 * ‖Q + inH B‖ + 1 / 2 ^ 149 := by
  obtain ⟨h0, h1, h2, h3⟩ := hq
  have i1 : IsC (Cpx.new q.w q.x) (half₁ Q) := ⟨h0, h1⟩
  have n1 : ‖half₁ Q + B‖ ≤ ‖Q + inH B‖ := by rw [← inH_half]; exact norm_half₁ _
  obtain ⟨V₁, k1, e1⟩ := cadd i1 hb (n1.trans hr)
  refine ⟨join V₁ (half₂ Q), ⟨?_, ?_, ?_, ?_⟩, ?_⟩
  · show (Quat.addC q b).w.toReal? = some V₁.re
    rw [← k1.1]; simp [Quat.addC]
  · show (Quat.addC q b).x.toReal? = some V₁.im
    rw [← k1.2]; simp [Quat.addC]
  · show (Quat.addC q b).y.toReal? = some Q.imJ
    simpa [Quat.addC, half₂] using h2
  · show (Quat.addC q b).z.toReal? = some Q.imK
    simpa [Quat.addC, half₂] using h3
  · have e : ‖join V₁ (half₂ Q) - (Q + inH B)‖ = ‖V₁ - (half₁ Q + B)‖ := by
      rw [quat_norm, Complex.norm_eq_sqrt_sq_add_sq]; simp [half₁, half₂]
    rw [e]; exact e1.trans (by gcongr)
/-- `a q + b`. -/
theorem qaff {a b : Cpx F} {q : Quat F} {A B : ℂ} {Q : Quaternion ℝ} (ha : IsC a A) (hb : IsC b B) (hq : IsQ q Q) (h : ‖A‖ * ‖Q‖ + ‖B‖ ≤ 2 ^ 108) :
    ∃ V, IsQ (a * q + b) V ∧ ‖V - (inH A * Q + inH B)‖ ≤ 41 / 2 ^ 27 * (‖A‖ * ‖Q‖ + ‖B‖) + 1 / 2 ^ 145 := by
  have hp : 0 ≤ ‖A‖ * ‖Q‖ := by positivity
  have hB := norm_nonneg B
  obtain ⟨W, hW, eW⟩ := qcmul ha hq ((le_add_of_nonneg_right hB).trans (h.trans (by norm_num)))
  have n : ‖W + inH B‖ ≤ (1 + 4 / 2 ^ 24) * (‖A‖ * ‖Q‖ + ‖B‖) + 1 / 2 ^ 146 := by
    calc ‖W + inH B‖ = ‖(W - inH A * Q) + inH A * Q + inH B‖ := by congr 1; abel
      _ ≤ ‖W - inH A * Q‖ + ‖inH A * Q‖ + ‖inH B‖ := norm_add₃_le
      _ ≤ (4 / 2 ^ 24 * (‖A‖ * ‖Q‖) + 1 / 2 ^ 146) + ‖A‖ * ‖Q‖ + ‖B‖ := by rw [norm_mul, norm_inH, norm_inH]; gcongr
      _ ≤ _ := by
        generalize 1 / (2:ℝ) ^ 146 = t
        norm_num; linarith
  obtain ⟨V, hV, eV⟩ := qaddc hb hW (n.trans (by
    calc _ ≤ (1 + 4 / 2 ^ 24 : ℝ) * 2 ^ 108 + 1 / 2 ^ 146 := by gcongr
      _ ≤ _ := by norm_num))
  refine ⟨V, hV, ?_⟩
  calc ‖V - (inH A * Q + inH B)‖ = ‖(V - (W + inH B)) + (W - inH A * Q)‖ := by congr 1; abel
    _ ≤ _ := norm_add_le _ _
    _ ≤ (1 / 2 ^ 24 * ((1 + 4 / 2 ^ 24) * (‖A‖ * ‖Q‖ + ‖B‖) + 1 / 2 ^ 146) + 1 / 2 ^ 149) + (4 / 2 ^ 24 * (‖A‖ * ‖Q‖) + 1 / 2 ^ 146) :=
      add_le_add (eV.trans (by gcongr)) eW
    _ ≤ _ := by
      rw [show (2:ℝ) ^ 146 = 2 * 2 ^ 145 by ring, show (2:ℝ) ^ 149 = 16 * 2 ^ 145 by ring, one_div_mul_eq_div, one_div (2 * _), one_div (16 * _), mul_inv, mul_inv]
      rw [← one_div ((2:ℝ) ^ 145)]
      have : (0:ℝ) < 1 / 2 ^ 145 := by positivity
      generalize 1 / (2:ℝ) ^ 145 = t at *
      norm_num; linarith
/-- Quotient, without a lower bound on the dividend. -/
theorem qdiv0 {p q : Quat F} {P Q : Quaternion ℝ} (hp : IsQ p P) (hq : IsQ q Q) (pr : ‖P‖ ≤ 2 ^ 40)
    (hl : 1 / 2 ^ 40 ≤ ‖Q‖) (hr : ‖Q‖ ≤ 2 ^ 40) : ∃ V, IsQ (p / q) V ∧ ‖V - P / Q‖ ≤ 18 / 2 ^ 24 * (‖P‖ / ‖Q‖) + 1 / 2 ^ 146 := by
  obtain ⟨I, hI, eI⟩ := qinv hq hl hr
  have hQ : 0 < ‖Q‖ := lt_of_lt_of_le (by positivity) hl
  have nI : ‖I‖ ≤ (1 + 1 / 2 ^ 21) * (1 / ‖Q‖) := by
    calc ‖I‖ = ‖(I - Q⁻¹) + Q⁻¹‖ := by congr 1; abel
      _ ≤ _ := norm_add_le _ _
      _ ≤ 8 / 2 ^ 24 * (1 / ‖Q‖) + 1 / ‖Q‖ := by rw [norm_inv, ← one_div ‖Q‖]; gcongr
      _ = _ := by ring
  have hm : ‖P‖ * ‖I‖ ≤ (1 + 1 / 2 ^ 21) * (‖P‖ / ‖Q‖) := by
    calc ‖P‖ * ‖I‖ ≤ ‖P‖ * ((1 + 1 / 2 ^ 21) * (1 / ‖Q‖)) := by gcongr
      _ = _ := by ring
  have hq2 : ‖P‖ / ‖Q‖ ≤ 2 ^ 80 := by
    calc _ ≤ (2:ℝ) ^ 40 / (1 / 2 ^ 40) := by gcongr
      _ = _ := by norm_num
  obtain ⟨V, hV, eV⟩ := qmul hp hI (hm.trans (by
    calc _ ≤ (1 + 1 / 2 ^ 21 : ℝ) * 2 ^ 80 := by gcongr
      _ ≤ _ := by norm_num))
  refine ⟨V, hV, ?_⟩
  have e2 : ‖P * I - P / Q‖ ≤ 8 / 2 ^ 24 * (‖P‖ / ‖Q‖) := by
    rw [div_eq_mul_inv, ← mul_sub, norm_mul]
    calc _ ≤ ‖P‖ * (8 / 2 ^ 24 * (1 / ‖Q‖)) := by gcongr
      _ = _ := by ring
  calc ‖V - P / Q‖ = ‖(V - P * I) + (P * I - P / Q)‖ := by congr 1; abel
    _ ≤ _ := norm_add_le _ _
    _ ≤ (9 / 2 ^ 24 * (‖P‖ * ‖I‖) + 1 / 2 ^ 146) + 8 / 2 ^ 24 * (‖P‖ / ‖Q‖) := add_le_add eV e2
    _ ≤ (9 / 2 ^ 24 * ((1 + 1 / 2 ^ 21) * (‖P‖ / ‖Q‖)) + 1 / 2 ^ 146) + 8 / 2 ^ 24 * (‖P‖ / ‖Q‖) := by gcongr
    _ ≤ _ := by
      have : 0 ≤ ‖P‖ / ‖Q‖ := by positivity
      generalize ‖P‖ / ‖Q‖ = m at *
      generalize 1 / (2:ℝ) ^ 146 = t
      norm_num; linarith
end F32
end Vecmat
