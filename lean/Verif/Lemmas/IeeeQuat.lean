import Verif.Props.IeeeError
import Verif.Props.Quaternion
import Verif.Props.Complex
import Verif.Lemmas.NormErrInst
import Verif.Spec.IeeeRun
/-! # One multiplication or division of `f64` quaternions and complex numbers -/
namespace Vecmat
open Spec Ieee
set_option exponentiation.threshold 3000
namespace F64
abbrev F := Ieee Fmt.f64
theorem u_eq : roundoff Fmt.f64 = 1 / 2 ^ 53 := rfl
theorem tiny_eq : tiny Fmt.f64 = 1 / 2 ^ 1075 := by
  show (2:ℝ) ^ (-1022 - ((53 : ℕ) : ℤ)) = _
  rw [show (-1022 - ((53 : ℕ) : ℤ)) = -((1075 : ℕ) : ℤ) by norm_num, zpow_neg, zpow_natCast, one_div]
theorem huge_eq : huge Fmt.f64 = 2 ^ 1024 := by
  show (2:ℝ) ^ ((1023 : ℤ) + 1) = _
  rw [show (1023 : ℤ) + 1 = ((1024 : ℕ) : ℤ) by norm_num, zpow_natCast]
theorem err44 {m : ℝ} (hm : 0 ≤ m) : errBound Fmt.f64 4 4 m ≤ 9 / 2 ^ 54 * m + 1 / 2 ^ 1072 := by
  unfold errBound gam
  rw [u_eq, tiny_eq]
  gcongr
  · norm_num
  · norm_num
theorem err22 {m : ℝ} (hm : 0 ≤ m) : errBound Fmt.f64 2 2 m ≤ 17 / 2 ^ 56 * m + 1 / 2 ^ 1073 := by
  unfold errBound gam
  rw [u_eq, tiny_eq]
  gcongr
  · norm_num
  · norm_num
theorem close_val {k c : ℕ} {m x : ℝ} {d : F} (h : Close k c m d x) {e : ℝ} (he : errBound Fmt.f64 k c m ≤ e) (hf : m + e < 2 ^ 1024) :
    ∃ r, d.toReal? = some r ∧ |r - x| ≤ e := by
  obtain ⟨r, hr⟩ := h.2 (by rw [huge_eq]; linarith)
  exact ⟨r, hr, (h.1 r hr).trans he⟩

/-- Product of quaternions. -/
theorem qmul {p q : Quat F} {P Q : Quaternion ℝ} (hp : IsQ p P) (hq : IsQ q Q) (hr : ‖P‖ * ‖Q‖ ≤ 2 ^ 1000) :
    ∃ V, IsQ (p * q) V ∧ ‖V - P * Q‖ ≤ 9 / 2 ^ 53 * (‖P‖ * ‖Q‖) + 1 / 2 ^ 1071 := by
  obtain ⟨h0, h1, h2, h3⟩ := C84_quaternion_mul C80_formats.2 p q P Q hp hq
  have hm : 0 ≤ ‖P‖ * ‖Q‖ := by positivity
  have he := err44 hm
  have hf : ‖P‖ * ‖Q‖ + (9 / 2 ^ 54 * (‖P‖ * ‖Q‖) + 1 / 2 ^ 1072) < 2 ^ 1024 := by
    calc _ ≤ (2:ℝ) ^ 1000 + (9 / 2 ^ 54 * 2 ^ 1000 + 1 / 2 ^ 1072) := by gcongr
      _ < _ := by norm_num
  obtain ⟨a, ha, ea⟩ := close_val h0 he hf
  obtain ⟨b, hb, eb⟩ := close_val h1 he hf
  obtain ⟨c, hc, ec⟩ := close_val h2 he hf
  obtain ⟨d, hd, ed⟩ := close_val h3 he hf
  refine ⟨⟨a, b, c, d⟩, ⟨ha, hb, hc, hd⟩, (quaternion_norm_le (b := 9 / 2 ^ 54 * (‖P‖ * ‖Q‖) + 1 / 2 ^ 1072) ?_ ?_ ?_ ?_).trans ?_⟩
  · exact ea
  · exact eb
  · exact ec
  · exact ed
  · generalize ‖P‖ * ‖Q‖ = m
    rw [show (2:ℝ) ^ 1072 = 2 * 2 ^ 1071 by ring]
    have : (0:ℝ) < 2 ^ 1071 := by positivity
    field_simp; linarith
/-- Product of complex numbers. -/
theorem cmul {z w : Cpx F} {Z W : ℂ} (hz : IsC z Z) (hw : IsC w W) (hr : ‖Z‖ * ‖W‖ ≤ 2 ^ 1000) :
    ∃ V, IsC (z * w) V ∧ ‖V - Z * W‖ ≤ 4 / 2 ^ 53 * (‖Z‖ * ‖W‖) + 1 / 2 ^ 1072 := by
  obtain ⟨h0, h1⟩ := C84_complex_mul C80_formats.2 z w Z W hz.1 hz.2 hw.1 hw.2
  have hm : 0 ≤ ‖Z‖ * ‖W‖ := by positivity
  have he := err22 hm
  have hf : ‖Z‖ * ‖W‖ + (17 / 2 ^ 56 * (‖Z‖ * ‖W‖) + 1 / 2 ^ 1073) < 2 ^ 1024 := by
    calc _ ≤ (2:ℝ) ^ 1000 + (17 / 2 ^ 56 * 2 ^ 1000 + 1 / 2 ^ 1073) := by gcongr
      _ < _ := by norm_num
  obtain ⟨a, ha, ea⟩ := close_val h0 he hf
  obtain ⟨b, hb, eb⟩ := close_val h1 he hf
  have s2 : Real.sqrt 2 ≤ 3 / 2 := by rw [Real.sqrt_le_left (by norm_num)]; norm_num
  refine ⟨⟨a, b⟩, ⟨ha, hb⟩, (complex_norm_le (b := 17 / 2 ^ 56 * (‖Z‖ * ‖W‖) + 1 / 2 ^ 1073) ea eb).trans ?_⟩
  generalize ‖Z‖ * ‖W‖ = m at hm
  calc _ ≤ 3 / 2 * (17 / 2 ^ 56 * m + 1 / 2 ^ 1073) := by gcongr
    _ ≤ _ := by
      rw [show (2:ℝ) ^ 1073 = 2 * 2 ^ 1072 by ring]
      have : (0:ℝ) < 1 / 2 ^ 1072 := by positivity
      have e : 1 / (2 * (2:ℝ) ^ 1072) = 1 / 2 * (1 / 2 ^ 1072) := by field_simp
      rw [e]
      generalize 1 / (2:ℝ) ^ 1072 = t at this
      norm_num; linarith
/-- One division by a positive number. -/
theorem div_comp {a b : F} {x n : ℝ} (ha : a.toReal? = some x) (hb : b.toReal? = some n) (hn : 0 < n) (h : |x / n| ≤ 2 ^ 1000) :
    ∃ r, (a / b).toReal? = some r ∧ |r - x / n| ≤ 1 / 2 ^ 53 * |x / n| + 1 / 2 ^ 1075 := by
  have e := near_err_add (φ := Fmt.f64) (x / n)
  rw [u_eq, tiny_eq] at e
  have hf : |Fmt.f64.near (x / n)| < huge Fmt.f64 := by
    rw [huge_eq]
    calc _ = |(Fmt.f64.near (x / n) - x / n) + x / n| := by congr 1; ring
      _ ≤ _ := abs_add_le _ _
      _ ≤ (1 / 2 ^ 53 * 2 ^ 1000 + 1 / 2 ^ 1075) + 2 ^ 1000 := by
        refine add_le_add (e.trans ?_) h
        gcongr
      _ < _ := by norm_num
  exact ⟨_, val_div_iff.2 (.inl ⟨x, n, ha, hb, hn.ne', rfl, hf⟩), e⟩

/-- The squared norm. -/
theorem qnormSqr {q : Quat F} {Q : Quaternion ℝ} (hq : IsQ q Q) (hl : 1 / 2 ^ 400 ≤ ‖Q‖) (hr : ‖Q‖ ≤ 2 ^ 400) :
    ∃ n, q.normSqr.toReal? = some n ∧ |n - ‖Q‖ ^ 2| ≤ 5 / 2 ^ 53 * ‖Q‖ ^ 2 := by
  obtain ⟨h0, h1, h2, h3⟩ := hq
  obtain ⟨d, hd, hc⟩ := C84_square_length (N := 4) C80_formats.2 (by norm_num) q.vec ![Q.re, Q.imI, Q.imJ, Q.imK]
    (fun i => by fin_cases i <;> [exact h0; exact h1; exact h2; exact h3])
  rw [Vec.squareLength_ok] at hd; cases hd
  have e : ∑ i, (![Q.re, Q.imI, Q.imJ, Q.imK] i) ^ 2 = ‖Q‖ ^ 2 := by
    rw [quat_norm, Real.sq_sqrt (by positivity)]; simp [Fin.sum_univ_four]
  rw [e] at hc
  have hm : (0:ℝ) ≤ ‖Q‖ ^ 2 := by positivity
  have hlow : (1:ℝ) / 2 ^ 800 ≤ ‖Q‖ ^ 2 := by
    calc (1:ℝ) / 2 ^ 800 = (1 / 2 ^ 400) ^ 2 := by norm_num
      _ ≤ _ := by gcongr
  have hup : ‖Q‖ ^ 2 ≤ 2 ^ 800 := by
    calc _ ≤ ((2:ℝ) ^ 400) ^ 2 := by gcongr
      _ = _ := by norm_num
  have he : errBound Fmt.f64 4 4 (‖Q‖ ^ 2) ≤ 5 / 2 ^ 53 * ‖Q‖ ^ 2 := by
    refine (err44 hm).trans ?_
    have : (1:ℝ) / 2 ^ 1072 ≤ 1 / 2 ^ 54 * (1 / 2 ^ 800) := by norm_num
    have := this.trans (mul_le_mul_of_nonneg_left hlow (by norm_num))
    generalize ‖Q‖ ^ 2 = m at *
    norm_num at this ⊢; linarith
  exact close_val hc he (by
    calc _ ≤ (2:ℝ) ^ 800 + 5 / 2 ^ 53 * 2 ^ 800 := by gcongr
      _ < _ := by norm_num)
theorem cnormSqr {q : Cpx F} {Q : ℂ} (hq : IsC q Q) (hl : 1 / 2 ^ 400 ≤ ‖Q‖) (hr : ‖Q‖ ≤ 2 ^ 400) :
    ∃ n, q.normSqr.toReal? = some n ∧ |n - ‖Q‖ ^ 2| ≤ 3 / 2 ^ 53 * ‖Q‖ ^ 2 := by
  obtain ⟨h0, h1⟩ := hq
  obtain ⟨d, hd, hc⟩ := C84_square_length (N := 2) C80_formats.2 (by norm_num) q.vec ![Q.re, Q.im]
    (fun i => by fin_cases i <;> [exact h0; exact h1])
  rw [Vec.squareLength_ok] at hd; cases hd
  have e : ∑ i, (![Q.re, Q.im] i) ^ 2 = ‖Q‖ ^ 2 := by
    rw [Complex.norm_eq_sqrt_sq_add_sq, Real.sq_sqrt (by positivity)]; simp
  rw [e] at hc
  have hm : (0:ℝ) ≤ ‖Q‖ ^ 2 := by positivity
  have hlow : (1:ℝ) / 2 ^ 800 ≤ ‖Q‖ ^ 2 := by
    calc (1:ℝ) / 2 ^ 800 = (1 / 2 ^ 400) ^ 2 := by norm_num
      _ ≤ _ := by gcongr
  have hup : ‖Q‖ ^ 2 ≤ 2 ^ 800 := by
    calc _ ≤ ((2:ℝ) ^ 400) ^ 2 := by gcongr
      _ = _ := by norm_num
  have he : errBound Fmt.f64 2 2 (‖Q‖ ^ 2) ≤ 3 / 2 ^ 53 * ‖Q‖ ^ 2 := by
    refine (err22 hm).trans ?_
    have : (1:ℝ) / 2 ^ 1073 ≤ 1 / 2 ^ 54 * (1 / 2 ^ 800) := by norm_num
    have := this.trans (mul_le_mul_of_nonneg_left hlow (by norm_num))
    generalize ‖Q‖ ^ 2 = m at *
    norm_num at this ⊢; linarith
  exact close_val hc he (by
    calc _ ≤ (2:ℝ) ^ 800 + 3 / 2 ^ 53 * 2 ^ 800 := by gcongr
      _ < _ := by norm_num)

/-- Real-number part of the error analysis of `conj / norm_sqr`. -/
theorem inv_bound {ρ n κ : ℝ} (hl : 1 / 2 ^ 400 ≤ ρ) (hr : ρ ≤ 2 ^ 400) (hκ : κ ≤ 5) (h : |n - ρ ^ 2| ≤ κ / 2 ^ 53 * ρ ^ 2) :
    0 < n ∧ ρ / n ≤ 2 ^ 401 ∧ |1 / n - 1 / ρ ^ 2| * ρ + 2 * (1 / 2 ^ 53 * (ρ / n) + 1 / 2 ^ 1075) ≤ (κ + 3) / 2 ^ 53 * (1 / ρ) ∧ 0 ≤ κ := by
  have hρ : 0 < ρ := lt_of_lt_of_le (by positivity) hl
  have h2 : 0 < ρ ^ 2 := by positivity
  have hκ0 : 0 ≤ κ := by
    by_contra hc
    have : κ / 2 ^ 53 * ρ ^ 2 < 0 := mul_neg_of_neg_of_pos (by push Not at hc; exact div_neg_of_neg_of_pos hc (by positivity)) h2
    linarith [abs_nonneg (n - ρ ^ 2)]
  have hk : κ / 2 ^ 53 * ρ ^ 2 ≤ 5 / 2 ^ 53 * ρ ^ 2 := by gcongr
  obtain ⟨a1, a2⟩ := abs_le.1 h
  have hn1 : (1 - 1 / 2 ^ 50) * ρ ^ 2 ≤ n := by norm_num at hk ⊢; nlinarith
  have hn : 0 < n := lt_of_lt_of_le (mul_pos (by norm_num) h2) hn1
  have h1n : 1 / n ≤ (1 + 1 / 2 ^ 49) * (1 / ρ ^ 2) := by
    rw [div_le_iff₀ hn]
    calc (1:ℝ) ≤ (1 + 1 / 2 ^ 49) * (1 / ρ ^ 2) * ((1 - 1 / 2 ^ 50) * ρ ^ 2) := by
          rw [show (1 + 1 / 2 ^ 49) * (1 / ρ ^ 2) * ((1 - 1 / 2 ^ 50) * ρ ^ 2) = ((1 + 1 / 2 ^ 49) * (1 - 1 / 2 ^ 50) : ℝ) * (ρ ^ 2 / ρ ^ 2) by ring, div_self h2.ne']
          norm_num
      _ ≤ _ := by gcongr
  have hrn : ρ / n ≤ (1 + 1 / 2 ^ 49) * (1 / ρ) := by
    calc ρ / n = ρ * (1 / n) := by ring
      _ ≤ ρ * ((1 + 1 / 2 ^ 49) * (1 / ρ ^ 2)) := by gcongr
      _ = _ := by field_simp
  have hir : 1 / ρ ≤ 2 ^ 400 := by
    rw [div_le_iff₀ hρ]
    calc (1:ℝ) = 2 ^ 400 * (1 / 2 ^ 400) := by norm_num
      _ ≤ _ := by gcongr
  have hil : 1 / 2 ^ 400 ≤ 1 / ρ := by gcongr
  refine ⟨hn, hrn.trans ?_, ?_, hκ0⟩
  · calc _ ≤ (1 + 1 / 2 ^ 49 : ℝ) * 2 ^ 400 := by gcongr
      _ ≤ _ := by norm_num
  · have e1 : |1 / n - 1 / ρ ^ 2| * ρ ≤ κ / 2 ^ 53 * ((1 + 1 / 2 ^ 49) * (1 / ρ)) := by
      rw [show 1 / n - 1 / ρ ^ 2 = -((n - ρ ^ 2) / (n * ρ ^ 2)) by field_simp; ring, abs_neg, abs_div, abs_of_pos (mul_pos hn h2)]
      calc |n - ρ ^ 2| / (n * ρ ^ 2) * ρ ≤ (κ / 2 ^ 53 * ρ ^ 2) / (n * ρ ^ 2) * ρ := by gcongr
        _ = κ / 2 ^ 53 * (ρ / n) := by field_simp
        _ ≤ _ := by gcongr
    have e2 : (1:ℝ) / 2 ^ 1075 ≤ 1 / 2 ^ 60 * (1 / ρ) := by
      calc (1:ℝ) / 2 ^ 1075 ≤ 1 / 2 ^ 60 * (1 / 2 ^ 400) := by norm_num
        _ ≤ _ := by gcongr
    have hi : 0 ≤ 1 / ρ := by positivity
    generalize 1 / ρ = i at *
    have e3 : κ / 2 ^ 53 * ((1 + 1 / 2 ^ 49) * i) ≤ κ / 2 ^ 53 * i + 1 / 2 ^ 60 * i := by
      have : κ / 2 ^ 53 * (1 / 2 ^ 49 * i) ≤ 5 / 2 ^ 53 * (1 / 2 ^ 49 * i) := by gcongr
      norm_num at this ⊢; nlinarith
    have e4 : (κ + 3) / 2 ^ 53 * i = κ / 2 ^ 53 * i + 3 / 2 ^ 53 * i := by ring
    rw [e4]
    generalize κ / 2 ^ 53 * i = k at *
    norm_num at *; linarith

/-- Inverse of a quaternion. -/
theorem qinv {q : Quat F} {Q : Quaternion ℝ} (hq : IsQ q Q) (hl : 1 / 2 ^ 400 ≤ ‖Q‖) (hr : ‖Q‖ ≤ 2 ^ 400) :
    ∃ V, IsQ q.inv V ∧ ‖V - Q⁻¹‖ ≤ 8 / 2 ^ 53 * (1 / ‖Q‖) := by
  obtain ⟨n, hn, he⟩ := qnormSqr hq hl hr
  obtain ⟨n0, n1, n2, -⟩ := inv_bound hl hr le_rfl he
  obtain ⟨h0, h1, h2, h3⟩ := hq
  have bnd : ∀ {x : ℝ}, |x| ≤ ‖Q‖ → |x / n| ≤ ‖Q‖ / n := fun h => by rw [abs_div, abs_of_pos n0]; gcongr
  have big : ∀ {x : ℝ}, |x| ≤ ‖Q‖ → |x / n| ≤ 2 ^ 1000 := fun h => (bnd h).trans (n1.trans (by norm_num))
  have comp : ∀ {x : ℝ}, x ^ 2 ≤ Q.re ^ 2 + Q.imI ^ 2 + Q.imJ ^ 2 + Q.imK ^ 2 → |x| ≤ ‖Q‖ := fun h => by
    rw [quat_norm]; exact Real.abs_le_sqrt h
  have c0 := comp (x := Q.re) (by nlinarith [sq_nonneg Q.imI, sq_nonneg Q.imJ, sq_nonneg Q.imK])
  have c1 := comp (x := -Q.imI) (by nlinarith [sq_nonneg Q.re, sq_nonneg Q.imJ, sq_nonneg Q.imK])
  have c2 := comp (x := -Q.imJ) (by nlinarith [sq_nonneg Q.re, sq_nonneg Q.imI, sq_nonneg Q.imK])
  have c3 := comp (x := -Q.imK) (by nlinarith [sq_nonneg Q.re, sq_nonneg Q.imI, sq_nonneg Q.imJ])
  have neg : ∀ {a : F} {x : ℝ}, a.toReal? = some x → (-a).toReal? = some (-x) := fun h => val_neg_iff.2 (by rw [neg_neg]; exact h)
  obtain ⟨a, ha, ea⟩ := div_comp h0 hn n0 (big c0)
  obtain ⟨b, hb, eb⟩ := div_comp (neg h1) hn n0 (big c1)
  obtain ⟨c, hc, ec⟩ := div_comp (neg h2) hn n0 (big c2)
  obtain ⟨d, hd, ed⟩ := div_comp (neg h3) hn n0 (big c3)
  obtain ⟨V, rfl, rfl, rfl, rfl⟩ : ∃ V : Quaternion ℝ, V.re = a ∧ V.imI = b ∧ V.imJ = c ∧ V.imK = d := ⟨⟨a, b, c, d⟩, rfl, rfl, rfl, rfl⟩
  refine ⟨V, ⟨by simpa [Quat.inv] using ha, by simpa [Quat.inv] using hb, by simpa [Quat.inv] using hc, by simpa [Quat.inv] using hd⟩, ?_⟩
  have w : ∀ {x r : ℝ}, |x| ≤ ‖Q‖ → |r - x / n| ≤ 1 / 2 ^ 53 * |x / n| + 1 / 2 ^ 1075 → |r - x / n| ≤ 1 / 2 ^ 53 * (‖Q‖ / n) + 1 / 2 ^ 1075 :=
    fun h h' => h'.trans (by have := bnd h; gcongr)
  have s1 : ‖V - (1 / n : ℝ) • star Q‖ ≤ 2 * (1 / 2 ^ 53 * (‖Q‖ / n) + 1 / 2 ^ 1075) := by
    have m : ∀ x : ℝ, 1 / n * x = x / n := fun x => by ring
    apply quaternion_norm_le
    · rw [Quaternion.re_sub, Quaternion.re_smul, smul_eq_mul, m, Quaternion.re_star]; exact w c0 ea
    · rw [Quaternion.imI_sub, Quaternion.imI_smul, smul_eq_mul, m, Quaternion.imI_star]; exact w c1 eb
    · rw [Quaternion.imJ_sub, Quaternion.imJ_smul, smul_eq_mul, m, Quaternion.imJ_star]; exact w c2 ec
    · rw [Quaternion.imK_sub, Quaternion.imK_smul, smul_eq_mul, m, Quaternion.imK_star]; exact w c3 ed
  have s2 : ‖(1 / n : ℝ) • star Q - Q⁻¹‖ = |1 / n - 1 / ‖Q‖ ^ 2| * ‖Q‖ := by
    have : Q⁻¹ = (1 / ‖Q‖ ^ 2) • star Q := by
      rw [Quaternion.instInv]; show (Quaternion.normSq Q)⁻¹ • star Q = _
      rw [Quaternion.normSq_eq_norm_mul_self, one_div, sq]
    rw [this, ← sub_smul, norm_smul, Real.norm_eq_abs, norm_star]
  calc _ = ‖(V - (1 / n : ℝ) • star Q) + ((1 / n : ℝ) • star Q - Q⁻¹)‖ := by congr 1; abel
    _ ≤ _ := norm_add_le _ _
    _ ≤ _ := by rw [s2]; linarith [n2]
/-- Inverse of a complex number. -/
theorem cinv {q : Cpx F} {Q : ℂ} (hq : IsC q Q) (hl : 1 / 2 ^ 400 ≤ ‖Q‖) (hr : ‖Q‖ ≤ 2 ^ 400) :
    ∃ V, IsC q.inv V ∧ ‖V - Q⁻¹‖ ≤ 6 / 2 ^ 53 * (1 / ‖Q‖) := by
  obtain ⟨n, hn, he⟩ := cnormSqr hq hl hr
  obtain ⟨n0, n1, n2, -⟩ := inv_bound hl hr (by norm_num) he
  obtain ⟨h0, h1⟩ := hq
  have bnd : ∀ {x : ℝ}, |x| ≤ ‖Q‖ → |x / n| ≤ ‖Q‖ / n := fun h => by rw [abs_div, abs_of_pos n0]; gcongr
  have big : ∀ {x : ℝ}, |x| ≤ ‖Q‖ → |x / n| ≤ 2 ^ 1000 := fun h => (bnd h).trans (n1.trans (by norm_num))
  have c0 : |Q.re| ≤ ‖Q‖ := Complex.abs_re_le_norm Q
  have c1 : |-Q.im| ≤ ‖Q‖ := by rw [abs_neg]; exact Complex.abs_im_le_norm Q
  have neg : ∀ {a : F} {x : ℝ}, a.toReal? = some x → (-a).toReal? = some (-x) := fun h => val_neg_iff.2 (by rw [neg_neg]; exact h)
  obtain ⟨a, ha, ea⟩ := div_comp h0 hn n0 (big c0)
  obtain ⟨b, hb, eb⟩ := div_comp (neg h1) hn n0 (big c1)
  refine ⟨⟨a, b⟩, ⟨by simpa [Cpx.inv] using ha, by simpa [Cpx.inv] using hb⟩, ?_⟩
  have w : ∀ {x r : ℝ}, |x| ≤ ‖Q‖ → |r - x / n| ≤ 1 / 2 ^ 53 * |x / n| + 1 / 2 ^ 1075 → |r - x / n| ≤ 1 / 2 ^ 53 * (‖Q‖ / n) + 1 / 2 ^ 1075 :=
    fun h h' => h'.trans (by have := bnd h; gcongr)
  have s2' : Real.sqrt 2 ≤ 2 := by rw [Real.sqrt_le_left (by norm_num)]; norm_num
  have hb0 : 0 ≤ 1 / 2 ^ 53 * (‖Q‖ / n) + 1 / 2 ^ 1075 := by positivity
  have s1 : ‖(⟨a, b⟩ : ℂ) - ((1 / n : ℝ) : ℂ) * (starRingEnd ℂ) Q‖ ≤ 2 * (1 / 2 ^ 53 * (‖Q‖ / n) + 1 / 2 ^ 1075) := by
    have m : ∀ x : ℝ, 1 / n * x = x / n := fun x => by ring
    refine (complex_norm_le (b := 1 / 2 ^ 53 * (‖Q‖ / n) + 1 / 2 ^ 1075) ?_ ?_).trans (mul_le_mul_of_nonneg_right s2' hb0)
    · show |a - _| ≤ _; rw [Complex.re_ofReal_mul, m, Complex.conj_re]; exact w c0 ea
    · show |b - _| ≤ _; rw [Complex.im_ofReal_mul, m, Complex.conj_im]; exact w c1 eb
  have s2 : ‖((1 / n : ℝ) : ℂ) * (starRingEnd ℂ) Q - Q⁻¹‖ = |1 / n - 1 / ‖Q‖ ^ 2| * ‖Q‖ := by
    have : Q⁻¹ = ((1 / ‖Q‖ ^ 2 : ℝ) : ℂ) * (starRingEnd ℂ) Q := by
      rw [Complex.inv_def, Complex.normSq_eq_norm_sq, one_div, mul_comm]
    rw [this, ← sub_mul, norm_mul, ← Complex.ofReal_sub, Complex.norm_real, Real.norm_eq_abs, RCLike.norm_conj]
  calc _ = ‖((⟨a, b⟩ : ℂ) - ((1 / n : ℝ) : ℂ) * (starRingEnd ℂ) Q) + (((1 / n : ℝ) : ℂ) * (starRingEnd ℂ) Q - Q⁻¹)‖ := by congr 1; ring
    _ ≤ _ := norm_add_le _ _
    _ ≤ _ := by rw [s2]; linarith [n2]
theorem isQ_conj {q : Quat F} {Q : Quaternion ℝ} (h : IsQ q Q) : IsQ q.conj (star Q) := by
  have neg : ∀ {a : F} {x : ℝ}, a.toReal? = some x → (-a).toReal? = some (-x) := fun h => val_neg_iff.2 (by rw [neg_neg]; exact h)
  obtain ⟨a, b, c, d⟩ := h
  exact ⟨by simpa using a, by simpa using neg b, by simpa using neg c, by simpa using neg d⟩
theorem isC_conj {q : Cpx F} {Q : ℂ} (h : IsC q Q) : IsC q.conj ((starRingEnd ℂ) Q) := by
  have neg : ∀ {a : F} {x : ℝ}, a.toReal? = some x → (-a).toReal? = some (-x) := fun h => val_neg_iff.2 (by rw [neg_neg]; exact h)
  obtain ⟨a, b⟩ := h
  exact ⟨by simpa using a, by simpa using neg b⟩

/-- Quotients. -/
theorem qdiv {p q : Quat F} {P Q : Quaternion ℝ} (hp : IsQ p P) (hq : IsQ q Q) (pl : 1 / 2 ^ 400 ≤ ‖P‖) (pr : ‖P‖ ≤ 2 ^ 400)
    (hl : 1 / 2 ^ 400 ≤ ‖Q‖) (hr : ‖Q‖ ≤ 2 ^ 400) : ∃ V, IsQ (p / q) V ∧ ‖V - P / Q‖ ≤ 18 / 2 ^ 53 * (‖P‖ / ‖Q‖) := by
  obtain ⟨I, hI, eI⟩ := qinv hq hl hr
  have hQ : 0 < ‖Q‖ := lt_of_lt_of_le (by positivity) hl
  have hP : 0 < ‖P‖ := lt_of_lt_of_le (by positivity) pl
  have nI : ‖I‖ ≤ (1 + 1 / 2 ^ 50) * (1 / ‖Q‖) := by
    calc ‖I‖ = ‖(I - Q⁻¹) + Q⁻¹‖ := by congr 1; abel
      _ ≤ _ := norm_add_le _ _
      _ ≤ 8 / 2 ^ 53 * (1 / ‖Q‖) + 1 / ‖Q‖ := by rw [norm_inv, ← one_div ‖Q‖]; gcongr
      _ = _ := by ring
  have hm : ‖P‖ * ‖I‖ ≤ (1 + 1 / 2 ^ 50) * (‖P‖ / ‖Q‖) := by
    calc ‖P‖ * ‖I‖ ≤ ‖P‖ * ((1 + 1 / 2 ^ 50) * (1 / ‖Q‖)) := by gcongr
      _ = _ := by ring
  have hq2 : ‖P‖ / ‖Q‖ ≤ 2 ^ 800 := by
    calc _ ≤ (2:ℝ) ^ 400 / (1 / 2 ^ 400) := by gcongr
      _ = _ := by norm_num
  have hq1 : 1 / 2 ^ 800 ≤ ‖P‖ / ‖Q‖ := by
    calc (1:ℝ) / 2 ^ 800 = (1 / 2 ^ 400) / 2 ^ 400 := by norm_num
      _ ≤ _ := by gcongr
  obtain ⟨V, hV, eV⟩ := qmul hp hI (hm.trans (by
    calc _ ≤ (1 + 1 / 2 ^ 50 : ℝ) * 2 ^ 800 := by gcongr
      _ ≤ _ := by norm_num))
  refine ⟨V, hV, ?_⟩
  have e2 : ‖P * I - P / Q‖ ≤ 8 / 2 ^ 53 * (‖P‖ / ‖Q‖) := by
    rw [div_eq_mul_inv, ← mul_sub, norm_mul]
    calc _ ≤ ‖P‖ * (8 / 2 ^ 53 * (1 / ‖Q‖)) := by gcongr
      _ = _ := by ring
  calc ‖V - P / Q‖ = ‖(V - P * I) + (P * I - P / Q)‖ := by congr 1; abel
    _ ≤ _ := norm_add_le _ _
    _ ≤ (9 / 2 ^ 53 * (‖P‖ * ‖I‖) + 1 / 2 ^ 1071) + 8 / 2 ^ 53 * (‖P‖ / ‖Q‖) := add_le_add eV e2
    _ ≤ (9 / 2 ^ 53 * ((1 + 1 / 2 ^ 50) * (‖P‖ / ‖Q‖)) + 1 / 2 ^ 100 * (1 / 2 ^ 800)) + 8 / 2 ^ 53 * (‖P‖ / ‖Q‖) := by
      gcongr; norm_num
    _ ≤ (9 / 2 ^ 53 * ((1 + 1 / 2 ^ 50) * (‖P‖ / ‖Q‖)) + 1 / 2 ^ 100 * (‖P‖ / ‖Q‖)) + 8 / 2 ^ 53 * (‖P‖ / ‖Q‖) := by gcongr
    _ ≤ _ := by
      have : 0 ≤ ‖P‖ / ‖Q‖ := by positivity
      generalize ‖P‖ / ‖Q‖ = m at *
      norm_num; linarith
theorem cdiv {p q : Cpx F} {P Q : ℂ} (hp : IsC p P) (hq : IsC q Q) (pl : 1 / 2 ^ 400 ≤ ‖P‖) (pr : ‖P‖ ≤ 2 ^ 400)
    (hl : 1 / 2 ^ 400 ≤ ‖Q‖) (hr : ‖Q‖ ≤ 2 ^ 400) : ∃ V, IsC (p / q) V ∧ ‖V - P / Q‖ ≤ 11 / 2 ^ 53 * (‖P‖ / ‖Q‖) := by
  obtain ⟨I, hI, eI⟩ := cinv hq hl hr
  have hQ : 0 < ‖Q‖ := lt_of_lt_of_le (by positivity) hl
  have hP : 0 < ‖P‖ := lt_of_lt_of_le (by positivity) pl
  have nI : ‖I‖ ≤ (1 + 1 / 2 ^ 50) * (1 / ‖Q‖) := by
    calc ‖I‖ = ‖(I - Q⁻¹) + Q⁻¹‖ := by congr 1; abel
      _ ≤ _ := norm_add_le _ _
      _ ≤ 8 / 2 ^ 53 * (1 / ‖Q‖) + 1 / ‖Q‖ := by
        rw [norm_inv, ← one_div ‖Q‖]; gcongr; refine eI.trans ?_; gcongr; norm_num
      _ = _ := by ring
  have hm : ‖P‖ * ‖I‖ ≤ (1 + 1 / 2 ^ 50) * (‖P‖ / ‖Q‖) := by
    calc ‖P‖ * ‖I‖ ≤ ‖P‖ * ((1 + 1 / 2 ^ 50) * (1 / ‖Q‖)) := by gcongr
      _ = _ := by ring
  have hq2 : ‖P‖ / ‖Q‖ ≤ 2 ^ 800 := by
    calc _ ≤ (2:ℝ) ^ 400 / (1 / 2 ^ 400) := by gcongr
      _ = _ := by norm_num
  have hq1 : 1 / 2 ^ 800 ≤ ‖P‖ / ‖Q‖ := by
    calc (1:ℝ) / 2 ^ 800 = (1 / 2 ^ 400) / 2 ^ 400 := by norm_num
      _ ≤ _ := by gcongr
  obtain ⟨V, hV, eV⟩ := cmul hp hI (hm.trans (by
    calc _ ≤ (1 + 1 / 2 ^ 50 : ℝ) * 2 ^ 800 := by gcongr
      _ ≤ _ := by norm_num))
  refine ⟨V, hV, ?_⟩
  have e2 : ‖P * I - P / Q‖ ≤ 6 / 2 ^ 53 * (‖P‖ / ‖Q‖) := by
    rw [div_eq_mul_inv, ← mul_sub, norm_mul]
    calc _ ≤ ‖P‖ * (6 / 2 ^ 53 * (1 / ‖Q‖)) := by gcongr
      _ = _ := by ring
  calc ‖V - P / Q‖ = ‖(V - P * I) + (P * I - P / Q)‖ := by congr 1; ring
    _ ≤ _ := norm_add_le _ _
    _ ≤ (4 / 2 ^ 53 * (‖P‖ * ‖I‖) + 1 / 2 ^ 1072) + 6 / 2 ^ 53 * (‖P‖ / ‖Q‖) := add_le_add eV e2
    _ ≤ (4 / 2 ^ 53 * ((1 + 1 / 2 ^ 50) * (‖P‖ / ‖Q‖)) + 1 / 2 ^ 100 * (1 / 2 ^ 800)) + 6 / 2 ^ 53 * (‖P‖ / ‖Q‖) := by
      gcongr; norm_num
    _ ≤ (4 / 2 ^ 53 * ((1 + 1 / 2 ^ 50) * (‖P‖ / ‖Q‖)) + 1 / 2 ^ 100 * (‖P‖ / ‖Q‖)) + 6 / 2 ^ 53 * (‖P‖ / ‖Q‖) := by gcongr
    _ ≤ _ := by
      have : 0 ≤ ‖P‖ / ‖Q‖ := by positivity
      generalize ‖P‖ / ‖Q‖ = m at *
      norm_num; linarith

/-- The product `q x conj(q)` for a nearly unit `q`. -/
theorem qrot {q x : Quat F} {Q X : Quaternion ℝ} (hq : IsQ q Q) (hx : IsQ x X) (h1 : ‖Q‖ ≤ 1 + 1 / 2 ^ 10) (hX : ‖X‖ ≤ 2 ^ 900) :
    ∃ W, IsQ (q * x * q.conj) W ∧ ‖W - Q * X * star Q‖ ≤ 19 / 2 ^ 53 * ‖X‖ + 1 / 2 ^ 1069 := by
  have h0 := norm_nonneg Q
  have hx0 := norm_nonneg X
  have b1 : ‖Q‖ * ‖X‖ ≤ (1 + 1 / 2 ^ 10) * ‖X‖ := by gcongr
  obtain ⟨V, hV, eV⟩ := qmul hq hx (b1.trans (by
    calc _ ≤ (1 + 1 / 2 ^ 10 : ℝ) * 2 ^ 900 := by gcongr
      _ ≤ _ := by norm_num))
  have eV' : ‖V - Q * X‖ ≤ 9 / 2 ^ 53 * ((1 + 1 / 2 ^ 10) * ‖X‖) + 1 / 2 ^ 1071 := eV.trans (by gcongr)
  have nV : ‖V‖ ≤ (1 + 1 / 2 ^ 9) * ‖X‖ + 1 / 2 ^ 1071 := by
    calc ‖V‖ = ‖(V - Q * X) + Q * X‖ := by congr 1; abel
      _ ≤ _ := norm_add_le _ _
      _ ≤ (9 / 2 ^ 53 * ((1 + 1 / 2 ^ 10) * ‖X‖) + 1 / 2 ^ 1071) + (1 + 1 / 2 ^ 10) * ‖X‖ := by rw [norm_mul]; exact add_le_add eV' b1
      _ ≤ _ := by
        generalize 1 / (2:ℝ) ^ 1071 = t
        norm_num; linarith
  have b2 : ‖V‖ * ‖star Q‖ ≤ ((1 + 1 / 2 ^ 9) * ‖X‖ + 1 / 2 ^ 1071) * (1 + 1 / 2 ^ 10) := by rw [norm_star]; gcongr
  obtain ⟨W, hW, eW⟩ := qmul hV (isQ_conj hq) (b2.trans (by
    calc _ ≤ ((1 + 1 / 2 ^ 9 : ℝ) * 2 ^ 900 + 1 / 2 ^ 1071) * (1 + 1 / 2 ^ 10) := by gcongr
      _ ≤ _ := by norm_num))
  refine ⟨W, hW, ?_⟩
  have e2 : ‖V * star Q - Q * X * star Q‖ ≤ (9 / 2 ^ 53 * ((1 + 1 / 2 ^ 10) * ‖X‖) + 1 / 2 ^ 1071) * (1 + 1 / 2 ^ 10) := by
    rw [← sub_mul, norm_mul, norm_star]; gcongr
  calc ‖W - Q * X * star Q‖ = ‖(W - V * star Q) + (V * star Q - Q * X * star Q)‖ := by congr 1; abel
    _ ≤ _ := norm_add_le _ _
    _ ≤ (9 / 2 ^ 53 * (((1 + 1 / 2 ^ 9) * ‖X‖ + 1 / 2 ^ 1071) * (1 + 1 / 2 ^ 10)) + 1 / 2 ^ 1071) +
        (9 / 2 ^ 53 * ((1 + 1 / 2 ^ 10) * ‖X‖) + 1 / 2 ^ 1071) * (1 + 1 / 2 ^ 10) := by
      refine add_le_add (eW.trans ?_) e2
      gcongr
    _ ≤ _ := by
      rw [show (1:ℝ) / 2 ^ 1069 = 4 * (1 / 2 ^ 1071) by norm_num]
      have : (0:ℝ) < 1 / 2 ^ 1071 := by positivity
      generalize 1 / (2:ℝ) ^ 1071 = t at *
      norm_num; nlinarith
end F64
end Vecmat
