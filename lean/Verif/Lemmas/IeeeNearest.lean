import Verif.Lemmas.IeeeErr
/-! Helper lemmas: the rounding of the model is to a nearest number of the format. -/
namespace Vecmat
open Spec
variable {φ : Fmt}

theorem roundEven_nearest (r : ℝ) (n : ℤ) : |(roundEven r : ℝ) - r| ≤ |(n : ℝ) - r| := by
  by_cases h : n = roundEven r
  · rw [h]
  have h1 := roundEven_err r
  have h2 : (1:ℝ) ≤ |(n : ℝ) - (roundEven r : ℝ)| := by
    rw [← Int.cast_sub, ← Int.cast_abs]; exact_mod_cast Int.one_le_abs (sub_ne_zero.mpr h)
  have h3 : |(n : ℝ) - (roundEven r : ℝ)| ≤ |(n : ℝ) - r| + |(roundEven r : ℝ) - r| := by
    rw [abs_sub_comm (roundEven r : ℝ) r]; exact abs_sub_le _ _ _
  linarith
/-- Nearest among the multiples of the spacing. -/
theorem Fmt.near_nearest_grid (x : ℝ) (n : ℤ) : |φ.near x - x| ≤ |n * φ.ulp x - x| := by
  have hu := φ.ulp_pos x
  have h := roundEven_nearest (x / φ.ulp x) n
  have key : ∀ t : ℝ, |t * φ.ulp x - x| = |t - x / φ.ulp x| * φ.ulp x := by
    intro t
    rw [← abs_of_pos hu, ← abs_mul, abs_of_pos hu, sub_mul, div_mul_cancel₀ _ hu.ne']
  unfold Fmt.near
  rw [key, key]
  gcongr
theorem Fmt.near_nearest_pos {x y : ℝ} (hx : 0 < x) (hy : Representable φ y) : |φ.near x - x| ≤ |y - x| := by
  obtain ⟨m, k, rfl, hm, hk, -⟩ := hy
  have hu : φ.ulp x = 2 ^ (max (Int.log 2 |x|) φ.emin - φ.p + 1) := rfl
  by_cases h : max (Int.log 2 |x|) φ.emin - φ.p + 1 ≤ k
  · obtain ⟨d, hd⟩ : ∃ d : ℕ, k = d + (max (Int.log 2 |x|) φ.emin - φ.p + 1) := ⟨(k - (max (Int.log 2 |x|) φ.emin - φ.p + 1)).toNat, by omega⟩
    have := Fmt.near_nearest_grid (φ := φ) x (m * 2 ^ d)
    rw [hu] at this
    refine this.trans_eq ?_
    congr 2
    rw [hd, zpow_add₀ (by norm_num) (d : ℤ), zpow_natCast]; push_cast; ring
  · have he : max (Int.log 2 |x|) φ.emin = Int.log 2 |x| := by omega
    rw [he] at h hu
    have hpe : (2:ℝ) ^ Int.log 2 |x| ≤ x := by
      have := Int.zpow_log_le_self (b := 2) (by norm_num) (abs_pos.mpr hx.ne')
      rw [abs_of_pos hx] at this ⊢; exact_mod_cast this
    have hlt : (m : ℝ) * 2 ^ k ≤ 2 ^ Int.log 2 |x| := by
      have h1 : (m : ℝ) ≤ 2 ^ φ.p := by
        have := (le_abs_self m).trans hm.le
        exact_mod_cast this
      calc (m : ℝ) * 2 ^ k ≤ 2 ^ φ.p * 2 ^ k := by gcongr
        _ = 2 ^ ((φ.p : ℤ) + k) := by rw [zpow_add₀ (by norm_num), zpow_natCast]
        _ ≤ _ := zpow_le_zpow_right₀ (by norm_num) (by omega)
    by_cases hp : φ.p = 0
    · have : m = 0 := by rw [hp, pow_zero] at hm; exact Int.abs_lt_one_iff.mp hm
      subst this
      have := Fmt.near_nearest_grid (φ := φ) x 0
      simpa using this
    have := Fmt.near_nearest_grid (φ := φ) x (2 ^ (φ.p - 1))
    rw [hu] at this
    have e : (((2 ^ (φ.p - 1) : ℤ) : ℝ)) * 2 ^ (Int.log 2 |x| - φ.p + 1) = 2 ^ Int.log 2 |x| := by
      push_cast
      rw [← zpow_natCast, ← zpow_add₀ (by norm_num)]; congr 1; omega
    rw [e] at this
    refine this.trans ?_
    rw [abs_of_nonpos (sub_nonpos.mpr hpe), abs_of_nonpos (sub_nonpos.mpr (hlt.trans hpe))]
    linarith
/-- `near x` is a nearest number of the format. -/
theorem Fmt.near_nearest {x y : ℝ} (hy : Representable φ y) : |φ.near x - x| ≤ |y - x| := by
  rcases lt_trichotomy x 0 with h | rfl | h
  · have := Fmt.near_nearest_pos (φ := φ) (neg_pos.mpr h) (Ieee.rep_neg hy)
    rw [Fmt.near_neg, neg_sub_neg, neg_sub_neg, abs_sub_comm, abs_sub_comm x] at this
    exact this
  · rw [Fmt.near_zero]; simp
  · exact Fmt.near_nearest_pos h hy
end Vecmat
