import Verif.Props.IeeeInt
/-!
# C105 (continued): the rounding of the model is the one of IEEE 754

Ties go to the number with the even significand; overflow begins exactly half a unit above the largest number.
-/
namespace Vecmat
open Spec Ieee
variable {φ : Fmt}

namespace Spec
/-- The significand of `r` (with all its `p` digits, unless `r` is subnormal) is even. -/
def EvenSignificand (φ : Fmt) (r : ℝ) : Prop :=
  ∃ m e : ℤ, r = m * 2 ^ e ∧ |m| < 2 ^ φ.p ∧ φ.emin - φ.p + 1 ≤ e ∧ (2 ^ (φ.p - 1) ≤ |m| ∨ e = φ.emin - φ.p + 1) ∧ Even m
end Spec

namespace Rounding
theorem even_of_tie {t : ℝ} {n : ℤ} (hn : n ≠ roundEven t) (h : |(n : ℝ) - t| = |(roundEven t : ℝ) - t|) : Even (roundEven t) := by
  have e := roundEven_err t
  have d : (1:ℝ) ≤ |(n : ℝ) - roundEven t| := by
    have : (1 : ℤ) ≤ |n - roundEven t| := Int.one_le_abs (sub_ne_zero.2 hn)
    exact_mod_cast this
  have half : |(roundEven t : ℝ) - t| = 1 / 2 := by
    refine le_antisymm e ?_
    have : |(n : ℝ) - roundEven t| ≤ |(n : ℝ) - t| + |(roundEven t : ℝ) - t| := by
      have := abs_sub_le (n : ℝ) t (roundEven t)
      rwa [abs_sub_comm t] at this
    linarith
  have f0 := Int.floor_le t
  have f1 := Int.lt_floor_add_one t
  unfold roundEven at half ⊢
  by_cases h1 : t - ⌊t⌋ < 1 / 2
  · rw [if_pos h1, abs_of_nonpos (by linarith)] at half; linarith
  · rw [if_neg h1] at half ⊢
    by_cases h2 : 1 / 2 < t - ⌊t⌋
    · rw [if_pos h2] at half
      push_cast at half
      rw [abs_of_pos (by linarith)] at half; linarith
    · rw [if_neg h2]
      by_cases h3 : Even ⌊t⌋
      · rwa [if_pos h3]
      · rw [if_neg h3]; exact (Int.not_even_iff_odd.1 h3).add_one

theorem even_near (hφ : WF φ) {x : ℝ} (hx : x ≠ 0) (h : Even (roundEven (x / φ.ulp x))) : EvenSignificand φ (φ.near x) := by
  have hp : 1 ≤ φ.p := by have := hφ.1; omega
  obtain ⟨k, E, h1, h2, h3, h4, h5⟩ := Fmt.near_form (φ := φ) hx hp
  have hk : k = roundEven (x / φ.ulp x) := by
    have : (k : ℝ) * 2 ^ E = roundEven (x / φ.ulp x) * 2 ^ E := by rw [← h1, ← h5]; rfl
    exact_mod_cast mul_right_cancel₀ (by positivity) this
  rw [← hk] at h
  rcases lt_or_eq_of_le h2 with lt | eq
  · exact ⟨k, E, h1, lt, h3, h4.symm, h⟩
  · obtain ⟨q, hq⟩ : ∃ q, φ.p = q + 2 := ⟨φ.p - 2, by have := hφ.1; omega⟩
    have key : ∀ s : ℤ, |s| = 1 → k = s * 2 ^ φ.p → EvenSignificand φ (φ.near x) := fun s hs e => by
      refine ⟨s * 2 ^ (φ.p - 1), E + 1, ?_, ?_, by omega, .inl ?_, ?_⟩
      · rw [h1, e, zpow_add₀ (by norm_num)]; push_cast
        rw [hq, show q + 2 - 1 = q + 1 by omega]; ring
      · rw [abs_mul, hs, one_mul, abs_of_pos (by positivity)]
        exact pow_lt_pow_right₀ (by norm_num) (by omega)
      · rw [abs_mul, hs, one_mul, abs_of_pos (by positivity)]
      · rw [hq, show q + 2 - 1 = q + 1 by omega, pow_succ]; exact ((even_two).mul_left _).mul_left _
    rcases abs_eq (a := k) (b := 2 ^ φ.p) (by positivity) |>.1 eq with e | e
    · exact key 1 (by simp) (by rw [e]; ring)
    · exact key (-1) (by simp) (by rw [e]; ring)

theorem tie_pos (hφ : WF φ) {x y : ℝ} (hx : 0 < x) (hy : Representable φ y) (hne : y ≠ φ.near x) (ht : |y - x| = |φ.near x - x|) :
    EvenSignificand φ (φ.near x) := by
  have hu : φ.ulp x = 2 ^ (max (Int.log 2 |x|) φ.emin - φ.p + 1) := rfl
  have up := φ.ulp_pos x
  have key : ∀ n : ℤ, y = n * φ.ulp x → EvenSignificand φ (φ.near x) := fun n hn => by
    refine even_near hφ hx.ne' (even_of_tie (n := n) (fun h => hne (by rw [hn, h]; rfl)) ?_)
    have a : ∀ t : ℝ, |t - x / φ.ulp x| = |t * φ.ulp x - x| / φ.ulp x := fun t => by
      rw [eq_div_iff up.ne', ← abs_of_pos up, ← abs_mul, abs_of_pos up, sub_mul, div_mul_cancel₀ _ up.ne']
    rw [a, a, ← hn, ht]; rfl
  obtain ⟨m, k, hyv, hm, hk, -⟩ := hy
  by_cases h : max (Int.log 2 |x|) φ.emin - φ.p + 1 ≤ k
  · obtain ⟨d, hd⟩ : ∃ d : ℕ, k = d + (max (Int.log 2 |x|) φ.emin - φ.p + 1) := ⟨(k - (max (Int.log 2 |x|) φ.emin - φ.p + 1)).toNat, by omega⟩
    refine key (m * 2 ^ d) ?_
    rw [hyv, hu, hd, zpow_add₀ (by norm_num) (d : ℤ), zpow_natCast]; push_cast; ring
  · have he : max (Int.log 2 |x|) φ.emin = Int.log 2 |x| := by omega
    rw [he] at h hu
    have hpe : (2:ℝ) ^ Int.log 2 |x| ≤ x := by
      have := Int.zpow_log_le_self (b := 2) (by norm_num) (abs_pos.mpr hx.ne')
      rw [abs_of_pos hx] at this ⊢; exact_mod_cast this
    have hlt : y ≤ 2 ^ Int.log 2 |x| := by
      have h1 : (m : ℝ) ≤ 2 ^ φ.p := by
        have := (le_abs_self m).trans hm.le
        exact_mod_cast this
      rw [hyv]
      calc (m : ℝ) * 2 ^ k ≤ 2 ^ φ.p * 2 ^ k := by gcongr
        _ = 2 ^ ((φ.p : ℤ) + k) := by rw [zpow_add₀ (by norm_num), zpow_natCast]
        _ ≤ _ := zpow_le_zpow_right₀ (by norm_num) (by omega)
    have e : (((2 ^ (φ.p - 1) : ℤ) : ℝ)) * 2 ^ (Int.log 2 |x| - φ.p + 1) = 2 ^ Int.log 2 |x| := by
      push_cast
      rw [← zpow_natCast, ← zpow_add₀ (by norm_num)]; congr 1; have := hφ.1; omega
    have n := Fmt.near_nearest_grid (φ := φ) x (2 ^ (φ.p - 1))
    rw [hu, e, ← ht, abs_of_nonpos (sub_nonpos.2 (hlt.trans hpe)), abs_of_nonpos (sub_nonpos.2 hpe)] at n
    exact key (2 ^ (φ.p - 1)) (by rw [hu, e]; linarith)
theorem even_neg {r : ℝ} (h : EvenSignificand φ r) : EvenSignificand φ (-r) := by
  obtain ⟨m, e, h1, h2, h3, h4, h5⟩ := h
  exact ⟨-m, e, by rw [h1]; push_cast; ring, by rwa [abs_neg], h3, by rwa [abs_neg], h5.neg⟩
end Rounding
open Rounding

/-- Ties to even: when a number of the format other than the result is as close to the exact value, the significand of the result is even. -/
theorem C105_ties (hφ : WF φ) {x r y : ℝ} (hr : (rnd x : Ieee φ).toReal? = some r) (hy : Representable φ y) (hne : y ≠ r)
    (ht : |y - x| = |r - x|) : EvenSignificand φ r := by
  obtain ⟨rfl, -⟩ := val_rnd_near.1 hr
  rcases lt_trichotomy x 0 with h | rfl | h
  · have := tie_pos hφ (x := -x) (y := -y) (by linarith) (rep_neg hy) (by rw [Fmt.near_neg]; exact fun h => hne (neg_injective h)) (by
      rw [Fmt.near_neg, show -y - -x = -(y - x) by ring, show -φ.near x - -x = -(φ.near x - x) by ring, abs_neg, abs_neg, ht])
    rw [Fmt.near_neg] at this
    simpa using even_neg this
  · exfalso
    rw [Fmt.near_zero] at ht hne
    simp at ht; exact hne ht
  · exact tie_pos hφ h hy hne ht

/-- Overflow: the result is infinite, with the sign of the exact value, from half a unit above the largest number of the format on; below it is a number. -/
theorem C105_overflow (hφ : WF φ) {x : ℝ} :
    ((2 - 1 / 2 ^ φ.p) * 2 ^ φ.emax ≤ |x| → (rnd x : Ieee φ) = .inf (decide (x < 0))) ∧
    (|x| < (2 - 1 / 2 ^ φ.p) * 2 ^ φ.emax → ∃ r, (rnd x : Ieee φ).toReal? = some r) := by
  obtain ⟨p2, m1, M1⟩ := hφ
  have hp : 1 ≤ φ.p := by omega
  set E : ℤ := φ.emax - φ.p + 1 with hE
  have pw : (2:ℝ) ^ φ.emax * 2 = 2 ^ φ.p * 2 ^ E := by
    rw [← zpow_natCast (2:ℝ) φ.p, ← zpow_add₀ (by norm_num), ← zpow_add_one₀ (by norm_num)]; congr 1; omega
  have P0 : (0:ℝ) < 2 ^ φ.p := by positivity
  have P4 : (4:ℝ) ≤ 2 ^ φ.p := by
    calc (4:ℝ) = 2 ^ 2 := by norm_num
      _ ≤ _ := pow_le_pow_right₀ (by norm_num) p2
  have U0 : (0:ℝ) < 2 ^ E := by positivity
  have ht : (2 - 1 / 2 ^ φ.p) * (2:ℝ) ^ φ.emax = (2 ^ φ.p - 1 / 2) * 2 ^ E := by
    have : (2:ℝ) ^ φ.emax = 2 ^ φ.p * 2 ^ E / 2 := by linarith
    rw [this]; field_simp
  have htop : (2:ℝ) ^ (φ.emax + 1) = 2 ^ φ.p * 2 ^ E := by rw [zpow_add_one₀ (by norm_num), pw]
  have near_abs : |φ.near x| = φ.near |x| := by
    rcases le_total 0 x with h | h
    · rw [abs_of_nonneg h, abs_of_nonneg (Fmt.near_nonneg h)]
    · rw [abs_of_nonpos h, abs_of_nonpos (Fmt.near_nonpos h), Fmt.near_neg]
  rw [ht]
  -- the spacing in the last binade
  have top : ∀ z : ℝ, (2:ℝ) ^ φ.emax ≤ z → z < 2 ^ (φ.emax + 1) → φ.ulp z = 2 ^ E := fun z z1 z2 => by
    have z0 : 0 < z := lt_of_lt_of_le (by positivity) z1
    rw [Fmt.ulp_eq (φ := φ) (e := φ.emax) (by rwa [abs_of_pos z0]) (by rwa [abs_of_pos z0]) (by omega)]
  have lo : (2:ℝ) ^ φ.emax ≤ (2 ^ φ.p - 1) * 2 ^ E := by
    have : (2:ℝ) ^ φ.emax = 2 ^ φ.p * 2 ^ E / 2 := by linarith
    rw [this]; nlinarith
  constructor
  · intro h
    have e1 : φ.near ((2 ^ φ.p - 1 / 2) * 2 ^ E) = 2 ^ (φ.emax + 1) := by
      unfold Fmt.near
      rw [top _ (lo.trans (by gcongr; norm_num)) (by rw [htop]; gcongr; linarith), mul_div_assoc, div_self U0.ne', mul_one, htop]
      congr 1
      have fl : ⌊(2:ℝ) ^ φ.p - 1 / 2⌋ = 2 ^ φ.p - 1 := by rw [Int.floor_eq_iff]; push_cast; constructor <;> linarith
      unfold roundEven
      rw [fl]
      have odd : ¬ Even ((2:ℤ) ^ φ.p - 1) := by
        rw [Int.not_even_iff_odd]
        obtain ⟨q, hq⟩ : ∃ q, φ.p = q + 1 := ⟨φ.p - 1, by omega⟩
        exact ⟨2 ^ q - 1, by rw [hq, pow_succ]; ring⟩
      rw [if_neg (by push_cast; linarith), if_neg (by push_cast; linarith), if_neg odd]
      push_cast; ring
    have e2 := Fmt.near_mono (φ := φ) hp h
    rw [e1, ← near_abs] at e2
    unfold rnd
    rw [if_pos e2]
  · intro h
    refine ⟨φ.near x, val_rnd_near.2 ⟨rfl, ?_⟩⟩
    show |φ.near x| < 2 ^ (φ.emax + 1)
    rw [near_abs, htop]
    have last : (2 ^ φ.p - 1) * (2:ℝ) ^ E < 2 ^ φ.p * 2 ^ E := by gcongr; linarith
    refine lt_of_le_of_lt ?_ last
    rcases le_or_gt |x| ((2 ^ φ.p - 1) * 2 ^ E) with hc | hc
    · have e := Fmt.near_mono (φ := φ) hp hc
      have z4 : (4:ℤ) ≤ 2 ^ φ.p := by exact_mod_cast P4
      have rep : Representable φ ((2 ^ φ.p - 1) * 2 ^ E) :=
        ⟨2 ^ φ.p - 1, E, by push_cast; ring, by rw [abs_of_nonneg (by linarith)]; linarith, by omega, by omega⟩
      rwa [Fmt.near_rep rep] at e
    · have ul : φ.ulp |x| = 2 ^ E := top _ (lo.trans hc.le) (h.trans (by rw [htop]; gcongr; linarith))
      have : φ.near |x| = (2 ^ φ.p - 1) * 2 ^ E := by
        unfold Fmt.near
        rw [ul, roundEven_eq (n := 2 ^ φ.p - 1)]
        · push_cast; ring
        · have a : (2 ^ φ.p - 1 : ℝ) < |x| / 2 ^ E := (lt_div_iff₀ U0).2 hc
          have b : |x| / 2 ^ E < (2 ^ φ.p - 1 / 2 : ℝ) := (div_lt_iff₀ U0).2 h
          push_cast
          rw [abs_of_pos (by linarith)]; linarith
      exact this.le

/-! ## Cases that meet the hypotheses -/
/-- `1 + 2⁻⁵³` lies half-way between `1` and `1 + 2⁻⁵²`; the result has an even significand (so it is `1`). -/
example : ∃ r y, (rnd (1 + 1 / 2 ^ 53) : Ieee Fmt.f64).toReal? = some r ∧ EvenSignificand Fmt.f64 r ∧ Representable Fmt.f64 y ∧ y ≠ r ∧
    |y - (1 + 1 / 2 ^ 53)| = |r - (1 + 1 / 2 ^ 53)| := by
  obtain ⟨r, hr⟩ := (C105_overflow (φ := Fmt.f64) C80_formats.2 (x := 1 + 1 / 2 ^ 53)).2 (by
    rw [abs_of_pos (by positivity)]
    show _ < (2 - 1 / 2 ^ 53) * (2:ℝ) ^ (1023 : ℤ)
    calc (1 + 1 / 2 ^ 53 : ℝ) < (2 - 1 / 2 ^ 53) * (2:ℝ) ^ (1 : ℤ) := by norm_num
      _ ≤ _ := mul_le_mul_of_nonneg_left (zpow_le_zpow_right₀ (by norm_num) (by norm_num)) (by norm_num))
  have r1 : Representable Fmt.f64 1 := ⟨1, 0, by norm_num, by norm_num [Fmt.f64], by norm_num [Fmt.f64], by norm_num [Fmt.f64]⟩
  have r2 : Representable Fmt.f64 (1 + 1 / 2 ^ 52) :=
    ⟨2 ^ 52 + 1, -52, by rw [zpow_neg]; push_cast; norm_num, by norm_num [Fmt.f64], by norm_num [Fmt.f64], by norm_num [Fmt.f64]⟩
  obtain ⟨r', hr', -, hn⟩ := C105_nearest (φ := Fmt.f64) C80_formats.2 (x := 1 + 1 / 2 ^ 53) (by positivity) ⟨_, r2, by
    rw [abs_of_pos (by positivity)]; gcongr <;> norm_num⟩
  obtain rfl : r' = r := Option.some.inj (hr'.symm.trans hr)
  obtain ⟨e, -⟩ := val_rnd_near.1 hr
  -- the spacing around the value is `2⁻⁵²`, so the result is one of the two neighbours
  have hu : Fmt.f64.ulp (1 + 1 / 2 ^ 53) = 1 / 2 ^ 52 := by
    rw [Fmt.ulp_eq (φ := Fmt.f64) (e := 0) (by rw [abs_of_pos (by positivity)]; norm_num) (by rw [abs_of_pos (by positivity)]; norm_num) (by norm_num [Fmt.f64])]
    show (2:ℝ) ^ (0 - 53 + 1 : ℤ) = _
    norm_num
  have hv : r' = 1 := by
    rw [e]; unfold Fmt.near
    have fl : ⌊(2:ℝ) ^ 52 + 1 / 2⌋ = 2 ^ 52 := by rw [Int.floor_eq_iff]; push_cast; constructor <;> linarith
    rw [hu, show ((1 + 1 / 2 ^ 53 : ℝ) / (1 / 2 ^ 52)) = 2 ^ 52 + 1 / 2 by norm_num]
    unfold roundEven
    rw [fl, if_neg (by norm_num), if_neg (by norm_num), if_pos (by decide)]
    norm_num
  subst hv
  refine ⟨1, 1 + 1 / 2 ^ 52, hr, ?_, r2, by norm_num, by norm_num [abs_of_pos, abs_of_neg]⟩
  exact C105_ties C80_formats.2 hr r2 (by norm_num) (by norm_num [abs_of_pos, abs_of_neg])
/-- `2¹⁰²⁴` overflows in `f64`. -/
example : (rnd (-2 ^ 1024) : Ieee Fmt.f64) = .inf true := by
  have := (C105_overflow (φ := Fmt.f64) C80_formats.2 (x := -2 ^ 1024)).1 (by
    rw [abs_neg, abs_of_pos (by positivity)]
    show (2 - 1 / 2 ^ 53) * (2:ℝ) ^ (1023 : ℤ) ≤ _
    rw [show (1023 : ℤ) = ((1023 : ℕ) : ℤ) by rfl, zpow_natCast, show (1024 : ℕ) = 1023 + 1 by rfl, pow_succ, mul_comm]
    exact mul_le_mul_of_nonneg_left (by norm_num) (by positivity))
  rw [this]; simp
end Vecmat
