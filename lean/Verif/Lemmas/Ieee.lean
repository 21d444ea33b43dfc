import Verif.Spec.Ieee
import Mathlib.Tactic.Linarith
import Mathlib.Tactic.FieldSimp
import Mathlib.Tactic.Positivity
/-! Helper lemmas: rounding to nearest even and IEEE arithmetic. -/
namespace Vecmat
open Spec

theorem roundEven_int (n : ℤ) : roundEven (n : ℝ) = n := by
  unfold roundEven; simp

theorem roundEven_neg (r : ℝ) : roundEven (-r) = -roundEven r := by
  by_cases hz : (⌊r⌋ : ℝ) = r
  · rw [← hz, roundEven_int, ← Int.cast_neg, roundEven_int]
  have h1 := Int.floor_le r
  have h2 := Int.lt_floor_add_one r
  have h3 : (⌊r⌋ : ℝ) < r := lt_of_le_of_ne h1 hz
  have hf : ⌊-r⌋ = -⌊r⌋ - 1 := by
    rw [Int.floor_eq_iff]; push_cast; constructor <;> linarith
  unfold roundEven
  rw [hf]; push_cast
  rcases lt_trichotomy (r - ⌊r⌋) (1/2) with h | h | h
  · have a : ¬ (-r - (-(⌊r⌋:ℝ) - 1) < 1/2) := by linarith
    have b : 1/2 < -r - (-(⌊r⌋:ℝ) - 1) := by linarith
    rw [if_neg a, if_pos b, if_pos h]; ring
  · have a : ¬ (-r - (-(⌊r⌋:ℝ) - 1) < 1/2) := by linarith
    have b : ¬ (1/2 < -r - (-(⌊r⌋:ℝ) - 1)) := by linarith
    have c : ¬ (r - ⌊r⌋ < 1/2) := by linarith
    have d : ¬ (1/2 < r - ⌊r⌋) := by linarith
    rw [if_neg a, if_neg b, if_neg c, if_neg d]
    by_cases he : Even ⌊r⌋
    · have : ¬ Even (-⌊r⌋ - 1) := by
        rw [Int.even_sub_one]; simpa using he
      rw [if_pos he, if_neg this]; ring
    · have : Even (-⌊r⌋ - 1) := by
        rw [Int.even_sub_one]; simpa using he
      rw [if_neg he, if_pos this]; ring
  · have a : (-r - (-(⌊r⌋:ℝ) - 1) < 1/2) := by linarith
    have c : ¬ (r - ⌊r⌋ < 1/2) := by linarith
    rw [if_pos a, if_neg c, if_pos h]; ring

theorem roundEven_err (r : ℝ) : |(roundEven r : ℝ) - r| ≤ 1 / 2 := by
  have h1 := Int.floor_le r
  have h2 := Int.lt_floor_add_one r
  unfold roundEven
  split_ifs <;> push_cast <;> rw [abs_le] <;> constructor <;> linarith

theorem roundEven_mono {r s : ℝ} (h : r ≤ s) : roundEven r ≤ roundEven s := by
  have hf := Int.floor_mono h
  have h1 := Int.floor_le r
  have h2 := Int.lt_floor_add_one r
  have h3 := Int.floor_le s
  have h4 := Int.lt_floor_add_one s
  rcases hf.eq_or_lt with e | l
  · unfold roundEven
    rw [e]
    rw [e] at h1 h2
    split_ifs <;> first | omega | (exfalso; linarith)
  · have : roundEven r ≤ ⌊r⌋ + 1 := by unfold roundEven; split_ifs <;> omega
    have : ⌊s⌋ ≤ roundEven s := by unfold roundEven; split_ifs <;> omega
    omega

/-- An integer nearer than one half is the result. -/
theorem roundEven_eq {r : ℝ} {n : ℤ} (h : |r - n| < 1 / 2) : roundEven r = n := by
  have := roundEven_err r
  rw [abs_lt] at h; rw [abs_le] at this
  have a : ((roundEven r : ℤ) : ℝ) < (n + 1 : ℤ) := by push_cast; linarith
  have b : ((n - 1 : ℤ) : ℝ) < (roundEven r : ℤ) := by push_cast; linarith
  have a := Int.cast_lt.mp a
  have b := Int.cast_lt.mp b
  omega

namespace Fmt
variable (φ : Fmt)
theorem ulp_pos (x : ℝ) : 0 < φ.ulp x := by unfold ulp; positivity
theorem ulp_neg (x : ℝ) : φ.ulp (-x) = φ.ulp x := by unfold ulp; rw [abs_neg]
theorem near_neg (x : ℝ) : φ.near (-x) = -φ.near x := by
  unfold near; rw [ulp_neg, neg_div, roundEven_neg]; push_cast; ring
theorem near_err (x : ℝ) : |φ.near x - x| ≤ φ.ulp x / 2 := by
  have h := roundEven_err (x / φ.ulp x)
  have hp := φ.ulp_pos x
  have : φ.near x - x = (roundEven (x / φ.ulp x) - x / φ.ulp x) * φ.ulp x := by
    unfold near; field_simp
  rw [this, abs_mul, abs_of_pos hp]; nlinarith

variable {φ}
theorem near_rep {x : ℝ} (h : Representable φ x) : φ.near x = x := by
  by_cases h0 : x = 0
  · subst h0; unfold near; simp; left; simpa using roundEven_int 0
  obtain ⟨m, e, rfl, hm, he, -⟩ := h
  have hm0 : m ≠ 0 := by rintro rfl; simp at h0
  have hlt : |(m:ℝ) * 2 ^ e| < (2:ℝ) ^ ((φ.p : ℤ) + e) := by
    rw [abs_mul, abs_of_pos (by positivity : (0:ℝ) < 2 ^ e), zpow_add₀ (by norm_num)]
    have : |(m:ℝ)| < 2 ^ (φ.p : ℤ) := by rw [zpow_natCast]; exact_mod_cast hm
    have : (0:ℝ) < 2 ^ e := by positivity
    nlinarith
  have hl : Int.log 2 |(m:ℝ) * 2 ^ e| < φ.p + e := by
    rw [← Int.lt_zpow_iff_log_lt (by norm_num) (abs_pos.mpr h0)]; exact_mod_cast hlt
  unfold near ulp
  generalize hE : max (Int.log 2 |(m:ℝ) * 2 ^ e|) φ.emin - φ.p + 1 = E
  have hEe : E ≤ e := by omega
  obtain ⟨k, rfl⟩ : ∃ k : ℕ, e = E + k := ⟨(e - E).toNat, by omega⟩
  have : (m:ℝ) * 2 ^ (E + (k:ℤ)) / 2 ^ E = ((m * 2 ^ k : ℤ) : ℝ) := by
    rw [zpow_add₀ (by norm_num), zpow_natCast]; push_cast; field_simp
  rw [this, roundEven_int, zpow_add₀ (by norm_num), zpow_natCast]; push_cast; ring

theorem near_zero : φ.near 0 = 0 := by
  unfold near; simp; left; simpa using roundEven_int 0

/-- Structure of a rounded number. -/
theorem near_form {x : ℝ} (h0 : x ≠ 0) (hp : 1 ≤ φ.p) : ∃ k E : ℤ, φ.near x = k * 2 ^ E ∧ |k| ≤ 2 ^ φ.p ∧ φ.emin - φ.p + 1 ≤ E ∧
    (E = φ.emin - φ.p + 1 ∨ 2 ^ (φ.p - 1) ≤ |k|) ∧ φ.ulp x = 2 ^ E := by
  have hlo : (2:ℝ) ^ (Int.log 2 |x|) ≤ |x| := by exact_mod_cast Int.zpow_log_le_self (by norm_num : 1 < 2) (abs_pos.mpr h0)
  have hhi : |x| < (2:ℝ) ^ (Int.log 2 |x| + 1) := by exact_mod_cast Int.lt_zpow_succ_log_self (by norm_num : 1 < 2) |x|
  have key : ∀ r : ℝ, ∀ n : ℕ, |r| ≤ 2 ^ n → |roundEven r| ≤ 2 ^ n := by
    intro r n hr
    rw [abs_le] at hr ⊢
    have a := roundEven_mono hr.1
    have b := roundEven_mono hr.2
    rw [show (-(2:ℝ) ^ n) = ((-(2 ^ n) : ℤ) : ℝ) by push_cast; rfl, roundEven_int] at a
    rw [show ((2:ℝ) ^ n) = (((2 ^ n) : ℤ) : ℝ) by push_cast; rfl, roundEven_int] at b
    exact ⟨a, b⟩
  have key2 : ∀ r : ℝ, ∀ n : ℕ, 2 ^ n ≤ |r| → 2 ^ n ≤ |roundEven r| := by
    intro r n hr
    rcases le_abs.mp hr with h | h
    · have b := roundEven_mono h
      rw [show ((2:ℝ) ^ n) = (((2 ^ n) : ℤ) : ℝ) by push_cast; rfl, roundEven_int] at b
      exact b.trans (le_abs_self _)
    · have b := roundEven_mono h
      rw [show ((2:ℝ) ^ n) = (((2 ^ n) : ℤ) : ℝ) by push_cast; rfl, roundEven_int, roundEven_neg] at b
      exact b.trans (neg_le_abs _)
  refine ⟨roundEven (x / φ.ulp x), max (Int.log 2 |x|) φ.emin - φ.p + 1, rfl, ?_, by omega, ?_, rfl⟩
  · apply key
    rw [abs_div, abs_of_pos (φ.ulp_pos x), div_le_iff₀ (φ.ulp_pos x)]
    unfold ulp
    rw [← zpow_natCast, ← zpow_add₀ (by norm_num)]
    refine hhi.le.trans (zpow_le_zpow_right₀ (by norm_num) (by omega))
  · by_cases h : Int.log 2 |x| ≤ φ.emin
    · left; omega
    · right
      apply key2
      rw [abs_div, abs_of_pos (φ.ulp_pos x), le_div_iff₀ (φ.ulp_pos x)]
      unfold ulp
      rw [← zpow_natCast, ← zpow_add₀ (by norm_num)]
      refine le_trans (zpow_le_zpow_right₀ (by norm_num) ?_) hlo
      push_cast [hp]; omega

theorem rep_near (hφ : WF φ) {x : ℝ} (h : |φ.near x| < 2 ^ (φ.emax + 1)) : Representable φ (φ.near x) := by
  by_cases h0 : x = 0
  · subst h0; rw [near_zero]
    exact ⟨0, φ.emin - φ.p + 1, by simp, by simp, le_rfl, by have := hφ.2; omega⟩
  obtain ⟨k, E, hk, hle, hE, hor, -⟩ := near_form h0 (φ := φ) (by have := hφ.1; omega)
  rw [hk] at h ⊢
  rw [abs_mul, abs_of_pos (by positivity : (0:ℝ) < 2 ^ E)] at h
  have up : ∀ n : ℕ, (2:ℤ) ^ n ≤ |k| → (n:ℤ) + E < φ.emax + 1 := by
    intro n hn
    have : (2:ℝ) ^ ((n:ℤ) + E) < 2 ^ (φ.emax + 1) := by
      refine lt_of_le_of_lt ?_ h
      rw [zpow_add₀ (by norm_num), zpow_natCast]
      have : (2:ℝ) ^ n ≤ |(k:ℝ)| := by exact_mod_cast hn
      have : (0:ℝ) < 2 ^ E := by positivity
      nlinarith
    exact (zpow_lt_zpow_iff_right₀ (by norm_num)).mp this
  rcases hle.lt_or_eq with hlt | heq
  · refine ⟨k, E, rfl, hlt, hE, ?_⟩
    rcases hor with h | h
    · have := hφ.2; omega
    · have := up _ h
      have := hφ.1
      omega
  · have hp := hφ.1
    have := up _ heq.ge
    obtain ⟨q, hq⟩ : ∃ q, φ.p = q + 1 := ⟨φ.p - 1, by omega⟩
    rcases abs_eq_abs.mp (heq.trans (abs_of_pos (by positivity : (0:ℤ) < 2 ^ φ.p)).symm) with h | h
    · refine ⟨2 ^ q, E + 1, ?_, ?_, by omega, by omega⟩
      · rw [h, hq, zpow_add₀ (by norm_num)]; push_cast; ring
      · rw [abs_of_pos (by positivity), hq, pow_succ]; have : (0:ℤ) < 2 ^ q := by positivity
        omega
    · refine ⟨-2 ^ q, E + 1, ?_, ?_, by omega, by omega⟩
      · rw [h, hq, zpow_add₀ (by norm_num)]; push_cast; ring
      · rw [abs_neg, abs_of_pos (by positivity), hq, pow_succ]; have : (0:ℤ) < 2 ^ q := by positivity
        omega

theorem near_nonneg {x : ℝ} (h : 0 ≤ x) : 0 ≤ φ.near x := by
  have := roundEven_mono (div_nonneg h (φ.ulp_pos x).le)
  rw [show (0:ℝ) = ((0:ℤ):ℝ) by simp, roundEven_int] at this
  unfold near
  exact mul_nonneg (by exact_mod_cast this) (φ.ulp_pos x).le
theorem near_nonpos {x : ℝ} (h : x ≤ 0) : φ.near x ≤ 0 := by
  have := near_nonneg (φ := φ) (neg_nonneg.mpr h)
  rw [near_neg] at this; linarith

/-- A power of two that is a multiple of the spacing bounds the rounding. -/
theorem near_le_of {x b : ℝ} (h : x ≤ b) (hb : ∃ n : ℤ, b = n * φ.ulp x) : φ.near x ≤ b := by
  obtain ⟨n, rfl⟩ := hb
  have hp := φ.ulp_pos x
  have := roundEven_mono ((div_le_iff₀ hp).mpr h)
  rw [roundEven_int] at this
  unfold near
  have : ((roundEven (x / φ.ulp x) : ℤ) : ℝ) ≤ n := by exact_mod_cast this
  nlinarith
theorem le_near_of {x b : ℝ} (h : b ≤ x) (hb : ∃ n : ℤ, b = n * φ.ulp x) : b ≤ φ.near x := by
  obtain ⟨n, rfl⟩ := hb
  have hp := φ.ulp_pos x
  have := roundEven_mono ((le_div_iff₀ hp).mpr h)
  rw [roundEven_int] at this
  unfold near
  have : (n : ℝ) ≤ (roundEven (x / φ.ulp x) : ℤ) := by exact_mod_cast this
  nlinarith

theorem near_mono_pos (hp : 1 ≤ φ.p) {x y : ℝ} (hx : 0 < x) (h : x ≤ y) : φ.near x ≤ φ.near y := by
  have hy : 0 < y := hx.trans_le h
  have hlog : Int.log 2 |x| ≤ Int.log 2 |y| := by
    rw [abs_of_pos hx, abs_of_pos hy]; exact Int.log_mono_right hx h
  by_cases he : max (Int.log 2 |x|) φ.emin = max (Int.log 2 |y|) φ.emin
  · have hu : φ.ulp x = φ.ulp y := by unfold ulp; rw [he]
    unfold near
    rw [hu]
    have := roundEven_mono (div_le_div_of_nonneg_right h (φ.ulp_pos y).le)
    have : ((roundEven (x / φ.ulp y) : ℤ) : ℝ) ≤ (roundEven (y / φ.ulp y) : ℤ) := by exact_mod_cast this
    have := φ.ulp_pos y
    nlinarith
  · have hlt : max (Int.log 2 |x|) φ.emin < Int.log 2 |y| := by omega
    have hy1 : (2:ℝ) ^ (Int.log 2 |y|) ≤ y := by
      rw [abs_of_pos hy]; exact_mod_cast Int.zpow_log_le_self (by norm_num : 1 < 2) hy
    have hx1 : x ≤ (2:ℝ) ^ (Int.log 2 |y|) := by
      have : x < (2:ℝ) ^ (Int.log 2 |x| + 1) := by
        rw [abs_of_pos hx]; exact_mod_cast Int.lt_zpow_succ_log_self (by norm_num : 1 < 2) x
      exact this.le.trans (zpow_le_zpow_right₀ (by norm_num) (by omega))
    have pw : ∀ E : ℤ, E ≤ Int.log 2 |y| → ∃ n : ℤ, (2:ℝ) ^ (Int.log 2 |y|) = n * 2 ^ E := by
      intro E hE
      refine ⟨2 ^ (Int.log 2 |y| - E).toNat, ?_⟩
      push_cast
      rw [← zpow_natCast, ← zpow_add₀ (by norm_num)]; congr 1; omega
    exact (near_le_of hx1 (pw _ (by omega))).trans (le_near_of hy1 (pw _ (by omega)))

theorem near_mono (hp : 1 ≤ φ.p) {x y : ℝ} (h : x ≤ y) : φ.near x ≤ φ.near y := by
  rcases lt_or_ge 0 x with hx | hx
  · exact near_mono_pos hp hx h
  rcases lt_or_ge y 0 with hy | hy
  · have := near_mono_pos (φ := φ) hp (neg_pos.mpr hy) (neg_le_neg h)
    rw [near_neg, near_neg] at this; linarith
  · exact (near_nonpos hx).trans (near_nonneg hy)
end Fmt

theorem log_eq {x : ℝ} {e : ℤ} (h1 : (2:ℝ) ^ e ≤ x) (h2 : x < 2 ^ (e + 1)) : Int.log 2 x = e := by
  have hx : 0 < x := lt_of_lt_of_le (by positivity) h1
  have a : e ≤ Int.log 2 x := (Int.zpow_le_iff_le_log (by norm_num) hx).mp (by exact_mod_cast h1)
  have b : Int.log 2 x < e + 1 := (Int.lt_zpow_iff_log_lt (by norm_num) hx).mp (by exact_mod_cast h2)
  omega
theorem Fmt.ulp_eq {φ : Fmt} {x : ℝ} {e : ℤ} (h1 : (2:ℝ) ^ e ≤ |x|) (h2 : |x| < 2 ^ (e + 1)) (he : φ.emin ≤ e) :
    φ.ulp x = 2 ^ (e - φ.p + 1) := by
  unfold Fmt.ulp; rw [log_eq h1 h2, max_eq_left he]
/-- A power of two in the exponent range is a number of the format. -/
theorem rep_pow {φ : Fmt} (hφ : WF φ) {e : ℤ} (h1 : φ.emin - φ.p + 1 ≤ e) (h2 : e ≤ φ.emax) : Representable φ (2 ^ e) := by
  have hp := hφ.1
  obtain ⟨-, h3, h4⟩ := hφ
  obtain ⟨k, n, hk, hn, h5, h6⟩ : ∃ (k : ℤ) (n : ℕ), e = n + k ∧ n < φ.p ∧ φ.emin - φ.p + 1 ≤ k ∧ k ≤ φ.emax - φ.p + 1 := by
    by_cases h : φ.emin ≤ e
    · exact ⟨e - (φ.p - 1), φ.p - 1, by omega, by omega, by omega, by omega⟩
    · exact ⟨φ.emin - φ.p + 1, (e - (φ.emin - φ.p + 1)).toNat, by omega, by omega, by omega, by omega⟩
  refine ⟨2 ^ n, k, ?_, ?_, h5, h6⟩
  · rw [hk, zpow_add₀ (by norm_num), zpow_natCast]; push_cast; rfl
  · rw [abs_of_pos (by positivity)]
    exact pow_lt_pow_right₀ (by norm_num) hn

namespace Ieee
variable {φ : Fmt} {a b c : Ieee φ}

theorem neg_def (a : Ieee φ) : -a = a.neg := rfl
theorem add_def (a b : Ieee φ) : a + b = a.add b := rfl
theorem sub_def (a b : Ieee φ) : a - b = a + -b := rfl
theorem mul_def (a b : Ieee φ) : a * b = a.mul b := rfl
theorem div_def (a b : Ieee φ) : a / b = a.div b := rfl

theorem ineg_neg (a : Ieee φ) : - -a = a := by cases a <;> simp [neg_def, neg]

theorem rnd_neg {x : ℝ} (h : x ≠ 0) : (rnd (-x) : Ieee φ) = -(rnd x) := by
  have hs : decide (-x < 0) = !decide (x < 0) := by
    rcases lt_or_gt_of_ne h with h | h
    · simp [h, h.le]
    · simp [h, h.le]
  unfold rnd
  rw [Fmt.near_neg, abs_neg]
  by_cases hb : (2:ℝ) ^ (φ.emax + 1) ≤ |φ.near x|
  · rw [if_pos hb, if_pos hb]; simp [neg_def, neg]; simpa using hs
  · rw [if_neg hb, if_neg hb]
    unfold ofReal
    by_cases hz : φ.near x = 0
    · simp [hz, neg_def, neg]; simpa using hs
    · simp [hz, neg_def, neg]

theorem iadd_comm (a b : Ieee φ) : a + b = b + a := by
  rw [add_def, add_def]
  cases a <;> cases b <;> simp [add, Bool.and_comm, add_comm]
  case inf.inf s t => by_cases h : s = t <;> simp [h, eq_comm]
theorem imul_comm (a b : Ieee φ) : a * b = b * a := by
  rw [mul_def, mul_def]
  cases a <;> cases b <;> simp [mul, Bool.xor_comm, mul_comm]

theorem dlt {x : ℝ} (h : x ≠ 0) : decide (-x < 0) = !decide (x < 0) := by
  rcases lt_or_gt_of_ne h with h | h
  · simp [h, h.le]
  · simp [h, h.le]

theorem ineg_mul (a b : Ieee φ) : -a * b = -(a * b) := by
  rw [mul_def, mul_def]
  rcases a with _ | s | s | ⟨x, hx⟩ <;> rcases b with _ | t | t | ⟨y, hy⟩ <;> simp only [neg_def, mul, neg, Bool.not_xor]
  · rw [dlt hx, Bool.not_xor]
  · rw [dlt hx, Bool.not_xor]
  · rw [neg_mul, rnd_neg (mul_ne_zero hx hy), neg_def]; rfl
theorem imul_neg (a b : Ieee φ) : a * -b = -(a * b) := by rw [imul_comm, ineg_mul, imul_comm]
theorem ineg_mul_neg (a b : Ieee φ) : -a * -b = a * b := by rw [ineg_mul, imul_neg, ineg_neg]
theorem ineg_div (a b : Ieee φ) : -a / b = -(a / b) := by
  rw [div_def, div_def]
  rcases a with _ | s | s | ⟨x, hx⟩ <;> rcases b with _ | t | t | ⟨y, hy⟩ <;> simp only [neg_def, div, neg, Bool.not_xor]
  · rw [dlt hx, Bool.not_xor]
  · rw [dlt hx, Bool.not_xor]
  · rw [neg_div, rnd_neg (div_ne_zero hx hy), neg_def]; rfl

/-! ### Up to the sign of a zero -/
theorem _root_.Vecmat.Spec.Same.refl (a : Ieee φ) : Same a a := .inl rfl
theorem _root_.Vecmat.Spec.Same.symm (h : Same a b) : Same b a := by
  rcases h with rfl | ⟨s, t, rfl, rfl⟩
  · exact .inl rfl
  · exact .inr ⟨_, _, rfl, rfl⟩
theorem _root_.Vecmat.Spec.Same.trans (h : Same a b) (h' : Same b c) : Same a c := by
  rcases h with rfl | ⟨s, t, rfl, rfl⟩
  · exact h'
  · rcases h' with rfl | ⟨s', t', h1, rfl⟩
    · exact .inr ⟨_, _, rfl, rfl⟩
    · exact .inr ⟨_, _, rfl, rfl⟩
theorem _root_.Vecmat.Spec.Same.neg (h : Same a b) : Same (-a) (-b) := by
  rcases h with rfl | ⟨s, t, rfl, rfl⟩
  · exact .inl rfl
  · exact .inr ⟨_, _, rfl, rfl⟩
theorem _root_.Vecmat.Spec.Same.add_right (h : Same a b) (c : Ieee φ) : Same (a + c) (b + c) := by
  rcases h with rfl | ⟨s, t, rfl, rfl⟩
  · exact .inl rfl
  · rcases c with _ | u | u | ⟨y, hy⟩ <;> simp only [add_def, Ieee.add] <;> first | exact .inl rfl | exact .inr ⟨_, _, rfl, rfl⟩
theorem _root_.Vecmat.Spec.Same.mul_right (h : Same a b) (c : Ieee φ) : Same (a * c) (b * c) := by
  rcases h with rfl | ⟨s, t, rfl, rfl⟩
  · exact .inl rfl
  · rcases c with _ | u | u | ⟨y, hy⟩ <;> simp only [mul_def, Ieee.mul] <;> first | exact .inl rfl | exact .inr ⟨_, _, rfl, rfl⟩
theorem _root_.Vecmat.Spec.Same.add {d : Ieee φ} (h : Same a b) (h' : Same c d) : Same (a + c) (b + d) := by
  refine (h.add_right c).trans ?_
  rw [iadd_comm, iadd_comm b]; exact h'.add_right b
theorem _root_.Vecmat.Spec.Same.sub {d : Ieee φ} (h : Same a b) (h' : Same c d) : Same (a - c) (b - d) := h.add h'.neg
theorem _root_.Vecmat.Spec.Same.mul {d : Ieee φ} (h : Same a b) (h' : Same c d) : Same (a * c) (b * d) := by
  refine (h.mul_right c).trans ?_
  rw [imul_comm, imul_comm b]; exact h'.mul_right b
theorem neg_add_same (a b : Ieee φ) : Same (-(a + b)) (-a + -b) := by
  rw [add_def, add_def]
  rcases a with _ | s | s | ⟨x, hx⟩ <;> rcases b with _ | t | t | ⟨y, hy⟩ <;> simp only [neg_def, Ieee.add, Ieee.neg] <;>
    try exact .inl rfl
  · by_cases h : s = t <;> simp [h, Same]
  · exact .inr ⟨_, _, rfl, rfl⟩
  · left; rw [rnd_neg hy]; rfl
  · left; rw [rnd_neg hx]; rfl
  · by_cases h : x + y = 0
    · have h' : -x + -y = 0 := by linarith
      rw [if_pos h, if_pos h']; exact .inr ⟨_, _, rfl, rfl⟩
    · have h' : ¬ (-x + -y = 0) := fun e => h (by linarith)
      rw [if_neg h, if_neg h', ← neg_add, rnd_neg h]; exact .inl rfl
theorem neg_sub_same (a b : Ieee φ) : Same (-(a - b)) (b - a) := by
  rw [sub_def, sub_def, iadd_comm b]
  refine (neg_add_same _ _).trans ?_
  rw [ineg_neg]; exact .refl _

/-! ### Data of the format -/
theorem datum_rnd (hφ : WF φ) (x : ℝ) : Datum (rnd x : Ieee φ) := by
  unfold rnd ofReal
  split_ifs with h h'
  · trivial
  · trivial
  · exact Fmt.rep_near hφ (not_le.mp h)
theorem rep_lt {x : ℝ} (h : Representable φ x) : |x| < 2 ^ (φ.emax + 1) := by
  obtain ⟨m, e, rfl, hm, he, he'⟩ := h
  rw [abs_mul, abs_of_pos (by positivity : (0:ℝ) < 2 ^ e)]
  have h1 : |(m:ℝ)| < 2 ^ (φ.p : ℤ) := by rw [zpow_natCast]; exact_mod_cast hm
  have h2 : (0:ℝ) < 2 ^ e := by positivity
  calc |(m:ℝ)| * 2 ^ e < 2 ^ (φ.p : ℤ) * 2 ^ e := by nlinarith
    _ = 2 ^ ((φ.p : ℤ) + e) := by rw [zpow_add₀ (by norm_num)]
    _ ≤ _ := zpow_le_zpow_right₀ (by norm_num) (by omega)
theorem rnd_rep {x : ℝ} (h0 : x ≠ 0) (h : Representable φ x) : (rnd x : Ieee φ) = num x h0 := by
  unfold rnd ofReal
  rw [Fmt.near_rep h, if_neg (not_le.mpr (rep_lt h)), dif_neg h0]
theorem rep_neg {x : ℝ} (h : Representable φ x) : Representable φ (-x) := by
  obtain ⟨m, e, rfl, hm, he, he'⟩ := h
  exact ⟨-m, e, by push_cast; ring, by rwa [abs_neg], he, he'⟩
theorem datum_neg (h : Datum a) : Datum (-a) := by
  rcases a with _ | s | s | ⟨x, hx⟩ <;> first | trivial | exact rep_neg h
theorem datum_abs (h : Datum a) : Datum a.abs := by
  rcases a with _ | s | s | ⟨x, hx⟩ <;> try trivial
  show Representable φ |x|
  rcases abs_choice x with h' | h' <;> rw [h']
  · exact h
  · exact rep_neg h
theorem datum_add (hφ : WF φ) (a b : Ieee φ) : Datum (a + b) := by
  rw [add_def]
  rcases a with _ | s | s | ⟨x, hx⟩ <;> rcases b with _ | t | t | ⟨y, hy⟩ <;> simp only [Ieee.add] <;>
    first | trivial | exact datum_rnd hφ _ | (split_ifs <;> first | trivial | exact datum_rnd hφ _)
theorem datum_mul (hφ : WF φ) (a b : Ieee φ) : Datum (a * b) := by
  rw [mul_def]
  rcases a with _ | s | s | ⟨x, hx⟩ <;> rcases b with _ | t | t | ⟨y, hy⟩ <;> simp only [Ieee.mul] <;>
    first | trivial | exact datum_rnd hφ _
theorem datum_div (hφ : WF φ) (a b : Ieee φ) : Datum (a / b) := by
  rw [div_def]
  rcases a with _ | s | s | ⟨x, hx⟩ <;> rcases b with _ | t | t | ⟨y, hy⟩ <;> simp only [Ieee.div] <;>
    first | trivial | exact datum_rnd hφ _
theorem datum_sqrt (hφ : WF φ) (a : Ieee φ) : Datum a.sqrt := by
  rcases a with _ | s | s | ⟨x, hx⟩ <;> simp only [Ieee.sqrt] <;>
    first | trivial | (split_ifs <;> first | trivial | exact datum_rnd hφ _)

/-! ### Neutral elements -/
theorem iadd_zero (h : Datum a) (s : Bool) : Same (a + zero s) a := by
  rw [add_def]
  rcases a with _ | t | t | ⟨x, hx⟩ <;> simp only [Ieee.add]
  · exact .refl _
  · exact .refl _
  · exact .inr ⟨_, _, rfl, rfl⟩
  · rw [rnd_rep hx h]; exact .refl _
theorem imul_one (h : Datum a) : a * 1 = a := by
  show a.mul (num 1 one_ne_zero) = a
  rcases a with _ | t | t | ⟨x, hx⟩ <;> simp only [Ieee.mul] <;> try simp
  · rw [decide_eq_false (by norm_num), Bool.xor_false]
  · rw [decide_eq_false (by norm_num), Bool.xor_false]
  · exact rnd_rep hx h
theorem idiv_one (h : Datum a) : a / 1 = a := by
  show a.div (num 1 one_ne_zero) = a
  rcases a with _ | t | t | ⟨x, hx⟩ <;> simp only [Ieee.div] <;> try simp
  · rw [decide_eq_false (by norm_num), Bool.xor_false]
  · rw [decide_eq_false (by norm_num), Bool.xor_false]
  · exact rnd_rep hx h
theorem imul_zero (h : Finite a) (s : Bool) : ∃ t, a * zero s = zero t := by
  rw [mul_def]
  rcases a with _ | t | t | ⟨x, hx⟩
  · exact absurd rfl h.1
  · exact absurd rfl (h.2 t)
  · exact ⟨_, rfl⟩
  · exact ⟨_, rfl⟩
theorem one_datum (hφ : WF φ) : Datum (1 : Ieee φ) := by
  obtain ⟨h1, h2, h3⟩ := hφ
  refine ⟨2 ^ (φ.p - 1), 1 - φ.p, ?_, ?_, by omega, by omega⟩
  · push_cast
    rw [← zpow_natCast, ← zpow_add₀ (by norm_num)]
    push_cast [show 1 ≤ φ.p by omega]; ring_nf; simp
  · rw [abs_of_pos (by positivity)]
    exact pow_lt_pow_right₀ (by norm_num) (by omega)
end Ieee
end Vecmat
