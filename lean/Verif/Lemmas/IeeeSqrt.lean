import Verif.Lemmas.IeeeExact
/-! Helper lemmas: the square root of a rounded square. -/
namespace Vecmat
open Spec
variable {φ : Fmt}

/-- Binary square roots undo squares: `fl(sqrt(fl(x²))) = |x|` unless the square underflows. -/
theorem near_sqrt_near_sq (hφ : WF φ) {x : ℝ} (hx : Representable φ x) (h : (2:ℝ) ^ φ.emin ≤ x * x) :
    φ.near (Real.sqrt (φ.near (x * x))) = |x| := by
  wlog hpos : 0 < x generalizing x
  · have hx0 : x ≠ 0 := by rintro rfl; have : (0:ℝ) < 2 ^ φ.emin := by positivity
                           simp at h; linarith
    have := this (Ieee.rep_neg hx) (by simpa using h) (by
      rcases lt_or_gt_of_ne hx0 with h | h
      · linarith
      · exact absurd h hpos)
    simpa using this
  obtain ⟨hp, hemin, -⟩ := hφ
  rw [abs_of_pos hpos]
  obtain ⟨e, he⟩ : ∃ e, Int.log 2 x = e := ⟨_, rfl⟩
  have hlo : (2:ℝ) ^ e ≤ x := by rw [← he]; exact_mod_cast Int.zpow_log_le_self (by norm_num : 1 < 2) hpos
  have hhi : x < (2:ℝ) ^ (e + 1) := by rw [← he]; exact_mod_cast Int.lt_zpow_succ_log_self (by norm_num : 1 < 2) x
  have e0 : (0:ℝ) < 2 ^ e := by positivity
  have e1 : (2:ℝ) ^ (e + 1) = 2 * 2 ^ e := by rw [zpow_add₀ (by norm_num)]; ring
  have e2 : (2:ℝ) ^ (2 * e) = 2 ^ e * 2 ^ e := by rw [two_mul, zpow_add₀ (by norm_num)]
  have hee : φ.emin < 2 * e + 2 := by
    have : (2:ℝ) ^ φ.emin < 2 ^ (2 * e + 2) := by
      refine lt_of_le_of_lt h ?_
      rw [zpow_add₀ (by norm_num), e2]; rw [e1] at hhi; norm_num; nlinarith
    exact (zpow_lt_zpow_iff_right₀ (by norm_num)).mp this
  have hexn : φ.emin ≤ e := by omega
  have ulpx : φ.ulp x = 2 ^ (e - φ.p + 1) := Fmt.ulp_eq (by rwa [abs_of_pos hpos]) (by rwa [abs_of_pos hpos]) hexn
  have u0 : (0:ℝ) < 2 ^ (e - φ.p) := by positivity
  have ulp2 : (2:ℝ) ^ (e - φ.p + 1) = 2 * 2 ^ (e - φ.p) := by rw [zpow_add₀ (by norm_num)]; ring
  -- the integer significand
  obtain ⟨n, hn⟩ : ∃ n : ℤ, x = n * 2 ^ (e - φ.p + 1) := by
    refine ⟨roundEven (x / φ.ulp x), ?_⟩
    have := Fmt.near_rep hx
    unfold Fmt.near at this
    rw [← ulpx]; exact this.symm
  -- distance of the square root
  have key : ∀ c : ℝ, 0 < c → c * c ≤ x * x → (∃ d : ℝ, c * c ≤ φ.near (x * x) ∧ |φ.near (x * x) - x * x| ≤ d ∧ d < 2 * c * 2 ^ (e - φ.p)) →
      |Real.sqrt (φ.near (x * x)) - x| < 2 ^ (e - φ.p) := by
    rintro c hc hcx ⟨d, h1, h2, h3⟩
    have hcx' : c ≤ x := by nlinarith
    have hcs : c ≤ Real.sqrt (φ.near (x * x)) := Real.le_sqrt_of_sq_le (by rw [sq]; exact h1)
    have hy0 : 0 ≤ φ.near (x * x) := le_trans (by positivity) h1
    generalize hs : Real.sqrt (φ.near (x * x)) = s at *
    have hss : s * s = φ.near (x * x) := by rw [← hs]; exact Real.mul_self_sqrt hy0
    rw [← hss] at h2
    have : |s - x| * (s + x) ≤ d := by
      rw [show s * s - x * x = (s - x) * (s + x) by ring, abs_mul, abs_of_pos (by linarith : 0 < s + x)] at h2
      exact h2
    by_contra hcon
    push Not at hcon
    have : 2 ^ (e - φ.p) * (2 * c) ≤ |s - x| * (s + x) := mul_le_mul hcon (by linarith) (by linarith) (abs_nonneg _)
    linarith
  have hxx : 0 < x * x := by positivity
  have pw : ∀ {k : ℤ}, (2:ℝ) ^ k ≤ x * x → x * x < 2 ^ (k + 1) → φ.emin ≤ k →
      (2:ℝ) ^ k ≤ φ.near (x * x) ∧ |φ.near (x * x) - x * x| ≤ 2 ^ (k - φ.p) := by
    intro k hk hk' hke
    have hu : φ.ulp (x * x) = 2 ^ (k - φ.p + 1) := Fmt.ulp_eq (by rwa [abs_of_pos hxx]) (by rwa [abs_of_pos hxx]) hke
    refine ⟨Fmt.le_near_of hk ⟨2 ^ (φ.p - 1), ?_⟩, (Fmt.near_err φ (x * x)).trans ?_⟩
    · rw [hu]
      push_cast
      rw [← zpow_natCast, ← zpow_add₀ (by norm_num)]; congr 1; omega
    · rw [hu, zpow_add₀ (by norm_num)]; simp
  have e3 : (2:ℝ) ^ (2 * e - φ.p) = 2 ^ e * 2 ^ (e - φ.p) := by rw [← zpow_add₀ (by norm_num)]; congr 1; ring
  have hdist : |Real.sqrt (φ.near (x * x)) - x| < 2 ^ (e - φ.p) ∧ (2:ℝ) ^ (2 * e) ≤ φ.near (x * x) := by
    by_cases hc : x * x < 2 ^ (2 * e + 1)
    · have hk : φ.emin ≤ 2 * e := by
        have : (2:ℝ) ^ φ.emin < 2 ^ (2 * e + 1) := lt_of_le_of_lt h hc
        have := (zpow_lt_zpow_iff_right₀ (by norm_num)).mp this
        omega
      obtain ⟨a1, a2⟩ := pw (k := 2 * e) (by rw [e2]; nlinarith) hc hk
      refine ⟨key (2 ^ e) e0 (by nlinarith) ⟨_, by rw [← e2]; exact a1, a2, ?_⟩, a1⟩
      rw [e3]; nlinarith [mul_pos e0 u0]
    · push Not at hc
      have hlt : x * x < 2 ^ (2 * e + 1 + 1) := by
        rw [show 2 * e + 1 + 1 = 2 * e + 2 by ring, zpow_add₀ (by norm_num), e2]
        rw [e1] at hhi; norm_num; nlinarith
      obtain ⟨a1, a2⟩ := pw (k := 2 * e + 1) hc hlt (by omega)
      have s2 : Real.sqrt 2 * Real.sqrt 2 = 2 := Real.mul_self_sqrt (by norm_num)
      have s1 : 1 < Real.sqrt 2 := by rw [Real.lt_sqrt (by norm_num)]; norm_num
      have ecc : Real.sqrt 2 * 2 ^ e * (Real.sqrt 2 * 2 ^ e) = 2 ^ (2 * e + 1) := by
        rw [zpow_add₀ (by norm_num), e2, zpow_one]
        calc Real.sqrt 2 * 2 ^ e * (Real.sqrt 2 * 2 ^ e) = (Real.sqrt 2 * Real.sqrt 2) * (2 ^ e * 2 ^ e) := by ring
          _ = _ := by rw [s2]; ring
      refine ⟨key (Real.sqrt 2 * 2 ^ e) (by positivity) (by rw [ecc]; exact hc) ⟨_, by rw [ecc]; exact a1, a2, ?_⟩,
        le_trans (zpow_le_zpow_right₀ (by norm_num) (by omega)) a1⟩
      have : (2:ℝ) ^ (2 * e + 1 - φ.p) = 2 * (2 ^ e * 2 ^ (e - φ.p)) := by
        rw [← e3, show 2 * e + 1 - (φ.p:ℤ) = (2 * e - φ.p) + 1 by ring, zpow_add₀ (by norm_num)]; ring
      rw [this]
      have := mul_pos e0 u0
      nlinarith
  obtain ⟨hd, hge⟩ := hdist
  have hs1 : (2:ℝ) ^ e ≤ Real.sqrt (φ.near (x * x)) := Real.le_sqrt_of_sq_le (by rw [sq, ← e2]; exact hge)
  generalize Real.sqrt (φ.near (x * x)) = s at *
  rw [abs_lt] at hd
  have hnp : n < 2 ^ φ.p := by
    have : (n:ℝ) * 2 ^ (e - φ.p + 1) < (2:ℝ) ^ (φ.p : ℤ) * 2 ^ (e - φ.p + 1) := by
      rw [← hn, ← zpow_add₀ (by norm_num)]
      refine lt_of_lt_of_le hhi (le_of_eq ?_); congr 1; ring
    have := lt_of_mul_lt_mul_right this (by positivity)
    rw [zpow_natCast] at this
    exact_mod_cast this
  have hx1 : x ≤ 2 ^ (e + 1) - 2 ^ (e - φ.p + 1) := by
    have : (n:ℝ) ≤ 2 ^ (φ.p : ℤ) - 1 := by
      rw [zpow_natCast]
      have : n ≤ 2 ^ φ.p - 1 := by omega
      exact_mod_cast this
    have h3 : (2:ℝ) ^ (e + 1) = 2 ^ (φ.p : ℤ) * 2 ^ (e - φ.p + 1) := by
      rw [← zpow_add₀ (by norm_num)]; congr 1; ring
    rw [h3, hn]
    have : (0:ℝ) < 2 ^ (e - φ.p + 1) := by positivity
    nlinarith
  have hs2 : s < 2 ^ (e + 1) := by rw [ulp2] at hx1; linarith
  have hs0 : 0 < s := lt_of_lt_of_le e0 hs1
  have ulps : φ.ulp s = 2 ^ (e - φ.p + 1) := Fmt.ulp_eq (by rwa [abs_of_pos hs0]) (by rwa [abs_of_pos hs0]) hexn
  have hr : roundEven (s / 2 ^ (e - φ.p + 1)) = n := by
    apply roundEven_eq
    have hpu : (0:ℝ) < 2 ^ (e - φ.p + 1) := by positivity
    have : s / 2 ^ (e - φ.p + 1) - n = (s - x) / 2 ^ (e - φ.p + 1) := by rw [hn]; field_simp
    rw [this, abs_div, abs_of_pos hpu, div_lt_iff₀ hpu, ulp2, abs_lt]
    constructor <;> linarith
  unfold Fmt.near
  rw [ulps, hr, ← hn]
end Vecmat
