import Verif.Props.Math
import Mathlib.Analysis.SpecialFunctions.Arcosh
import Mathlib.Analysis.SpecialFunctions.Pow.Real
import Mathlib.Analysis.SpecialFunctions.Log.Base
import Mathlib.Analysis.SpecialFunctions.Complex.Arg
import Mathlib.Analysis.SpecialFunctions.Trigonometric.Arctan
import Mathlib.Tactic.FieldSimp
import Mathlib.Tactic.Linarith
import Mathlib.Tactic.NormNum
/-!
# C77: the element-wise float functions, computed exactly, are the mathematical functions of their names
With scalar functions that do not round (`FloatOps ℝ`). The laws are stated without that instance: through Mathlib's functions or
through the equation that characterises the result. (Generated text: one theorem per group of functions, for vectors and matrices.)
-/
namespace Vecmat
variable {A B : Type} {M N : Nat}

theorem real_rounding (x : ℝ) :
    (∃ n : ℤ, (FloatOps.floor x) = n ∧ (n : ℝ) ≤ x ∧ x < n + 1) ∧
    (∃ n : ℤ, (FloatOps.ceil x) = n ∧ x ≤ n ∧ (n : ℝ) - 1 < x) ∧
    (∃ n : ℤ, (FloatOps.round x) = n ∧ |x - n| ≤ 1 / 2 ∧ (|x - n| = 1 / 2 → |x| < |(n : ℝ)|)) ∧
    (∃ n : ℤ, (FloatOps.trunc x) = n ∧ |(n : ℝ)| ≤ |x| ∧ |x| < |(n : ℝ)| + 1 ∧ 0 ≤ n * x) ∧
    ((FloatOps.trunc x) + (FloatOps.fract x) = x) := by
  refine ⟨⟨⌊x⌋, rfl, Int.floor_le x, Int.lt_floor_add_one x⟩, ⟨⌈x⌉, rfl, Int.le_ceil x, by linarith [Int.ceil_lt_add_one x]⟩, ?_, ?_, ?_⟩
  · by_cases h : 0 ≤ x
    · refine ⟨⌊x + 1 / 2⌋, by simp [FloatOps.round, h], ?_⟩
      have h1 := Int.floor_le (x + 1 / 2)
      have h2 := Int.lt_floor_add_one (x + 1 / 2)
      refine ⟨abs_le.mpr ⟨by linarith, by linarith⟩, fun h3 => ?_⟩
      rw [abs_of_nonneg h]
      refine lt_of_lt_of_le ?_ (le_abs_self _)
      rcases abs_cases (x - ↑⌊x + 1 / 2⌋) with h4 | h4 <;> linarith
    · refine ⟨⌈x - 1 / 2⌉, by simp [FloatOps.round, h], ?_⟩
      have h1 := Int.le_ceil (x - 1 / 2)
      have h2 := Int.ceil_lt_add_one (x - 1 / 2)
      push Not at h
      refine ⟨abs_le.mpr ⟨by linarith, by linarith⟩, fun h3 => ?_⟩
      rw [abs_of_neg h]
      refine lt_of_lt_of_le ?_ (neg_le_abs _)
      rcases abs_cases (x - ↑⌈x - 1 / 2⌉) with h4 | h4 <;> linarith
  · by_cases h : 0 ≤ x
    · refine ⟨⌊x⌋, by simp [FloatOps.trunc, h], ?_⟩
      have h0 : (0 : ℝ) ≤ ⌊x⌋ := by exact_mod_cast Int.floor_nonneg.mpr h
      rw [abs_of_nonneg h, abs_of_nonneg h0]
      exact ⟨Int.floor_le x, Int.lt_floor_add_one x, mul_nonneg h0 h⟩
    · refine ⟨⌈x⌉, by simp [FloatOps.trunc, h], ?_⟩
      push Not at h
      have h0 : (⌈x⌉ : ℝ) ≤ 0 := by exact_mod_cast Int.ceil_le.mpr (by simpa using h.le)
      rw [abs_of_neg h, abs_of_nonpos h0]
      exact ⟨by linarith [Int.le_ceil x], by linarith [Int.ceil_lt_add_one x], mul_nonneg_of_nonpos_of_nonpos h0 h.le⟩
  · simp only [FloatOps.trunc, FloatOps.fract]
    split <;> ring
theorem real_algebraic (x : ℝ) :
    ((FloatOps.abs x) = |x|) ∧
    (|(FloatOps.signum x)| = 1 ∧ (FloatOps.signum x) * (FloatOps.abs x) = x) ∧
    ((0 ≤ x → 0 ≤ (FloatOps.sqrt x) ∧ (FloatOps.sqrt x) ^ 2 = x)) ∧
    ((FloatOps.cbrt x) ^ 3 = x) ∧
    ((x ≠ 0 → (FloatOps.recip x) * x = 1)) := by
  refine ⟨rfl, ?_, fun h => ⟨Real.sqrt_nonneg x, Real.sq_sqrt h⟩, ?_, fun h => by simp [FloatOps.recip, h]⟩
  · simp only [FloatOps.signum, FloatOps.abs]
    split
    · rename_i h; rw [abs_of_neg h]; norm_num
    · rename_i h; rw [abs_of_nonneg (not_lt.mp h)]; norm_num
  · simp only [FloatOps.cbrt]
    have key : ∀ y : ℝ, 0 ≤ y → (y ^ (1 / 3 : ℝ)) ^ 3 = y := fun y hy => by
      rw [← Real.rpow_natCast, ← Real.rpow_mul hy]; norm_num
    split
    · rename_i h; exact key x h
    · rename_i h
      have := key (-x) (by linarith)
      rw [neg_pow, this]; norm_num
theorem real_trig (x : ℝ) :
    ((FloatOps.sin x) = Real.sin x) ∧
    ((FloatOps.cos x) = Real.cos x) ∧
    ((FloatOps.tan x) = Real.tan x) ∧
    ((FloatOps.sin x) ^ 2 + (FloatOps.cos x) ^ 2 = 1) ∧
    ((FloatOps.tan x) * (FloatOps.cos x) = (FloatOps.sin x) ∨ (FloatOps.cos x) = 0) ∧
    ((|x| ≤ 1 → Real.sin (FloatOps.asin x) = x ∧ |(FloatOps.asin x)| ≤ Real.pi / 2)) ∧
    ((|x| ≤ 1 → Real.cos (FloatOps.acos x) = x ∧ 0 ≤ (FloatOps.acos x) ∧ (FloatOps.acos x) ≤ Real.pi)) ∧
    (Real.tan (FloatOps.atan x) = x ∧ |(FloatOps.atan x)| < Real.pi / 2) := by
  refine ⟨rfl, rfl, rfl, Real.sin_sq_add_cos_sq x, ?_, fun h => ?_, fun h => ?_, ?_⟩
  · by_cases h : Real.cos x = 0
    · exact Or.inr h
    · exact Or.inl (Real.tan_mul_cos h)
  · have h := abs_le.mp h
    exact ⟨Real.sin_arcsin h.1 h.2, abs_le.mpr ⟨Real.neg_pi_div_two_le_arcsin x, Real.arcsin_le_pi_div_two x⟩⟩
  · have h := abs_le.mp h
    exact ⟨Real.cos_arccos h.1 h.2, Real.arccos_nonneg x, Real.arccos_le_pi x⟩
  · exact ⟨Real.tan_arctan x, abs_lt.mpr ⟨Real.neg_pi_div_two_lt_arctan x, Real.arctan_lt_pi_div_two x⟩⟩
theorem real_hyperbolic (x : ℝ) :
    ((FloatOps.sinh x) = Real.sinh x) ∧
    ((FloatOps.cosh x) = Real.cosh x) ∧
    ((FloatOps.tanh x) = Real.tanh x) ∧
    ((FloatOps.cosh x) ^ 2 - (FloatOps.sinh x) ^ 2 = 1) ∧
    ((FloatOps.tanh x) * (FloatOps.cosh x) = (FloatOps.sinh x)) ∧
    (Real.sinh (FloatOps.asinh x) = x) ∧
    ((1 ≤ x → Real.cosh (FloatOps.acosh x) = x ∧ 0 ≤ (FloatOps.acosh x))) ∧
    ((|x| < 1 → Real.tanh (FloatOps.atanh x) = x)) := by
  refine ⟨rfl, rfl, rfl, Real.cosh_sq_sub_sinh_sq x, ?_, Real.sinh_arsinh x, fun h => ?_, fun h => ?_⟩
  · simp only [FloatOps.tanh, FloatOps.cosh, FloatOps.sinh, Real.tanh_eq_sinh_div_cosh]
    exact div_mul_cancel₀ _ (Real.cosh_pos x).ne'
  · have e : FloatOps.acosh x = Real.arcosh x := by simp [FloatOps.acosh, Real.arcosh, sq]
    rw [e]
    exact ⟨Real.cosh_arcosh h, Real.arcosh_nonneg h⟩
  · have h := abs_lt.mp h
    have h1 : 0 < 1 + x := by linarith
    have h2 : 0 < 1 - x := by linarith
    simp only [FloatOps.atanh]
    have hq : 0 < (1 + x) / (1 - x) := div_pos h1 h2
    rw [Real.tanh_eq_sinh_div_cosh, Real.sinh_eq, Real.cosh_eq]
    generalize hE : Real.exp (Real.log ((1 + x) / (1 - x)) / 2) = E
    have hE0 : 0 < E := hE ▸ Real.exp_pos _
    have hE2 : E * E = (1 + x) / (1 - x) := by
      rw [← hE, ← Real.exp_add, add_halves, Real.exp_log hq]
    rw [Real.exp_neg, hE]
    have : E * E * (1 - x) = 1 + x := by rw [hE2]; field_simp
    have hp : E + E⁻¹ ≠ 0 := by positivity
    field_simp
    nlinarith
theorem real_exponential (x : ℝ) :
    ((FloatOps.exp x) = Real.exp x) ∧
    ((FloatOps.exp2 x) = 2 ^ x) ∧
    ((FloatOps.expM1 x) = (FloatOps.exp x) - 1) ∧
    ((0 < x → Real.exp (FloatOps.ln x) = x)) ∧
    ((0 < x → (2 : ℝ) ^ (FloatOps.log2 x) = x)) ∧
    ((0 < x → (10 : ℝ) ^ (FloatOps.log10 x) = x)) ∧
    ((-1 < x → Real.exp (FloatOps.ln1p x) = 1 + x)) := by
  refine ⟨rfl, rfl, rfl, fun h => Real.exp_log h, fun h => ?_, fun h => ?_, fun h => Real.exp_log (show 0 < 1 + x by linarith)⟩
  · exact Real.rpow_logb (by norm_num) (by norm_num) h
  · exact Real.rpow_logb (by norm_num) (by norm_num) h
theorem real_binary (x y : ℝ) :
    ((FloatOps.hypot x y) ≥ 0 ∧ (FloatOps.hypot x y) ^ 2 = x ^ 2 + y ^ 2) ∧
    ((FloatOps.absSub x y) = max (x - y) 0) ∧
    (0 < x → Real.log (FloatOps.powf x y) = y * Real.log x) ∧
    (0 < x → 0 < y → y ≠ 1 → y ^ (FloatOps.log x y) = x) ∧
    (Real.sqrt (y ^ 2 + x ^ 2) * Real.cos (FloatOps.atan2 x y) = y ∧ Real.sqrt (y ^ 2 + x ^ 2) * Real.sin (FloatOps.atan2 x y) = x ∧ -Real.pi < (FloatOps.atan2 x y) ∧ (FloatOps.atan2 x y) ≤ Real.pi) := by
  refine ⟨⟨Real.sqrt_nonneg _, ?_⟩, rfl, fun h => Real.log_rpow h y, fun h1 h2 h3 => Real.rpow_logb h2 h3 h1, ?_⟩
  · simp only [FloatOps.hypot]
    rw [Real.sq_sqrt (by nlinarith [mul_self_nonneg x, mul_self_nonneg y])]; ring
  · have e : Real.sqrt (y ^ 2 + x ^ 2) = ‖(⟨y, x⟩ : ℂ)‖ := by
      rw [Complex.norm_def, Complex.normSq_mk]; congr 1; ring
    have h := Complex.norm_mul_cos_add_sin_mul_I (⟨y, x⟩ : ℂ)
    rw [e]
    simp only [FloatOps.atan2]
    exact ⟨Complex.norm_mul_cos_arg _, Complex.norm_mul_sin_arg _, Complex.neg_pi_lt_arg _, Complex.arg_le_pi _⟩

/-- `floor`, `ceil`, `round` (ties away from zero), `trunc` and `fract`. -/
theorem C77_vector_rounding (s : Vec ℝ N) (i : Nat) (h : i < N) :
    (∃ n : ℤ, s.floor[i] = n ∧ (n : ℝ) ≤ s[i] ∧ s[i] < n + 1) ∧
    (∃ n : ℤ, s.ceil[i] = n ∧ s[i] ≤ n ∧ (n : ℝ) - 1 < s[i]) ∧
    (∃ n : ℤ, s.round[i] = n ∧ |s[i] - n| ≤ 1 / 2 ∧ (|s[i] - n| = 1 / 2 → |s[i]| < |(n : ℝ)|)) ∧
    (∃ n : ℤ, s.trunc[i] = n ∧ |(n : ℝ)| ≤ |s[i]| ∧ |s[i]| < |(n : ℝ)| + 1 ∧ 0 ≤ n * s[i]) ∧
    (s.trunc[i] + s.fract[i] = s[i]) := by
  simp only [Vec.floor, Vec.ceil, Vec.round, Vec.trunc, Vec.fract, Vec.getElem_map]
  exact real_rounding s[i]

theorem C77_matrix_rounding (s : Mat ℝ M N) (i : Nat) (hi : i < M) (j : Nat) (hj : j < N) :
    (∃ n : ℤ, s.floor[i][j] = n ∧ (n : ℝ) ≤ s[i][j] ∧ s[i][j] < n + 1) ∧
    (∃ n : ℤ, s.ceil[i][j] = n ∧ s[i][j] ≤ n ∧ (n : ℝ) - 1 < s[i][j]) ∧
    (∃ n : ℤ, s.round[i][j] = n ∧ |s[i][j] - n| ≤ 1 / 2 ∧ (|s[i][j] - n| = 1 / 2 → |s[i][j]| < |(n : ℝ)|)) ∧
    (∃ n : ℤ, s.trunc[i][j] = n ∧ |(n : ℝ)| ≤ |s[i][j]| ∧ |s[i][j]| < |(n : ℝ)| + 1 ∧ 0 ≤ n * s[i][j]) ∧
    (s.trunc[i][j] + s.fract[i][j] = s[i][j]) := by
  simp only [Mat.floor, Mat.ceil, Mat.round, Mat.trunc, Mat.fract, Mat.getElem_map]
  exact real_rounding s[i][j]

/-- `abs`, `signum`, `sqrt`, `cbrt`, `recip`. -/
theorem C77_vector_algebraic (s : Vec ℝ N) (i : Nat) (h : i < N) :
    (s.abs[i] = |s[i]|) ∧
    (|s.signum[i]| = 1 ∧ s.signum[i] * s.abs[i] = s[i]) ∧
    ((0 ≤ s[i] → 0 ≤ s.sqrt[i] ∧ s.sqrt[i] ^ 2 = s[i])) ∧
    (s.cbrt[i] ^ 3 = s[i]) ∧
    ((s[i] ≠ 0 → s.recip[i] * s[i] = 1)) := by
  simp only [Vec.abs, Vec.signum, Vec.cbrt, Vec.sqrt, Vec.recip, Vec.getElem_map]
  exact real_algebraic s[i]

theorem C77_matrix_algebraic (s : Mat ℝ M N) (i : Nat) (hi : i < M) (j : Nat) (hj : j < N) :
    (s.abs[i][j] = |s[i][j]|) ∧
    (|s.signum[i][j]| = 1 ∧ s.signum[i][j] * s.abs[i][j] = s[i][j]) ∧
    ((0 ≤ s[i][j] → 0 ≤ s.sqrt[i][j] ∧ s.sqrt[i][j] ^ 2 = s[i][j])) ∧
    (s.cbrt[i][j] ^ 3 = s[i][j]) ∧
    ((s[i][j] ≠ 0 → s.recip[i][j] * s[i][j] = 1)) := by
  simp only [Mat.abs, Mat.signum, Mat.cbrt, Mat.sqrt, Mat.recip, Mat.getElem_map]
  exact real_algebraic s[i][j]

/-- Trigonometric functions and their inverses. -/
theorem C77_vector_trig (s : Vec ℝ N) (i : Nat) (h : i < N) :
    (s.sin[i] = Real.sin s[i]) ∧
    (s.cos[i] = Real.cos s[i]) ∧
    (s.tan[i] = Real.tan s[i]) ∧
    (s.sin[i] ^ 2 + s.cos[i] ^ 2 = 1) ∧
    (s.tan[i] * s.cos[i] = s.sin[i] ∨ s.cos[i] = 0) ∧
    ((|s[i]| ≤ 1 → Real.sin s.asin[i] = s[i] ∧ |s.asin[i]| ≤ Real.pi / 2)) ∧
    ((|s[i]| ≤ 1 → Real.cos s.acos[i] = s[i] ∧ 0 ≤ s.acos[i] ∧ s.acos[i] ≤ Real.pi)) ∧
    (Real.tan s.atan[i] = s[i] ∧ |s.atan[i]| < Real.pi / 2) := by
  simp only [Vec.acos, Vec.asin, Vec.atan, Vec.tan, Vec.sin, Vec.cos, Vec.getElem_map]
  exact real_trig s[i]

theorem C77_matrix_trig (s : Mat ℝ M N) (i : Nat) (hi : i < M) (j : Nat) (hj : j < N) :
    (s.sin[i][j] = Real.sin s[i][j]) ∧
    (s.cos[i][j] = Real.cos s[i][j]) ∧
    (s.tan[i][j] = Real.tan s[i][j]) ∧
    (s.sin[i][j] ^ 2 + s.cos[i][j] ^ 2 = 1) ∧
    (s.tan[i][j] * s.cos[i][j] = s.sin[i][j] ∨ s.cos[i][j] = 0) ∧
    ((|s[i][j]| ≤ 1 → Real.sin s.asin[i][j] = s[i][j] ∧ |s.asin[i][j]| ≤ Real.pi / 2)) ∧
    ((|s[i][j]| ≤ 1 → Real.cos s.acos[i][j] = s[i][j] ∧ 0 ≤ s.acos[i][j] ∧ s.acos[i][j] ≤ Real.pi)) ∧
    (Real.tan s.atan[i][j] = s[i][j] ∧ |s.atan[i][j]| < Real.pi / 2) := by
  simp only [Mat.acos, Mat.asin, Mat.atan, Mat.tan, Mat.sin, Mat.cos, Mat.getElem_map]
  exact real_trig s[i][j]

/-- Hyperbolic functions and their inverses. -/
theorem C77_vector_hyperbolic (s : Vec ℝ N) (i : Nat) (h : i < N) :
    (s.sinh[i] = Real.sinh s[i]) ∧
    (s.cosh[i] = Real.cosh s[i]) ∧
    (s.tanh[i] = Real.tanh s[i]) ∧
    (s.cosh[i] ^ 2 - s.sinh[i] ^ 2 = 1) ∧
    (s.tanh[i] * s.cosh[i] = s.sinh[i]) ∧
    (Real.sinh s.asinh[i] = s[i]) ∧
    ((1 ≤ s[i] → Real.cosh s.acosh[i] = s[i] ∧ 0 ≤ s.acosh[i])) ∧
    ((|s[i]| < 1 → Real.tanh s.atanh[i] = s[i])) := by
  simp only [Vec.cosh, Vec.sinh, Vec.tanh, Vec.asinh, Vec.acosh, Vec.atanh, Vec.getElem_map]
  exact real_hyperbolic s[i]

theorem C77_matrix_hyperbolic (s : Mat ℝ M N) (i : Nat) (hi : i < M) (j : Nat) (hj : j < N) :
    (s.sinh[i][j] = Real.sinh s[i][j]) ∧
    (s.cosh[i][j] = Real.cosh s[i][j]) ∧
    (s.tanh[i][j] = Real.tanh s[i][j]) ∧
    (s.cosh[i][j] ^ 2 - s.sinh[i][j] ^ 2 = 1) ∧
    (s.tanh[i][j] * s.cosh[i][j] = s.sinh[i][j]) ∧
    (Real.sinh s.asinh[i][j] = s[i][j]) ∧
    ((1 ≤ s[i][j] → Real.cosh s.acosh[i][j] = s[i][j] ∧ 0 ≤ s.acosh[i][j])) ∧
    ((|s[i][j]| < 1 → Real.tanh s.atanh[i][j] = s[i][j])) := by
  simp only [Mat.cosh, Mat.sinh, Mat.tanh, Mat.asinh, Mat.acosh, Mat.atanh, Mat.getElem_map]
  exact real_hyperbolic s[i][j]

/-- Exponentials and logarithms. -/
theorem C77_vector_exponential (s : Vec ℝ N) (i : Nat) (h : i < N) :
    (s.exp[i] = Real.exp s[i]) ∧
    (s.exp2[i] = 2 ^ s[i]) ∧
    (s.expM1[i] = s.exp[i] - 1) ∧
    ((0 < s[i] → Real.exp s.ln[i] = s[i])) ∧
    ((0 < s[i] → (2 : ℝ) ^ s.log2[i] = s[i])) ∧
    ((0 < s[i] → (10 : ℝ) ^ s.log10[i] = s[i])) ∧
    ((-1 < s[i] → Real.exp s.ln1p[i] = 1 + s[i])) := by
  simp only [Vec.log2, Vec.exp, Vec.ln, Vec.exp2, Vec.log10, Vec.expM1, Vec.ln1p, Vec.getElem_map]
  exact real_exponential s[i]

theorem C77_matrix_exponential (s : Mat ℝ M N) (i : Nat) (hi : i < M) (j : Nat) (hj : j < N) :
    (s.exp[i][j] = Real.exp s[i][j]) ∧
    (s.exp2[i][j] = 2 ^ s[i][j]) ∧
    (s.expM1[i][j] = s.exp[i][j] - 1) ∧
    ((0 < s[i][j] → Real.exp s.ln[i][j] = s[i][j])) ∧
    ((0 < s[i][j] → (2 : ℝ) ^ s.log2[i][j] = s[i][j])) ∧
    ((0 < s[i][j] → (10 : ℝ) ^ s.log10[i][j] = s[i][j])) ∧
    ((-1 < s[i][j] → Real.exp s.ln1p[i][j] = 1 + s[i][j])) := by
  simp only [Mat.log2, Mat.exp, Mat.ln, Mat.exp2, Mat.log10, Mat.expM1, Mat.ln1p, Mat.getElem_map]
  exact real_exponential s[i][j]

/-- Two-argument functions: `hypot`, `abs_sub`, `powf`, `log` (to the given base) and `atan2` (of `self` over the argument: the angle whose
sine goes with `self`). -/
theorem C77_vector_binary [Broadcast B (Vec ℝ N)] (s : Vec ℝ N) (o : B) (i : Nat) (h : i < N) :
    ((s.hypot o)[i] ≥ 0 ∧ (s.hypot o)[i] ^ 2 = s[i] ^ 2 + (broadcast o : Vec ℝ N)[i] ^ 2) ∧
    ((s.absSub o)[i] = max (s[i] - (broadcast o : Vec ℝ N)[i]) 0) ∧
    (0 < s[i] → Real.log (s.powf o)[i] = (broadcast o : Vec ℝ N)[i] * Real.log s[i]) ∧
    (0 < s[i] → 0 < (broadcast o : Vec ℝ N)[i] → (broadcast o : Vec ℝ N)[i] ≠ 1 → (broadcast o : Vec ℝ N)[i] ^ (s.log o)[i] = s[i]) ∧
    (Real.sqrt ((broadcast o : Vec ℝ N)[i] ^ 2 + s[i] ^ 2) * Real.cos (s.atan2 o)[i] = (broadcast o : Vec ℝ N)[i] ∧ Real.sqrt ((broadcast o : Vec ℝ N)[i] ^ 2 + s[i] ^ 2) * Real.sin (s.atan2 o)[i] = s[i] ∧ -Real.pi < (s.atan2 o)[i] ∧ (s.atan2 o)[i] ≤ Real.pi) := by
  simp only [Vec.hypot, Vec.absSub, Vec.powf, Vec.log, Vec.atan2, Vec.getElem_map, Vec.getElem_zip]
  exact real_binary _ _

/-- `powi` and `mul_add`. -/
theorem C77_vector_powi [Broadcast B (Vec Int N)] (s : Vec ℝ N) (o : B) (i : Nat) (h : i < N) : (s.powi o)[i] = s[i] ^ (broadcast o : Vec Int N)[i] := by
  simp only [Vec.powi, Vec.getElem_map, Vec.getElem_zip]; rfl

theorem C77_vector_mul_add [Broadcast A (Vec ℝ N)] [Broadcast B (Vec ℝ N)] (s : Vec ℝ N) (a : A) (b : B) (i : Nat) (h : i < N) :
    (s.mulAdd a b)[i] = s[i] * (broadcast a : Vec ℝ N)[i] + (broadcast b : Vec ℝ N)[i] := by
  simp only [Vec.mulAdd, Vec.getElem_map, Vec.getElem_zip]; rfl

/-- Two-argument functions: `hypot`, `abs_sub`, `powf`, `log` (to the given base) and `atan2` (of `self` over the argument: the angle whose
sine goes with `self`). -/
theorem C77_matrix_binary [Broadcast B (Mat ℝ M N)] (s : Mat ℝ M N) (o : B) (i : Nat) (hi : i < M) (j : Nat) (hj : j < N) :
    ((s.hypot o)[i][j] ≥ 0 ∧ (s.hypot o)[i][j] ^ 2 = s[i][j] ^ 2 + (broadcast o : Mat ℝ M N)[i][j] ^ 2) ∧
    ((s.absSub o)[i][j] = max (s[i][j] - (broadcast o : Mat ℝ M N)[i][j]) 0) ∧
    (0 < s[i][j] → Real.log (s.powf o)[i][j] = (broadcast o : Mat ℝ M N)[i][j] * Real.log s[i][j]) ∧
    (0 < s[i][j] → 0 < (broadcast o : Mat ℝ M N)[i][j] → (broadcast o : Mat ℝ M N)[i][j] ≠ 1 → (broadcast o : Mat ℝ M N)[i][j] ^ (s.log o)[i][j] = s[i][j]) ∧
    (Real.sqrt ((broadcast o : Mat ℝ M N)[i][j] ^ 2 + s[i][j] ^ 2) * Real.cos (s.atan2 o)[i][j] = (broadcast o : Mat ℝ M N)[i][j] ∧ Real.sqrt ((broadcast o : Mat ℝ M N)[i][j] ^ 2 + s[i][j] ^ 2) * Real.sin (s.atan2 o)[i][j] = s[i][j] ∧ -Real.pi < (s.atan2 o)[i][j] ∧ (s.atan2 o)[i][j] ≤ Real.pi) := by
  simp only [Mat.hypot, Mat.absSub, Mat.powf, Mat.log, Mat.atan2, Mat.getElem_map, Mat.getElem_zip]
  exact real_binary _ _

/-- `powi` and `mul_add`. -/
theorem C77_matrix_powi [Broadcast B (Mat Int M N)] (s : Mat ℝ M N) (o : B) (i : Nat) (hi : i < M) (j : Nat) (hj : j < N) : (s.powi o)[i][j] = s[i][j] ^ (broadcast o : Mat Int M N)[i][j] := by
  simp only [Mat.powi, Mat.getElem_map, Mat.getElem_zip]; rfl

theorem C77_matrix_mul_add [Broadcast A (Mat ℝ M N)] [Broadcast B (Mat ℝ M N)] (s : Mat ℝ M N) (a : A) (b : B) (i : Nat) (hi : i < M) (j : Nat) (hj : j < N) :
    (s.mulAdd a b)[i][j] = s[i][j] * (broadcast a : Mat ℝ M N)[i][j] + (broadcast b : Mat ℝ M N)[i][j] := by
  simp only [Mat.mulAdd, Mat.getElem_map, Mat.getElem_zip]; rfl

example : ∃ n : ℤ, (⟨#v[-5 / 2, 7]⟩ : Vec ℝ 2).round[0] = n ∧ |(-5 / 2 : ℝ)| < |(n : ℝ)| := by
  obtain ⟨n, h1, h2, h3⟩ := (C77_vector_rounding (⟨#v[-5 / 2, 7]⟩ : Vec ℝ 2) 0 (by omega)).2.2.1
  refine ⟨n, h1, h3 ?_⟩
  have e : (⟨#v[-5 / 2, 7]⟩ : Vec ℝ 2)[0] = -5 / 2 := rfl
  rw [e] at h2 ⊢
  have h := abs_le.mp h2
  have h4 : (n : ℝ) = -3 ∨ (n : ℝ) = -2 := by
    have a1 : (-4 : ℝ) < n := by linarith
    have a2 : (n : ℝ) < -1 := by linarith
    have b1 : (-4 : ℤ) < n := by exact_mod_cast a1
    have b2 : n < (-1 : ℤ) := by exact_mod_cast a2
    have : n = -3 ∨ n = -2 := by omega
    rcases this with rfl | rfl <;> simp
  rcases h4 with h4 | h4 <;> rw [h4] <;> norm_num [abs_of_neg, abs_of_pos]
example : (⟨#v[-8, 7]⟩ : Vec ℝ 2).cbrt[0] ^ 3 = -8 := (C77_vector_algebraic (⟨#v[-8, 7]⟩ : Vec ℝ 2) 0 (by omega)).2.2.2.1
end Vecmat
