import Verif.Lemmas.Bilinear
import Verif.Props.F64MoebiusDeriv
import Verif.Props.Moebius
/-!
# C103: the directional derivative of a Möbius transformation at a quaternion, in double precision
-/
namespace Vecmat
open Spec Ieee F64
set_option exponentiation.threshold 3000

namespace F64
/-- `q` is finite and within `e m` of `P`, where `m` bounds `|P|`. -/
def ApQ (q : Quat F) (P : Quaternion ℝ) (m e : ℝ) : Prop := ‖P‖ ≤ m ∧ ∃ V, IsQ q V ∧ ‖V - P‖ ≤ e * m
/-- The same for a scalar. -/
def ApR (a : F) (x m e : ℝ) : Prop := |x| ≤ m ∧ ∃ r, a.toReal? = some r ∧ |r - x| ≤ e * m
/-- One product. -/
theorem mul_comp {a b : F} {x y : ℝ} (ha : a.toReal? = some x) (hb : b.toReal? = some y) (h : |x * y| ≤ 2 ^ 1000) :
    ∃ r, (a * b).toReal? = some r ∧ |r - x * y| ≤ 1 / 2 ^ 53 * |x * y| + 1 / 2 ^ 1075 := by
  have e := near_err_add (φ := Fmt.f64) (x * y)
  rw [u_eq, tiny_eq] at e
  have hf : |Fmt.f64.near (x * y)| < huge Fmt.f64 := by
    rw [huge_eq]
    calc _ = |(Fmt.f64.near (x * y) - x * y) + x * y| := by congr 1; ring
      _ ≤ _ := abs_add_le _ _
      _ ≤ (1 / 2 ^ 53 * 2 ^ 1000 + 1 / 2 ^ 1075) + 2 ^ 1000 := by
        refine add_le_add (e.trans ?_) h
        gcongr
      _ < _ := by norm_num
  exact ⟨_, val_mul_iff.2 ⟨x, y, ha, hb, rfl, hf⟩, e⟩
/-- Componentwise errors `u|z| + t` give a norm-wise error `u‖Z‖ + 4t`. -/
theorem quat_mix {V Z : Quaternion ℝ} {u t : ℝ} (hu : 0 ≤ u) (ht : 0 ≤ t) (h0 : |V.re - Z.re| ≤ u * |Z.re| + t) (h1 : |V.imI - Z.imI| ≤ u * |Z.imI| + t)
    (h2 : |V.imJ - Z.imJ| ≤ u * |Z.imJ| + t) (h3 : |V.imK - Z.imK| ≤ u * |Z.imK| + t) : ‖V - Z‖ ≤ u * ‖Z‖ + 4 * t := by
  have a := complex_mix (V := half₁ V) (Z := half₁ Z) hu ht h0 h1
  have b := complex_mix (V := half₂ V) (Z := half₂ Z) hu ht h2 h3
  have e1 : half₁ V - half₁ Z = half₁ (V - Z) := by apply Complex.ext <;> simp [half₁]
  have e2 : half₂ V - half₂ Z = half₂ (V - Z) := by apply Complex.ext <;> simp [half₂]
  rw [e1] at a; rw [e2] at b
  have pair : ∀ Y : Quaternion ℝ, ‖(⟨‖half₁ Y‖, ‖half₂ Y‖⟩ : ℂ)‖ = ‖Y‖ := fun Y => by
    rw [Complex.norm_eq_sqrt_sq_add_sq, ← Real.sqrt_sq (norm_nonneg Y), norm_halves]
  have c := complex_mix (V := ⟨‖half₁ (V - Z)‖ + ‖half₁ Z‖, ‖half₂ (V - Z)‖ + ‖half₂ Z‖⟩) (Z := ⟨‖half₁ Z‖, ‖half₂ Z‖⟩) (u := u) (t := 2 * t) hu (by positivity)
    (by simpa [abs_of_nonneg] using a) (by simpa [abs_of_nonneg] using b)
  rw [pair Z] at c
  have : (⟨‖half₁ (V - Z)‖ + ‖half₁ Z‖, ‖half₂ (V - Z)‖ + ‖half₂ Z‖⟩ : ℂ) - ⟨‖half₁ Z‖, ‖half₂ Z‖⟩ = ⟨‖half₁ (V - Z)‖, ‖half₂ (V - Z)‖⟩ := by
    apply Complex.ext <;> simp
  rw [this, pair] at c
  linarith
theorem comp_le (Q : Quaternion ℝ) : |Q.re| ≤ ‖Q‖ ∧ |Q.imI| ≤ ‖Q‖ ∧ |Q.imJ| ≤ ‖Q‖ ∧ |Q.imK| ≤ ‖Q‖ := by
  have comp : ∀ {x : ℝ}, x ^ 2 ≤ Q.re ^ 2 + Q.imI ^ 2 + Q.imJ ^ 2 + Q.imK ^ 2 → |x| ≤ ‖Q‖ := fun h => by
    rw [quat_norm]; exact Real.abs_le_sqrt h
  refine ⟨comp ?_, comp ?_, comp ?_, comp ?_⟩ <;> nlinarith [sq_nonneg Q.re, sq_nonneg Q.imI, sq_nonneg Q.imJ, sq_nonneg Q.imK]
/-- Quaternion times scalar. -/
theorem qscale {q : Quat F} {s : F} {V : Quaternion ℝ} {r : ℝ} (hq : IsQ q V) (hs : s.toReal? = some r) (h : |r| * ‖V‖ ≤ 2 ^ 1000) :
    ∃ Z, IsQ (q.mulS s) Z ∧ ‖Z - r • V‖ ≤ 1 * (1 / 2 ^ 53) * (|r| * ‖V‖) + 1 / 2 ^ 1073 := by
  obtain ⟨c0, c1, c2, c3⟩ := comp_le V
  obtain ⟨h0, h1, h2, h3⟩ := hq
  have big : ∀ {x : ℝ}, |x| ≤ ‖V‖ → |x * r| ≤ 2 ^ 1000 := fun hx => by
    rw [abs_mul, mul_comm]; exact le_trans (by gcongr) h
  obtain ⟨a, ha, ea⟩ := mul_comp h0 hs (big c0)
  obtain ⟨b, hb, eb⟩ := mul_comp h1 hs (big c1)
  obtain ⟨c, hc, ec⟩ := mul_comp h2 hs (big c2)
  obtain ⟨d, hd, ed⟩ := mul_comp h3 hs (big c3)
  obtain ⟨Z, rfl, rfl, rfl, rfl⟩ : ∃ Z : Quaternion ℝ, Z.re = a ∧ Z.imI = b ∧ Z.imJ = c ∧ Z.imK = d := ⟨⟨a, b, c, d⟩, rfl, rfl, rfl, rfl⟩
  refine ⟨Z, ⟨by simpa using ha, by simpa using hb, by simpa using hc, by simpa using hd⟩, ?_⟩
  rw [mul_comm] at ea eb ec ed
  have := quat_mix (V := Z) (Z := r • V) (u := 1 / 2 ^ 53) (t := 1 / 2 ^ 1075) (by positivity) (by positivity)
    (by simpa [mul_comm] using ea) (by simpa [mul_comm] using eb) (by simpa [mul_comm] using ec) (by simpa [mul_comm] using ed)
  rw [norm_smul, Real.norm_eq_abs] at this
  refine this.trans (le_of_eq ?_)
  rw [show (1:ℝ) / 2 ^ 1073 = 4 * (1 / 2 ^ 1075) by norm_num]; ring
/-- Quaternion divided by a positive scalar. -/
theorem qshrink {q : Quat F} {s : F} {V : Quaternion ℝ} {r : ℝ} (hq : IsQ q V) (hs : s.toReal? = some r) (hr : 0 < r) (h : |r⁻¹| * ‖V‖ ≤ 2 ^ 1000) :
    ∃ Z, IsQ (q.divS s) Z ∧ ‖Z - r⁻¹ • V‖ ≤ 1 * (1 / 2 ^ 53) * (|r⁻¹| * ‖V‖) + 1 / 2 ^ 1073 := by
  obtain ⟨c0, c1, c2, c3⟩ := comp_le V
  obtain ⟨h0, h1, h2, h3⟩ := hq
  have big : ∀ {x : ℝ}, |x| ≤ ‖V‖ → |x / r| ≤ 2 ^ 1000 := fun hx => by
    rw [div_eq_inv_mul, abs_mul]; exact le_trans (by gcongr) h
  obtain ⟨a, ha, ea⟩ := div_comp h0 hs hr (big c0)
  obtain ⟨b, hb, eb⟩ := div_comp h1 hs hr (big c1)
  obtain ⟨c, hc, ec⟩ := div_comp h2 hs hr (big c2)
  obtain ⟨d, hd, ed⟩ := div_comp h3 hs hr (big c3)
  obtain ⟨Z, rfl, rfl, rfl, rfl⟩ : ∃ Z : Quaternion ℝ, Z.re = a ∧ Z.imI = b ∧ Z.imJ = c ∧ Z.imK = d := ⟨⟨a, b, c, d⟩, rfl, rfl, rfl, rfl⟩
  refine ⟨Z, ⟨by simpa using ha, by simpa using hb, by simpa using hc, by simpa using hd⟩, ?_⟩
  simp only [div_eq_inv_mul _ r] at ea eb ec ed
  have := quat_mix (V := Z) (Z := r⁻¹ • V) (u := 1 / 2 ^ 53) (t := 1 / 2 ^ 1075) (by positivity) (by positivity)
    (by rw [Quaternion.re_smul, smul_eq_mul]; exact ea) (by rw [Quaternion.imI_smul, smul_eq_mul]; exact eb)
    (by rw [Quaternion.imJ_smul, smul_eq_mul]; exact ec) (by rw [Quaternion.imK_smul, smul_eq_mul]; exact ed)
  rw [norm_smul, Real.norm_eq_abs] at this
  refine this.trans (le_of_eq ?_)
  rw [show (1:ℝ) / 2 ^ 1073 = 4 * (1 / 2 ^ 1075) by norm_num]; ring
/-- Sum of quaternions. -/
theorem qadd {p q : Quat F} {P Q : Quaternion ℝ} (hp : IsQ p P) (hq : IsQ q Q) (h : ‖P + Q‖ ≤ 2 ^ 1000) :
    ∃ Z, IsQ (p + q) Z ∧ ‖Z - (P + Q)‖ ≤ 1 / 2 ^ 53 * ‖P + Q‖ + 1 / 2 ^ 1073 := by
  obtain ⟨c0, c1, c2, c3⟩ := comp_le (P + Q)
  obtain ⟨p0, p1, p2, p3⟩ := hp
  obtain ⟨h0, h1, h2, h3⟩ := hq
  obtain ⟨a, ha, ea⟩ := add_comp p0 h0 (c0.trans h)
  obtain ⟨b, hb, eb⟩ := add_comp p1 h1 (c1.trans h)
  obtain ⟨c, hc, ec⟩ := add_comp p2 h2 (c2.trans h)
  obtain ⟨d, hd, ed⟩ := add_comp p3 h3 (c3.trans h)
  obtain ⟨Z, rfl, rfl, rfl, rfl⟩ : ∃ Z : Quaternion ℝ, Z.re = a ∧ Z.imI = b ∧ Z.imJ = c ∧ Z.imK = d := ⟨⟨a, b, c, d⟩, rfl, rfl, rfl, rfl⟩
  refine ⟨Z, ⟨by simpa using ha, by simpa using hb, by simpa using hc, by simpa using hd⟩, ?_⟩
  refine (quat_mix (u := 1 / 2 ^ 53) (t := 1 / 2 ^ 1075) (by positivity) (by positivity) ea eb ec ed).trans (le_of_eq ?_)
  rw [show (1:ℝ) / 2 ^ 1073 = 4 * (1 / 2 ^ 1075) by norm_num]
theorem isQ_neg {q : Quat F} {Q : Quaternion ℝ} (h : IsQ q Q) : IsQ (-q) (-Q) :=
  ⟨by simpa [Val] using val_neg h.1, by simpa [Val] using val_neg h.2.1, by simpa [Val] using val_neg h.2.2.1, by simpa [Val] using val_neg h.2.2.2⟩
/-- The dot product of two quaternions. -/
def dotH (P Q : Quaternion ℝ) : ℝ := P.re * Q.re + P.imI * Q.imI + P.imJ * Q.imJ + P.imK * Q.imK
theorem abs_sum_le (P Q : Quaternion ℝ) : |P.re| * |Q.re| + |P.imI| * |Q.imI| + |P.imJ| * |Q.imJ| + |P.imK| * |Q.imK| ≤ ‖P‖ * ‖Q‖ := by
  rw [quat_norm, quat_norm, ← Real.sqrt_mul (by positivity)]
  apply Real.le_sqrt_of_sq_le
  rw [← sq_abs P.re, ← sq_abs P.imI, ← sq_abs P.imJ, ← sq_abs P.imK, ← sq_abs Q.re, ← sq_abs Q.imI, ← sq_abs Q.imJ, ← sq_abs Q.imK]
  generalize |P.re| = a; generalize |P.imI| = b; generalize |P.imJ| = c; generalize |P.imK| = d
  generalize |Q.re| = a'; generalize |Q.imI| = b'; generalize |Q.imJ| = c'; generalize |Q.imK| = d'
  nlinarith [sq_nonneg (a * b' - b * a'), sq_nonneg (a * c' - c * a'), sq_nonneg (a * d' - d * a'), sq_nonneg (b * c' - c * b'),
    sq_nonneg (b * d' - d * b'), sq_nonneg (c * d' - d * c')]
theorem dotH_le (P Q : Quaternion ℝ) : ‖dotH P Q‖ ≤ ‖P‖ * ‖Q‖ := by
  refine le_trans ?_ (abs_sum_le P Q)
  rw [Real.norm_eq_abs, dotH]
  simp only [← abs_mul]
  exact (abs_add_le _ _).trans (add_le_add ((abs_add_le _ _).trans (add_le_add (abs_add_le _ _) le_rfl)) le_rfl)
theorem qdot {p q : Quat F} {P Q : Quaternion ℝ} (hp : IsQ p P) (hq : IsQ q Q) (h : ‖P‖ * ‖Q‖ ≤ 2 ^ 1000) :
    ∃ r, (p.dot q).toReal? = some r ∧ ‖r - dotH P Q‖ ≤ 9 / 2 * (1 / 2 ^ 53) * (‖P‖ * ‖Q‖) + 1 / 2 ^ 1072 := by
  obtain ⟨p0, p1, p2, p3⟩ := hp
  obtain ⟨h0, h1, h2, h3⟩ := hq
  obtain ⟨d, hd, hc⟩ := C84_dot (N := 4) C80_formats.2 (by norm_num) p.vec q.vec ![P.re, P.imI, P.imJ, P.imK] ![Q.re, Q.imI, Q.imJ, Q.imK]
    (fun i => by fin_cases i <;> [exact p0; exact p1; exact p2; exact p3]) (fun i => by fin_cases i <;> [exact h0; exact h1; exact h2; exact h3])
  rw [Vec.dot_ok] at hd; cases hd
  have e1 : ∑ i, (![P.re, P.imI, P.imJ, P.imK] i) * (![Q.re, Q.imI, Q.imJ, Q.imK] i) = dotH P Q := by simp [Fin.sum_univ_four, dotH]
  have e2 : ∑ i, |![P.re, P.imI, P.imJ, P.imK] i| * |![Q.re, Q.imI, Q.imJ, Q.imK] i| ≤ ‖P‖ * ‖Q‖ := by
    refine le_trans (le_of_eq ?_) (abs_sum_le P Q); simp [Fin.sum_univ_four]
  have s0 : 0 ≤ ∑ i, |![P.re, P.imI, P.imJ, P.imK] i| * |![Q.re, Q.imI, Q.imJ, Q.imK] i| := Finset.sum_nonneg fun i _ => by positivity
  rw [e1] at hc
  generalize ∑ i, |![P.re, P.imI, P.imJ, P.imK] i| * |![Q.re, Q.imI, Q.imJ, Q.imK] i| = s at *
  have he : errBound Fmt.f64 4 4 s ≤ 9 / 2 * (1 / 2 ^ 53) * (‖P‖ * ‖Q‖) + 1 / 2 ^ 1072 := by
    refine (err44 s0).trans ?_
    calc 9 / 2 ^ 54 * s + 1 / 2 ^ 1072 ≤ 9 / 2 ^ 54 * (‖P‖ * ‖Q‖) + 1 / 2 ^ 1072 := by gcongr
      _ = _ := by ring
  exact close_val hc he (by
    calc _ ≤ (2:ℝ) ^ 1000 + (9 / 2 * (1 / 2 ^ 53) * 2 ^ 1000 + 1 / 2 ^ 1072) := by gcongr; exact e2.trans h
      _ < _ := by norm_num)

/-! ### the calculus -/
section
variable {p q : Quat F} {P Q : Quaternion ℝ} {s n : F} {S N : ℝ} {a b m e f k : ℝ}
theorem ApQ.mul (hp : ApQ p P a e) (hq : ApQ q Q b f) (e0 : 0 ≤ e) (f0 : 0 ≤ f) (e1 : e ≤ 1 / 2 ^ 10) (f1 : f ≤ 1 / 2 ^ 10) (hl : 1 / 2 ^ 600 ≤ a * b)
    (hr : a * b ≤ 2 ^ 600) : ApQ (p * q) (P * Q) (a * b) ((1 + 1 / 2 ^ 9) * (e + f) + 10 / 2 ^ 53) := by
  obtain ⟨nP, V, hV, eV⟩ := hp
  obtain ⟨nQ, W, hW, eW⟩ := hq
  have a0 : 0 ≤ a := (norm_nonneg _).trans nP
  have b0 : 0 ≤ b := (norm_nonneg _).trans nQ
  have r : ‖V‖ * ‖W‖ ≤ 2 ^ 1000 := by
    calc ‖V‖ * ‖W‖ ≤ (1 + e) * a * ((1 + f) * b) := by gcongr <;> [exact Bilin.le_of_close nP eV; exact Bilin.le_of_close nQ eW]
      _ = (1 + e) * (1 + f) * (a * b) := by ring
      _ ≤ (1 + 1 / 2 ^ 10) * (1 + 1 / 2 ^ 10) * 2 ^ 600 := by gcongr
      _ ≤ _ := by norm_num
  obtain ⟨Z, hZ, eZ⟩ := qmul hV hW r
  refine ⟨by rw [norm_mul]; gcongr, Z, hZ, ?_⟩
  have := Bilin.pert (fun x y : Quaternion ℝ => x * y) (fun x x' y => (sub_mul x x' y).symm) (fun x y y' => (mul_sub x y y').symm) (fun x y => norm_mul_le x y)
    (k := 9) (u := 1 / 2 ^ 53) (t := 1 / 2 ^ 1071) (K := 10) nP nQ eV eW e0 f0 e1 f1 (by norm_num) (by norm_num) (eZ.trans (le_of_eq (by ring))) (by
      calc (1:ℝ) / 2 ^ 1071 ≤ 1 / 2 ^ 53 / 4 * (1 / 2 ^ 600) := by norm_num
        _ ≤ _ := by gcongr) (by norm_num)
  exact this.trans (le_of_eq (by ring))
theorem ApQ.scale (hp : ApQ p P a e) (hs : ApR s S b f) (e0 : 0 ≤ e) (f0 : 0 ≤ f) (e1 : e ≤ 1 / 2 ^ 10) (f1 : f ≤ 1 / 2 ^ 10) (hl : 1 / 2 ^ 600 ≤ b * a)
    (hr : b * a ≤ 2 ^ 600) : ApQ (p.mulS s) (S • P) (b * a) ((1 + 1 / 2 ^ 9) * (e + f) + 2 / 2 ^ 53) := by
  obtain ⟨nP, V, hV, eV⟩ := hp
  obtain ⟨nS, r, hr', er⟩ := hs
  have a0 : 0 ≤ a := (norm_nonneg _).trans nP
  have b0 : 0 ≤ b := (abs_nonneg _).trans nS
  have big : |r| * ‖V‖ ≤ 2 ^ 1000 := by
    calc |r| * ‖V‖ ≤ (1 + f) * b * ((1 + e) * a) := by gcongr <;> [exact Bilin.le_of_close (V := r) (P := S) nS er; exact Bilin.le_of_close nP eV]
      _ = (1 + f) * (1 + e) * (b * a) := by ring
      _ ≤ (1 + 1 / 2 ^ 10) * (1 + 1 / 2 ^ 10) * 2 ^ 600 := by gcongr
      _ ≤ _ := by norm_num
  obtain ⟨Z, hZ, eZ⟩ := qscale hV hr' big
  refine ⟨by rw [norm_smul]; exact mul_le_mul nS nP (norm_nonneg _) b0, Z, hZ, ?_⟩
  have := Bilin.pert (fun (x : ℝ) (y : Quaternion ℝ) => x • y) (fun x x' y => (sub_smul x x' y).symm) (fun x y y' => (smul_sub x y y').symm)
    (fun x y => norm_smul_le x y) (P := S) (V := r) (m := b) (e := f)
    (k := 1) (u := 1 / 2 ^ 53) (t := 1 / 2 ^ 1073) (K := 2) nS nP er eV f0 e0 f1 e1 (by norm_num) (by norm_num) eZ (by
      calc (1:ℝ) / 2 ^ 1073 ≤ 1 / 2 ^ 53 / 4 * (1 / 2 ^ 600) := by norm_num
        _ ≤ _ := by gcongr) (by norm_num)
  exact this.trans (le_of_eq (by ring))
theorem ApQ.shrink (hp : ApQ p P a e) (hN : 0 < N) (hs : ApR n N N f) (e0 : 0 ≤ e) (f0 : 0 ≤ f) (e1 : e ≤ 1 / 2 ^ 10) (f1 : f ≤ 1 / 2 ^ 11)
    (hl : 1 / 2 ^ 600 ≤ N⁻¹ * a) (hr : N⁻¹ * a ≤ 2 ^ 600) : ApQ (p.divS n) (N⁻¹ • P) (N⁻¹ * a) ((1 + 1 / 2 ^ 7) * (e + f) + 2 / 2 ^ 53) := by
  obtain ⟨nP, V, hV, eV⟩ := hp
  obtain ⟨-, r, hr', er⟩ := hs
  obtain ⟨r0, ei⟩ := Bilin.recip hN er f1
  have a0 : 0 ≤ a := (norm_nonneg _).trans nP
  have b0 : 0 ≤ N⁻¹ := by positivity
  have g1 : (1 + 1 / 2 ^ 9) * f ≤ 1 / 2 ^ 10 := by
    calc (1 + 1 / 2 ^ 9) * f ≤ (1 + 1 / 2 ^ 9) * (1 / 2 ^ 11) := by gcongr
      _ ≤ _ := by norm_num
  have nS : ‖N⁻¹‖ ≤ N⁻¹ := by rw [Real.norm_eq_abs, abs_of_nonneg b0]
  have big : |r⁻¹| * ‖V‖ ≤ 2 ^ 1000 := by
    calc |r⁻¹| * ‖V‖ ≤ (1 + (1 + 1 / 2 ^ 9) * f) * N⁻¹ * ((1 + e) * a) := by
          gcongr <;> [exact Bilin.le_of_close (V := r⁻¹) (P := N⁻¹) nS ei; exact Bilin.le_of_close nP eV]
      _ = (1 + (1 + 1 / 2 ^ 9) * f) * (1 + e) * (N⁻¹ * a) := by ring
      _ ≤ (1 + 1 / 2 ^ 10) * (1 + 1 / 2 ^ 10) * 2 ^ 600 := by gcongr
      _ ≤ _ := by norm_num
  obtain ⟨Z, hZ, eZ⟩ := qshrink hV hr' r0 big
  refine ⟨by rw [norm_smul]; exact mul_le_mul nS nP (norm_nonneg _) b0, Z, hZ, ?_⟩
  have := Bilin.pert (fun (x : ℝ) (y : Quaternion ℝ) => x • y) (fun x x' y => (sub_smul x x' y).symm) (fun x y y' => (smul_sub x y y').symm)
    (fun x y => norm_smul_le x y) (P := N⁻¹) (V := r⁻¹) (m := N⁻¹) (e := (1 + 1 / 2 ^ 9) * f)
    (k := 1) (u := 1 / 2 ^ 53) (t := 1 / 2 ^ 1073) (K := 2) nS nP ei eV (by positivity) e0 g1 e1 (by norm_num) (by norm_num) eZ (by
      calc (1:ℝ) / 2 ^ 1073 ≤ 1 / 2 ^ 53 / 4 * (1 / 2 ^ 600) := by norm_num
        _ ≤ _ := by gcongr) (by norm_num)
  refine this.trans (mul_le_mul_of_nonneg_right ?_ (by positivity))
  norm_num; linarith
theorem ApQ.dot (hp : ApQ p P a e) (hq : ApQ q Q b f) (e0 : 0 ≤ e) (f0 : 0 ≤ f) (e1 : e ≤ 1 / 2 ^ 10) (f1 : f ≤ 1 / 2 ^ 10) (hl : 1 / 2 ^ 600 ≤ a * b)
    (hr : a * b ≤ 2 ^ 600) : ApR (p.dot q) (dotH P Q) (a * b) ((1 + 1 / 2 ^ 9) * (e + f) + 5 / 2 ^ 53) := by
  obtain ⟨nP, V, hV, eV⟩ := hp
  obtain ⟨nQ, W, hW, eW⟩ := hq
  have a0 : 0 ≤ a := (norm_nonneg _).trans nP
  have b0 : 0 ≤ b := (norm_nonneg _).trans nQ
  have r : ‖V‖ * ‖W‖ ≤ 2 ^ 1000 := by
    calc ‖V‖ * ‖W‖ ≤ (1 + e) * a * ((1 + f) * b) := by gcongr <;> [exact Bilin.le_of_close nP eV; exact Bilin.le_of_close nQ eW]
      _ = (1 + e) * (1 + f) * (a * b) := by ring
      _ ≤ (1 + 1 / 2 ^ 10) * (1 + 1 / 2 ^ 10) * 2 ^ 600 := by gcongr
      _ ≤ _ := by norm_num
  obtain ⟨z, hz, ez⟩ := qdot hV hW r
  refine ⟨(dotH_le P Q).trans (by gcongr), z, hz, ?_⟩
  have := Bilin.pert dotH (fun x x' y => by simp [dotH]; ring) (fun x y y' => by simp [dotH]; ring) dotH_le
    (k := 9 / 2) (u := 1 / 2 ^ 53) (t := 1 / 2 ^ 1072) (K := 5) nP nQ eV eW e0 f0 e1 f1 (by norm_num) (by norm_num) ez (by
      calc (1:ℝ) / 2 ^ 1072 ≤ 1 / 2 ^ 53 / 4 * (1 / 2 ^ 600) := by norm_num
        _ ≤ _ := by gcongr) (by norm_num)
  exact this.trans (le_of_eq (by ring))
/-- Doubling. -/
theorem ApR.twice (hs : ApR s S b f) (f0 : 0 ≤ f) (f1 : f ≤ 1 / 2 ^ 10) (hl : 1 / 2 ^ 600 ≤ b) (hr : b ≤ 2 ^ 600) :
    ApR (s * two) (S * 2) (b * 2) ((1 + 1 / 2 ^ 9) * f + 2 / 2 ^ 53) := by
  obtain ⟨nS, r, hr', er⟩ := hs
  have b0 : 0 ≤ b := (abs_nonneg _).trans nS
  have nr := Bilin.le_of_close (V := r) (P := S) nS er
  have big : |r * 2| ≤ 2 ^ 1000 := by
    rw [abs_mul, abs_two]
    calc |r| * 2 ≤ (1 + f) * b * 2 := by gcongr; exact nr
      _ ≤ (1 + 1 / 2 ^ 10) * 2 ^ 600 * 2 := by gcongr
      _ ≤ _ := by norm_num
  obtain ⟨z, hz, ez⟩ := mul_comp (b := (two : F)) (y := 2) hr' rfl big
  refine ⟨by rw [abs_mul, abs_two]; gcongr, z, hz, ?_⟩
  rw [abs_mul, abs_two] at ez
  have := Bilin.pert (fun x y : ℝ => x * y) (fun x x' y => (sub_mul x x' y).symm) (fun x y y' => (mul_sub x y y').symm) (fun x y => norm_mul_le x y)
    (P := S) (V := r) (Q := 2) (W := 2) (m := b) (n := 2) (e := f) (f := 0) (Z := z)
    (k := 1) (u := 1 / 2 ^ 53) (t := 1 / 2 ^ 1075) (K := 2) nS (by norm_num) er (by norm_num) f0 le_rfl f1 (by norm_num) (by norm_num) (by norm_num)
    (by rw [Real.norm_eq_abs, Real.norm_eq_abs, Real.norm_eq_abs, abs_two]; exact ez.trans (le_of_eq (by ring))) (by
      calc (1:ℝ) / 2 ^ 1075 ≤ 1 / 2 ^ 53 / 4 * (1 / 2 ^ 600 * 2) := by norm_num
        _ ≤ _ := by gcongr) (by norm_num)
  exact this.trans (le_of_eq (by ring))
/-- Quotient of scalars. -/
theorem ApR.div (hs : ApR s S b e) (hN : 0 < N) (hn : ApR n N N f) (e0 : 0 ≤ e) (f0 : 0 ≤ f) (e1 : e ≤ 1 / 2 ^ 10) (f1 : f ≤ 1 / 2 ^ 11)
    (hl : 1 / 2 ^ 600 ≤ b * N⁻¹) (hr : b * N⁻¹ ≤ 2 ^ 600) : ApR (s / n) (S / N) (b * N⁻¹) ((1 + 1 / 2 ^ 7) * (e + f) + 2 / 2 ^ 53) := by
  obtain ⟨nP, x, hx, ex⟩ := hs
  obtain ⟨-, r, hr', er⟩ := hn
  obtain ⟨r0, ei⟩ := Bilin.recip hN er f1
  have a0 : 0 ≤ b := (abs_nonneg _).trans nP
  have b0 : 0 ≤ N⁻¹ := by positivity
  have g1 : (1 + 1 / 2 ^ 9) * f ≤ 1 / 2 ^ 10 := by
    calc (1 + 1 / 2 ^ 9) * f ≤ (1 + 1 / 2 ^ 9) * (1 / 2 ^ 11) := by gcongr
      _ ≤ _ := by norm_num
  have nS : ‖N⁻¹‖ ≤ N⁻¹ := by rw [Real.norm_eq_abs, abs_of_nonneg b0]
  have big : |x / r| ≤ 2 ^ 1000 := by
    rw [div_eq_mul_inv, abs_mul]
    calc |x| * |r⁻¹| ≤ (1 + e) * b * ((1 + (1 + 1 / 2 ^ 9) * f) * N⁻¹) := by
          gcongr <;> [exact Bilin.le_of_close (V := x) (P := S) nP ex; exact Bilin.le_of_close (V := r⁻¹) (P := N⁻¹) nS ei]
      _ = (1 + e) * (1 + (1 + 1 / 2 ^ 9) * f) * (b * N⁻¹) := by ring
      _ ≤ (1 + 1 / 2 ^ 10) * (1 + 1 / 2 ^ 10) * 2 ^ 600 := by gcongr
      _ ≤ _ := by norm_num
  obtain ⟨z, hz, ez⟩ := div_comp hx hr' r0 big
  refine ⟨by rw [div_eq_mul_inv, abs_mul]; exact mul_le_mul nP nS (abs_nonneg _) a0, z, hz, ?_⟩
  have := Bilin.pert (fun x y : ℝ => x * y) (fun x x' y => (sub_mul x x' y).symm) (fun x y y' => (mul_sub x y y').symm) (fun x y => norm_mul_le x y)
    (P := S) (V := x) (Q := N⁻¹) (W := r⁻¹) (m := b) (n := N⁻¹) (Z := z)
    (k := 1) (u := 1 / 2 ^ 53) (t := 1 / 2 ^ 1075) (K := 2) nP nS ex ei e0 (by positivity) e1 g1 (by norm_num) (by norm_num)
    (by rw [Real.norm_eq_abs, Real.norm_eq_abs, Real.norm_eq_abs, ← abs_mul, ← div_eq_mul_inv]; exact ez.trans (le_of_eq (by ring))) (by
      calc (1:ℝ) / 2 ^ 1075 ≤ 1 / 2 ^ 53 / 4 * (1 / 2 ^ 600) := by norm_num
        _ ≤ _ := by gcongr) (by norm_num)
  rw [← div_eq_mul_inv] at this
  refine this.trans (mul_le_mul_of_nonneg_right ?_ (by positivity))
  norm_num; linarith
theorem ApQ.conj (hp : ApQ p P a e) : ApQ p.conj (star P) a e := by
  obtain ⟨nP, V, hV, eV⟩ := hp
  exact ⟨by rwa [norm_star], star V, isQ_conj hV, by rwa [← star_sub, norm_star]⟩
/-- Difference, with a bound for the exact difference of one's own. -/
theorem ApQ.sub (hp : ApQ p P a e) (hq : ApQ q Q b f) (e1 : e ≤ 1 / 2 ^ 10) (f1 : f ≤ 1 / 2 ^ 10) (hm : ‖P - Q‖ ≤ m) (m0 : 0 < m)
    (hk : (e + 5 / 4 / 2 ^ 53) * a + (f + 5 / 4 / 2 ^ 53) * b ≤ k * m) (hl : 1 / 2 ^ 600 ≤ a + b) (hr : a + b ≤ 2 ^ 600) : ApQ (p - q) (P - Q) m k := by
  obtain ⟨nP, V, hV, eV⟩ := hp
  obtain ⟨nQ, W, hW, eW⟩ := hq
  have a0 : 0 ≤ a := (norm_nonneg _).trans nP
  have b0 : 0 ≤ b := (norm_nonneg _).trans nQ
  have r : ‖V + -W‖ ≤ 2 ^ 1000 := by
    calc ‖V + -W‖ ≤ ‖V‖ + ‖-W‖ := norm_add_le _ _
      _ ≤ (1 + e) * a + (1 + f) * b := by rw [norm_neg]; exact add_le_add (Bilin.le_of_close nP eV) (Bilin.le_of_close nQ eW)
      _ ≤ 2 * a + 2 * b := by gcongr <;> norm_num at e1 f1 ⊢ <;> linarith
      _ = 2 * (a + b) := by ring
      _ ≤ 2 * 2 ^ 600 := by gcongr
      _ ≤ _ := by norm_num
  obtain ⟨Z, hZ, eZ⟩ := qadd hV (isQ_neg hW) r
  have es : p - q = p + -q := by apply Quat.ext' <;> simp [Ieee.sub_def]
  refine ⟨hm, Z, by rw [es]; exact hZ, ?_⟩
  have := Bilin.sum (u := 1 / 2 ^ 53) (t := 1 / 2 ^ 1073) nP (by rwa [norm_neg] : ‖-Q‖ ≤ b) eV
    (by rw [show -W - -Q = -(W - Q) by abel, norm_neg]; exact eW : ‖-W - -Q‖ ≤ f * b) e1 f1 (by positivity) eZ (by
      calc (1:ℝ) / 2 ^ 1073 ≤ 1 / 2 ^ 53 / 8 * (1 / 2 ^ 600) := by norm_num
        _ ≤ _ := by gcongr)
  rw [← sub_eq_add_neg] at this
  exact (this.trans (le_of_eq (by ring))).trans hk
/-- Squared norm. -/
theorem ApQ.normSqr (hp : ApQ p P ‖P‖ e) (e0 : 0 ≤ e) (e1 : e ≤ 1 / 2 ^ 10) (hl : 1 / 2 ^ 200 ≤ ‖P‖) (hr : ‖P‖ ≤ 2 ^ 200) :
    ApR p.normSqr (‖P‖ ^ 2) (‖P‖ ^ 2) ((2 + 1 / 2 ^ 9) * e + 6 / 2 ^ 53) := by
  obtain ⟨-, V, hV, eV⟩ := hp
  have h0 : 0 < ‖P‖ := lt_of_lt_of_le (by positivity) hl
  have hVP := (abs_norm_sub_norm_le V P).trans eV
  obtain ⟨g1, g2⟩ := abs_le.1 hVP
  have ee : e * ‖P‖ ≤ 1 / 2 ^ 10 * ‖P‖ := by gcongr
  have vl : 1 / 2 * ‖P‖ ≤ ‖V‖ := by norm_num at ee; linarith
  have vr : ‖V‖ ≤ (1 + 1 / 2 ^ 10) * ‖P‖ := by linarith
  obtain ⟨n, hn, en⟩ := qnormSqr hV (by
      calc (1:ℝ) / 2 ^ 400 ≤ 1 / 2 * (1 / 2 ^ 200) := by norm_num
        _ ≤ 1 / 2 * ‖P‖ := mul_le_mul_of_nonneg_left hl (by norm_num)
        _ ≤ _ := vl) (by
      calc ‖V‖ ≤ (1 + 1 / 2 ^ 10) * 2 ^ 200 := vr.trans (by gcongr)
        _ ≤ _ := by norm_num)
  refine ⟨by rw [abs_of_nonneg (by positivity)], n, hn, ?_⟩
  have s1 : |‖V‖ ^ 2 - ‖P‖ ^ 2| ≤ (2 + 1 / 2 ^ 9) * e * ‖P‖ ^ 2 := by
    rw [show ‖V‖ ^ 2 - ‖P‖ ^ 2 = (‖V‖ - ‖P‖) * (‖V‖ + ‖P‖) by ring, abs_mul, abs_of_nonneg (by positivity : 0 ≤ ‖V‖ + ‖P‖)]
    calc |‖V‖ - ‖P‖| * (‖V‖ + ‖P‖) ≤ e * ‖P‖ * ((1 + 1 / 2 ^ 10) * ‖P‖ + ‖P‖) := by gcongr
      _ = (2 + 1 / 2 ^ 10) * e * ‖P‖ ^ 2 := by ring
      _ ≤ _ := by gcongr <;> norm_num
  have s2 : 5 / 2 ^ 53 * ‖V‖ ^ 2 ≤ 6 / 2 ^ 53 * ‖P‖ ^ 2 := by
    calc 5 / 2 ^ 53 * ‖V‖ ^ 2 ≤ 5 / 2 ^ 53 * ((1 + 1 / 2 ^ 10) * ‖P‖) ^ 2 := by gcongr
      _ = 5 / 2 ^ 53 * (1 + 1 / 2 ^ 10) ^ 2 * ‖P‖ ^ 2 := by ring
      _ ≤ _ := by gcongr; norm_num
  calc |n - ‖P‖ ^ 2| = |(n - ‖V‖ ^ 2) + (‖V‖ ^ 2 - ‖P‖ ^ 2)| := by congr 1; ring
    _ ≤ _ := abs_add_le _ _
    _ ≤ 6 / 2 ^ 53 * ‖P‖ ^ 2 + (2 + 1 / 2 ^ 9) * e * ‖P‖ ^ 2 := add_le_add (en.trans s2) s1
    _ = _ := by ring
/-- Reciprocal. -/
theorem ApQ.inv (hp : ApQ p P ‖P‖ e) (e0 : 0 ≤ e) (e1 : e ≤ 1 / 2 ^ 11) (hl : 1 / 2 ^ 200 ≤ ‖P‖) (hr : ‖P‖ ≤ 2 ^ 200) :
    ApQ p.inv P⁻¹ ‖P‖⁻¹ ((1 + 1 / 2 ^ 9) * e + 9 / 2 ^ 53) := by
  obtain ⟨-, V, hV, eV⟩ := hp
  have h0 : 0 < ‖P‖ := lt_of_lt_of_le (by positivity) hl
  have hVP := (abs_norm_sub_norm_le V P).trans eV
  obtain ⟨g1, g2⟩ := abs_le.1 hVP
  have ee : e * ‖P‖ ≤ 1 / 2 ^ 11 * ‖P‖ := by gcongr
  have vl : (1 - 1 / 2 ^ 11) * ‖P‖ ≤ ‖V‖ := by linarith
  have vr : ‖V‖ ≤ (1 + 1 / 2 ^ 11) * ‖P‖ := by linarith
  have v0 : 0 < ‖V‖ := by norm_num at vl; linarith
  have vi : ‖V‖⁻¹ ≤ (1 + 1 / 2 ^ 9) * ‖P‖⁻¹ := by
    rw [inv_le_iff_one_le_mul₀ v0]
    calc (1:ℝ) ≤ (1 + 1 / 2 ^ 9) * (1 - 1 / 2 ^ 11) := by norm_num
      _ = (1 + 1 / 2 ^ 9) * ‖P‖⁻¹ * ((1 - 1 / 2 ^ 11) * ‖P‖) := by field_simp
      _ ≤ _ := by gcongr
  obtain ⟨I, hI, eI⟩ := qinv hV (by
      calc (1:ℝ) / 2 ^ 400 ≤ (1 - 1 / 2 ^ 11) * (1 / 2 ^ 200) := by norm_num
        _ ≤ (1 - 1 / 2 ^ 11) * ‖P‖ := mul_le_mul_of_nonneg_left hl (by norm_num)
        _ ≤ _ := vl) (by
      calc ‖V‖ ≤ (1 + 1 / 2 ^ 11) * 2 ^ 200 := vr.trans (by gcongr)
        _ ≤ _ := by norm_num)
  refine ⟨by rw [norm_inv], I, hI, ?_⟩
  have s1 : ‖V⁻¹ - P⁻¹‖ ≤ (1 + 1 / 2 ^ 9) * e * ‖P‖⁻¹ := by
    have hV0 : V ≠ 0 := norm_pos_iff.1 v0
    have hP0 : P ≠ 0 := norm_pos_iff.1 h0
    rw [inv_sub_inv' hV0 hP0, norm_mul, norm_mul, norm_inv, norm_inv, norm_sub_rev]
    calc ‖V‖⁻¹ * ‖V - P‖ * ‖P‖⁻¹ ≤ ((1 + 1 / 2 ^ 9) * ‖P‖⁻¹) * (e * ‖P‖) * ‖P‖⁻¹ := by gcongr
      _ = _ := by field_simp
  calc ‖I - P⁻¹‖ = ‖(I - V⁻¹) + (V⁻¹ - P⁻¹)‖ := by congr 1; abel
    _ ≤ _ := norm_add_le _ _
    _ ≤ 8 / 2 ^ 53 * ((1 + 1 / 2 ^ 9) * ‖P‖⁻¹) + (1 + 1 / 2 ^ 9) * e * ‖P‖⁻¹ := by
      refine add_le_add (eI.trans ?_) s1
      rw [one_div]; gcongr
    _ = (8 / 2 ^ 53 * (1 + 1 / 2 ^ 9)) * ‖P‖⁻¹ + (1 + 1 / 2 ^ 9) * e * ‖P‖⁻¹ := by ring
    _ ≤ 9 / 2 ^ 53 * ‖P‖⁻¹ + (1 + 1 / 2 ^ 9) * e * ‖P‖⁻¹ := by gcongr; norm_num
    _ = _ := by ring
/-- Weakening. -/
theorem ApQ.mono (hp : ApQ p P a e) (h : e ≤ f) : ApQ p P a f := by
  obtain ⟨nP, V, hV, eV⟩ := hp
  have a0 : 0 ≤ a := (norm_nonneg _).trans nP
  exact ⟨nP, V, hV, eV.trans (by gcongr)⟩
theorem ApR.mono (hp : ApR s S a e) (h : e ≤ f) : ApR s S a f := by
  obtain ⟨nP, V, hV, eV⟩ := hp
  have a0 : 0 ≤ a := (abs_nonneg _).trans nP
  exact ⟨nP, V, hV, eV.trans (by gcongr)⟩
end
/-- The reflection `star W − 2 ⟨D, W⟩ / |D|² star D` keeps the norm. -/
theorem norm_refl (D W : Quaternion ℝ) (h : 0 < ‖D‖) : ‖star W - (dotH D W * 2 / ‖D‖ ^ 2) • star D‖ = ‖W‖ := by
  have hs : dotH D W * 2 / ‖D‖ ^ 2 * (D.re ^ 2 + D.imI ^ 2 + D.imJ ^ 2 + D.imK ^ 2) = dotH D W * 2 := by
    have : D.re ^ 2 + D.imI ^ 2 + D.imJ ^ 2 + D.imK ^ 2 = ‖D‖ ^ 2 := by rw [quat_norm, Real.sq_sqrt (by positivity)]
    rw [this]; field_simp
  generalize dotH D W * 2 / ‖D‖ ^ 2 = s at *
  rw [quat_norm, quat_norm]
  congr 1
  simp [dotH] at *
  linear_combination s * hs
set_option maxHeartbeats 2000000 in
/-- Everything `deriv_dir` does, on Mathlib's quaternions. -/
theorem dir_core {a b c d : Cpx F} {q v : Quat F} {A B C D₀ : ℂ} {Q V : Quaternion ℝ} {α γ ν σ μ : ℝ} (ha : IsC a A) (hb : IsC b B) (hc : IsC c C) (hd : IsC d D₀)
    (hq : IsQ q Q) (hv : IsQ v V) (nα : ‖A‖ ≤ α) (nγ : ‖C‖ ≤ γ) (nν : ‖V‖ ≤ ν) (nσ : ‖A‖ * ‖Q‖ + ‖B‖ ≤ σ)
    (hμ : ‖C‖ * ‖Q‖ + ‖D₀‖ ≤ μ * ‖inH C * Q + inH D₀‖) (μ1 : μ ≤ 2 ^ 35)
    (α0 : 1 / 2 ^ 100 ≤ α) (α1 : α ≤ 2 ^ 100) (γ0 : 1 / 2 ^ 100 ≤ γ) (γ1 : γ ≤ 2 ^ 100) (ν0 : 1 / 2 ^ 100 ≤ ν) (ν1 : ν ≤ 2 ^ 100) (σ0 : 1 / 2 ^ 100 ≤ σ) (σ1 : σ ≤ 2 ^ 100)
    (δ0 : 1 / 2 ^ 100 ≤ ‖inH C * Q + inH D₀‖) (δ1 : ‖inH C * Q + inH D₀‖ ≤ 2 ^ 100) :
    ∃ R, IsQ (Moebius.derivDir (Moebius.new a b c d) q v) R ∧
      ‖R - (inH A * V * (inH C * Q + inH D₀)⁻¹ + (inH A * Q + inH B) * ((‖inH C * Q + inH D₀‖ ^ 2)⁻¹ •
        (star (inH C * V) - (dotH (inH C * Q + inH D₀) (inH C * V) * 2 / ‖inH C * Q + inH D₀‖ ^ 2) • star (inH C * Q + inH D₀))))‖ ≤
      (33 * (α * ν / ‖inH C * Q + inH D₀‖) + 142 * (σ * (γ * ν) / ‖inH C * Q + inH D₀‖ ^ 2)) * μ / 2 ^ 53 := by
  have hu0 : ∃ R, IsQ (a * q + b) R ∧ _ := qaff ha hb hq (nσ.trans (σ1.trans (by norm_num)))
  have nD : ‖inH C * Q + inH D₀‖ ≤ ‖C‖ * ‖Q‖ + ‖D₀‖ := (norm_add_le _ _).trans (by rw [norm_mul, norm_inH, norm_inH])
  have nU : ‖inH A * Q + inH B‖ ≤ ‖A‖ * ‖Q‖ + ‖B‖ := (norm_add_le _ _).trans (by rw [norm_mul, norm_inH, norm_inH])
  have δp : 0 < ‖inH C * Q + inH D₀‖ := lt_of_lt_of_le (by positivity) δ0
  have μ0 : 1 ≤ μ := le_of_mul_le_mul_right (by rw [one_mul]; exact nD.trans hμ) δp
  have hd0 : ∃ R, IsQ (c * q + d) R ∧ _ := qaff hc hd hq (hμ.trans (by
    calc _ ≤ (2:ℝ) ^ 35 * 2 ^ 100 := by gcongr
      _ ≤ _ := by norm_num))
  obtain ⟨U', hU', eU⟩ := hu0
  obtain ⟨D', hD', eD⟩ := hd0
  obtain ⟨x, hx⟩ : ∃ x, x = μ / 2 ^ 53 := ⟨_, rfl⟩
  have x0 : 1 / 2 ^ 53 ≤ x := by rw [hx]; gcongr
  have x1 : x ≤ 1 / 2 ^ 18 := by
    calc x ≤ 2 ^ 35 / 2 ^ 53 := by rw [hx]; gcongr
      _ = _ := by norm_num
  have α00 : 0 < α := lt_of_lt_of_le (by positivity) α0
  have γ00 : 0 < γ := lt_of_lt_of_le (by positivity) γ0
  have ν00 : 0 < ν := lt_of_lt_of_le (by positivity) ν0
  have σ00 : 0 < σ := lt_of_lt_of_le (by positivity) σ0
  have x00 : 0 < x := lt_of_lt_of_le (by positivity) x0
  have tny : ∀ {m : ℝ}, 1 / 2 ^ 100 ≤ m → (1:ℝ) / 2 ^ 1070 ≤ 1 / 8 * x * m := fun {m} h => by
    calc (1:ℝ) / 2 ^ 1070 ≤ 1 / 8 * (1 / 2 ^ 53) * (1 / 2 ^ 100) := by norm_num
      _ ≤ _ := by gcongr
  have aU : ApQ (a * q + b) (inH A * Q + inH B) σ (6 * x) := by
    refine ⟨nU.trans nσ, U', hU', eU.trans ?_⟩
    have := tny σ0
    have h2 : 41 / 2 ^ 56 * (‖A‖ * ‖Q‖ + ‖B‖) ≤ 41 / 8 * x * σ := by
      calc _ = 41 / 8 * (1 / 2 ^ 53) * (‖A‖ * ‖Q‖ + ‖B‖) := by ring
        _ ≤ _ := by gcongr
    nlinarith [mul_pos x00 σ00]
  have aD : ApQ (c * q + d) (inH C * Q + inH D₀) ‖inH C * Q + inH D₀‖ (6 * x) := by
    refine ⟨le_rfl, D', hD', eD.trans ?_⟩
    have := tny δ0
    have h2 : 41 / 2 ^ 56 * (‖C‖ * ‖Q‖ + ‖D₀‖) ≤ 41 / 8 * x * ‖inH C * Q + inH D₀‖ := by
      calc _ ≤ 41 / 2 ^ 56 * (μ * ‖inH C * Q + inH D₀‖) := by gcongr
        _ = _ := by rw [hx]; ring
    nlinarith [mul_pos x00 δp]
  have pr : ∀ {c : Cpx F} {C : ℂ} {γ : ℝ}, IsC c C → ‖C‖ ≤ γ → 1 / 2 ^ 100 ≤ γ → γ ≤ 2 ^ 100 → ApQ (c * v) (inH C * V) (γ * ν) (5 * x) := by
    intro c C γ hc nγ γ0 γ1
    have γ00 : 0 < γ := lt_of_lt_of_le (by positivity) γ0
    have n : ‖C‖ * ‖V‖ ≤ γ * ν := by gcongr
    obtain ⟨W, hW, eW⟩ := qcmul hc hv (n.trans (by
      calc _ ≤ (2:ℝ) ^ 100 * 2 ^ 100 := by gcongr
        _ ≤ _ := by norm_num))
    refine ⟨by rw [norm_mul, norm_inH]; exact n, W, hW, eW.trans ?_⟩
    have t : (1:ℝ) / 2 ^ 1071 ≤ 1 * x * (γ * ν) := by
      calc (1:ℝ) / 2 ^ 1071 ≤ 1 * (1 / 2 ^ 53) * (1 / 2 ^ 100 * (1 / 2 ^ 100)) := by norm_num
        _ ≤ _ := by gcongr
    have h2 : 4 / 2 ^ 53 * (‖C‖ * ‖V‖) ≤ 4 * x * (γ * ν) := by
      calc _ = 4 * (1 / 2 ^ 53) * (‖C‖ * ‖V‖) := by ring
        _ ≤ _ := by gcongr
    linarith
  have aA := pr ha nα α0 α1
  have aW := pr hc nγ γ0 γ1
  have hm : Moebius.derivDir (Moebius.new a b c d) q v = (a * v) * (c * q + d).inv +
      (a * q + b) * ((c * v).conj - (c * q + d).conj.mulS ((c * q + d).dot (c * v) * two / (c * q + d).normSqr)).divS (c * q + d).normSqr := rfl
  rw [hm]
  have nW : ‖inH C * V‖ ≤ γ * ν := aW.1
  have nr := norm_refl (inH C * Q + inH D₀) (inH C * V) δp
  rw [mul_div_assoc _ μ, ← hx]
  clear hU' eU hD' eD hm hx
  generalize (c * q + d) = fd at *
  generalize (a * q + b) = fu at *
  generalize (a * v) = fa at *
  generalize (c * v) = fw at *
  generalize inH C * Q + inH D₀ = D at *
  generalize inH A * Q + inH B = U at *
  generalize inH C * V = W at *
  generalize inH A * V = E at *
  obtain ⟨αν, hαν⟩ : ∃ y, y = α * ν := ⟨_, rfl⟩
  obtain ⟨γν, hγν⟩ : ∃ y, y = γ * ν := ⟨_, rfl⟩
  have αν0 : 1 / 2 ^ 200 ≤ αν := by
    rw [hαν]
    calc (1:ℝ) / 2 ^ 200 = 1 / 2 ^ 100 * (1 / 2 ^ 100) := by norm_num
      _ ≤ _ := by gcongr
  have αν1 : αν ≤ 2 ^ 200 := by
    rw [hαν]
    calc _ ≤ (2:ℝ) ^ 100 * 2 ^ 100 := by gcongr
      _ = _ := by norm_num
  have γν0 : 1 / 2 ^ 200 ≤ γν := by
    rw [hγν]
    calc (1:ℝ) / 2 ^ 200 = 1 / 2 ^ 100 * (1 / 2 ^ 100) := by norm_num
      _ ≤ _ := by gcongr
  have γν1 : γν ≤ 2 ^ 200 := by
    rw [hγν]
    calc _ ≤ (2:ℝ) ^ 100 * 2 ^ 100 := by gcongr
      _ = _ := by norm_num
  rw [← hαν] at aA ⊢
  rw [← hγν] at aW nW ⊢
  have αν00 : 0 < αν := lt_of_lt_of_le (by positivity) αν0
  have γν00 : 0 < γν := lt_of_lt_of_le (by positivity) γν0
  obtain ⟨δ, hδ⟩ : ∃ y, y = ‖D‖ := ⟨_, rfl⟩
  have i0 : 1 / 2 ^ 100 ≤ δ⁻¹ := by rw [← one_div]; exact one_div_le_one_div_of_le (hδ ▸ δp) (hδ ▸ δ1)
  have i1 : δ⁻¹ ≤ 2 ^ 100 := by
    rw [← hδ] at δ0 δp
    rw [inv_le_comm₀ δp (by positivity), ← one_div]; exact δ0
  -- the terms, one by one
  have aI := aD.inv (by positivity) (by norm_num at x1 ⊢; linarith) ((by norm_num : (1:ℝ) / 2 ^ 200 ≤ 1 / 2 ^ 100).trans δ0) (δ1.trans (by norm_num))
  have aN := aD.normSqr (by positivity) (by norm_num at x1 ⊢; linarith) ((by norm_num : (1:ℝ) / 2 ^ 200 ≤ 1 / 2 ^ 100).trans δ0) (δ1.trans (by norm_num))
  rw [← hδ] at δ0 δ1 δp aI aN aD
  have aI' := aI.mono (f := 15.1 * x) (by norm_num at x0 ⊢; linarith)
  have aN' := aN.mono (f := 18.1 * x) (by norm_num at x0 ⊢; linarith)
  have g1 := (aA.mul aI' (by positivity) (by positivity) (by norm_num at x1 ⊢; linarith) (by norm_num at x1 ⊢; linarith) (by
      calc (1:ℝ) / 2 ^ 600 ≤ 1 / 2 ^ 200 * (1 / 2 ^ 100) := by norm_num
        _ ≤ _ := by gcongr) (by
      calc _ ≤ (2:ℝ) ^ 200 * 2 ^ 100 := by gcongr
        _ ≤ _ := by norm_num)).mono (f := 31 * x) (by norm_num at x0 ⊢; linarith)
  have s1 := (aD.dot aW (by positivity) (by positivity) (by norm_num at x1 ⊢; linarith) (by norm_num at x1 ⊢; linarith) (by
      calc (1:ℝ) / 2 ^ 600 ≤ 1 / 2 ^ 100 * (1 / 2 ^ 200) := by norm_num
        _ ≤ _ := by gcongr) (by
      calc _ ≤ (2:ℝ) ^ 100 * 2 ^ 200 := by gcongr
        _ ≤ _ := by norm_num)).mono (f := 16.1 * x) (by norm_num at x0 ⊢; linarith)
  have s2 := (s1.twice (by positivity) (by norm_num at x1 ⊢; linarith) (by
      calc (1:ℝ) / 2 ^ 600 ≤ 1 / 2 ^ 100 * (1 / 2 ^ 200) := by norm_num
        _ ≤ _ := by gcongr) (by
      calc _ ≤ (2:ℝ) ^ 100 * 2 ^ 200 := by gcongr
        _ ≤ _ := by norm_num)).mono (f := 18.2 * x) (by norm_num at x0 ⊢; linarith)
  have δ2 : 0 < δ ^ 2 := by positivity
  have em : δ * γν * 2 * (δ ^ 2)⁻¹ = 2 * γν * δ⁻¹ := by field_simp
  have s3 := (s2.div δ2 aN' (by positivity) (by positivity) (by norm_num at x1 ⊢; linarith) (by norm_num at x1 ⊢; linarith) (by
      rw [em]
      calc (1:ℝ) / 2 ^ 600 ≤ 2 * (1 / 2 ^ 200) * (1 / 2 ^ 100) := by norm_num
        _ ≤ _ := by gcongr) (by
      rw [em]
      calc _ ≤ 2 * (2:ℝ) ^ 200 * 2 ^ 100 := by gcongr
        _ ≤ _ := by norm_num)).mono (f := 38.6 * x) (by norm_num at x0 ⊢; linarith)
  rw [em] at s3
  have em2 : 2 * γν * δ⁻¹ * δ = 2 * γν := by field_simp
  have g22 := (aD.conj.scale s3 (by positivity) (by positivity) (by norm_num at x1 ⊢; linarith) (by norm_num at x1 ⊢; linarith) (by
      rw [em2]
      calc (1:ℝ) / 2 ^ 600 ≤ 2 * (1 / 2 ^ 200) := by norm_num
        _ ≤ _ := by gcongr) (by
      rw [em2]
      calc _ ≤ 2 * (2:ℝ) ^ 200 := by gcongr
        _ ≤ _ := by norm_num)).mono (f := 46.8 * x) (by norm_num at x0 ⊢; linarith)
  rw [em2] at g22
  have g2 := aW.conj.sub g22 (m := γν) (k := 103 * x) (by norm_num at x1 ⊢; linarith) (by norm_num at x1 ⊢; linarith) (by rw [hδ]; exact nr.le.trans nW) γν00
    (by
      have h := mul_le_mul_of_nonneg_right x0 γν00.le
      have : 5 / 4 / 2 ^ 53 = 5 / 4 * ((1:ℝ) / 2 ^ 53) := by ring
      rw [this]
      generalize (1:ℝ) / 2 ^ 53 = u at *
      norm_num at *; nlinarith [mul_pos x00 γν00])
    (by
      calc (1:ℝ) / 2 ^ 600 ≤ 1 / 2 ^ 200 + 2 * (1 / 2 ^ 200) := by norm_num
        _ ≤ _ := by gcongr) (by
      calc _ ≤ (2:ℝ) ^ 200 + 2 * 2 ^ 200 := by gcongr
        _ ≤ _ := by norm_num)
  have j0 : 1 / 2 ^ 200 ≤ (δ ^ 2)⁻¹ := by
    rw [← inv_pow]
    calc (1:ℝ) / 2 ^ 200 = (1 / 2 ^ 100) ^ 2 := by norm_num
      _ ≤ _ := by gcongr
  have j1 : (δ ^ 2)⁻¹ ≤ 2 ^ 200 := by
    rw [← inv_pow]
    calc _ ≤ ((2:ℝ) ^ 100) ^ 2 := by gcongr
      _ = _ := by norm_num
  have g3 := (g2.shrink δ2 aN' (by positivity) (by positivity) (by norm_num at x1 ⊢; linarith) (by norm_num at x1 ⊢; linarith) (by
      calc (1:ℝ) / 2 ^ 600 ≤ 1 / 2 ^ 200 * (1 / 2 ^ 200) := by norm_num
        _ ≤ _ := by gcongr) (by
      calc _ ≤ (2:ℝ) ^ 200 * 2 ^ 200 := by gcongr
        _ ≤ _ := by norm_num)).mono (f := 124.1 * x) (by norm_num at x0 ⊢; linarith)
  have g4 := (aU.mul g3 (by positivity) (by positivity) (by norm_num at x1 ⊢; linarith) (by norm_num at x1 ⊢; linarith) (by
      calc (1:ℝ) / 2 ^ 600 ≤ 1 / 2 ^ 100 * (1 / 2 ^ 200 * (1 / 2 ^ 200)) := by norm_num
        _ ≤ _ := by gcongr) (by
      calc _ ≤ (2:ℝ) ^ 100 * (2 ^ 200 * 2 ^ 200) := by gcongr
        _ ≤ _ := by norm_num)).mono (f := 140.5 * x) (by norm_num at x0 ⊢; linarith)
  obtain ⟨n1, V1, h1, e1⟩ := g1
  obtain ⟨n2, V2, h2, e2⟩ := g4
  have lm : 1 / 2 ^ 300 ≤ αν * δ⁻¹ := by
    calc (1:ℝ) / 2 ^ 300 = 1 / 2 ^ 200 * (1 / 2 ^ 100) := by norm_num
      _ ≤ _ := by gcongr
  have rm : αν * δ⁻¹ ≤ 2 ^ 300 := by
    calc _ ≤ (2:ℝ) ^ 200 * 2 ^ 100 := by gcongr
      _ = _ := by norm_num
  have rn : σ * ((δ ^ 2)⁻¹ * γν) ≤ 2 ^ 500 := by
    calc _ ≤ (2:ℝ) ^ 100 * (2 ^ 200 * 2 ^ 200) := by gcongr
      _ = _ := by norm_num
  have c31 : 31 * x ≤ 1 / 2 ^ 10 := by norm_num at x1 ⊢; linarith
  have c140 : 140.5 * x ≤ 1 / 2 ^ 10 := by norm_num at x1 ⊢; linarith
  have n0' : 0 ≤ σ * ((δ ^ 2)⁻¹ * γν) := by positivity
  obtain ⟨R, hR, eR⟩ := qadd h1 h2 (by
    calc ‖V1 + V2‖ ≤ ‖V1‖ + ‖V2‖ := norm_add_le _ _
      _ ≤ (1 + 31 * x) * (αν * δ⁻¹) + (1 + 140.5 * x) * (σ * ((δ ^ 2)⁻¹ * γν)) := add_le_add (Bilin.le_of_close n1 e1) (Bilin.le_of_close n2 e2)
      _ ≤ (1 + 1 / 2 ^ 10) * 2 ^ 300 + (1 + 1 / 2 ^ 10) * 2 ^ 500 := by gcongr
      _ ≤ _ := by norm_num)
  refine ⟨R, hR, ?_⟩
  have := Bilin.sum (u := 1 / 2 ^ 53) (t := 1 / 2 ^ 1073) n1 n2 e1 e2 c31 c140 (by positivity) eR (by
      calc (1:ℝ) / 2 ^ 1073 ≤ 1 / 2 ^ 53 / 8 * (1 / 2 ^ 300 + 0) := by norm_num
        _ ≤ _ := by gcongr)
  rw [← hδ] at *
  refine this.trans ?_
  have q1 : αν / δ = αν * δ⁻¹ := div_eq_mul_inv _ _
  have q2 : σ * γν / δ ^ 2 = σ * ((δ ^ 2)⁻¹ * γν) := by field_simp
  rw [q1, q2]
  have m1 : 0 ≤ αν * δ⁻¹ := by positivity
  have p1 := mul_le_mul_of_nonneg_right x0 m1
  have p2 := mul_le_mul_of_nonneg_right x0 n0'
  have p3 := mul_nonneg x00.le m1
  have p4 := mul_nonneg x00.le n0'
  generalize (1:ℝ) / 2 ^ 53 = u at *
  generalize αν * δ⁻¹ = y at *
  generalize σ * ((δ ^ 2)⁻¹ * γν) = z at *
  norm_num at *; nlinarith
theorem toH_mulS (P : Quat ℝ) (r : ℝ) : (P.mulS r).toH = r • P.toH := by apply Quaternion.ext <;> simp [mul_comm]
theorem toH_divS (P : Quat ℝ) (r : ℝ) : (P.divS r).toH = r⁻¹ • P.toH := by apply Quaternion.ext <;> simp [div_eq_inv_mul]
theorem dot_eq_dotH (P Q : Quat ℝ) : P.dot Q = dotH P.toH Q.toH := by simp [Quat.dot_eq, dotH]
theorem normSqr_eq_sq (P : Quat ℝ) : P.normSqr = ‖P.toH‖ ^ 2 := by
  rw [quat_norm, Real.sq_sqrt (by positivity), Quat.normSqr_eq]
  simp; ring
end F64

/-- `deriv_dir` at a quaternion `p` away from the pole, in the direction `v`: with `α ≥ |a|`, `γ ≥ |c|`, `ν ≥ |v|`, `σ ≥ |a||p| + |b|` and
`μ ≥ (|c||p| + |d|) / |c p + d|`, the error is at most `(33 α ν / |c p + d| + 142 σ γ ν / |c p + d|²) μ u`. -/
theorem C103_deriv_quaternion (m : Moebius (Cpx F)) (M : Moebius (Cpx ℝ)) (p v : Quat F) (P V : Quat ℝ) (hm : ValMoebius m M) (hp : ValQ p P) (hv : ValQ v V)
    (α γ ν σ μ : ℝ) (hα : M.a.norm ≤ α) (hγ : M.c.norm ≤ γ) (hν : V.norm ≤ ν) (hσ : upper M P.norm ≤ σ) (hμ : lower M P.norm ≤ μ * (M.c * P + M.d).norm)
    (rα : α ∈ Set.Icc (1 / 2 ^ 100) (2 ^ 100)) (rγ : γ ∈ Set.Icc (1 / 2 ^ 100) (2 ^ 100)) (rν : ν ∈ Set.Icc (1 / 2 ^ 100) (2 ^ 100))
    (rσ : σ ∈ Set.Icc (1 / 2 ^ 100) (2 ^ 100)) (rμ : μ ≤ 2 ^ 35) (rd : (M.c * P + M.d).norm ∈ Set.Icc (1 / 2 ^ 100) (2 ^ 100)) :
    ∃ R, ValQ (m.derivDir p v) R ∧ (R - M.derivDir P V).norm ≤
      (33 * (α * ν / (M.c * P + M.d).norm) + 142 * (σ * (γ * ν) / (M.c * P + M.d).norm ^ 2)) * μ / 2 ^ 53 := by
  obtain ⟨ha, hb, hc, hd⟩ := hm
  have hden : (M.c * P + M.d).toH = inH M.c.toC * P.toH + inH M.d.toC := by
    rw [Quat.hAdd_C, Quat.hMul_C, toH_add, toH_mul, toH_ofC, toH_ofC]
  have hex : (M.derivDir P V).toH = inH M.a.toC * V.toH * (inH M.c.toC * P.toH + inH M.d.toC)⁻¹ + (inH M.a.toC * P.toH + inH M.b.toC) *
      ((‖inH M.c.toC * P.toH + inH M.d.toC‖ ^ 2)⁻¹ • (star (inH M.c.toC * V.toH) -
        (dotH (inH M.c.toC * P.toH + inH M.d.toC) (inH M.c.toC * V.toH) * 2 / ‖inH M.c.toC * P.toH + inH M.d.toC‖ ^ 2) •
          star (inH M.c.toC * P.toH + inH M.d.toC))) := by
    rw [← hden]
    simp only [Moebius.derivDir, toH_add, toH_div, toH_mul, toH_divS, toH_sub, toH_conj, toH_mulS, normSqr_eq_sq, dot_eq_dotH, two_eq, div_eq_mul_inv (G := Quaternion ℝ)]
    simp only [Quat.hAdd_C, Quat.hMul_C, toH_add, toH_mul, toH_ofC]
  simp only [upper, lower, cnorm_eq, norm_eq, toH_sub, hex, hden] at *
  obtain ⟨R, hR, eR⟩ := dir_core (A := M.a.toC) (B := M.b.toC) (C := M.c.toC) (D₀ := M.d.toC) (Q := P.toH) (V := V.toH) ha hb hc hd hp hv hα hγ hν hσ hμ rμ
    rα.1 rα.2 rγ.1 rγ.2 rν.1 rν.2 rσ.1 rσ.2 rd.1 rd.2
  refine ⟨ofH R, ?_, by rw [toH_ofH]; exact eR⟩
  have e : Moebius.new m.a m.b m.c m.d = m := Moebius.ext_entries rfl rfl rfl rfl
  rw [← e]
  exact valQ_ofH hR

/-! ## Instance: `m(z) = ((3 + 4i) z + i) / (i z + 4 + 3i)` at `2 + j`, in the direction `2 + j` -/
namespace F64MoebEx
open F64Ex IeeeEx
theorem denq' : (M.c * Q + M.d).norm ≤ 8 := by
  refine le_trans ?_ loq
  have e : (M.c * Q + M.d).toH = inH M.c.toC * Q.toH + inH M.d.toC := by
    rw [Quat.hAdd_C, Quat.hMul_C, toH_add, toH_mul, toH_ofC, toH_ofC]
  simp only [lower, norm_eq, cnorm_eq, e]
  exact (norm_add_le _ _).trans (by rw [norm_mul, norm_inH, norm_inH])
example := C103_deriv_quaternion m M q q Q Q hm hq hq 5 1 3 16 2 na.le nc.le nq upq (by linarith [loq, denq]) (by norm_num) (by norm_num) (by norm_num)
  (by norm_num) (by norm_num) ⟨by linarith [denq, (by norm_num : (1:ℝ) / 2 ^ 100 ≤ 1)], denq'.trans (by norm_num)⟩
end F64MoebEx
end Vecmat
