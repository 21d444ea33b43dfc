import Verif.Props.Compose
/-!
# C87: rounding errors of quotients and inverses
-/
namespace Vecmat
open Spec
variable {F : ℝ → Option ℝ} {u : ℝ} {N : Nat}

/-! ### helpers -/

/-- Error of a quotient of approximations. -/
theorem quot_err {A : Type} [NormedDivisionRing A] {n n' d d' r : A} {e ρ τ : ℝ} (hd : d ≠ 0) (hρ : ρ < 1) (hτ : 0 ≤ τ)
    (h1 : ‖n' - n‖ ≤ e) (h2 : ‖d' - d‖ ≤ ρ * ‖d‖) (h3 : ‖r - n' / d'‖ ≤ τ * ‖n' / d'‖) :
    ‖r - n / d‖ ≤ (1 + τ) * ((e / ‖d‖ + ρ * ‖n / d‖) / (1 - ρ)) + τ * ‖n / d‖ := by
  have hdp : 0 < ‖d‖ := norm_pos_iff.2 hd
  have hρp : 0 < 1 - ρ := by linarith
  have hd' : (1 - ρ) * ‖d‖ ≤ ‖d'‖ := by
    have := norm_sub_norm_le d d'
    rw [norm_sub_rev] at this
    linarith
  have hdp' : 0 < ‖d'‖ := lt_of_lt_of_le (by positivity) hd'
  have hd0 : d' ≠ 0 := norm_pos_iff.1 hdp'
  have e1 : n' / d' - n / d = (n' - n) / d' + n / d * ((d - d') / d') := by
    rw [sub_div, sub_div, div_self hd0, mul_sub, mul_one, ← mul_div_assoc, div_mul_cancel₀ n hd]; abel
  have he : 0 ≤ e := (norm_nonneg _).trans h1
  have hρ0 : 0 ≤ ρ * ‖d‖ := (norm_nonneg _).trans h2
  have e2 : ‖n' / d' - n / d‖ ≤ (e / ‖d‖ + ρ * ‖n / d‖) / (1 - ρ) := by
    rw [e1]
    refine (norm_add_le _ _).trans ?_
    rw [norm_mul, norm_div _ d', norm_div _ d', norm_sub_rev d d']
    have a1 : ‖n' - n‖ / ‖d'‖ ≤ e / ((1 - ρ) * ‖d‖) := div_le_div₀ he h1 (by positivity) hd'
    have a2 : ‖d' - d‖ / ‖d'‖ ≤ ρ * ‖d‖ / ((1 - ρ) * ‖d‖) := div_le_div₀ hρ0 h2 (by positivity) hd'
    have a3 : ρ * ‖d‖ / ((1 - ρ) * ‖d‖) = ρ / (1 - ρ) := by field_simp
    have a4 := mul_le_mul_of_nonneg_left (a2.trans_eq a3) (norm_nonneg (n / d))
    refine (add_le_add a1 a4).trans_eq ?_
    field_simp
  have e3 : ‖n' / d'‖ ≤ ‖n' / d' - n / d‖ + ‖n / d‖ := by simpa using norm_add_le (n' / d' - n / d) (n / d)
  have e4 : ‖r - n / d‖ ≤ ‖r - n' / d'‖ + ‖n' / d' - n / d‖ := norm_sub_le_norm_sub_add_norm_sub _ _ _
  generalize (e / ‖d‖ + ρ * ‖n / d‖) / (1 - ρ) = E at *
  nlinarith [norm_nonneg (n / d), norm_nonneg (n' / d' - n / d)]

theorem Spec.RelClose.abs_le {k : ℕ} {r x : ℝ} (hu : 0 ≤ u) (hu1 : u < 1) (h : RelClose u k r x) : |r - x| ≤ (((1 - u) ^ k)⁻¹ - 1) * |x| := by
  obtain ⟨θ, rfl, h1, h2⟩ := h
  have hp : 0 < (1 - u) ^ k := pow_pos (by linarith) k
  have hθ : |θ - 1| ≤ ((1 - u) ^ k)⁻¹ - 1 := by
    rw [_root_.abs_le]
    constructor
    · have : 2 ≤ (1 - u) ^ k + ((1 - u) ^ k)⁻¹ := by
        have : ((1 - u) ^ k) * ((1 - u) ^ k)⁻¹ = 1 := mul_inv_cancel₀ hp.ne'
        have hi : 0 < ((1 - u) ^ k)⁻¹ := by positivity
        nlinarith [sq_nonneg ((1 - u) ^ k - ((1 - u) ^ k)⁻¹), sq_nonneg ((1 - u) ^ k + ((1 - u) ^ k)⁻¹ - 2)]
      linarith
    · linarith
  rw [show x * θ - x = (θ - 1) * x by ring, abs_mul]
  exact mul_le_mul_of_nonneg_right hθ (abs_nonneg _)

theorem inv_pow_ge (hu : 0 ≤ u) (hu1 : u < 1) (k : ℕ) : 1 ≤ ((1 - u) ^ k)⁻¹ :=
  (one_le_inv₀ (pow_pos (by linarith) k)).2 (pow_le_one₀ (by linarith) (by linarith))

theorem Fl.div_val {a b : Fl F} {r : ℝ} (h : (a / b).val = some r) : ∃ x y, a.val = some x ∧ b.val = some y ∧ y ≠ 0 ∧ F (x / y) = some r := by
  obtain ⟨p, hp, q, hq, hr⟩ : ∃ p, a.val = some p ∧ ∃ q, b.val = some q ∧ (if q = 0 then none else F (p / q)) = some r := by
    have h : (a.val.bind fun x => b.val.bind fun y => if y = 0 then none else F (x / y)) = some r := h
    simpa only [Option.bind_eq_some_iff] using h
  split at hr
  · cases hr
  · next h0 => exact ⟨p, q, hp, hq, h0, hr⟩
theorem Fl.neg_val {a : Fl F} {r : ℝ} (h : (-a).val = some r) : ∃ x, a.val = some x := by
  obtain ⟨x, hx, -⟩ : ∃ x, a.val = some x ∧ -x = r := by
    have h : (a.val.map fun x => -x) = some r := h
    simpa only [Option.map_eq_some_iff] using h
  exact ⟨x, hx⟩

theorem Cpx.operand_of_inv {z : Cpx (Fl F)} {V : ℂ} (h : z.inv.HasVal V) : ∃ Z, z.HasVal Z := by
  obtain ⟨h1, h2⟩ := h
  obtain ⟨x, _, hx, -⟩ := Fl.div_val (show (z.re / z.normSqr).val = some V.re by simpa [Cpx.inv] using h1)
  obtain ⟨y', _, hy, -⟩ := Fl.div_val (show (-z.im / z.normSqr).val = some V.im by simpa [Cpx.inv] using h2)
  obtain ⟨y, hy⟩ := Fl.neg_val hy
  exact ⟨⟨x, y⟩, hx, hy⟩
theorem Quat.operand_of_inv {z : Quat (Fl F)} {V : Quaternion ℝ} (h : z.inv.HasVal V) : ∃ Z, z.HasVal Z := by
  obtain ⟨h0, h1, h2, h3⟩ := h
  obtain ⟨w, _, hw, -⟩ := Fl.div_val (show (z.w / z.normSqr).val = some V.re by simpa [Quat.inv] using h0)
  obtain ⟨_, _, hx, -⟩ := Fl.div_val (show (-z.x / z.normSqr).val = some V.imI by simpa [Quat.inv] using h1)
  obtain ⟨_, _, hy, -⟩ := Fl.div_val (show (-z.y / z.normSqr).val = some V.imJ by simpa [Quat.inv] using h2)
  obtain ⟨_, _, hz, -⟩ := Fl.div_val (show (-z.z / z.normSqr).val = some V.imK by simpa [Quat.inv] using h3)
  obtain ⟨x, hx⟩ := Fl.neg_val hx
  obtain ⟨y, hy⟩ := Fl.neg_val hy
  obtain ⟨z, hz⟩ := Fl.neg_val hz
  exact ⟨⟨w, x, y, z⟩, hw, hx, hy, hz⟩

/-! ## complex numbers and quaternions -/

/-- `Complex::inv`: relative error in norm. -/
theorem C87_complex_inv (hF : Rounding u F) (hu : u < 1) (z : Cpx (Fl F)) (Z : ℂ) (hz : z.HasVal Z) {V : ℂ} (hV : z.inv.HasVal V) :
    ‖V - Z⁻¹‖ ≤ (((1 - u) ^ 3)⁻¹ - 1) * ‖Z⁻¹‖ := by
  obtain ⟨-, h1, h2⟩ := C71_complex hF hu z Z hz
  have := inv_pow_ge hF.1 hu 3
  exact complex_rel (by linarith) ((h1 _ hV.1).abs_le hF.1 hu) ((h2 _ hV.2).abs_le hF.1 hu)
/-- `Quaternion::inv`. -/
theorem C87_quaternion_inv (hF : Rounding u F) (hu : u < 1) (q : Quat (Fl F)) (Q : Quaternion ℝ) (hq : q.HasVal Q) {V : Quaternion ℝ} (hV : q.inv.HasVal V) :
    ‖V - Q⁻¹‖ ≤ (((1 - u) ^ 5)⁻¹ - 1) * ‖Q⁻¹‖ := by
  obtain ⟨-, h0, h1, h2, h3⟩ := C71_quaternion hF hu q Q hq
  have := inv_pow_ge hF.1 hu 5
  exact quaternion_rel (by linarith) ((h0 _ hV.1).abs_le hF.1 hu) ((h1 _ hV.2.1).abs_le hF.1 hu) ((h2 _ hV.2.2.1).abs_le hF.1 hu)
    ((h3 _ hV.2.2.2).abs_le hF.1 hu)

theorem mul_inv_err {A : Type} [NormedDivisionRing A] {x y i v : A} {ε δ : ℝ} (hε : 0 ≤ ε) (h1 : ‖v - x * i‖ ≤ ε * (‖x‖ * ‖i‖))
    (h2 : ‖i - y⁻¹‖ ≤ δ * ‖y⁻¹‖) : ‖v - x / y‖ ≤ ((1 + ε) * (1 + δ) - 1) * ‖x / y‖ := by
  have a1 : ‖i‖ ≤ (1 + δ) * ‖y⁻¹‖ := by
    have : ‖i‖ ≤ ‖i - y⁻¹‖ + ‖y⁻¹‖ := by simpa using norm_add_le (i - y⁻¹) y⁻¹
    linarith
  have a2 : ‖v - x / y‖ ≤ ‖v - x * i‖ + ‖x‖ * ‖i - y⁻¹‖ := by
    have := norm_sub_le_norm_sub_add_norm_sub v (x * i) (x / y)
    rw [div_eq_mul_inv, ← mul_sub, norm_mul] at this
    rwa [div_eq_mul_inv]
  rw [div_eq_mul_inv, norm_mul] at *
  have hx := norm_nonneg x
  have a3 := mul_le_mul_of_nonneg_left a1 hx
  have a4 := mul_le_mul_of_nonneg_left h2 hx
  have a5 := mul_le_mul_of_nonneg_left a3 hε
  nlinarith

/-- Complex division. -/
theorem C87_complex_div (hF : Rounding u F) (hu : u < 1) (z w : Cpx (Fl F)) (Z W : ℂ) (hz : z.HasVal Z) (hw : w.HasVal W) {V : ℂ}
    (hV : (z / w).HasVal V) : ‖V - Z / W‖ ≤ ((1 + Real.sqrt 2 * gam u 2) * ((1 - u) ^ 3)⁻¹ - 1) * ‖Z / W‖ := by
  rw [Cpx.div_def] at hV
  obtain ⟨x, i, hx, hi, h⟩ := (Cpx.approx hF).mul hV
  rw [hx.unique hz] at h
  have := mul_inv_err (Cpx.approx hF).nonneg h (C87_complex_inv hF hu w W hw hi)
  simpa [cpxUnit] using this
/-- Quaternion division. -/
theorem C87_quaternion_div (hF : Rounding u F) (hu : u < 1) (p q : Quat (Fl F)) (P Q : Quaternion ℝ) (hp : p.HasVal P) (hq : q.HasVal Q)
    {V : Quaternion ℝ} (hV : (p / q).HasVal V) : ‖V - P / Q‖ ≤ ((1 + 2 * gam u 4) * ((1 - u) ^ 5)⁻¹ - 1) * ‖P / Q‖ := by
  rw [Quat.div_def] at hV
  obtain ⟨x, i, hx, hi, h⟩ := (Quat.approx hF).mul hV
  rw [hx.unique hp] at h
  have := mul_inv_err (Quat.approx hF).nonneg h (C87_quaternion_inv hF hu q Q hq hi)
  simpa [quatUnit] using this

/-! ## Moebius transformations -/

/-- `Moebius::apply` on complex points.  `ρ` bounds the relative error of the denominator. -/
theorem C87_moebius_apply (hF : Rounding u F) (hu : u < 1) (m : Moebius (Cpx (Fl F))) (z : Cpx (Fl F)) (a b c d Z : ℂ)
    (ha : m.a.HasVal a) (hb : m.b.HasVal b) (hc : m.c.HasVal c) (hd : m.d.HasVal d) (hz : z.HasVal Z) (h0 : c * Z + d ≠ 0) {ρ : ℝ} (hρ : ρ < 1)
    (hρ' : gam (Real.sqrt 2 * gam u 2) 2 * (‖c‖ * ‖Z‖ + ‖d‖) ≤ ρ * ‖c * Z + d‖) {V : ℂ} (hV : (m.apply z).HasVal V) {τ : ℝ}
    (hτ : τ = (1 + Real.sqrt 2 * gam u 2) * ((1 - u) ^ 3)⁻¹ - 1) :
    ‖V - (a * Z + b) / (c * Z + d)‖ ≤
      (1 + τ) * ((gam (Real.sqrt 2 * gam u 2) 2 * (‖a‖ * ‖Z‖ + ‖b‖) / ‖c * Z + d‖ + ρ * ‖(a * Z + b) / (c * Z + d)‖) / (1 - ρ)) +
        τ * ‖(a * Z + b) / (c * Z + d)‖ := by
  have hA := Cpx.approx hF
  have hnum : NErr (cpxUnit u) Cpx.HasVal 2 (‖a‖ * ‖Z‖ + ‖b‖) (m.a * z + m.b) (a * Z + b) := by
    simpa using ((NErr.of_val hA ha).mul hA (NErr.of_val hA hz)).add hA (NErr.of_val hA hb)
  have hden : NErr (cpxUnit u) Cpx.HasVal 2 (‖c‖ * ‖Z‖ + ‖d‖) (m.c * z + m.d) (c * Z + d) := by
    simpa using ((NErr.of_val hA hc).mul hA (NErr.of_val hA hz)).add hA (NErr.of_val hA hd)
  have hV : ((m.a * z + m.b) / (m.c * z + m.d)).HasVal V := hV
  have hV' := hV
  rw [Cpx.div_def] at hV'
  obtain ⟨n', i, hn, hi, -⟩ := hA.mul hV'
  obtain ⟨d', hd'⟩ := Cpx.operand_of_inv hi
  have h3 := C87_complex_div hF hu _ _ n' d' hn hd' hV
  rw [← hτ] at h3
  have hτ0 : 0 ≤ τ := by
    have := inv_pow_ge hF.1 hu 3
    have : 0 ≤ Real.sqrt 2 * gam u 2 := hA.nonneg
    rw [hτ]; nlinarith
  exact quot_err h0 hρ hτ0 (hnum.2 n' hn) ((hden.2 d' hd').trans hρ') h3

theorem norm_coeComplex (C : ℂ) : ‖(C : Quaternion ℝ)‖ = ‖C‖ := by
  rw [quat_norm, Complex.norm_eq_sqrt_sq_add_sq]; simp

theorem Quat.cMul_val {c : Cpx (Fl F)} {q : Quat (Fl F)} {V : Quaternion ℝ} (hF : Rounding u F) (h : (c * q : Quat (Fl F)).HasVal V) :
    ∃ (C : ℂ) (Q : Quaternion ℝ), c.HasVal C ∧ q.HasVal Q ∧ ‖V - (C : Quaternion ℝ) * Q‖ ≤ 2 * gam u 2 * (‖C‖ * ‖Q‖) := by
  have h : (Quat.cMul c q).HasVal V := h
  obtain ⟨h0, h1, h2, h3⟩ := h
  simp only [Quat.cMul, Quat.w_new, Quat.x_new, Quat.y_new, Quat.z_new] at h0 h1 h2 h3
  obtain ⟨_, _, d0, d1, -⟩ := Fl.sub_val h0
  obtain ⟨c0, q0, hc0, hq0, -⟩ := Fl.mul_val d0
  obtain ⟨c1, q1, hc1, hq1, -⟩ := Fl.mul_val d1
  obtain ⟨_, _, d2, d3, -⟩ := Fl.sub_val h2
  obtain ⟨_, q2, -, hq2, -⟩ := Fl.mul_val d2
  obtain ⟨_, q3, -, hq3, -⟩ := Fl.mul_val d3
  obtain ⟨C, rfl, rfl⟩ : ∃ C : ℂ, C.re = c0 ∧ C.im = c1 := ⟨⟨c0, c1⟩, rfl, rfl⟩
  obtain ⟨Q, rfl, rfl, rfl, rfl⟩ : ∃ Q : Quaternion ℝ, Q.re = q0 ∧ Q.imI = q1 ∧ Q.imJ = q2 ∧ Q.imK = q3 := ⟨⟨q0, q1, q2, q3⟩, rfl, rfl, rfl, rfl⟩
  refine ⟨C, Q, ⟨hc0, hc1⟩, ⟨hq0, hq1, hq2, hq3⟩, ?_⟩
  have a := Err.of_eq (u := u) hc0; have b := Err.of_eq (u := u) hc1
  have w := Err.of_eq (u := u) hq0; have x := Err.of_eq (u := u) hq1
  have y := Err.of_eq (u := u) hq2; have z := Err.of_eq (u := u) hq3
  have g := gam_nonneg hF.1 2
  have nc : ‖C‖ = Real.sqrt (C.re ^ 2 + C.im ^ 2) := by rw [Complex.norm_eq_sqrt_sq_add_sq]
  have nq := quat_norm Q
  have key : ∀ s t : ℝ, s ^ 2 + t ^ 2 ≤ Q.re ^ 2 + Q.imI ^ 2 + Q.imJ ^ 2 + Q.imK ^ 2 →
      gam u 2 * (|C.re| * |s| + |C.im| * |t|) ≤ gam u 2 * (‖C‖ * ‖Q‖) := by
    intro s t hst
    refine mul_le_mul_of_nonneg_left ((abs_mul_add_le _ _ _ _).trans ?_) g
    rw [nc, nq]
    exact mul_le_mul_of_nonneg_left (Real.sqrt_le_sqrt hst) (Real.sqrt_nonneg _)
  have e0 := (((a.mul hF w).sub hF (b.mul hF x)).2 _ h0).trans (key Q.re Q.imI (by nlinarith [sq_nonneg Q.imJ, sq_nonneg Q.imK]))
  have e1 := (((a.mul hF x).add hF (b.mul hF w)).2 _ h1).trans (key Q.imI Q.re (by nlinarith [sq_nonneg Q.imJ, sq_nonneg Q.imK]))
  have e2 := (((a.mul hF y).sub hF (b.mul hF z)).2 _ h2).trans (key Q.imJ Q.imK (by nlinarith [sq_nonneg Q.re, sq_nonneg Q.imI]))
  have e3 := (((a.mul hF z).add hF (b.mul hF y)).2 _ h3).trans (key Q.imK Q.imJ (by nlinarith [sq_nonneg Q.re, sq_nonneg Q.imI]))
  refine (quaternion_norm_le (b := gam u 2 * (‖C‖ * ‖Q‖)) ?_ ?_ ?_ ?_).trans_eq (by ring)
  · simpa [Quaternion.re_mul] using e0
  · simpa using e1
  · simpa using e2
  · simpa using e3

theorem Quat.addC_val {q : Quat (Fl F)} {c : Cpx (Fl F)} {V : Quaternion ℝ} (hF : Rounding u F) {C : ℂ} (hc : c.HasVal C)
    (h : (q + c : Quat (Fl F)).HasVal V) : ∃ Q : Quaternion ℝ, q.HasVal Q ∧ ‖V - (Q + C)‖ ≤ u * ‖Q + C‖ := by
  have h : (Quat.addC q c).HasVal V := h
  obtain ⟨h0, h1, h2, h3⟩ := h
  simp only [Quat.addC, Quat.w_new, Quat.x_new, Quat.y_new, Quat.z_new, Quat.intoTuple_eq, Cpx.intoTuple_eq] at h0 h1 h2 h3
  obtain ⟨q0, c0, hq0, hc0, e0⟩ := Fl.add_val h0
  obtain ⟨q1, c1, hq1, hc1, e1⟩ := Fl.add_val h1
  obtain rfl : C.re = c0 := Option.some.inj (hc.1.symm.trans hc0)
  obtain rfl : C.im = c1 := Option.some.inj (hc.2.symm.trans hc1)
  obtain ⟨Q, rfl, rfl, r2, r3⟩ : ∃ Q : Quaternion ℝ, Q.re = q0 ∧ Q.imI = q1 ∧ Q.imJ = V.imJ ∧ Q.imK = V.imK := ⟨⟨q0, q1, V.imJ, V.imK⟩, rfl, rfl, rfl, rfl⟩
  refine ⟨Q, ⟨hq0, hq1, by rw [r2]; exact h2, by rw [r3]; exact h3⟩, quaternion_rel hF.1 ?_ ?_ ?_ ?_⟩
  · simpa using hF.2 _ _ e0
  · simpa using hF.2 _ _ e1
  · simpa [r2] using mul_nonneg hF.1 (abs_nonneg _)
  · simpa [r3] using mul_nonneg hF.1 (abs_nonneg _)

/-- Numerator and denominator of a Moebius transformation at a quaternion point. -/
theorem Quat.lin_err (hF : Rounding u F) {a b : Cpx (Fl F)} {q : Quat (Fl F)} {A B : ℂ} {Q : Quaternion ℝ} (ha : a.HasVal A) (hb : b.HasVal B) (hq : q.HasVal Q)
    {V : Quaternion ℝ} (h : (a * q + b : Quat (Fl F)).HasVal V) :
    ‖V - ((A : Quaternion ℝ) * Q + B)‖ ≤ gam (2 * gam u 2) 2 * (‖A‖ * ‖Q‖ + ‖B‖) := by
  obtain ⟨P, hP, e1⟩ := Quat.addC_val hF hb h
  obtain ⟨A', Q', hA', hQ', e2⟩ := Quat.cMul_val hF hP
  rw [hA'.unique ha, hQ'.unique hq] at e2
  have g : u ≤ 2 * gam u 2 := by have := gam_ge hF.1 (k := 2) (by omega); have := gam_nonneg hF.1 2; linarith
  have hu := hF.1
  generalize 2 * gam u 2 = ε at *
  have n1 : ‖(A : Quaternion ℝ) * Q‖ = ‖A‖ * ‖Q‖ := by rw [norm_mul, norm_coeComplex]
  have n2 : ‖(B : Quaternion ℝ)‖ = ‖B‖ := norm_coeComplex B
  have b1 : ‖P‖ ≤ ‖P - A * Q‖ + ‖A‖ * ‖Q‖ := by have := norm_add_le (P - A * Q) (A * Q); rw [sub_add_cancel, n1] at this; exact this
  have b2 : ‖P + B‖ ≤ ‖P‖ + ‖B‖ := by have := norm_add_le P (B : Quaternion ℝ); rwa [n2] at this
  have b3 : ‖V - (A * Q + B)‖ ≤ ‖V - (P + B)‖ + ‖P - A * Q‖ := by
    have := norm_sub_le_norm_sub_add_norm_sub V (P + B) (A * Q + B)
    rwa [show P + (B : Quaternion ℝ) - (A * Q + B) = P - A * Q by abel] at this
  have hm : 0 ≤ ‖A‖ * ‖Q‖ := by positivity
  have hB := norm_nonneg B
  have b4 : u * ‖P + B‖ ≤ ε * (‖P‖ + ‖B‖) := mul_le_mul g b2 (norm_nonneg _) (hu.trans g)
  have hε := hu.trans g
  unfold gam
  generalize ‖A‖ * ‖Q‖ = m at *
  nlinarith [mul_nonneg hε hm, mul_nonneg hε hB, mul_nonneg (mul_nonneg hε hε) hB, mul_le_mul_of_nonneg_left b1 hε, mul_le_mul_of_nonneg_left e2 hε]

/-- `Moebius::apply` on quaternion points. -/
theorem C87_moebius_apply_quaternion (hF : Rounding u F) (hu : u < 1) (m : Moebius (Cpx (Fl F))) (q : Quat (Fl F)) (a b c d : ℂ) (Q : Quaternion ℝ)
    (ha : m.a.HasVal a) (hb : m.b.HasVal b) (hc : m.c.HasVal c) (hd : m.d.HasVal d) (hq : q.HasVal Q) (h0 : (c : Quaternion ℝ) * Q + d ≠ 0) {ρ : ℝ} (hρ : ρ < 1)
    (hρ' : gam (2 * gam u 2) 2 * (‖c‖ * ‖Q‖ + ‖d‖) ≤ ρ * ‖(c : Quaternion ℝ) * Q + d‖) {V : Quaternion ℝ} (hV : (m.apply q).HasVal V) {τ : ℝ}
    (hτ : τ = (1 + 2 * gam u 4) * ((1 - u) ^ 5)⁻¹ - 1) :
    ‖V - ((a : Quaternion ℝ) * Q + b) / (c * Q + d)‖ ≤
      (1 + τ) * ((gam (2 * gam u 2) 2 * (‖a‖ * ‖Q‖ + ‖b‖) / ‖(c : Quaternion ℝ) * Q + d‖ + ρ * ‖((a : Quaternion ℝ) * Q + b) / (c * Q + d)‖) / (1 - ρ)) +
        τ * ‖((a : Quaternion ℝ) * Q + b) / (c * Q + d)‖ := by
  have hV : ((m.a * q + m.b : Quat (Fl F)) / (m.c * q + m.d)).HasVal V := hV
  have hV' := hV
  rw [Quat.div_def] at hV'
  obtain ⟨n', i, hn, hi, -⟩ := (Quat.approx hF).mul hV'
  obtain ⟨d', hd'⟩ := Quat.operand_of_inv hi
  have h3 := C87_quaternion_div hF hu _ _ n' d' hn hd' hV
  rw [← hτ] at h3
  have hτ0 : 0 ≤ τ := by
    have := inv_pow_ge hF.1 hu 5
    have : 0 ≤ 2 * gam u 4 := (Quat.approx hF).nonneg
    rw [hτ]; nlinarith
  exact quot_err h0 hρ hτ0 (Quat.lin_err hF ha hb hq hn) ((Quat.lin_err hF hc hd hq hd').trans hρ') h3

/-! ## matrix inverse -/

/-- Entries of the computed inverse.  `ρ` bounds the relative error of the determinant. -/
theorem C87_inverse {n : Nat} (hF : Rounding u F) (A : Mat (Fl F) (n + 1) (n + 1)) (a : Matrix (Fin (n + 1)) (Fin (n + 1)) ℝ)
    (ha : ∀ i j : Fin (n + 1), A[i.1][j.1].val = some (a i j)) (h0 : a.det ≠ 0) {ρ : ℝ} (hρ : ρ < 1)
    (hρ' : gam u ((n + 1) * (n + 4) / 2) * (a.map abs).permanent ≤ ρ * |a.det|) (i j : Fin (n + 1)) {r : ℝ} (hr : A.inv[i.1][j.1].val = some r) :
    |r - a⁻¹ i j| ≤ (1 + u) * ((gam u (n * (n + 3) / 2) * ((a.map abs).submatrix j.succAbove i.succAbove).permanent / |a.det| +
      ρ * |a⁻¹ i j|) / (1 - ρ)) + u * |a⁻¹ i j| := by
  rw [Mat.getElem_congr_mat (Mat.inv_eq A) i i.2 j j.2, Mat.getElem_divS] at hr
  obtain ⟨x, y, hx, hy, -, hq⟩ := Fl.div_val hr
  have e : a⁻¹ i j = a.adjugate i j / a.det := by
    rw [Matrix.inv_def, Matrix.smul_apply, Ring.inverse_eq_inv', smul_eq_mul]; field_simp
  rw [e]
  exact quot_err h0 hρ hF.1 (C70_adj hF A a ha i j hx) ((C70_det hF A a ha hy).trans hρ') (hF.2 _ _ hq)


/-! ## the hypotheses are met by `f64` computations -/
namespace QuotEx
open FlEx CompEx
theorem div1 {a b : Fl D} {n : ℤ} (ha : a.val = some (n : ℝ)) (hb : b.val = some ((1 : ℤ) : ℝ)) (hn : n.natAbs ≤ 2 ^ 53) : (a / b).val = some (n : ℝ) :=
  FlEx.div_val dI (m := 1) (by simpa using ha) hb (by decide) hn
theorem neg1 {a : Fl D} {n : ℤ} (ha : a.val = some (n : ℝ)) : (-a).val = some ((-n : ℤ) : ℝ) := by
  show a.val.map (fun x => -x) = _; rw [ha]; simp
/-- The inverse of a complex unit. -/
theorem inv_c {z : Cpx (Fl D)} {x y : ℤ} (hz : z.HasVal ⟨x, y⟩) (hn : z.normSqr.val = some ((1 : ℤ) : ℝ)) (hx : x.natAbs ≤ 2 ^ 53) (hy : y.natAbs ≤ 2 ^ 53) :
    z.inv.HasVal ⟨x, (-y : ℤ)⟩ := by
  refine ⟨?_, ?_⟩
  · rw [show z.inv.re = z.re / z.normSqr by simp [Cpx.inv]]; exact div1 hz.1 hn hx
  · rw [show z.inv.im = -z.im / z.normSqr by simp [Cpx.inv]]; exact div1 (neg1 hz.2) hn (by simpa using hy)
/-- The inverse of a quaternion unit. -/
theorem inv_q {r : Quat (Fl D)} {w x y z : ℤ} (hr : r.HasVal ⟨w, x, y, z⟩) (hn : r.normSqr.val = some ((1 : ℤ) : ℝ)) (hw : w.natAbs ≤ 2 ^ 53)
    (hx : x.natAbs ≤ 2 ^ 53) (hy : y.natAbs ≤ 2 ^ 53) (hz : z.natAbs ≤ 2 ^ 53) : r.inv.HasVal ⟨w, (-x : ℤ), (-y : ℤ), (-z : ℤ)⟩ := by
  refine ⟨?_, ?_, ?_, ?_⟩
  · rw [show r.inv.w = r.w / r.normSqr by simp [Quat.inv]]; exact div1 hr.1 hn hw
  · rw [show r.inv.x = -r.x / r.normSqr by simp [Quat.inv]]; exact div1 (neg1 hr.2.1) hn (by simpa using hx)
  · rw [show r.inv.y = -r.y / r.normSqr by simp [Quat.inv]]; exact div1 (neg1 hr.2.2.1) hn (by simpa using hy)
  · rw [show r.inv.z = -r.z / r.normSqr by simp [Quat.inv]]; exact div1 (neg1 hr.2.2.2) hn (by simpa using hz)
theorem inv_i : (c 0 (-1)).inv.HasVal ⟨(0 : ℤ), (-(-1) : ℤ)⟩ :=
  inv_c (c_val 0 (-1)) (((BInt.opRel dI).cNormSqr (c_R 0 (-1))).eval (by decide +kernel)) (by decide) (by decide)
theorem div_i : ∃ V, (c 3 4 / c 0 (-1)).HasVal V := by
  have h : RelC (BInt.R (2 ^ 53)) (ci 0 1) (c 0 (-1)).inv := ⟨BInt.of_R inv_i.1, BInt.of_R inv_i.2⟩
  exact ⟨_, c_eval ((BInt.opRel dI).cMul (c_R 3 4) h) (by decide +kernel)⟩
theorem inv_j : (q 0 0 (-1) 0).inv.HasVal ⟨(0 : ℤ), (-0 : ℤ), (-(-1) : ℤ), (-0 : ℤ)⟩ :=
  inv_q (q_val 0 0 (-1) 0) (((BInt.opRel dI).qNormSqr (q_R 0 0 (-1) 0)).eval (by decide +kernel)) (by decide) (by decide) (by decide) (by decide)
theorem div_j : ∃ V, (q 1 2 3 4 / q 0 0 (-1) 0).HasVal V := by
  have h : RelQ (BInt.R (2 ^ 53)) (qi 0 0 1 0) (q 0 0 (-1) 0).inv := ⟨BInt.of_R inv_j.1, BInt.of_R inv_j.2.1, BInt.of_R inv_j.2.2.1, BInt.of_R inv_j.2.2.2⟩
  exact ⟨_, q_eval ((BInt.opRel dI).qMul (q_R 1 2 3 4) h) (by decide +kernel)⟩
/-- The transformation `z ↦ (2 z + 3) / (z + i)`. -/
noncomputable def moe : Moebius (Cpx (Fl D)) := Moebius.new (c 2 0) (c 3 0) (c 1 0) (c 0 1)
/-- Applied to `1 - i`, where the denominator is 1. -/
theorem moe_val : ∃ V, (moe.apply (c 1 (-1))).HasVal V := by
  have hn := cpxRel.add (cpxRel.mul (c_R 2 0) (c_R 1 (-1))) (c_R 3 0)
  have hd := cpxRel.add (cpxRel.mul (c_R 1 0) (c_R 1 (-1))) (c_R 0 1)
  have hd1 := c_eval hd (by decide +kernel)
  have hi := inv_c hd1 (((BInt.opRel dI).cNormSqr hd).eval (by decide +kernel)) (by decide +kernel) (by decide +kernel)
  have hi' : RelC (BInt.R (2 ^ 53)) (ci _ _) (c 1 0 * c 1 (-1) + c 0 1).inv := ⟨BInt.of_R hi.1, BInt.of_R hi.2⟩
  have := c_eval (cpxRel.mul hn hi') (by decide +kernel)
  have e : moe.apply (c 1 (-1)) = (c 2 0 * c 1 (-1) + c 3 0) * (c 1 0 * c 1 (-1) + c 0 1).inv := rfl
  rw [e]
  exact ⟨_, this⟩
theorem cMul_R {z : Cpx BInt} {z' : Cpx (Fl D)} {p : Quat BInt} {p' : Quat (Fl D)} (h : RelC (BInt.R (2 ^ 53)) z z') (h' : RelQ (BInt.R (2 ^ 53)) p p') :
    RelQ (BInt.R (2 ^ 53)) (z * p) (z' * p') := by
  obtain ⟨a, b⟩ := h
  obtain ⟨w, x, y, t⟩ := h'
  have hr := BInt.opRel dI
  refine ⟨?_, ?_, ?_, ?_⟩
  · show BInt.R _ (Quat.cMul z p).w (Quat.cMul z' p').w
    simpa [Quat.cMul] using hr.sub (hr.mul a w) (hr.mul b x)
  · show BInt.R _ (Quat.cMul z p).x (Quat.cMul z' p').x
    simpa [Quat.cMul] using hr.add (hr.mul a x) (hr.mul b w)
  · show BInt.R _ (Quat.cMul z p).y (Quat.cMul z' p').y
    simpa [Quat.cMul] using hr.sub (hr.mul a y) (hr.mul b t)
  · show BInt.R _ (Quat.cMul z p).z (Quat.cMul z' p').z
    simpa [Quat.cMul] using hr.add (hr.mul a t) (hr.mul b y)
theorem addC_R {z : Cpx BInt} {z' : Cpx (Fl D)} {p : Quat BInt} {p' : Quat (Fl D)} (h : RelC (BInt.R (2 ^ 53)) z z') (h' : RelQ (BInt.R (2 ^ 53)) p p') :
    RelQ (BInt.R (2 ^ 53)) (p + z) (p' + z') := by
  obtain ⟨a, b⟩ := h
  obtain ⟨w, x, y, t⟩ := h'
  have hr := BInt.opRel dI
  refine ⟨?_, ?_, ?_, ?_⟩
  · show BInt.R _ (Quat.addC p z).w (Quat.addC p' z').w
    simpa [Quat.addC] using hr.add w a
  · show BInt.R _ (Quat.addC p z).x (Quat.addC p' z').x
    simpa [Quat.addC] using hr.add x b
  · show BInt.R _ (Quat.addC p z).y (Quat.addC p' z').y
    simpa [Quat.addC] using y
  · show BInt.R _ (Quat.addC p z).z (Quat.addC p' z').z
    simpa [Quat.addC] using t
/-- The transformation `z ↦ (2 z + 3) / (z - 2 i)`. -/
noncomputable def moeQ : Moebius (Cpx (Fl D)) := Moebius.new (c 2 0) (c 3 0) (c 1 0) (c 0 (-2))
/-- Applied to `2 i + k`, where the denominator is `k`. -/
theorem moeQ_val : ∃ V, (moeQ.apply (q 0 2 0 1)).HasVal V := by
  have hn := addC_R (c_R 3 0) (cMul_R (c_R 2 0) (q_R 0 2 0 1))
  have hd := addC_R (c_R 0 (-2)) (cMul_R (c_R 1 0) (q_R 0 2 0 1))
  have hd1 := q_eval hd (by decide +kernel)
  have hi := inv_q hd1 (((BInt.opRel dI).qNormSqr hd).eval (by decide +kernel)) (by decide +kernel) (by decide +kernel) (by decide +kernel) (by decide +kernel)
  have hi' : RelQ (BInt.R (2 ^ 53)) (qi _ _ _ _) (c 1 0 * q 0 2 0 1 + c 0 (-2) : Quat (Fl D)).inv :=
    ⟨BInt.of_R hi.1, BInt.of_R hi.2.1, BInt.of_R hi.2.2.1, BInt.of_R hi.2.2.2⟩
  have := q_eval ((BInt.opRel dI).qMul hn hi') (by decide +kernel)
  have e : moeQ.apply (q 0 2 0 1) = (c 2 0 * q 0 2 0 1 + c 3 0 : Quat (Fl D)) * (c 1 0 * q 0 2 0 1 + c 0 (-2) : Quat (Fl D)).inv := rfl
  rw [e]
  exact ⟨_, this⟩
/-- The quaternion with the given components. -/
noncomputable def Q (w x y z : ℤ) : Quaternion ℝ := ⟨w, x, y, z⟩
theorem Q_val (w x y z : ℤ) : (q w x y z).HasVal (Q w x y z) := q_val w x y z
theorem inv_val : (mat !![2, 3; 1, 2] : Mat (Fl D) 2 2).inv[0][1].val = some ((-3 : ℤ) : ℝ) := by
  rw [Mat.getElem_congr_mat (Mat.inv_eq _) 0 (by decide) 1 (by decide), Mat.getElem_divS]
  have h1 := ((BInt.opRel dI).adj (mat_R !![2, 3; 1, 2]) 0 (by decide) 1 (by decide)).eval (by decide +kernel)
  have h2 := ((BInt.opRel dI).det (mat_R !![2, 3; 1, 2])).eval (by decide +kernel)
  have e1 : ((BInt.mat !![2, 3; 1, 2]).adj[0][1]).n = -3 := by decide +kernel
  have e2 : ((BInt.mat !![2, 3; 1, 2]).det).n = 1 := by decide +kernel
  rw [e1] at h1; rw [e2] at h2
  exact div1 h1 h2 (by decide)
end QuotEx
section
open FlEx CompEx QuotEx
example := C87_complex_inv dR dU (c 0 (-1)) _ (c_val 0 (-1)) inv_i
example : ∃ V, (c 3 4 / c 0 (-1)).HasVal V ∧ ‖V - ⟨(3 : ℤ), (4 : ℤ)⟩ / ⟨(0 : ℤ), (-1 : ℤ)⟩‖ ≤ ((1 + Real.sqrt 2 * gam (1 / 2 ^ 53) 2) * ((1 - 1 / 2 ^ 53) ^ 3)⁻¹ - 1) *
    ‖(⟨(3 : ℤ), (4 : ℤ)⟩ / ⟨(0 : ℤ), (-1 : ℤ)⟩ : ℂ)‖ :=
  div_i.imp fun _ h => ⟨h, C87_complex_div dR dU (c 3 4) (c 0 (-1)) _ _ (c_val 3 4) (c_val 0 (-1)) h⟩
example := C87_quaternion_inv dR dU (q 0 0 (-1) 0) _ (q_val 0 0 (-1) 0) inv_j
example : ∃ V b, (q 1 2 3 4 / q 0 0 (-1) 0).HasVal V ∧ ‖V - Q 1 2 3 4 / Q 0 0 (-1) 0‖ ≤ b :=
  div_j.imp fun _ h => ⟨_, h, C87_quaternion_div dR dU (q 1 2 3 4) (q 0 0 (-1) 0) _ _ (Q_val 1 2 3 4) (Q_val 0 0 (-1) 0) h⟩
example : ∃ V b, (moe.apply (c 1 (-1))).HasVal V ∧ ‖V - (⟨(2 : ℤ), (0 : ℤ)⟩ * ⟨(1 : ℤ), (-1 : ℤ)⟩ + ⟨(3 : ℤ), (0 : ℤ)⟩) / (⟨(1 : ℤ), (0 : ℤ)⟩ * ⟨(1 : ℤ), (-1 : ℤ)⟩ + ⟨(0 : ℤ), (1 : ℤ)⟩)‖ ≤ b := by
  obtain ⟨V, hV⟩ := moe_val
  have e : (⟨(1 : ℤ), (0 : ℤ)⟩ * ⟨(1 : ℤ), (-1 : ℤ)⟩ + ⟨(0 : ℤ), (1 : ℤ)⟩ : ℂ) = 1 := by apply Complex.ext <;> norm_num
  have s2 : Real.sqrt 2 ≤ 2 := by rw [Real.sqrt_le_left (by norm_num)]; norm_num
  refine ⟨V, _, hV, C87_moebius_apply dR dU moe (c 1 (-1)) _ _ _ _ _ (c_val 2 0) (c_val 3 0) (c_val 1 0) (c_val 0 1) (c_val 1 (-1)) (by rw [e]; exact one_ne_zero)
    (ρ := 1 / 2) (by norm_num) ?_ hV rfl⟩
  rw [e, norm_one, Complex.norm_eq_sqrt_sq_add_sq, Complex.norm_eq_sqrt_sq_add_sq, Complex.norm_eq_sqrt_sq_add_sq]
  have h1 : Real.sqrt (((1 : ℤ) : ℝ) ^ 2 + ((0 : ℤ) : ℝ) ^ 2) * Real.sqrt (((1 : ℤ) : ℝ) ^ 2 + ((-1 : ℤ) : ℝ) ^ 2) + Real.sqrt (((0 : ℤ) : ℝ) ^ 2 + ((1 : ℤ) : ℝ) ^ 2) ≤ 3 := by
    norm_num; linarith
  have h2 : gam (Real.sqrt 2 * gam (1 / 2 ^ 53) 2) 2 ≤ 1 / 6 := by
    have : gam (1 / 2 ^ 53) 2 ≤ 1 / 100 := by unfold gam; norm_num
    have g0 : 0 ≤ gam (1 / 2 ^ 53) 2 := gam_nonneg (by norm_num) 2
    have : Real.sqrt 2 * gam (1 / 2 ^ 53) 2 ≤ 1 / 50 := by nlinarith [Real.sqrt_nonneg 2]
    have : 0 ≤ Real.sqrt 2 * gam (1 / 2 ^ 53) 2 := by positivity
    generalize Real.sqrt 2 * gam (1 / 2 ^ 53) 2 = t at *
    unfold gam; nlinarith
  have h3 : 0 ≤ gam (Real.sqrt 2 * gam (1 / 2 ^ 53) 2) 2 := gam_nonneg (mul_nonneg (Real.sqrt_nonneg _) (gam_nonneg (by norm_num) _)) 2
  exact (mul_le_mul h2 h1 (by positivity) (by norm_num)).trans (by norm_num)
example : ∃ V b, (moeQ.apply (q 0 2 0 1)).HasVal V ∧ ‖V - (((⟨(2 : ℤ), (0 : ℤ)⟩ : ℂ) : Quaternion ℝ) * Q 0 2 0 1 + (⟨(3 : ℤ), (0 : ℤ)⟩ : ℂ)) /
    (((⟨(1 : ℤ), (0 : ℤ)⟩ : ℂ) : Quaternion ℝ) * Q 0 2 0 1 + (⟨(0 : ℤ), (-2 : ℤ)⟩ : ℂ))‖ ≤ b := by
  obtain ⟨V, hV⟩ := moeQ_val
  have e : (((⟨(1 : ℤ), (0 : ℤ)⟩ : ℂ) : Quaternion ℝ) * Q 0 2 0 1 + (⟨(0 : ℤ), (-2 : ℤ)⟩ : ℂ)) = Q 0 0 0 1 := by
    ext <;> simp only [Quaternion.re_add, Quaternion.imI_add, Quaternion.imJ_add, Quaternion.imK_add, Quaternion.re_mul, Quaternion.imI_mul, Quaternion.imJ_mul, Quaternion.imK_mul,
      Quaternion.re_coeComplex, Quaternion.imI_coeComplex, Quaternion.imJ_coeComplex, Quaternion.imK_coeComplex] <;> simp only [Q] <;> norm_num
  have n1 : ‖Q 0 0 0 1‖ = 1 := by rw [quat_norm]; simp [Q]
  refine ⟨V, _, hV, C87_moebius_apply_quaternion dR dU moeQ (q 0 2 0 1) _ _ _ _ _ (c_val 2 0) (c_val 3 0) (c_val 1 0) (c_val 0 (-2)) (Q_val 0 2 0 1)
    (by rw [e]; intro h; rw [h, norm_zero] at n1; exact zero_ne_one n1) (ρ := 1 / 2) (by norm_num) ?_ hV rfl⟩
  rw [e, n1, Complex.norm_eq_sqrt_sq_add_sq, Complex.norm_eq_sqrt_sq_add_sq, quat_norm]
  have s5 : Real.sqrt 5 ≤ 3 := by rw [Real.sqrt_le_left (by norm_num)]; norm_num
  have s4 : Real.sqrt 4 ≤ 2 := by rw [Real.sqrt_le_left (by norm_num)]; norm_num
  have h1 : Real.sqrt (((1 : ℤ) : ℝ) ^ 2 + ((0 : ℤ) : ℝ) ^ 2) * Real.sqrt ((Q 0 2 0 1).re ^ 2 + (Q 0 2 0 1).imI ^ 2 + (Q 0 2 0 1).imJ ^ 2 + (Q 0 2 0 1).imK ^ 2) +
      Real.sqrt (((0 : ℤ) : ℝ) ^ 2 + ((-2 : ℤ) : ℝ) ^ 2) ≤ 5 := by
    simp only [Q]; norm_num; linarith
  have h2 : gam (2 * gam (1 / 2 ^ 53) 2) 2 ≤ 1 / 10 := by unfold gam; norm_num
  have h3 : 0 ≤ gam (2 * gam (1 / 2 ^ 53) 2) 2 := gam_nonneg (mul_nonneg (by norm_num) (gam_nonneg (by norm_num) _)) 2
  exact (mul_le_mul h2 h1 (by positivity) (by norm_num)).trans (by norm_num)
example := C87_inverse dR (mat !![2, 3; 1, 2]) !![2, 3; 1, 2] (fun i j => by rw [mat_val]; fin_cases i <;> fin_cases j <;> simp)
  (by rw [Matrix.det_fin_two]; norm_num) (ρ := 1 / 2) (by norm_num)
  (by
    have hp : (Matrix.map (!![2, 3; 1, 2] : Matrix (Fin 2) (Fin 2) ℝ) abs).permanent = 7 := by
      rw [Matrix.permanent, show (Finset.univ : Finset (Equiv.Perm (Fin 2))) = {1, Equiv.swap 0 1} by decide, Finset.sum_pair (by decide)]
      simp [Fin.prod_univ_two]; norm_num
    rw [hp, Matrix.det_fin_two]
    unfold gam; norm_num) 0 1 inv_val
end
end Vecmat
