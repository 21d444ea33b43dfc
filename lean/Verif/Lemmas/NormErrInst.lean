import Verif.Lemmas.NormErr
import Verif.Props.Rounding
import Mathlib.Analysis.Complex.Norm
/-! Helper lemmas: floating-point reals, complex numbers and quaternions as approximate rings. -/
namespace Vecmat
open Spec
variable {F : ℝ → Option ℝ} {u : ℝ} {N : Nat}

/-- The float `a` is the number `x`. -/
def Fl.HasVal (a : Fl F) (x : ℝ) : Prop := a.val = some x

theorem Fl.lift2_val {f : ℝ → ℝ → ℝ} {a b : Fl F} {r : ℝ} (h : (Fl.lift2 f a b).val = some r) :
    ∃ x y, a.val = some x ∧ b.val = some y ∧ F (f x y) = some r := by
  obtain ⟨p, hp, q, hq, hr⟩ : ∃ p, a.val = some p ∧ ∃ q, b.val = some q ∧ F (f p q) = some r := by
    simpa [Fl.lift2, Option.bind_eq_some_iff] using h
  exact ⟨p, q, hp, hq, hr⟩
theorem Fl.add_val {a b : Fl F} {r : ℝ} (h : (a + b).val = some r) : ∃ x y, a.val = some x ∧ b.val = some y ∧ F (x + y) = some r :=
  Fl.lift2_val h
theorem Fl.sub_val {a b : Fl F} {r : ℝ} (h : (a - b).val = some r) : ∃ x y, a.val = some x ∧ b.val = some y ∧ F (x - y) = some r :=
  Fl.lift2_val h
theorem Fl.mul_val {a b : Fl F} {r : ℝ} (h : (a * b).val = some r) : ∃ x y, a.val = some x ∧ b.val = some y ∧ F (x * y) = some r :=
  Fl.lift2_val h

theorem Fl.approx (hF : Rounding u F) : ApproxRing u (Fl.HasVal : Fl F → ℝ → Prop) where
  nonneg := hF.1
  fn := fun {a x y} h h' => by
    have : some x = some y := h.symm.trans h'
    exact Option.some.inj this
  add := fun h => by
    obtain ⟨x, y, h1, h2, h3⟩ := Fl.add_val h
    exact ⟨x, y, h1, h2, hF.2 _ _ h3⟩
  mul := fun h => by
    obtain ⟨x, y, h1, h2, h3⟩ := Fl.mul_val h
    refine ⟨x, y, h1, h2, ?_⟩
    rw [← norm_mul]; exact hF.2 _ _ h3

theorem Cpx.HasVal.unique {z : Cpx (Fl F)} {Z W : ℂ} (h : z.HasVal Z) (h' : z.HasVal W) : Z = W :=
  Complex.ext (Option.some.inj (h.1.symm.trans h'.1)) (Option.some.inj (h.2.symm.trans h'.2))
theorem Quat.HasVal.unique {z : Quat (Fl F)} {Z W : Quaternion ℝ} (h : z.HasVal Z) (h' : z.HasVal W) : Z = W := by
  ext
  · exact Option.some.inj (h.1.symm.trans h'.1)
  · exact Option.some.inj (h.2.1.symm.trans h'.2.1)
  · exact Option.some.inj (h.2.2.1.symm.trans h'.2.2.1)
  · exact Option.some.inj (h.2.2.2.symm.trans h'.2.2.2)

theorem gam_ge (hu : 0 ≤ u) {k : ℕ} (hk : 1 ≤ k) : u ≤ gam u k := by
  have := gam_mono hu hk
  simpa [gam] using this

theorem sqrt_two_ge : (1 : ℝ) ≤ Real.sqrt 2 := by
  rw [show (1 : ℝ) = Real.sqrt 1 by simp]; exact Real.sqrt_le_sqrt (by norm_num)

/-- Relative error of one complex multiplication. -/
noncomputable def cpxUnit (u : ℝ) : ℝ := Real.sqrt 2 * gam u 2
/-- Relative error of one quaternion multiplication. -/
noncomputable def quatUnit (u : ℝ) : ℝ := 2 * gam u 4

theorem complex_norm_le {Z : ℂ} {b : ℝ} (h1 : |Z.re| ≤ b) (h2 : |Z.im| ≤ b) : ‖Z‖ ≤ Real.sqrt 2 * b := by
  have hb : 0 ≤ b := (abs_nonneg _).trans h1
  rw [Complex.norm_eq_sqrt_sq_add_sq, show Real.sqrt 2 * b = Real.sqrt (2 * b ^ 2) by
    rw [Real.sqrt_mul (by norm_num), Real.sqrt_sq hb]]
  apply Real.sqrt_le_sqrt
  have := sq_le_sq' (by linarith [abs_nonneg Z.re]) h1
  have := sq_le_sq' (by linarith [abs_nonneg Z.im]) h2
  simp only [sq_abs] at *
  linarith
theorem quaternion_norm_le {Q : Quaternion ℝ} {b : ℝ} (h0 : |Q.re| ≤ b) (h1 : |Q.imI| ≤ b) (h2 : |Q.imJ| ≤ b) (h3 : |Q.imK| ≤ b) :
    ‖Q‖ ≤ 2 * b := by
  have hb : 0 ≤ b := (abs_nonneg _).trans h1
  rw [quat_norm, show 2 * b = Real.sqrt (4 * b ^ 2) by
    rw [show 4 * b ^ 2 = (2 * b) ^ 2 by ring, Real.sqrt_sq (by linarith)]]
  apply Real.sqrt_le_sqrt
  have s : ∀ {x : ℝ}, |x| ≤ b → x ^ 2 ≤ b ^ 2 := fun {x} h => by
    have := sq_le_sq' (by linarith [abs_nonneg x]) h
    simpa using this
  linarith [s h0, s h1, s h2, s h3]

/-- Componentwise relative error is relative error in norm. -/
theorem complex_rel {Z W : ℂ} (hu : 0 ≤ u) (h1 : |Z.re - W.re| ≤ u * |W.re|) (h2 : |Z.im - W.im| ≤ u * |W.im|) : ‖Z - W‖ ≤ u * ‖W‖ := by
  rw [Complex.norm_eq_sqrt_sq_add_sq, Complex.norm_eq_sqrt_sq_add_sq, show u * Real.sqrt (W.re ^ 2 + W.im ^ 2) = Real.sqrt (u ^ 2 * (W.re ^ 2 + W.im ^ 2)) by
    rw [Real.sqrt_mul (sq_nonneg u), Real.sqrt_sq hu]]
  apply Real.sqrt_le_sqrt
  have s : ∀ {x y : ℝ}, |x| ≤ u * |y| → x ^ 2 ≤ u ^ 2 * y ^ 2 := fun {x y} h => by
    have := sq_le_sq' (by linarith [abs_nonneg x]) h
    rw [mul_pow] at this; simpa using this
  simp only [Complex.sub_re, Complex.sub_im]
  linarith [s h1, s h2]
theorem quaternion_rel {Z W : Quaternion ℝ} (hu : 0 ≤ u) (h0 : |Z.re - W.re| ≤ u * |W.re|) (h1 : |Z.imI - W.imI| ≤ u * |W.imI|)
    (h2 : |Z.imJ - W.imJ| ≤ u * |W.imJ|) (h3 : |Z.imK - W.imK| ≤ u * |W.imK|) : ‖Z - W‖ ≤ u * ‖W‖ := by
  rw [quat_norm, quat_norm, show u * Real.sqrt (W.re ^ 2 + W.imI ^ 2 + W.imJ ^ 2 + W.imK ^ 2) =
    Real.sqrt (u ^ 2 * (W.re ^ 2 + W.imI ^ 2 + W.imJ ^ 2 + W.imK ^ 2)) by rw [Real.sqrt_mul (sq_nonneg u), Real.sqrt_sq hu]]
  apply Real.sqrt_le_sqrt
  have s : ∀ {x y : ℝ}, |x| ≤ u * |y| → x ^ 2 ≤ u ^ 2 * y ^ 2 := fun {x y} h => by
    have := sq_le_sq' (by linarith [abs_nonneg x]) h
    rw [mul_pow] at this; simpa using this
  simp only [Quaternion.re_sub, Quaternion.imI_sub, Quaternion.imJ_sub, Quaternion.imK_sub]
  linarith [s h0, s h1, s h2, s h3]

theorem cpxUnit_ge (hu : 0 ≤ u) : u ≤ cpxUnit u := by
  have := gam_ge hu (k := 2) (by omega)
  have := sqrt_two_ge
  unfold cpxUnit; nlinarith
theorem quatUnit_ge (hu : 0 ≤ u) : u ≤ quatUnit u := by
  have := gam_ge hu (k := 4) (by omega)
  unfold quatUnit; linarith

theorem Cpx.approx (hF : Rounding u F) : ApproxRing (cpxUnit u) (Cpx.HasVal : Cpx (Fl F) → ℂ → Prop) where
  nonneg := hF.1.trans (cpxUnit_ge hF.1)
  fn := Cpx.HasVal.unique
  add := fun {a b r} h => by
    obtain ⟨h1, h2⟩ := h
    simp only [Cpx.re_add, Cpx.im_add] at h1 h2
    obtain ⟨x1, y1, a1, b1, c1⟩ := Fl.add_val h1
    obtain ⟨x2, y2, a2, b2, c2⟩ := Fl.add_val h2
    refine ⟨⟨x1, x2⟩, ⟨y1, y2⟩, ⟨a1, a2⟩, ⟨b1, b2⟩, ?_⟩
    refine (complex_rel hF.1 (hF.2 _ _ c1) (hF.2 _ _ c2)).trans ?_
    exact mul_le_mul_of_nonneg_right (cpxUnit_ge hF.1) (norm_nonneg _)
  mul := fun {a b r} h => by
    obtain ⟨h1, h2⟩ := h
    have h1' := h1; have h2' := h2
    simp only [Cpx.re_mul, Cpx.im_mul] at h1' h2'
    obtain ⟨_, _, d1, d2, -⟩ := Fl.sub_val h1'
    obtain ⟨x1, y1, a1, b1, -⟩ := Fl.mul_val d1
    obtain ⟨x2, y2, a2, b2, -⟩ := Fl.mul_val d2
    refine ⟨⟨x1, x2⟩, ⟨y1, y2⟩, ⟨a1, a2⟩, ⟨b1, b2⟩, ?_⟩
    obtain ⟨e1, e2⟩ := C70_complex_mul hF a b ⟨x1, x2⟩ ⟨y1, y2⟩ ⟨a1, a2⟩ ⟨b1, b2⟩
    refine (complex_norm_le (e1 _ h1) (e2 _ h2)).trans_eq ?_
    unfold cpxUnit; ring

theorem Quat.approx (hF : Rounding u F) : ApproxRing (quatUnit u) (Quat.HasVal : Quat (Fl F) → Quaternion ℝ → Prop) where
  nonneg := hF.1.trans (quatUnit_ge hF.1)
  fn := Quat.HasVal.unique
  add := fun {a b r} h => by
    obtain ⟨h0, h1, h2, h3⟩ := h
    simp only [Quat.w_add, Quat.x_add, Quat.y_add, Quat.z_add] at h0 h1 h2 h3
    obtain ⟨x0, y0, a0, b0, c0⟩ := Fl.add_val h0
    obtain ⟨x1, y1, a1, b1, c1⟩ := Fl.add_val h1
    obtain ⟨x2, y2, a2, b2, c2⟩ := Fl.add_val h2
    obtain ⟨x3, y3, a3, b3, c3⟩ := Fl.add_val h3
    refine ⟨⟨x0, x1, x2, x3⟩, ⟨y0, y1, y2, y3⟩, ⟨a0, a1, a2, a3⟩, ⟨b0, b1, b2, b3⟩, ?_⟩
    refine (quaternion_rel hF.1 (hF.2 _ _ c0) (hF.2 _ _ c1) (hF.2 _ _ c2) (hF.2 _ _ c3)).trans ?_
    exact mul_le_mul_of_nonneg_right (quatUnit_ge hF.1) (norm_nonneg _)
  mul := fun {a b r} h => by
    obtain ⟨h0, h1, h2, h3⟩ := h
    have h0' := h0
    rw [Quat.w_mul] at h0'
    obtain ⟨_, _, d0, d3, -⟩ := Fl.sub_val h0'
    obtain ⟨_, _, d0, d2, -⟩ := Fl.sub_val d0
    obtain ⟨_, _, d0, d1, -⟩ := Fl.sub_val d0
    obtain ⟨x0, y0, a0, b0, -⟩ := Fl.mul_val d0
    obtain ⟨x1, y1, a1, b1, -⟩ := Fl.mul_val d1
    obtain ⟨x2, y2, a2, b2, -⟩ := Fl.mul_val d2
    obtain ⟨x3, y3, a3, b3, -⟩ := Fl.mul_val d3
    refine ⟨⟨x0, x1, x2, x3⟩, ⟨y0, y1, y2, y3⟩, ⟨a0, a1, a2, a3⟩, ⟨b0, b1, b2, b3⟩, ?_⟩
    obtain ⟨e0, e1, e2, e3⟩ := C70_quaternion_mul hF a b ⟨x0, x1, x2, x3⟩ ⟨y0, y1, y2, y3⟩ ⟨a0, a1, a2, a3⟩ ⟨b0, b1, b2, b3⟩
    refine (quaternion_norm_le (e0 _ h0) (e1 _ h1) (e2 _ h2) (e3 _ h3)).trans_eq ?_
    unfold quatUnit; ring

end Vecmat
