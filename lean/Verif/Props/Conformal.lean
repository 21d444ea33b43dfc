import Verif.Props.Moebius
/-!
# C66, C67: Möbius transformations are conformal and act on hyperbolic space
Points of the model of hyperbolic 3-space are the quaternions `w + x i + y j` with `y > 0` (`z`-component zero).
-/
namespace Vecmat

/-- The denominator `c p + d` of a Möbius transformation with complex coefficients at a quaternion point. -/
def Moebius.den (m : Moebius (Cpx ℝ)) (p : Quat ℝ) : Quat ℝ := Quat.ofC m.c * p + Quat.ofC m.d
theorem Moebius.den_eq (m : Moebius (Cpx ℝ)) (p : Quat ℝ) : (m.c * p + m.d : Quat ℝ) = m.den p := by
  rw [Quat.hMul_C, Quat.hAdd_C]; rfl

namespace Conf
open Quat

theorem dot_sandwich (a v w b : Quat ℝ) : (a * v * b).dot (a * w * b) = a.normSqr * b.normSqr * v.dot w := by
  simp only [Quat.dot_eq, Quat.normSqr_eq, w_mul, x_mul, y_mul, z_mul]; ring
theorem normSqr_mul (a b : Quat ℝ) : (a * b).normSqr = a.normSqr * b.normSqr := by
  simp only [Quat.normSqr_eq, w_mul, x_mul, y_mul, z_mul]; ring
theorem normSqr_inv (a : Quat ℝ) (h : a ≠ 0) : a.inv.normSqr = a.normSqr⁻¹ := by
  have h1 : a.normSqr ≠ 0 := fun e => h ((normSqr_eq_zero a).1 e)
  have h2 : (a * a.inv).normSqr = 1 := by rw [mul_inv_of_normSqr a h1]; simp [Quat.normSqr_eq]
  rw [normSqr_mul] at h2
  exact eq_inv_of_mul_eq_one_right h2

/-- The factor in front of `v` in the derivative. -/
noncomputable def fac (m : Moebius (Cpx ℝ)) (p : Quat ℝ) : Quat ℝ := ofC m.a - (ofC m.a * p + ofC m.b) * (m.den p).inv * ofC m.c

theorem fac_normSqr (m : Moebius (Cpx ℝ)) (p : Quat ℝ) (h : m.den p ≠ 0) :
    (fac m p).normSqr * (m.den p).normSqr = m.det.normSqr := by
  have h1 : (m.den p).normSqr ≠ 0 := fun e => h ((normSqr_eq_zero _).1 e)
  -- multiply by |d|² to clear the inverse
  have e1 : fac m p * new (m.den p).normSqr 0 0 0 =
      ofC m.a * new (m.den p).normSqr 0 0 0 - (ofC m.a * p + ofC m.b) * (m.den p).conj * ofC m.c := by
    have : (m.den p).inv * new (m.den p).normSqr 0 0 0 = (m.den p).conj := by
      rw [Quat.inv, divS_eq_mul, mul_assoc, new_mul_new, inv_mul_cancel₀ h1]
      apply Quat.ext' <;> simp
    rw [fac, sub_mul, mul_assoc _ (ofC m.c), new_mul_comm (ofC m.c), ← mul_assoc, mul_assoc _ _ (new _ 0 0 0), this]
  have e2 : (fac m p).normSqr * (m.den p).normSqr ^ 2 = m.det.normSqr * (m.den p).normSqr := by
    have := congrArg Quat.normSqr e1
    rw [normSqr_mul] at this
    have e3 : (new (m.den p).normSqr 0 0 0 : Quat ℝ).normSqr = (m.den p).normSqr ^ 2 := by
      simp [Quat.normSqr_eq (new _ _ _ _), sq]
    rw [e3] at this
    rw [this, Moebius.det_two]
    generalize m.a = a; generalize m.b = b
    simp only [Moebius.den]
    generalize m.c = c; generalize m.d = d
    simp only [Quat.normSqr_eq, Cpx.normSqr_eq, ofC, w_sub, x_sub, y_sub, z_sub, w_mul, x_mul, y_mul, z_mul, w_add, x_add, y_add,
      z_add, w_conj, x_conj, y_conj, z_conj, w_new, x_new, y_new, z_new, Cpx.re_sub, Cpx.im_sub, Cpx.re_mul, Cpx.im_mul]
    ring
  have : ((fac m p).normSqr * (m.den p).normSqr - m.det.normSqr) * (m.den p).normSqr = 0 := by linear_combination e2
  rcases mul_eq_zero.1 this with h' | h'
  · linarith
  · exact absurd h' h1

theorem deriv_eq (m : Moebius (Cpx ℝ)) (p v : Quat ℝ) (h : m.den p ≠ 0) :
    Transform.deriv m p v = fac m p * v * (m.den p).inv := by
  have hn : (m.den p).normSqr ≠ 0 := fun e => h ((normSqr_eq_zero _).1 e)
  have alg : ∀ d w : Quat ℝ, d.normSqr ≠ 0 →
      ((w.conj - d.conj.mulS (d.dot w * two / d.normSqr)).divS d.normSqr) = -(d.inv * w * d.inv) := by
    intro d w hn
    rw [Quat.normSqr_eq] at hn
    have hn2 : d.w ^ 2 + d.x ^ 2 + d.y ^ 2 + d.z ^ 2 ≠ 0 := by intro e; apply hn; linarith
    apply Quat.ext' <;>
      simp only [Quat.inv, Quat.w_divS, Quat.x_divS, Quat.y_divS, Quat.z_divS, Quat.w_sub, Quat.x_sub, Quat.y_sub, Quat.z_sub,
        Quat.w_mulS, Quat.x_mulS, Quat.y_mulS, Quat.z_mulS, Quat.w_conj, Quat.x_conj, Quat.y_conj, Quat.z_conj,
        Quat.w_neg, Quat.x_neg, Quat.y_neg, Quat.z_neg, Quat.w_mul, Quat.x_mul, Quat.y_mul, Quat.z_mul, Quat.normSqr_eq,
        Quat.dot_eq, two_eq] <;>
      field_simp <;> ring
  show Moebius.derivDir m p v = _
  simp only [Moebius.derivDir, Quat.hMul_C, Quat.hAdd_C]
  rw [show ofC m.c * p + ofC m.d = m.den p from rfl, alg _ _ hn, Quat.div_def, fac]
  noncomm_ring

theorem apply_eq (m : Moebius (Cpx ℝ)) (p : Quat ℝ) :
    m.apply p = (ofC m.a * p + ofC m.b) * (m.den p).inv := by
  rw [(C48_apply_formula m 0 p).2]; rfl

theorem apply_sub (m : Moebius (Cpx ℝ)) (p q : Quat ℝ) (hp : m.den p ≠ 0) (hq : m.den q ≠ 0) :
    (m.apply p - m.apply q) * m.den p = fac m q * (p - q) := by
  have hpn : (m.den p).normSqr ≠ 0 := fun e => hp ((normSqr_eq_zero _).1 e)
  have hqn : (m.den q).normSqr ≠ 0 := fun e => hq ((normSqr_eq_zero _).1 e)
  have h1 : m.apply p * m.den p = ofC m.a * p + ofC m.b := by
    rw [apply_eq, mul_assoc, inv_mul_of_normSqr _ hpn, mul_one]
  have h2 : m.apply q * m.den q = ofC m.a * q + ofC m.b := by
    rw [apply_eq, mul_assoc, inv_mul_of_normSqr _ hqn, mul_one]
  have h3 : fac m q = ofC m.a - m.apply q * ofC m.c := by rw [fac, apply_eq]
  rw [sub_mul, h1, h3]
  have h4 : m.apply q * ofC m.d = ofC m.a * q + ofC m.b - m.apply q * (ofC m.c * q) := by
    rw [← h2, Moebius.den, mul_add]; abel
  rw [Moebius.den, mul_add, h4]
  noncomm_ring

end Conf
open Conf

/-! ## C66 -/

/-- The differential of `apply` at a quaternion point scales all scalar products by `|det|² / |c p + d|⁴`: it is conformal. -/
theorem C66_conformal (m : Moebius (Cpx ℝ)) (p v w : Quat ℝ) (h : m.c * p + m.d ≠ 0) :
    (Transform.deriv m p v).dot (Transform.deriv m p w) =
      m.det.normSqr / (m.c * p + m.d : Quat ℝ).normSqr ^ 2 * v.dot w := by
  rw [Moebius.den_eq] at *
  have h1 : (m.den p).normSqr ≠ 0 := fun e => h ((Quat.normSqr_eq_zero _).1 e)
  rw [deriv_eq m p v h, deriv_eq m p w h, dot_sandwich, normSqr_inv _ h, ← fac_normSqr m p h]
  field_simp

/-- The same on complex points. -/
theorem C66_conformal_complex (m : Moebius (Cpx ℝ)) (p v w : Cpx ℝ) :
    (Transform.deriv m p v).dot (Transform.deriv m p w) = (m.deriv p).normSqr * v.dot w := by
  show (m.deriv p * v).dot (m.deriv p * w) = _
  generalize m.deriv p = d
  simp only [Cpx.dot_eq, Cpx.normSqr_eq, Cpx.re_mul, Cpx.im_mul]; ring

/-- An invertible transformation has a nowhere vanishing differential. -/
theorem C66_nonsingular (m : Moebius (Cpx ℝ)) (p v : Quat ℝ) (h : m.c * p + m.d ≠ 0) (hdet : m.det ≠ 0) (hv : v ≠ 0) :
    Transform.deriv m p v ≠ 0 := by
  intro e
  have := C66_conformal m p v v h
  rw [e] at this
  have h1 : (m.c * p + m.d : Quat ℝ).normSqr ≠ 0 := fun e => h ((Quat.normSqr_eq_zero _).1 e)
  have h2 : m.det.normSqr ≠ 0 := fun e => hdet ((C38_zero _).1.1 e)
  have h3 : v.dot v ≠ 0 := by rw [(C44_dot v v).2.2]; exact fun e => hv ((Quat.normSqr_eq_zero _).1 e)
  rw [show (0 : Quat ℝ).dot 0 = 0 by simp [Quat.dot_eq]] at this
  have := mul_ne_zero (div_ne_zero h2 (pow_ne_zero 2 h1)) h3
  simp_all

/-- `apply_dir` is the unit vector along the transformed direction, `apply_normal` is a unit vector that stays orthogonal to every
transformed tangent. -/
theorem C66_directional (m : Moebius (Cpx ℝ)) (p v n : Quat ℝ) (h : m.c * p + m.d ≠ 0) (hdet : m.det ≠ 0) (hv : v ≠ 0)
    (hn : n ≠ 0) :
    (∃ s : ℝ, 0 < s ∧ Directional.applyDir m p v = (Transform.deriv m p v).mulS s) ∧
    (Directional.applyDir m p v).norm = 1 ∧ (Directional.applyNormal m p n).norm = 1 ∧
    (n.dot v = 0 → (Directional.applyNormal m p n).dot (Transform.deriv m p v) = 0) := by
  have hd := C66_nonsingular m p v h hdet hv
  have hd' := C66_nonsingular m p n h hdet hn
  refine ⟨⟨(Transform.deriv m p v).norm⁻¹, ?_, ?_⟩, (C44_normalize _ hd).1, (C44_normalize _ hd').1, ?_⟩
  · have h0 : 0 ≤ (Transform.deriv m p v).norm := Real.sqrt_nonneg _
    refine inv_pos.2 (lt_of_le_of_ne h0 fun e => ?_)
    have := (C44_normalize _ hd).2
    rw [← e] at this
    exact hd (this.symm.trans (by apply Quat.ext' <;> simp))
  · show (Transform.deriv m p v).normalize = _
    apply Quat.ext' <;> simp [Quat.normalize, div_eq_mul_inv]
  · intro e
    have h1 := C66_conformal m p n v h
    rw [e, mul_zero] at h1
    show (Quat.divS (Transform.deriv m p n) _).dot _ = 0
    rw [Quat.dot_eq] at h1 ⊢
    simp only [Quat.w_divS, Quat.x_divS, Quat.y_divS, Quat.z_divS, div_mul_eq_mul_div, ← add_div, h1, zero_div]

/-- Case: the inversion-like map `x ↦ 1/x` at the point `j`, direction `i`. -/
example : (Transform.deriv (Moebius.new 0 1 1 0 : Moebius (Cpx ℝ)) (Quat.j : Quat ℝ) (Quat.i : Quat ℝ)).dot
    (Transform.deriv (Moebius.new 0 1 1 0 : Moebius (Cpx ℝ)) (Quat.j : Quat ℝ) (Quat.i : Quat ℝ)) = 1 := by
  have hd : (((Moebius.new 0 1 1 0 : Moebius (Cpx ℝ)).c * (Quat.j : Quat ℝ) + (Moebius.new 0 1 1 0 : Moebius (Cpx ℝ)).d : Quat ℝ)) = Quat.j := by
    rw [Moebius.den_eq, Moebius.den]; apply Quat.ext' <;> simp [Quat.ofC]
  rw [C66_conformal _ _ _ _ (by rw [hd]; intro e; simpa using congrArg Quat.y e), hd, Moebius.det_two]
  simp [Quat.dot_eq, Quat.normSqr_eq, Cpx.normSqr_eq]

/-- The same on complex points. -/
theorem C66_directional_complex (m : Moebius (Cpx ℝ)) (p v n : Cpx ℝ) (h : m.c * p + m.d ≠ 0) (hdet : m.det ≠ 0) (hv : v ≠ 0)
    (hn : n ≠ 0) :
    (∃ s : ℝ, 0 < s ∧ Directional.applyDir m p v = (Transform.deriv m p v).mulS s) ∧
    (Directional.applyDir m p v).norm = 1 ∧ (Directional.applyNormal m p n).norm = 1 ∧
    (n.dot v = 0 → (Directional.applyNormal m p n).dot (Transform.deriv m p v) = 0) := by
  have hns : ∀ z : Cpx ℝ, z ≠ 0 → z.normSqr ≠ 0 := fun z hz e => hz ((C38_zero z).1.1 e)
  have hm : m.deriv p ≠ 0 := by
    rw [C50_deriv_closed_form]
    intro e
    have e2 := congrArg (· * ((m.c * p + m.d) * (m.c * p + m.d))) e
    simp only [zero_mul] at e2
    rw [((C38_inverse _ (hns _ (mul_ne_zero h h))).2.2 m.det).1] at e2
    exact hdet e2
  have hnz : ∀ w : Cpx ℝ, w ≠ 0 → Transform.deriv m p w ≠ 0 := fun w hw => mul_ne_zero hm hw
  have hd := hnz v hv
  have hd' := hnz n hn
  refine ⟨⟨(Transform.deriv m p v).norm⁻¹, ?_, ?_⟩, (C39_normalize _ hd).1, (C39_normalize _ hd').1, ?_⟩
  · have h0 : 0 ≤ (Transform.deriv m p v).norm := Real.sqrt_nonneg _
    refine inv_pos.2 (lt_of_le_of_ne h0 fun e => ?_)
    have := (C39_normalize _ hd).2
    rw [← e] at this
    exact hd (this.symm.trans (by apply Cpx.ext' <;> simp))
  · show (Transform.deriv m p v).normalize = _
    apply Cpx.ext' <;> simp [Cpx.normalize, div_eq_mul_inv]
  · intro e
    have h1 := C66_conformal_complex m p n v
    rw [e, mul_zero] at h1
    show (Cpx.divS (Transform.deriv m p n) _).dot _ = 0
    rw [Cpx.dot_eq] at h1 ⊢
    simp only [Cpx.re_divS, Cpx.im_divS, div_mul_eq_mul_div, ← add_div, h1, zero_div]

/-! ## C67 -/

/-- Distances between images: `|f(p) - f(q)| = |det| |p - q| / (|c p + d| |c q + d|)` for all quaternion points. -/
theorem C67_distance_formula (m : Moebius (Cpx ℝ)) (p q : Quat ℝ) (hp : m.c * p + m.d ≠ 0) (hq : m.c * q + m.d ≠ 0) :
    (m.apply p - m.apply q).normSqr * ((m.c * p + m.d : Quat ℝ).normSqr * (m.c * q + m.d : Quat ℝ).normSqr) =
      m.det.normSqr * (p - q).normSqr := by
  simp only [Moebius.den_eq] at *
  have h := congrArg Quat.normSqr (apply_sub m p q hp hq)
  rw [normSqr_mul, normSqr_mul] at h
  rw [← mul_assoc, h, ← fac_normSqr m q hq]; ring

/-- A transformation with real positive determinant maps the upper half-space (`y > 0`, `z = 0`) to itself; the height is
multiplied by `det / |c p + d|²`, and there is no pole in the half-space. -/
theorem C67_half_space (m : Moebius (Cpx ℝ)) (hi : m.det.im = 0) (hr : 0 < m.det.re) (p : Quat ℝ) (hz : p.z = 0) (hy : 0 < p.y) :
    (m.c * p + m.d : Quat ℝ) ≠ 0 ∧ (m.apply p).z = 0 ∧ 0 < (m.apply p).y ∧
      (m.apply p).y = m.det.re / (m.c * p + m.d : Quat ℝ).normSqr * p.y := by
  rw [Moebius.den_eq]
  have hd : m.den p ≠ 0 := by
    intro e
    have h2 := congrArg Quat.y e
    have h3 := congrArg Quat.z e
    have h0 := congrArg Quat.w e
    have h1 := congrArg Quat.x e
    simp only [Moebius.den, Quat.ofC, Quat.w_add, Quat.x_add, Quat.y_add, Quat.z_add, Quat.w_mul, Quat.x_mul, Quat.y_mul, Quat.z_mul,
      Quat.w_new, Quat.x_new, Quat.y_new, Quat.z_new, Quat.w_zero, Quat.x_zero, Quat.y_zero, Quat.z_zero, hz] at h0 h1 h2 h3
    rw [Moebius.det_two] at hr
    generalize m.a = a at *; generalize m.b = b at *; generalize m.c = c at *; generalize m.d = d at *
    have c1 : c.re = 0 := by
      have : c.re * p.y = 0 := by linarith
      rcases mul_eq_zero.1 this with h | h
      · exact h
      · exact absurd h hy.ne'
    have c2 : c.im = 0 := by
      have : c.im * p.y = 0 := by linarith
      rcases mul_eq_zero.1 this with h | h
      · exact h
      · exact absurd h hy.ne'
    simp [c1, c2] at h0 h1 hr
    simp [h0, h1] at hr
  have hn : 0 < (m.den p).normSqr := by
    refine lt_of_le_of_ne ?_ fun e => hd ((Quat.normSqr_eq_zero _).1 e.symm)
    rw [Quat.normSqr_eq]
    linarith [mul_self_nonneg (m.den p).w, mul_self_nonneg (m.den p).x, mul_self_nonneg (m.den p).y, mul_self_nonneg (m.den p).z]
  have key : ((Quat.ofC m.a * p + Quat.ofC m.b) * (m.den p).conj).y = m.det.re * p.y ∧
      ((Quat.ofC m.a * p + Quat.ofC m.b) * (m.den p).conj).z = m.det.im * p.y := by
    rw [Moebius.det_two]
    generalize m.a = a; generalize m.b = b
    simp only [Moebius.den]
    generalize m.c = c; generalize m.d = d
    constructor <;>
      simp only [Quat.ofC, Quat.w_mul, Quat.x_mul, Quat.y_mul, Quat.z_mul, Quat.w_add, Quat.x_add, Quat.y_add,
      Quat.z_add, Quat.w_conj, Quat.x_conj, Quat.y_conj, Quat.z_conj, Quat.w_new, Quat.x_new, Quat.y_new, Quat.z_new, Cpx.re_sub, Cpx.im_sub, Cpx.re_mul, Cpx.im_mul, hz] <;> ring
  have hap : m.apply p = ((Quat.ofC m.a * p + Quat.ofC m.b) * (m.den p).conj).divS (m.den p).normSqr := by
    rw [apply_eq, Quat.inv, Quat.divS_eq_mul, Quat.divS_eq_mul, mul_assoc]
  have hy' : (m.apply p).y = m.det.re / (m.den p).normSqr * p.y := by
    rw [hap, Quat.y_divS, key.1]; ring
  refine ⟨hd, ?_, ?_, hy'⟩
  · rw [hap, Quat.z_divS, key.2, hi]; simp
  · rw [hy']; positivity

/-- Hyperbolic cosine of the hyperbolic distance between two points of the upper half-space (standard formula). -/
noncomputable def Spec.coshDist (p q : Quat ℝ) : ℝ := 1 + (p - q).normSqr / (2 * p.y * q.y)

/-- Transformations with real positive determinant are isometries of hyperbolic space. -/
theorem C67_isometry (m : Moebius (Cpx ℝ)) (hi : m.det.im = 0) (hr : 0 < m.det.re) (p q : Quat ℝ)
    (hpz : p.z = 0) (hp : 0 < p.y) (hqz : q.z = 0) (hq : 0 < q.y) :
    Spec.coshDist (m.apply p) (m.apply q) = Spec.coshDist p q := by
  obtain ⟨dp, -, -, yp⟩ := C67_half_space m hi hr p hpz hp
  obtain ⟨dq, -, -, yq⟩ := C67_half_space m hi hr q hqz hq
  have hd := C67_distance_formula m p q dp dq
  have np : (m.c * p + m.d : Quat ℝ).normSqr ≠ 0 := fun e => dp ((Quat.normSqr_eq_zero _).1 e)
  have nq : (m.c * q + m.d : Quat ℝ).normSqr ≠ 0 := fun e => dq ((Quat.normSqr_eq_zero _).1 e)
  unfold Spec.coshDist
  rw [yp, yq]
  rw [Cpx.normSqr_eq, hi] at hd
  have hdiv : (m.apply p - m.apply q).normSqr =
      m.det.re ^ 2 * (p - q).normSqr / ((m.c * p + m.d : Quat ℝ).normSqr * (m.c * q + m.d : Quat ℝ).normSqr) := by
    rw [eq_div_iff (mul_ne_zero np nq), hd]; ring
  rw [hdiv]
  field_simp

/-- Case: the translation-and-scale `x ↦ 2x + 1` (determinant 2) at the point `j`. -/
example : ((Moebius.new (Cpx.new 2 0) 1 0 1 : Moebius (Cpx ℝ)).apply (Quat.j : Quat ℝ)).y = 2 := by
  have hdet : (Moebius.new (Cpx.new 2 0) 1 0 1 : Moebius (Cpx ℝ)).det = Cpx.new 2 0 := by
    rw [Moebius.det_two]; apply Cpx.ext' <;> simp
  obtain ⟨-, -, -, h⟩ := C67_half_space (Moebius.new (Cpx.new 2 0) 1 0 1 : Moebius (Cpx ℝ)) (by simp [hdet]) (by simp [hdet])
    Quat.j (by simp) (by simp)
  rw [h, hdet, Moebius.den_eq, Moebius.den]
  simp [Quat.normSqr_eq, Quat.ofC]

/-- Without the assumption on the determinant the half-space is not preserved: `diag(i, 1)` (invertible) moves `j` to `k`. -/
theorem C67_complex_determinant_refuted :
    ¬ ∀ (m : Moebius (Cpx ℝ)) (p : Quat ℝ), m.det ≠ 0 → p.z = 0 → 0 < p.y → (m.apply p).z = 0 := by
  intro h
  have := h (Moebius.new Cpx.i 0 0 1) Quat.j (by
    rw [Moebius.det_two]; intro e; simpa using congrArg Cpx.im e) (by simp) (by simp)
  rw [apply_eq] at this
  simp [Moebius.den, Quat.ofC, Quat.inv, Quat.normSqr_eq] at this

section
variable {T : Type} [Field T] [LinearOrder T] [IsStrictOrderedRing T]
/-- Real coefficients: the imaginary part of a complex point is multiplied by `det / |c z + d|²`, so a transformation with
positive determinant maps the upper half-plane to itself. -/
theorem C67_half_plane (m : Moebius T) (z : Cpx T) (h : m.c * z + m.d ≠ 0) :
    (m.apply z).im = m.det * z.im / (m.c * z + m.d).normSqr ∧ (0 < m.det → 0 < z.im → 0 < (m.apply z).im) := by
  have hden : 0 < (m.c * z + m.d).normSqr := by
    generalize (m.c * z + m.d) = y at h
    rw [Cpx.normSqr_eq]
    by_contra h0
    apply h
    have h1 := mul_self_nonneg y.re
    have h2 := mul_self_nonneg y.im
    apply Cpx.ext' 
    · have : y.re * y.re = 0 := by linarith
      simpa using this
    · have : y.im * y.im = 0 := by linarith
      simpa using this
  have key : (m.apply z).im = m.det * z.im / (m.c * z + m.d).normSqr := by
    rw [Moebius.apply, Moebius.det_two]
    simp only [Cpx.hMul_S, Cpx.hAdd_S]
    rw [Cpx.div_def]
    simp [Cpx.inv, Cpx.normSqr_eq]
    ring
  refine ⟨key, fun h1 h2 => ?_⟩
  rw [key]; positivity
example : (HAdd.hAdd (HMul.hMul (Moebius.new (1 : ℚ) 2 1 5).c (Cpx.new (1 : ℚ) 1) : Cpx ℚ) (Moebius.new (1 : ℚ) 2 1 5).d : Cpx ℚ) ≠ 0 ∧ (0 : ℚ) < (Moebius.new (1 : ℚ) 2 1 5).det := by
  constructor
  · intro h
    have := congrArg Cpx.im h
    rw [Cpx.hAdd_S, Cpx.hMul_S] at this
    simp [C48_coefficients] at this
  · rw [Moebius.det_two]; simp only [C48_coefficients]; norm_num
end

/-! ## further cases: the hypotheses are satisfiable -/
theorem Ex.det_ne : (Moebius.new (Cpx.new 1 2) (Cpx.new 0 1) (Cpx.new 3 0) (Cpx.new 1 1) : Moebius (Cpx ℝ)).det ≠ 0 := fun e => by
  rw [Moebius.det_two] at e
  have := congrArg Cpx.re e; simp at this; norm_num at this
theorem Ex.q_ne : (Quat.new 0 2 1 0 : Quat ℝ) ≠ 0 := fun e => by have := congrArg Quat.x e; norm_num at this
theorem Ex.c_ne : (Cpx.new 3 4 : Cpx ℝ) ≠ 0 := fun e => by have := congrArg Cpx.im e; norm_num at this
example := C66_nonsingular _ _ (Quat.new 0 2 1 0) Ex.poleQ Ex.det_ne Ex.q_ne
example := C66_directional _ _ (Quat.new 0 2 1 0) (Quat.new 0 2 1 0) Ex.poleQ Ex.det_ne Ex.q_ne Ex.q_ne
example := C66_directional_complex _ _ (Cpx.new 3 4) (Cpx.new 3 4) Ex.pole Ex.det_ne Ex.c_ne Ex.c_ne
example := C67_distance_formula _ _ _ Ex.poleQ Ex.poleQ
example := C67_half_plane (Moebius.new 1 2 1 5 : Moebius ℚ) (Cpx.new 1 1) (by decide +kernel)
example := C67_isometry (Moebius.new (Cpx.new 2 0) (Cpx.new 1 1) 0 1 : Moebius (Cpx ℝ)) (by rw [Moebius.det_two]; simp) (by rw [Moebius.det_two]; simp)
  (Quat.new 1 2 3 0) (Quat.new 5 (-6) 7 0) (by simp) (by simp) (by simp) (by simp)

end Vecmat
