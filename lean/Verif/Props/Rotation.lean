import Verif.Lemmas.Rotation
import Verif.Props.Transforms
import Verif.Props.Quaternion
/-!
# C54–C58: rotations of the plane and of space, `look_at`
-/
namespace Vecmat
open Spec
variable {T : Type}

/-! ## C54 `Rotation2` -/

theorem C54_orthogonal [CommRing T] (r : Rotation2 T) (h : r.intoComplex.normSqr = 1) (v w : Vec T 2) :
    (Transform.apply r v).dot (Transform.apply r w) = v.dot w ∧
    (Transform.apply r v).squareLength = v.squareLength ∧
    (Transform.apply r v)[0] * (Transform.apply r w)[1] - (Transform.apply r v)[1] * (Transform.apply r w)[0] =
      v[0] * w[1] - v[1] * w[0] := by
  rw [Cpx.normSqr_eq] at h
  simp only [Rotation2.intoComplex] at h
  simp only [Vec.dot2, Vec.squareLength2, Rotation2.apply_0, Rotation2.apply_1]
  refine ⟨?_, ?_, ?_⟩
  · linear_combination (v[0] * w[0] + v[1] * w[1]) * h
  · linear_combination (v[0] * v[0] + v[1] * v[1]) * h
  · linear_combination (v[0] * w[1] - v[1] * w[0]) * h
theorem C54_length (r : Rotation2 ℝ) (h : r.intoComplex.normSqr = 1) (v : Vec ℝ 2) :
    (Transform.apply r v).length = v.length := by
  show FloatOps.sqrt _ = FloatOps.sqrt _
  rw [(C54_orthogonal r h v v).2.1]
/-- `identity`, `chain`, `inv` are right (`inv` for unit numbers), `chain` is associative and commutative, and unit norm is kept. -/
theorem C54_group [CommRing T] : IdentityOk (Rotation2 T) (Vec T 2) ∧
    (∀ r s : Rotation2 T, ChainOk (X := Vec T 2) r s) ∧
    (∀ r : Rotation2 T, r.intoComplex.normSqr = 1 → InverseOk (Vec T 2) r) ∧
    (Transform.identity (Vec T 2) : Rotation2 T).intoComplex.normSqr = 1 ∧
    (∀ r s : Rotation2 T, r.intoComplex.normSqr = 1 → s.intoComplex.normSqr = 1 →
      (Transform.chain (Vec T 2) r s).intoComplex.normSqr = 1) ∧
    (∀ r : Rotation2 T, r.intoComplex.normSqr = 1 → (Transform.inv (Vec T 2) r).intoComplex.normSqr = 1) ∧
    (∀ r s t : Rotation2 T, Transform.chain (Vec T 2) (Transform.chain (Vec T 2) r s) t =
      Transform.chain (Vec T 2) r (Transform.chain (Vec T 2) s t) ∧
      Transform.chain (Vec T 2) r s = Transform.chain (Vec T 2) s r) := by
  refine ⟨fun x => ?_, fun r s x => ?_, fun r h x => ?_, ?_, fun r s h1 h2 => ?_, fun r h => ?_, fun r s t => ⟨?_, ?_⟩⟩
  · apply Vec.ext2 <;> simp only [Rotation2.apply_0, Rotation2.apply_1, Rotation2.comp_identity] <;> simp
  · apply Vec.ext2 <;> simp only [Rotation2.apply_0, Rotation2.apply_1, Rotation2.comp_chain, Cpx.re_mul, Cpx.im_mul] <;> ring
  · rw [Cpx.normSqr_eq] at h
    simp only [Rotation2.intoComplex] at h
    constructor <;> apply Vec.ext2 <;>
      simp only [Rotation2.apply_0, Rotation2.apply_1, Rotation2.comp_inv, Cpx.re_conj, Cpx.im_conj]
    · linear_combination x[0] * h
    · linear_combination x[1] * h
    · linear_combination x[0] * h
    · linear_combination x[1] * h
  · show (1 : Cpx T).normSqr = 1; simp [Cpx.normSqr_eq]
  · show (r.comp * s.comp).normSqr = 1
    have : (r.comp * s.comp).normSqr = r.comp.normSqr * s.comp.normSqr := by simp only [Cpx.normSqr_eq]; simp; ring
    rw [this, show r.comp.normSqr = 1 from h1, show s.comp.normSqr = 1 from h2, mul_one]
  · show r.comp.conj.normSqr = 1
    rw [← h]; simp only [Cpx.normSqr_eq]; simp [Rotation2.intoComplex]
  · exact Rotation2.ext (mul_assoc r.comp s.comp t.comp)
  · exact Rotation2.ext (mul_comm r.comp s.comp)
/-- The condition is needed: `inv` is the conjugate, so it undoes `apply` only for unit numbers. -/
theorem C54_inv_needs_unit_refuted : ¬ InverseOk (Vec ℚ 2) (Rotation2.fromComplex (Cpx.new (2 : ℚ) 0)) := by
  intro h
  have h2 := Vec.getElem_congr_vec (h (Vec.fill 1)).1 0 (by omega)
  simp only [Rotation2.apply_0, Rotation2.apply_1, Rotation2.comp_inv, Rotation2.fromComplex] at h2
  simp at h2
  norm_num at h2
theorem C54_new (a b : ℝ) (v : Vec ℝ 2) :
    (Rotation2.new a).intoComplex.normSqr = 1 ∧
    (Transform.apply (Rotation2.new a) v)[0] = v[0] * Real.cos a - v[1] * Real.sin a ∧
    (Transform.apply (Rotation2.new a) v)[1] = v[0] * Real.sin a + v[1] * Real.cos a ∧
    Transform.chain (Vec ℝ 2) (Rotation2.new a) (Rotation2.new b) = Rotation2.new (a + b) ∧
    Transform.inv (Vec ℝ 2) (Rotation2.new a) = Rotation2.new (-a) ∧
    Rotation2.new (0 : ℝ) = Transform.identity (Vec ℝ 2) ∧
    (-Real.pi < a → a ≤ Real.pi → (Rotation2.new a).angle = a) := by
  refine ⟨?_, ?_, ?_, ?_, ?_, ?_, fun h1 h2 => ?_⟩
  · rw [Cpx.normSqr_eq]; simp [Rotation2.new, Rotation2.intoComplex]
    linarith [Real.sin_sq_add_cos_sq a, sq (Real.sin a), sq (Real.cos a)]
  · simp [Rotation2.apply_0, Rotation2.new]
  · simp [Rotation2.apply_1, Rotation2.new]
  · apply Rotation2.ext; rw [Rotation2.comp_chain]; apply Cpx.ext' <;> simp [Rotation2.new, Real.cos_add, Real.sin_add]; ring
  · apply Rotation2.ext; rw [Rotation2.comp_inv]; apply Cpx.ext' <;> simp [Rotation2.new]
  · apply Rotation2.ext; apply Cpx.ext' <;> simp [Rotation2.new, Rotation2.comp_identity]
  · have := Complex.arg_cos_add_sin_mul_I (θ := a) ⟨h1, h2⟩
    simp only [Rotation2.angle, Rotation2.new, Cpx.re_new, Cpx.im_new, atan2_real, sin_real, cos_real]
    refine Eq.trans (congrArg Complex.arg ?_) this
    apply Complex.ext <;> simp [Complex.cos_ofReal_re, Complex.sin_ofReal_re]
/-- `angle` is in `(-π, π]` and every unit rotation is `new` of its angle. -/
theorem C54_angle (r : Rotation2 ℝ) : -Real.pi < r.angle ∧ r.angle ≤ Real.pi ∧
    (r.intoComplex.normSqr = 1 → Rotation2.new r.angle = r) := by
  refine ⟨Complex.neg_pi_lt_arg _, Complex.arg_le_pi _, fun h => ?_⟩
  rw [Cpx.normSqr_eq] at h
  simp only [Rotation2.intoComplex] at h
  have hn : ‖(⟨r.comp.re, r.comp.im⟩ : ℂ)‖ = 1 := by
    rw [Complex.norm_def, Complex.normSq_mk, h, Real.sqrt_one]
  have hz : (⟨r.comp.re, r.comp.im⟩ : ℂ) ≠ 0 := by intro e; rw [e] at hn; simp at hn
  apply Rotation2.ext; apply Cpx.ext'
  · simp [Rotation2.new, Rotation2.angle, Complex.cos_arg hz, hn]
  · simp [Rotation2.new, Rotation2.angle, Complex.sin_arg, hn]
/-- `to_linear` is the same map (for every complex number), multiplicative, and a rotation matrix for unit numbers. -/
theorem C54_to_linear [Field T] (r s : Rotation2 T) (v : Vec T 2) :
    Transform.apply r.toLinear v = Transform.apply r v ∧
    (Transform.chain (Vec T 2) r s).toLinear = Transform.chain (Vec T 2) r.toLinear s.toLinear ∧
    r.toLinear.intoMatrix.det = r.intoComplex.normSqr ∧
    (r.intoComplex.normSqr = 1 → r.toLinear.intoMatrix.transpose.dotM r.toLinear.intoMatrix = 1 ∧
      Transform.inv (Vec T 2) r.toLinear = (Transform.inv (Vec T 2) r).toLinear) := by
  have hdet : r.toLinear.lin.det = r.comp.re * r.comp.re + r.comp.im * r.comp.im := by
    rw [Mat.det_eq, Rotation2.toMatrix_toLinear, Matrix.det_fin_two_of]; ring
  refine ⟨?_, ?_, ?_, fun h => ⟨?_, ?_⟩⟩
  · apply Vec.coords_inj
    rw [Linear.apply_coords, Rotation2.toMatrix_toLinear]
    funext i
    fin_cases i
    · show _ = (Transform.apply r v)[0]
      rw [Rotation2.apply_0]; simp [Matrix.mulVec, coords, dotProduct, Fin.sum_univ_two]; ring
    · show _ = (Transform.apply r v)[1]
      rw [Rotation2.apply_1]; simp [Matrix.mulVec, coords, dotProduct, Fin.sum_univ_two]; ring
  · apply Linear.ext; apply Mat.toMatrix_inj
    rw [Linear.lin_chain, Mat.toMatrix_dotM]; simp only [Rotation2.toMatrix_toLinear, Rotation2.comp_chain, Matrix.mul_fin_two]
    ext i j; fin_cases i <;> fin_cases j <;> simp <;> ring
  · rw [show r.toLinear.intoMatrix = r.toLinear.lin from rfl, hdet, Cpx.normSqr_eq]; rfl
  · rw [Cpx.normSqr_eq] at h
    simp only [Rotation2.intoComplex] at h
    apply Mat.toMatrix_inj
    rw [Mat.toMatrix_dotM, Mat.toMatrix_transpose, Mat.toMatrix_one]
    simp only [Linear.intoMatrix, Rotation2.toMatrix_toLinear]
    ext i j; fin_cases i <;> fin_cases j <;> simp [Matrix.mul_apply, Fin.sum_univ_two]
    · linear_combination h
    · ring
    · ring
    · linear_combination h
  · rw [Cpx.normSqr_eq] at h
    simp only [Rotation2.intoComplex] at h
    apply Linear.ext; apply Mat.toMatrix_inj
    rw [Linear.lin_inv, Mat.toMatrix_inv]
    apply Matrix.inv_eq_left_inv
    simp only [Rotation2.toMatrix_toLinear, Rotation2.comp_inv]
    ext i j; fin_cases i <;> fin_cases j <;> simp [Matrix.mul_apply, Fin.sum_univ_two]
    · linear_combination h
    · ring
    · ring
    · linear_combination h

example : (Rotation2.fromComplex (Cpx.new (3 / 5 : ℚ) (4 / 5))).intoComplex.normSqr = 1 := by
  rw [Cpx.normSqr_eq]; simp [Rotation2.fromComplex, Rotation2.intoComplex]; norm_num

/-! ## C55 `Rotation3` -/

/-- Orthogonality: dot products, lengths and cross products are preserved (so orientation is, too). -/
theorem C55_orthogonal [CommRing T] (r : Rotation3 T) (h : r.intoQuaternion.normSqr = 1) (v w : Vec T 3) :
    (Transform.apply r v).dot (Transform.apply r w) = v.dot w ∧
    (Transform.apply r v).squareLength = v.squareLength ∧
    (Transform.apply r v).cross3 (Transform.apply r w) = Transform.apply r (v.cross3 w) := by
  rw [Quat.normSqr_eq] at h
  simp only [Rotation3.intoQuaternion] at h
  generalize hw : r.quat.w = a at h
  generalize hx : r.quat.x = b at h
  generalize hy : r.quat.y = c at h
  generalize hz : r.quat.z = d at h
  have h2 : (a * a + b * b + c * c + d * d) * (a * a + b * b + c * c + d * d) = 1 := by rw [h, one_mul]
  refine ⟨?_, ?_, ?_⟩
  · simp only [Vec.dot3, Rotation3.apply_0, Rotation3.apply_1, Rotation3.apply_2, hw, hx, hy, hz]
    linear_combination (v[0] * w[0] + v[1] * w[1] + v[2] * w[2]) * h2
  · simp only [Vec.squareLength3, Rotation3.apply_0, Rotation3.apply_1, Rotation3.apply_2, hw, hx, hy, hz]
    linear_combination (v[0] * v[0] + v[1] * v[1] + v[2] * v[2]) * h2
  · apply Vec.ext3 <;>
      simp only [Vec.cross3_0, Vec.cross3_1, Vec.cross3_2, Rotation3.apply_0, Rotation3.apply_1, Rotation3.apply_2, hw, hx, hy, hz]
    · linear_combination ((a * a + b * b - c * c - d * d) * (v[1] * w[2] - v[2] * w[1]) +
        2 * (b * c - a * d) * (v[2] * w[0] - v[0] * w[2]) + 2 * (b * d + a * c) * (v[0] * w[1] - v[1] * w[0])) * h
    · linear_combination (2 * (b * c + a * d) * (v[1] * w[2] - v[2] * w[1]) +
        (a * a - b * b + c * c - d * d) * (v[2] * w[0] - v[0] * w[2]) + 2 * (c * d - a * b) * (v[0] * w[1] - v[1] * w[0])) * h
    · linear_combination (2 * (b * d - a * c) * (v[1] * w[2] - v[2] * w[1]) +
        2 * (c * d + a * b) * (v[2] * w[0] - v[0] * w[2]) + (a * a - b * b - c * c + d * d) * (v[0] * w[1] - v[1] * w[0])) * h
theorem C55_length (r : Rotation3 ℝ) (h : r.intoQuaternion.normSqr = 1) (v : Vec ℝ 3) :
    (Transform.apply r v).length = v.length := by
  show FloatOps.sqrt _ = FloatOps.sqrt _
  rw [(C55_orthogonal r h v v).2.1]
theorem C55_group [CommRing T] : IdentityOk (Rotation3 T) (Vec T 3) ∧
    (∀ r s : Rotation3 T, ChainOk (X := Vec T 3) r s) ∧
    (∀ r : Rotation3 T, r.intoQuaternion.normSqr = 1 → InverseOk (Vec T 3) r) ∧
    (Transform.identity (Vec T 3) : Rotation3 T).intoQuaternion.normSqr = 1 ∧
    (∀ r s : Rotation3 T, r.intoQuaternion.normSqr = 1 → s.intoQuaternion.normSqr = 1 →
      (Transform.chain (Vec T 3) r s).intoQuaternion.normSqr = 1) ∧
    (∀ r : Rotation3 T, r.intoQuaternion.normSqr = 1 → (Transform.inv (Vec T 3) r).intoQuaternion.normSqr = 1) ∧
    (∀ r s t : Rotation3 T, Transform.chain (Vec T 3) (Transform.chain (Vec T 3) r s) t =
      Transform.chain (Vec T 3) r (Transform.chain (Vec T 3) s t)) := by
  refine ⟨fun x => ?_, fun r s x => ?_, fun r h x => ?_, ?_, fun r s h1 h2 => ?_, fun r h => ?_, fun r s t => ?_⟩
  · apply Vec.ext3 <;> simp only [Rotation3.apply_0, Rotation3.apply_1, Rotation3.apply_2, Rotation3.quat_identity] <;> simp
  · apply Vec.ext3 <;> simp only [Rotation3.apply_0, Rotation3.apply_1, Rotation3.apply_2, Rotation3.quat_chain,
      Quat.w_mul, Quat.x_mul, Quat.y_mul, Quat.z_mul] <;> ring
  · rw [Quat.normSqr_eq] at h
    simp only [Rotation3.intoQuaternion] at h
    generalize hw : r.quat.w = a at h
    generalize hx : r.quat.x = b at h
    generalize hy : r.quat.y = c at h
    generalize hz : r.quat.z = d at h
    have h2 : (a * a + b * b + c * c + d * d) * (a * a + b * b + c * c + d * d) = 1 := by rw [h, one_mul]
    constructor <;> apply Vec.ext3 <;>
      simp only [Rotation3.apply_0, Rotation3.apply_1, Rotation3.apply_2, Rotation3.quat_inv, Quat.w_conj, Quat.x_conj,
        Quat.y_conj, Quat.z_conj, hw, hx, hy, hz]
    · linear_combination x[0] * h2
    · linear_combination x[1] * h2
    · linear_combination x[2] * h2
    · linear_combination x[0] * h2
    · linear_combination x[1] * h2
    · linear_combination x[2] * h2
  · show (1 : Quat T).normSqr = 1; simp [Quat.normSqr_eq]
  · show (r.quat * s.quat).normSqr = 1
    rw [(C44_normSqr_mul _ _).1, show r.quat.normSqr = 1 from h1, show s.quat.normSqr = 1 from h2, mul_one]
  · show r.quat.conj.normSqr = 1
    rw [(C44_normSqr_mul r.quat r.quat).2]; exact h
  · exact Rotation3.ext (mul_assoc r.quat s.quat t.quat)
/-- The formula inside `apply` really is `q (0, v) conj(q)`, whose scalar part (which the code drops) is always zero. -/
theorem C55_sandwich [CommRing T] (r : Rotation3 T) (v : Vec T 3) :
    Quat.fromScalarAndVector3 0 (Transform.apply r v) =
      r.intoQuaternion * Quat.fromScalarAndVector3 0 v * r.intoQuaternion.conj := by
  have h := Rotation3.sandwich_w r v
  simp only [Rotation3.intoQuaternion]
  apply Quat.ext'
  · rw [h]; simp
  · rw [Rotation3.apply_eq]; simp
  · rw [Rotation3.apply_eq]; simp
  · rw [Rotation3.apply_eq]; simp
/-- `q` and `-q` are the same rotation … -/
theorem C55_double_cover [CommRing T] (r : Rotation3 T) (v : Vec T 3) :
    Transform.apply (Rotation3.fromQuaternion (-r.intoQuaternion)) v = Transform.apply r v := by
  apply Vec.ext3 <;> simp only [Rotation3.apply_0, Rotation3.apply_1, Rotation3.apply_2, Rotation3.fromQuaternion,
    Rotation3.intoQuaternion, Quat.w_neg, Quat.x_neg, Quat.y_neg, Quat.z_neg] <;> ring
/-- … and, over an ordered field, no other unit quaternion is. -/
theorem C55_double_cover_exact [Field T] [LinearOrder T] [IsStrictOrderedRing T] (r s : Rotation3 T)
    (hr : r.intoQuaternion.normSqr = 1) (hs : s.intoQuaternion.normSqr = 1)
    (h : ∀ v : Vec T 3, Transform.apply r v = Transform.apply s v) :
    r.intoQuaternion = s.intoQuaternion ∨ r.intoQuaternion = -s.intoQuaternion := by
  -- `p = conj(s) r` commutes with `i`, `j` and `k`, so it is a scalar
  obtain ⟨-, hch, hinv, -, hcu, hiu, -⟩ := C55_group (T := T)
  let t := Transform.chain (Vec T 3) (Transform.inv (Vec T 3) s) r
  have ht : ∀ v, Transform.apply t v = v := fun v => by
    rw [show t = _ from rfl, hch, h, (hinv s hs v).1]
  have hu : t.quat.normSqr = 1 := hcu _ _ (hiu s hs) hr
  rw [Quat.normSqr_eq] at hu
  have e0 := ht (Vec.fromTuple3 (1, 0, 0))
  have e1 := ht (Vec.fromTuple3 (0, 1, 0))
  have e00 := Vec.getElem_congr_vec e0 0 (by omega)
  have e11 := Vec.getElem_congr_vec e1 1 (by omega)
  rw [Rotation3.apply_0] at e00
  rw [Rotation3.apply_1] at e11
  simp at e00 e11
  have hyz : t.quat.y * t.quat.y + t.quat.z * t.quat.z = 0 := by linarith
  have hxz : t.quat.x * t.quat.x + t.quat.z * t.quat.z = 0 := by linarith
  have hx : t.quat.x = 0 := by nlinarith [mul_self_nonneg t.quat.x, mul_self_nonneg t.quat.z]
  have hy : t.quat.y = 0 := by nlinarith [mul_self_nonneg t.quat.y, mul_self_nonneg t.quat.z]
  have hz : t.quat.z = 0 := by nlinarith [mul_self_nonneg t.quat.x, mul_self_nonneg t.quat.z]
  have hw : t.quat.w = 1 ∨ t.quat.w = -1 := by
    rw [hx, hy, hz] at hu
    exact mul_self_eq_one_iff.mp (by linarith)
  have hrs : r.quat = s.quat * t.quat := by
    have : s.quat * (s.quat.conj * r.quat) = r.quat := by
      rw [← mul_assoc, Quat.mul_conj, show s.quat.normSqr = 1 from hs]
      exact one_mul r.quat
    exact this.symm
  have hs1 : s.quat * Quat.new 1 0 0 0 = s.quat := mul_one s.quat
  rcases hw with hw | hw
  · left
    show r.quat = s.quat
    rw [hrs, show t.quat = Quat.new 1 0 0 0 from Quat.ext' (by simp [hw]) (by simp [hx]) (by simp [hy]) (by simp [hz]), hs1]
  · right
    show r.quat = -s.quat
    rw [hrs, show t.quat = -Quat.new 1 0 0 0 from Quat.ext' (by simp [hw]) (by simp [hx]) (by simp [hy]) (by simp [hz]),
      mul_neg, hs1]
theorem C55_to_linear [Field T] (r s : Rotation3 T) (hr : r.intoQuaternion.normSqr = 1) (v : Vec T 3) :
    Transform.apply r.toLinear v = Transform.apply r v ∧
    r.toLinear.intoMatrix.det = 1 ∧
    r.toLinear.intoMatrix.transpose.dotM r.toLinear.intoMatrix = 1 ∧
    r.toLinear.intoMatrix.dotM r.toLinear.intoMatrix.transpose = 1 ∧
    (s.intoQuaternion.normSqr = 1 →
      (Transform.chain (Vec T 3) r s).toLinear = Transform.chain (Vec T 3) r.toLinear s.toLinear) := by
  have hr' := hr
  rw [Quat.normSqr_eq] at hr
  simp only [Rotation3.intoQuaternion] at hr
  generalize hw : r.quat.w = a at hr
  generalize hx : r.quat.x = b at hr
  generalize hy : r.quat.y = c at hr
  generalize hz : r.quat.z = d at hr
  have happ : ∀ r : Rotation3 T, r.intoQuaternion.normSqr = 1 → ∀ v : Vec T 3, Transform.apply r.toLinear v = Transform.apply r v := by
    intro r hr v
    rw [Quat.normSqr_eq] at hr
    simp only [Rotation3.intoQuaternion] at hr
    apply Vec.coords_inj
    rw [Linear.apply_coords, Rotation3.toMatrix_toLinear]
    funext i
    fin_cases i
    · show _ = (Transform.apply r v)[0]
      rw [Rotation3.apply_0]; simp [Matrix.mulVec, coords, dotProduct, Fin.sum_univ_three]
      linear_combination -v[0] * hr
    · show _ = (Transform.apply r v)[1]
      rw [Rotation3.apply_1]; simp [Matrix.mulVec, coords, dotProduct, Fin.sum_univ_three]
      linear_combination -v[1] * hr
    · show _ = (Transform.apply r v)[2]
      rw [Rotation3.apply_2]; simp [Matrix.mulVec, coords, dotProduct, Fin.sum_univ_three]
      linear_combination -v[2] * hr
  have ha : a * a = 1 - b * b - c * c - d * d := by linear_combination hr
  have htm : r.toLinear.lin.transpose.dotM r.toLinear.lin = 1 := by
    apply Mat.toMatrix_inj
    rw [Mat.toMatrix_dotM, Mat.toMatrix_transpose, Mat.toMatrix_one]
    simp only [Rotation3.toMatrix_toLinear, hw, hx, hy, hz, two_eq]
    ext i j; fin_cases i <;> fin_cases j <;> simp [Matrix.mul_apply, Fin.sum_univ_three]
    · linear_combination (4 * (c * c + d * d)) * ha
    · linear_combination (-4 * b * c) * ha
    · linear_combination (-4 * b * d) * ha
    · linear_combination (-4 * b * c) * ha
    · linear_combination (4 * (b * b + d * d)) * ha
    · linear_combination (-4 * c * d) * ha
    · linear_combination (-4 * b * d) * ha
    · linear_combination (-4 * c * d) * ha
    · linear_combination (4 * (b * b + c * c)) * ha
  refine ⟨happ r hr' v, ?_, htm, ?_, fun hs => ?_⟩
  · show r.toLinear.lin.det = 1
    rw [Mat.det_eq, Rotation3.toMatrix_toLinear, Matrix.det_fin_three]
    simp only [hw, hx, hy, hz, two_eq]
    simp
    linear_combination (4 * (b * b + c * c + d * d) - 8 * 0) * ha
  · apply Mat.toMatrix_inj
    rw [Mat.toMatrix_dotM, Mat.toMatrix_transpose, Mat.toMatrix_one]
    apply mul_eq_one_comm.mp
    rw [← Mat.toMatrix_transpose, ← Mat.toMatrix_dotM, ← Mat.toMatrix_one]
    exact congrArg Mat.toMatrix htm
  · obtain ⟨-, hch, -, -, hcu, -, -⟩ := C55_group (T := T)
    apply Linear.ext; apply Mat.toMatrix_inj
    have key : ∀ v : Vec T 3, Transform.apply (Transform.chain (Vec T 3) r s).toLinear v =
        Transform.apply (Transform.chain (Vec T 3) r.toLinear s.toLinear) v := by
      intro v
      rw [happ _ (hcu _ _ hr' hs), hch, C53_linear_group.2.1, happ r hr', happ s hs]
    have key2 : ∀ x : Fin 3 → T, (Transform.chain (Vec T 3) r s).toLinear.lin.toMatrix.mulVec x =
        (Transform.chain (Vec T 3) r.toLinear s.toLinear).lin.toMatrix.mulVec x := by
      intro x
      have := congrArg coords (key (ofCoords x))
      rwa [Linear.apply_coords, Linear.apply_coords, Vec.coords_ofCoords] at this
    exact Matrix.ext_of_mulVec_single fun j => key2 _
/-- The unit condition is needed: for other quaternions `to_linear` and `apply` differ. -/
theorem C55_to_linear_needs_unit_refuted : ∃ (r : Rotation3 ℚ) (v : Vec ℚ 3), Transform.apply r.toLinear v ≠ Transform.apply r v := by
  have gen : ∀ (r : Rotation3 ℚ) (v : Vec ℚ 3), r = Rotation3.fromQuaternion (Quat.new 2 0 0 0) → v = Vec.fromTuple3 (1, 0, 0) →
      Transform.apply r.toLinear v ≠ Transform.apply r v := by
    intro r v hr hv h
    have h1 := congrFun (congrArg coords h) 0
    rw [Linear.apply_coords, Rotation3.toMatrix_toLinear] at h1
    have h2 : (coords (Transform.apply r v) 0) = 4 := by
      show (Transform.apply r v)[0] = 4
      rw [Rotation3.apply_0, hr, hv]; simp [Rotation3.fromQuaternion]; norm_num
    rw [h2, hr, hv] at h1
    simp [Matrix.mulVec, dotProduct, Fin.sum_univ_three, coords, Rotation3.fromQuaternion] at h1
  exact ⟨_, _, gen _ _ rfl rfl⟩

example : (Rotation3.fromQuaternion (Quat.new (1 / 2 : ℚ) (1 / 2) (1 / 2) (1 / 2))).intoQuaternion.normSqr = 1 := by
  rw [Quat.normSqr_eq]; simp [Rotation3.fromQuaternion, Rotation3.intoQuaternion]; norm_num

/-! ## C56 axis and angle -/

/-- Rodrigues' formula: `v cos t + (k × v) sin t + k (k·v) (1 - cos t)`. -/
noncomputable def Spec.rodrigues (k : Vec ℝ 3) (t : ℝ) (v : Vec ℝ 3) : Vec ℝ 3 :=
  (v.mulS (Real.cos t) + (k.cross3 v).mulS (Real.sin t)) + k.mulS (k.dot v * (1 - Real.cos t))

private theorem unit3 {k : Vec ℝ 3} (hk : k.length = 1) : k[0] * k[0] + k[1] * k[1] + k[2] * k[2] = 1 := by
  rw [← Vec.squareLength3, (C19_dot_self k).2.1, hk]; norm_num
theorem Rotation3.quat_new (k : Vec ℝ 3) (t : ℝ) : (Rotation3.new k t).quat.w = Real.cos (t / 2) ∧
    (Rotation3.new k t).quat.x = k[0] * Real.sin (t / 2) ∧ (Rotation3.new k t).quat.y = k[1] * Real.sin (t / 2) ∧
    (Rotation3.new k t).quat.z = k[2] * Real.sin (t / 2) := by
  simp [Rotation3.new]
theorem C56_unit (k : Vec ℝ 3) (t : ℝ) (hk : k.length = 1) : (Rotation3.new k t).intoQuaternion.normSqr = 1 := by
  have h1 := unit3 hk
  have h2 := Real.sin_sq_add_cos_sq (t / 2)
  obtain ⟨hw, hx, hy, hz⟩ := Rotation3.quat_new k t
  rw [Quat.normSqr_eq, Rotation3.intoQuaternion, hw, hx, hy, hz]
  linear_combination (Real.sin (t / 2)) ^ 2 * h1 + h2
theorem C56_rodrigues (k : Vec ℝ 3) (t : ℝ) (v : Vec ℝ 3) (hk : k.length = 1) :
    Transform.apply (Rotation3.new k t) v = Spec.rodrigues k t v := by
  have h1 := unit3 hk
  have h2 := Real.sin_sq_add_cos_sq (t / 2)
  have hc : Real.cos t = Real.cos (t / 2) ^ 2 - Real.sin (t / 2) ^ 2 := by
    conv_lhs => rw [show t = 2 * (t / 2) by ring]
    rw [Real.cos_two_mul]; linarith
  have hs : Real.sin t = 2 * Real.sin (t / 2) * Real.cos (t / 2) := by
    conv_lhs => rw [show t = 2 * (t / 2) by ring]
    rw [Real.sin_two_mul]
  obtain ⟨hw, hx, hy, hz⟩ := Rotation3.quat_new k t
  generalize Real.cos (t / 2) = c at *
  generalize Real.sin (t / 2) = s at *
  apply Vec.ext3 <;>
    simp only [Rotation3.apply_0, Rotation3.apply_1, Rotation3.apply_2, Spec.rodrigues, Vec.getElem_add, Vec.getElem_mulS,
      Vec.cross3_0, Vec.cross3_1, Vec.cross3_2, Vec.dot3, hw, hx, hy, hz, hc, hs]
  · linear_combination (-(s ^ 2) * v[0]) * h1 + (k[0] * (k[0] * v[0] + k[1] * v[1] + k[2] * v[2])) * h2
  · linear_combination (-(s ^ 2) * v[1]) * h1 + (k[1] * (k[0] * v[0] + k[1] * v[1] + k[2] * v[2])) * h2
  · linear_combination (-(s ^ 2) * v[2]) * h1 + (k[2] * (k[0] * v[0] + k[1] * v[1] + k[2] * v[2])) * h2
/-- In particular the axis is fixed and vectors orthogonal to it turn counter-clockwise by the angle. -/
theorem C56_axis_fixed (k : Vec ℝ 3) (t : ℝ) (v : Vec ℝ 3) (hk : k.length = 1) :
    Transform.apply (Rotation3.new k t) k = k ∧
    (k.dot v = 0 → Transform.apply (Rotation3.new k t) v = v.mulS (Real.cos t) + (k.cross3 v).mulS (Real.sin t)) := by
  have h1 := unit3 hk
  constructor
  · rw [C56_rodrigues _ _ _ hk]
    apply Vec.ext3 <;>
      simp only [Spec.rodrigues, Vec.getElem_add, Vec.getElem_mulS, Vec.cross3_0, Vec.cross3_1, Vec.cross3_2, Vec.dot3]
    · linear_combination (k[0] * (1 - Real.cos t)) * h1
    · linear_combination (k[1] * (1 - Real.cos t)) * h1
    · linear_combination (k[2] * (1 - Real.cos t)) * h1
  · intro h
    rw [C56_rodrigues _ _ _ hk, Spec.rodrigues, h]
    apply Vec.ext_getElem; simp
theorem C56_chain (k : Vec ℝ 3) (s t : ℝ) (hk : k.length = 1) :
    Transform.chain (Vec ℝ 3) (Rotation3.new k s) (Rotation3.new k t) = Rotation3.new k (s + t) ∧
    Transform.inv (Vec ℝ 3) (Rotation3.new k t) = Rotation3.new k (-t) ∧
    Rotation3.new k 0 = Transform.identity (Vec ℝ 3) := by
  have h1 := unit3 hk
  obtain ⟨hw, hx, hy, hz⟩ := Rotation3.quat_new k s
  obtain ⟨hw', hx', hy', hz'⟩ := Rotation3.quat_new k t
  obtain ⟨gw, gx, gy, gz⟩ := Rotation3.quat_new k (s + t)
  obtain ⟨nw, nx, ny, nz⟩ := Rotation3.quat_new k (-t)
  obtain ⟨zw, zx, zy, zz⟩ := Rotation3.quat_new k 0
  have hcos : Real.cos ((s + t) / 2) = Real.cos (s / 2) * Real.cos (t / 2) - Real.sin (s / 2) * Real.sin (t / 2) := by
    rw [add_div, Real.cos_add]
  have hsin : Real.sin ((s + t) / 2) = Real.sin (s / 2) * Real.cos (t / 2) + Real.cos (s / 2) * Real.sin (t / 2) := by
    rw [add_div, Real.sin_add]
  refine ⟨Rotation3.ext ?_, Rotation3.ext ?_, Rotation3.ext ?_⟩
  · rw [Rotation3.quat_chain]
    apply Quat.ext' <;> simp only [Quat.w_mul, Quat.x_mul, Quat.y_mul, Quat.z_mul, hw, hx, hy, hz, hw', hx', hy', hz', gw, gx,
      gy, gz, hcos, hsin]
    · linear_combination (-(Real.sin (s / 2) * Real.sin (t / 2))) * h1
    · ring
    · ring
    · ring
  · rw [Rotation3.quat_inv]
    apply Quat.ext' <;> simp only [Quat.w_conj, Quat.x_conj, Quat.y_conj, Quat.z_conj, hw', hx', hy', hz', nw, nx, ny, nz] <;>
      simp [neg_div]
  · rw [Rotation3.quat_identity]
    apply Quat.ext' <;> simp [zw, zx, zy, zz]
/-- `angle` and `axis` recover what `new` was given. -/
theorem C56_axis_angle (k : Vec ℝ 3) (t : ℝ) (hk : k.length = 1) :
    (0 ≤ t → t ≤ 2 * Real.pi → (Rotation3.new k t).angle = t) ∧
    (0 < t → t < 2 * Real.pi → (Rotation3.new k t).axis = k) := by
  have h1 := unit3 hk
  obtain ⟨hw, hx, hy, hz⟩ := Rotation3.quat_new k t
  have hv : (Rotation3.new k t).quat.intoScalarAndVector3.2 = k.mulS (Real.sin (t / 2)) := by
    apply Vec.ext3
    · rw [Quat.sv_0, hx]; simp
    · rw [Quat.sv_1, hy]; simp
    · rw [Quat.sv_2, hz]; simp
  have hlen : 0 ≤ Real.sin (t / 2) → (k.mulS (Real.sin (t / 2))).length = Real.sin (t / 2) := by
    intro hs
    show FloatOps.sqrt _ = _
    rw [Vec.squareLength3, sqrt_real]
    simp only [Vec.getElem_mulS]
    rw [show k[0] * Real.sin (t / 2) * (k[0] * Real.sin (t / 2)) + k[1] * Real.sin (t / 2) * (k[1] * Real.sin (t / 2)) +
      k[2] * Real.sin (t / 2) * (k[2] * Real.sin (t / 2)) = Real.sin (t / 2) ^ 2 by
        linear_combination (Real.sin (t / 2) ^ 2) * h1, Real.sqrt_sq hs]
  constructor
  · intro h0 h2
    have hs : 0 ≤ Real.sin (t / 2) := Real.sin_nonneg_of_nonneg_of_le_pi (by linarith) (by linarith)
    have := Complex.arg_cos_add_sin_mul_I (θ := t / 2) ⟨by linarith [Real.pi_pos], by linarith⟩
    show two * FloatOps.atan2 (Rotation3.new k t).quat.intoScalarAndVector3.2.length _ = t
    rw [hv, hlen hs, Quat.sv_fst, hw, atan2_real, two_eq]
    have e : (⟨Real.cos (t / 2), Real.sin (t / 2)⟩ : ℂ) = Complex.cos ((t / 2 : ℝ) : ℂ) + Complex.sin ((t / 2 : ℝ) : ℂ) * Complex.I := by
      rw [← Complex.ofReal_cos, ← Complex.ofReal_sin]; apply Complex.ext <;> simp only [Complex.add_re, Complex.add_im, Complex.re_ofReal_mul, Complex.im_ofReal_mul, Complex.ofReal_re, Complex.ofReal_im, Complex.I_re, Complex.I_im] <;> ring
    rw [e, this]; ring
  · intro h0 h2
    have hs : 0 < Real.sin (t / 2) := Real.sin_pos_of_pos_of_lt_pi (by linarith) (by linarith)
    show (Rotation3.new k t).quat.intoScalarAndVector3.2.normalize = k
    rw [hv]
    apply Vec.ext_getElem
    intro i hi
    simp only [Vec.normalize, Vec.getElem_divS, Vec.getElem_mulS, hlen hs.le]
    exact mul_div_cancel_right₀ _ (ne_of_gt hs)
/-- Conversely every unit quaternion that is not `±1` is `new(axis, angle)`, with a unit axis and an angle in `[0, 2π]`. -/
theorem C56_decompose (r : Rotation3 ℝ) (hr : r.intoQuaternion.normSqr = 1) (hv : r.intoQuaternion.xyz ≠ 0) :
    r.axis.length = 1 ∧ 0 ≤ r.angle ∧ r.angle ≤ 2 * Real.pi ∧ Rotation3.new r.axis r.angle = r := by
  have hv' : r.quat.intoScalarAndVector3.2 ≠ 0 := hv
  obtain ⟨hl, -, hm⟩ := C20_normalize _ hv'
  have hlp := (C20_length_pos _).2 hv'
  rw [Quat.normSqr_eq] at hr
  simp only [Rotation3.intoQuaternion] at hr
  have hsq : r.quat.intoScalarAndVector3.2.length ^ 2 = r.quat.x * r.quat.x + r.quat.y * r.quat.y + r.quat.z * r.quat.z := by
    rw [← (C19_dot_self _).2.1, Vec.squareLength3]; simp
  have hang : r.angle = 2 * Complex.arg ⟨r.quat.w, r.quat.intoScalarAndVector3.2.length⟩ := by
    show two * FloatOps.atan2 _ _ = _
    simp
  set L := r.quat.intoScalarAndVector3.2.length with hL
  have hn : ‖(⟨r.quat.w, L⟩ : ℂ)‖ = 1 := by
    rw [Complex.norm_def, Complex.normSq_mk, show r.quat.w * r.quat.w + L * L = 1 by nlinarith, Real.sqrt_one]
  have hz : (⟨r.quat.w, L⟩ : ℂ) ≠ 0 := by intro e; rw [e] at hn; simp at hn
  have h0 : 0 ≤ Complex.arg ⟨r.quat.w, L⟩ := Complex.arg_nonneg_iff.2 hlp.le
  refine ⟨hl, by rw [hang]; linarith, by rw [hang]; linarith [Complex.arg_le_pi ⟨r.quat.w, L⟩], Rotation3.ext ?_⟩
  obtain ⟨gw, gx, gy, gz⟩ := Rotation3.quat_new r.axis r.angle
  have hhalf : r.angle / 2 = Complex.arg ⟨r.quat.w, L⟩ := by rw [hang]; ring
  have hcos : Real.cos (r.angle / 2) = r.quat.w := by rw [hhalf, Complex.cos_arg hz, hn]; simp
  have hsin : Real.sin (r.angle / 2) = L := by rw [hhalf, Complex.sin_arg, hn]; simp
  have m0 := Vec.getElem_congr_vec hm 0 (by omega)
  have m1 := Vec.getElem_congr_vec hm 1 (by omega)
  have m2 := Vec.getElem_congr_vec hm 2 (by omega)
  simp only [Vec.getElem_mulS, Quat.sv_0, Quat.sv_1, Quat.sv_2] at m0 m1 m2
  apply Quat.ext'
  · rw [gw, hcos]
  · rw [gx, hsin]; exact m0
  · rw [gy, hsin]; exact m1
  · rw [gz, hsin]; exact m2

example : (Vec.fromTuple3 ((0 : ℝ), 0, 1)).length = 1 := by
  show Real.sqrt (Vec.squareLength _) = 1
  rw [Vec.squareLength3]; simp
example : (Rotation3.fromQuaternion (Quat.new (0 : ℝ) 1 0 0)).intoQuaternion.normSqr = 1 ∧
    (Rotation3.fromQuaternion (Quat.new (0 : ℝ) 1 0 0)).intoQuaternion.xyz ≠ 0 := by
  constructor
  · rw [Quat.normSqr_eq]; simp [Rotation3.fromQuaternion, Rotation3.intoQuaternion]
  · intro h
    have := Vec.getElem_congr_vec h 0 (by omega)
    rw [show (Rotation3.fromQuaternion (Quat.new (0 : ℝ) 1 0 0)).intoQuaternion.xyz[0] = _ from Quat.sv_0 _] at this
    simp [Rotation3.fromQuaternion, Rotation3.intoQuaternion] at this

/-! ## C57 `look_at` -/

/-- A rotation matrix: orthogonal with determinant 1. -/
def Spec.IsRotation (A : Mat ℝ 3 3) : Prop := A.transpose.dotM A = 1 ∧ A.dotM A.transpose = 1 ∧ A.det = 1

set_option maxHeartbeats 1000000 in
theorem C57_linear_look_at (dir up : Vec ℝ 3) (hd : dir.length = 1) (hp : dir.cross3 up ≠ 0) :
    let l := Linear.lookAt dir up
    Spec.IsRotation l.intoMatrix ∧
    Transform.apply l (Vec.fromTuple3 (0, 0, -1)) = dir ∧
    (Transform.apply l (Vec.fromTuple3 (1, 0, 0))).dot up = 0 ∧
    (∃ a b : ℝ, 0 < a ∧ Transform.apply l (Vec.fromTuple3 (0, 1, 0)) = up.mulS a + dir.mulS b) := by
  intro l
  have h1 := unit3 hd
  obtain ⟨hrl, -, hrm⟩ := C20_normalize _ hp
  have hLp := (C20_length_pos _).2 hp
  have hr := unit3 hrl
  have hm : l.lin.toMatrix = _ := Mat.toMatrix_cols3 ((dir.cross3 up).normalize) (((dir.cross3 up).normalize).cross3 dir) (-dir)
  have m0 := Vec.getElem_congr_vec hrm 0 (by omega)
  have m1 := Vec.getElem_congr_vec hrm 1 (by omega)
  have m2 := Vec.getElem_congr_vec hrm 2 (by omega)
  simp only [Vec.getElem_mulS, Vec.cross3_0, Vec.cross3_1, Vec.cross3_2] at m0 m1 m2
  generalize (dir.cross3 up).normalize = r at *
  generalize (dir.cross3 up).length = L at *
  simp only [Vec.cross3_0, Vec.cross3_1, Vec.cross3_2, Vec.getElem_neg] at hm
  have hne : L ≠ 0 := ne_of_gt hLp
  have hdr : dir[0] * r[0] + dir[1] * r[1] + dir[2] * r[2] = 0 := by
    apply mul_right_cancel₀ hne
    linear_combination dir[0] * m0 + dir[1] * m1 + dir[2] * m2
  have hur : up[0] * r[0] + up[1] * r[1] + up[2] * r[2] = 0 := by
    apply mul_right_cancel₀ hne
    linear_combination up[0] * m0 + up[1] * m1 + up[2] * m2
  have hcol : ∀ v : Vec ℝ 3, coords (Transform.apply l v) = l.lin.toMatrix.mulVec (coords v) := fun v => Linear.apply_coords l v
  have hsum : ∀ v : Vec ℝ 3, (Transform.apply l v)[0] = r[0] * v[0] + (r[1] * dir[2] - r[2] * dir[1]) * v[1] - dir[0] * v[2] ∧
      (Transform.apply l v)[1] = r[1] * v[0] + (r[2] * dir[0] - r[0] * dir[2]) * v[1] - dir[1] * v[2] ∧
      (Transform.apply l v)[2] = r[2] * v[0] + (r[0] * dir[1] - r[1] * dir[0]) * v[1] - dir[2] * v[2] := by
    intro v
    have h0 := congrFun (hcol v) 0
    have h1 := congrFun (hcol v) 1
    have h2 := congrFun (hcol v) 2
    rw [hm] at h0 h1 h2
    simp [Matrix.mulVec, dotProduct, Fin.sum_univ_three, coords] at h0 h1 h2
    exact ⟨by rw [h0]; ring, by rw [h1]; ring, by rw [h2]; ring⟩
  have htm : l.lin.toMatrix.transpose * l.lin.toMatrix = 1 := by
    rw [hm]
    ext i j; fin_cases i <;> fin_cases j <;> simp [Matrix.mul_apply, Fin.sum_univ_three]
    · linear_combination hr
    · ring
    · linear_combination -hdr
    · ring
    · linear_combination (dir[0] * dir[0] + dir[1] * dir[1] + dir[2] * dir[2]) * hr + h1 -
        (dir[0] * r[0] + dir[1] * r[1] + dir[2] * r[2]) * hdr
    · ring
    · linear_combination -hdr
    · ring
    · linear_combination h1
  refine ⟨⟨?_, ?_, ?_⟩, ?_, ?_, ⟨1 / L, -(dir[0] * up[0] + dir[1] * up[1] + dir[2] * up[2]) / L, by positivity, ?_⟩⟩
  · apply Mat.toMatrix_inj
    rw [Mat.toMatrix_dotM, Mat.toMatrix_transpose, Mat.toMatrix_one]; exact htm
  · apply Mat.toMatrix_inj
    rw [Mat.toMatrix_dotM, Mat.toMatrix_transpose, Mat.toMatrix_one]; exact mul_eq_one_comm.mp htm
  · rw [show l.intoMatrix = l.lin from rfl, Mat.det_eq, hm, Matrix.det_fin_three]
    simp
    linear_combination (dir[0] * dir[0] + dir[1] * dir[1] + dir[2] * dir[2]) * hr + h1 -
        (dir[0] * r[0] + dir[1] * r[1] + dir[2] * r[2]) * hdr
  · obtain ⟨e0, e1, e2⟩ := hsum (Vec.fromTuple3 (0, 0, -1))
    apply Vec.ext3
    · rw [e0]; simp
    · rw [e1]; simp
    · rw [e2]; simp
  · obtain ⟨e0, e1, e2⟩ := hsum (Vec.fromTuple3 (1, 0, 0))
    rw [Vec.dot3, e0, e1, e2]; simp
    linear_combination hur
  · obtain ⟨e0, e1, e2⟩ := hsum (Vec.fromTuple3 (0, 1, 0))
    apply Vec.ext3
    · rw [e0]; simp
      apply mul_right_cancel₀ hne; field_simp
      linear_combination dir[2] * m1 - dir[1] * m2 + up[0] * h1
    · rw [e1]; simp
      apply mul_right_cancel₀ hne; field_simp
      linear_combination dir[0] * m2 - dir[2] * m0 + up[1] * h1
    · rw [e2]; simp
      apply mul_right_cancel₀ hne; field_simp
      linear_combination dir[1] * m0 - dir[0] * m1 + up[2] * h1

theorem C57_linear_look_at_any (dir : Vec ℝ 3) (hd : dir.length = 1) :
    Spec.IsRotation (Linear.lookAtAny dir).intoMatrix ∧
    Transform.apply (Linear.lookAtAny dir) (Vec.fromTuple3 (0, 0, -1)) = dir := by
  have h1 := unit3 hd
  unfold Linear.lookAtAny
  split
  · next h =>
    rw [rlt_iff, fabs_real, Vec.z_eq, half_eq, abs_lt] at h
    have := C57_linear_look_at dir (Vec.fromArray #v[0, 0, 1]) hd (fun e => by
      have e0 := Vec.getElem_congr_vec e 0 (by omega)
      have e1 := Vec.getElem_congr_vec e 1 (by omega)
      simp at e0 e1
      rw [e0, e1] at h1
      nlinarith)
    exact ⟨this.1, this.2.1⟩
  · next h =>
    rw [rlt_iff, fabs_real, Vec.z_eq, half_eq, not_lt] at h
    have := C57_linear_look_at dir (Vec.fromArray #v[0, 1, 0]) hd (fun e => by
      have e0 := Vec.getElem_congr_vec e 0 (by omega)
      simp at e0
      rw [e0] at h; simp at h; norm_num at h)
    exact ⟨this.1, this.2.1⟩
/-- The documentation of `Linear::look_at_any` says it rotates `dir` to `-z`; it does not. -/
theorem C57_doc_refuted : ∃ dir : Vec ℝ 3, dir.length = 1 ∧ Transform.apply (Linear.lookAtAny dir) dir ≠ Vec.fromTuple3 (0, 0, -1) := by
  have hd : (Vec.fromTuple3 ((0 : ℝ), 1, 0)).length = 1 := by
    show Real.sqrt (Vec.squareLength _) = 1
    rw [Vec.squareLength3]; simp
  -- if it did, applying it twice would take `dir` back to itself through `-z`; but `-z` goes to `dir` and `dir` to `-z`
  refine ⟨_, hd, fun h => ?_⟩
  have hl : Linear.lookAtAny (Vec.fromTuple3 ((0 : ℝ), 1, 0)) = Linear.lookAt (Vec.fromTuple3 ((0 : ℝ), 1, 0)) (Vec.fromArray #v[0, 0, 1]) := by
    unfold Linear.lookAtAny
    rw [if_pos]
    rw [rlt_iff, fabs_real, Vec.z_eq, half_eq]; simp
  have hne : (Vec.fromTuple3 ((0 : ℝ), 1, 0)).cross3 (Vec.fromArray #v[0, 0, 1]) ≠ 0 := fun e => by
    have e0 := Vec.getElem_congr_vec e 0 (by omega)
    simp at e0
  obtain ⟨-, -, h3, a, b, ha, h4⟩ := C57_linear_look_at _ _ hd hne
  rw [hl, show (Vec.fromTuple3 ((0 : ℝ), 1, 0)) = Vec.fromTuple3 (0, 1, 0) from rfl, h4] at h
  have := Vec.getElem_congr_vec h 2 (by omega)
  simp at this
  linarith

/-! ### `Rotation3::look_at_any` -/

private theorem cont_ok (n : Nat) (dir : Vec ℝ 3) (hd : dir.length = 1) (hz : dir[2] ≤ 0) :
    ∃ r : Rotation3 ℝ, Rotation3.lookAtAnyContR (n + 1) dir = .ok r ∧ r.intoQuaternion.normSqr = 1 ∧
      Transform.apply r (Vec.fromTuple3 (0, 0, -1)) = dir := by
  have h1 := unit3 hd
  have hdot : (Vec.fromTuple3 ((0 : ℝ), 0, -1)).dot dir = -dir[2] := by rw [Vec.dot3]; simp
  rw [Rotation3.lookAtAnyContR]
  simp only [hdot]
  rw [if_neg (by rw [rlt_iff]; linarith)]
  refine ⟨_, rfl, ?_⟩
  obtain ⟨d0, hd0⟩ : ∃ d : ℝ, d = dir[0] := ⟨_, rfl⟩
  obtain ⟨d1, hd1⟩ : ∃ d : ℝ, d = dir[1] := ⟨_, rfl⟩
  obtain ⟨d2, hd2⟩ : ∃ d : ℝ, d = dir[2] := ⟨_, rfl⟩
  obtain ⟨C, hC⟩ : ∃ C : ℝ, C = FloatOps.sqrt ((1 + -d2) / two) := ⟨_, rfl⟩
  rw [← hd0, ← hd1, ← hd2] at h1
  rw [← hd2] at hz ⊢
  rw [← hC]
  have hC2 : C ^ 2 = (1 - d2) / 2 := by
    rw [hC, sqrt_real, two_eq, Real.sq_sqrt (by linarith)]; ring
  have hCp : 0 < C := by
    rw [hC, sqrt_real, two_eq]; exact Real.sqrt_pos.2 (by linarith)
  have hCne : C ≠ 0 := ne_of_gt hCp
  obtain ⟨r, hr⟩ : ∃ r : Rotation3 ℝ, r = Rotation3.fromQuaternion (Quat.fromScalarAndVector3 C
    (((Vec.fromTuple3 ((0 : ℝ), 0, -1)).cross3 dir).mulS (1 / (two * C)))) := ⟨_, rfl⟩
  rw [← hr]
  have hw : r.quat.w = C := by rw [hr]; simp [Rotation3.fromQuaternion]
  have hx : r.quat.x = d1 / (2 * C) := by rw [hr, hd1]; simp [Rotation3.fromQuaternion]; ring
  have hy : r.quat.y = -d0 / (2 * C) := by rw [hr, hd0]; simp [Rotation3.fromQuaternion]; ring
  have hzz : r.quat.z = 0 := by rw [hr]; simp [Rotation3.fromQuaternion]
  have hxy : d0 ^ 2 + d1 ^ 2 = 4 * C ^ 2 - 4 * C ^ 4 := by
    have : C ^ 4 = ((1 - d2) / 2) ^ 2 := by rw [← hC2]; ring
    rw [this, hC2]; linear_combination h1
  constructor
  · rw [Quat.normSqr_eq, Rotation3.intoQuaternion, hw, hx, hy, hzz]
    field_simp
    linear_combination hxy
  · apply Vec.ext3
    · rw [Rotation3.apply_0, hw, hx, hy, hzz, ← hd0]; simp; field_simp
    · rw [Rotation3.apply_1, hw, hx, hy, hzz, ← hd1]; simp; field_simp
    · rw [Rotation3.apply_2, hw, hx, hy, hzz, ← hd2]; simp; field_simp
      have : d2 = 1 - 2 * C ^ 2 := by rw [hC2]; ring
      rw [this]; linear_combination hxy

private theorem length_neg (v : Vec ℝ 3) : (-v).length = v.length := by
  show Real.sqrt _ = Real.sqrt _
  rw [Vec.squareLength3, Vec.squareLength3]; simp

/-- For every unit direction the recursion ends (two nested calls are enough, so any larger recursion limit gives the same
result), and the result is a unit quaternion that rotates `-z` to the direction. -/
theorem C57_rotation_look_at_any (dir : Vec ℝ 3) (hd : dir.length = 1) :
    ∃ r : Rotation3 ℝ, (∀ fuel, 2 ≤ fuel → Rotation3.lookAtAnyR fuel dir = .ok r) ∧ r.intoQuaternion.normSqr = 1 ∧
      Transform.apply r (Vec.fromTuple3 (0, 0, -1)) = dir := by
  obtain ⟨-, hch, -, -, hcu, -, -⟩ := C55_group (T := ℝ)
  by_cases hz : dir[2] < 0
  · obtain ⟨r, hr, hu, ha⟩ := cont_ok 0 dir hd hz.le
    refine ⟨r, fun fuel hf => ?_, hu, ha⟩
    obtain ⟨n, rfl⟩ : ∃ n, fuel = n + 2 := ⟨fuel - 2, by omega⟩
    obtain ⟨r', hr', -⟩ := cont_ok n dir hd hz.le
    rw [Rotation3.lookAtAnyR, if_pos (by rw [rlt_iff, Vec.z_eq]; exact hz), ← hr]
    rw [Rotation3.lookAtAnyContR, Rotation3.lookAtAnyContR]
    have hdot : (Vec.fromTuple3 ((0 : ℝ), 0, -1)).dot dir = -dir[2] := by rw [Vec.dot3]; simp
    simp only [hdot]
    rw [if_neg (by rw [rlt_iff]; linarith), if_neg (by rw [rlt_iff]; linarith)]
  · push Not at hz
    obtain ⟨r, hr, hu, ha⟩ := cont_ok 0 (-dir) (by rw [length_neg, hd]) (by simpa using hz)
    have hx : (Vec.fromTuple3 ((1 : ℝ), 0, 0)).length = 1 := by
      show Real.sqrt (Vec.squareLength _) = 1
      rw [Vec.squareLength3]; simp
    refine ⟨Transform.chain (Vec ℝ 3) r (Rotation3.new (Vec.fromTuple3 (1, 0, 0)) FloatConst.pi), fun fuel hf => ?_,
      hcu _ _ hu (C56_unit _ _ hx), ?_⟩
    · obtain ⟨n, rfl⟩ : ∃ n, fuel = n + 2 := ⟨fuel - 2, by omega⟩
      rw [Rotation3.lookAtAnyR, if_neg (by rw [rlt_iff, Vec.z_eq]; linarith)]
      have : Rotation3.lookAtAnyContR (n + 1) (-dir) = .ok r := by
        rw [← hr, Rotation3.lookAtAnyContR, Rotation3.lookAtAnyContR]
        have hdot : (Vec.fromTuple3 ((0 : ℝ), 0, -1)).dot (-dir) = dir[2] := by rw [Vec.dot3]; simp
        simp only [hdot]
        rw [if_neg (by rw [rlt_iff]; linarith), if_neg (by rw [rlt_iff]; linarith)]
      rw [this]; rfl
    · rw [hch, show Transform.apply (Rotation3.new (Vec.fromTuple3 ((1 : ℝ), 0, 0)) FloatConst.pi) (Vec.fromTuple3 ((0 : ℝ), 0, -1)) =
        -(Vec.fromTuple3 ((0 : ℝ), 0, -1)) by
          rw [pi_real, (C56_axis_fixed _ _ _ hx).2 (by rw [Vec.dot3]; simp)]
          apply Vec.ext3 <;> simp, Rotation3.apply_neg, ha]
      apply Vec.ext_getElem; simp

/-- The other half of the mutual recursion also handles both hemispheres (its first branch is never taken when it is called by
`look_at_any`). -/
theorem C57_look_at_any_cont (dir : Vec ℝ 3) (hd : dir.length = 1) (fuel : Nat) (hf : 3 ≤ fuel) :
    ∃ r : Rotation3 ℝ, Rotation3.lookAtAnyContR fuel dir = .ok r ∧ r.intoQuaternion.normSqr = 1 ∧
      Transform.apply r (Vec.fromTuple3 (0, 0, -1)) = dir := by
  obtain ⟨n, rfl⟩ : ∃ n, fuel = n + 1 := ⟨fuel - 1, by omega⟩
  by_cases hz : dir[2] ≤ 0
  · exact cont_ok n dir hd hz
  · push Not at hz
    obtain ⟨-, hch, -, -, hcu, -, -⟩ := C55_group (T := ℝ)
    have hx : (Vec.fromTuple3 ((1 : ℝ), 0, 0)).length = 1 := by
      show Real.sqrt (Vec.squareLength _) = 1
      rw [Vec.squareLength3]; simp
    obtain ⟨r, hr, hu, ha⟩ := C57_rotation_look_at_any (-dir) (by rw [length_neg, hd])
    have hdot : (Vec.fromTuple3 ((0 : ℝ), 0, -1)).dot dir = -dir[2] := by rw [Vec.dot3]; simp
    refine ⟨Transform.chain (Vec ℝ 3) r (Rotation3.new (Vec.fromTuple3 (1, 0, 0)) FloatConst.pi), ?_,
      hcu _ _ hu (C56_unit _ _ hx), ?_⟩
    · rw [Rotation3.lookAtAnyContR]
      simp only [hdot]
      rw [if_pos (by rw [rlt_iff]; linarith), hr n (by omega)]; rfl
    · rw [hch, show Transform.apply (Rotation3.new (Vec.fromTuple3 ((1 : ℝ), 0, 0)) FloatConst.pi) (Vec.fromTuple3 ((0 : ℝ), 0, -1)) =
        -(Vec.fromTuple3 ((0 : ℝ), 0, -1)) by
          rw [pi_real, (C56_axis_fixed _ _ _ hx).2 (by rw [Vec.dot3]; simp)]
          apply Vec.ext3 <;> simp, Rotation3.apply_neg, ha]
      apply Vec.ext_getElem; simp

example : (Vec.fromTuple3 ((0 : ℝ), 0, 1)).length = 1 ∧
    (Vec.fromTuple3 ((0 : ℝ), 0, 1)).cross3 (Vec.fromTuple3 (0, 1, 0)) ≠ 0 := by
  constructor
  · show Real.sqrt (Vec.squareLength _) = 1
    rw [Vec.squareLength3]; simp
  · intro e
    have e0 := Vec.getElem_congr_vec e 0 (by omega)
    simp at e0

/-! ## C58 rotations in chains -/

theorem C58_reorder_rotation2 [CommRing T] (s : Shift T 2) (r : Rotation2 T) :
    ReorderOk (Vec T 2) r s ∧ (r.intoComplex.normSqr = 1 → ReorderOk (Vec T 2) s r) := by
  refine ⟨fun x => Rotation2.apply_add r x s.pos, fun h x => ?_⟩
  show Transform.apply r x + s.pos = Transform.apply r (x + Transform.apply (Transform.inv (Vec T 2) r) s.pos)
  rw [Rotation2.apply_add, (C54_group.2.2.1 r h s.pos).2]
theorem C58_reorder_rotation3 [CommRing T] (s : Shift T 3) (r : Rotation3 T) :
    ReorderOk (Vec T 3) r s ∧ (r.intoQuaternion.normSqr = 1 → ReorderOk (Vec T 3) s r) := by
  refine ⟨fun x => Rotation3.apply_add r x s.pos, fun h x => ?_⟩
  show Transform.apply r x + s.pos = Transform.apply r (x + Transform.apply (Transform.inv (Vec T 3) r) s.pos)
  rw [Rotation3.apply_add, (C55_group.2.2.1 r h s.pos).2]
/-- Rigid motions of the plane, `Chain<Shift, Rotation2>`. -/
theorem C58_rigid2_group [CommRing T] : IdentityOk (Chain (Shift T 2) (Rotation2 T) (Vec T 2)) (Vec T 2) ∧
    (∀ a b : Chain (Shift T 2) (Rotation2 T) (Vec T 2), ChainOk (X := Vec T 2) a b) ∧
    ∀ a : Chain (Shift T 2) (Rotation2 T) (Vec T 2), a.inner.intoComplex.normSqr = 1 → InverseOk (Vec T 2) a :=
  ⟨C58_chain_identity C52_shift_group.1 C54_group.1,
    fun a b => C58_chain_composition a b C52_shift_group.2.1 C54_group.2.1 (C58_reorder_rotation2 _ _).1,
    fun a h => C58_chain_inverse a (C52_shift_group.2.2.1 _) (C54_group.2.2.1 _ h) (C58_reorder_rotation2 _ _).1⟩
/-- Rigid motions of space, `Chain<Shift, Rotation3>`; they also preserve distances. -/
theorem C58_rigid3_group [CommRing T] : IdentityOk (Chain (Shift T 3) (Rotation3 T) (Vec T 3)) (Vec T 3) ∧
    (∀ a b : Chain (Shift T 3) (Rotation3 T) (Vec T 3), ChainOk (X := Vec T 3) a b) ∧
    (∀ a : Chain (Shift T 3) (Rotation3 T) (Vec T 3), a.inner.intoQuaternion.normSqr = 1 → InverseOk (Vec T 3) a) ∧
    ∀ a : Chain (Shift T 3) (Rotation3 T) (Vec T 3), a.inner.intoQuaternion.normSqr = 1 → ∀ x y : Vec T 3,
      (Transform.apply a x - Transform.apply a y).squareLength = (x - y).squareLength := by
  refine ⟨C58_chain_identity C52_shift_group.1 C55_group.1,
    fun a b => C58_chain_composition a b C52_shift_group.2.1 C55_group.2.1 (C58_reorder_rotation3 _ _).1,
    fun a h => C58_chain_inverse a (C52_shift_group.2.2.1 _) (C55_group.2.2.1 _ h) (C58_reorder_rotation3 _ _).1,
    fun a h x y => ?_⟩
  rw [← (C55_orthogonal a.inner h (x - y) (x - y)).2.1]
  congr 1
  have e : ∀ z, Transform.apply a z = Transform.apply a.inner z + a.outer.pos := fun _ => rfl
  rw [e, e]
  have e2 : Transform.apply a.inner x = Transform.apply a.inner (x - y) + Transform.apply a.inner y := by
    rw [← Rotation3.apply_add]; congr 1; apply Vec.ext_getElem; simp
  rw [e2]
  apply Vec.ext_getElem; simp
/-- The other order (`Chain<Rotation3, Shift>`, shift first) needs a unit rotation in the second operand. -/
theorem C58_rotation_shift_group [CommRing T] :
    (∀ a b : Chain (Rotation3 T) (Shift T 3) (Vec T 3), b.outer.intoQuaternion.normSqr = 1 → ChainOk (X := Vec T 3) a b) ∧
    (∀ a : Chain (Rotation3 T) (Shift T 3) (Vec T 3), a.outer.intoQuaternion.normSqr = 1 → InverseOk (Vec T 3) a) ∧
    (∀ a b : Chain (Rotation2 T) (Shift T 2) (Vec T 2), b.outer.intoComplex.normSqr = 1 → ChainOk (X := Vec T 2) a b) ∧
    ∀ a : Chain (Rotation2 T) (Shift T 2) (Vec T 2), a.outer.intoComplex.normSqr = 1 → InverseOk (Vec T 2) a :=
  ⟨fun a b h => C58_chain_composition a b C55_group.2.1 C52_shift_group.2.1 ((C58_reorder_rotation3 _ _).2 h),
    fun a h => C58_chain_inverse a (C55_group.2.2.1 _ h) (C52_shift_group.2.2.1 _)
      ((C58_reorder_rotation3 _ _).2 (C55_group.2.2.2.2.2.1 _ h)),
    fun a b h => C58_chain_composition a b C54_group.2.1 C52_shift_group.2.1 ((C58_reorder_rotation2 _ _).2 h),
    fun a h => C58_chain_inverse a (C54_group.2.2.1 _ h) (C52_shift_group.2.2.1 _)
      ((C58_reorder_rotation2 _ _).2 (C54_group.2.2.2.2.2.1 _ h))⟩

/-! ## further cases: the hypotheses are satisfiable -/
/-- A quarter turn of the plane by `3/5 + 4/5 i`, a third of a turn of space, and unit vectors. -/
noncomputable def Ex.r2 : Rotation2 ℝ := Rotation2.fromComplex (Cpx.new (3 / 5) (4 / 5))
noncomputable def Ex.r3 : Rotation3 ℝ := Rotation3.fromQuaternion (Quat.new (1 / 2) (1 / 2) (1 / 2) (1 / 2))
noncomputable def Ex.k : Vec ℝ 3 := Vec.fromTuple3 (2 / 7, 3 / 7, 6 / 7)
theorem Ex.r2_unit : Ex.r2.intoComplex.normSqr = 1 := by
  rw [Cpx.normSqr_eq]; simp [Ex.r2, Rotation2.fromComplex, Rotation2.intoComplex]; norm_num
theorem Ex.r3_unit : Ex.r3.intoQuaternion.normSqr = 1 := by
  rw [Quat.normSqr_eq]; simp [Ex.r3, Rotation3.fromQuaternion, Rotation3.intoQuaternion]; norm_num
theorem Ex.r3_neg_unit : (Rotation3.fromQuaternion (-Ex.r3.intoQuaternion)).intoQuaternion.normSqr = 1 := by
  rw [Quat.normSqr_eq]; simp [Ex.r3, Rotation3.fromQuaternion, Rotation3.intoQuaternion]; norm_num
theorem Ex.k_unit : Ex.k.length = 1 := by
  show Real.sqrt (Vec.squareLength _) = 1
  rw [Vec.squareLength3]; norm_num [Ex.k]
example := C54_orthogonal Ex.r2 Ex.r2_unit ⟨#v[1, 2]⟩ ⟨#v[3, -4]⟩
example := C54_length Ex.r2 Ex.r2_unit ⟨#v[1, 2]⟩
example := C55_orthogonal Ex.r3 Ex.r3_unit ⟨#v[1, 2, 3]⟩ ⟨#v[3, -4, 7]⟩
example := C55_length Ex.r3 Ex.r3_unit ⟨#v[1, 2, 3]⟩
/-- The second alternative: `q` and `-q`. -/
example := C55_double_cover_exact _ Ex.r3 Ex.r3_neg_unit Ex.r3_unit (C55_double_cover Ex.r3)
example := C56_axis_angle Ex.k 1 Ex.k_unit
example := C56_axis_fixed Ex.k 1 ⟨#v[1, 2, 3]⟩ Ex.k_unit
example := C56_chain Ex.k 1 2 Ex.k_unit
example := C56_decompose Ex.r3 Ex.r3_unit (fun h => by
  have := Vec.getElem_congr_vec h 0 (by omega)
  rw [show Ex.r3.intoQuaternion.xyz[0] = _ from Quat.sv_0 _] at this
  norm_num [Ex.r3, Rotation3.fromQuaternion, Rotation3.intoQuaternion] at this)
example := C56_rodrigues Ex.k 1 ⟨#v[1, 2, 3]⟩ Ex.k_unit
example := C56_unit Ex.k 1 Ex.k_unit
example := C57_linear_look_at Ex.k (Vec.fromTuple3 (0, 1, 0)) Ex.k_unit (fun h => by
  have := Vec.getElem_congr_vec h 0 (by omega)
  norm_num [Ex.k, Vec.cross3_0] at this)
example := C57_linear_look_at_any Ex.k Ex.k_unit
example := C57_look_at_any_cont Ex.k Ex.k_unit 3 (by decide)
example := C57_rotation_look_at_any Ex.k Ex.k_unit

end Vecmat
