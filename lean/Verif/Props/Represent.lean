import Verif.Props.Rotation
import Mathlib.LinearAlgebra.Matrix.NonsingularInverse
import Mathlib.LinearAlgebra.UnitaryGroup
/-!
# C95: what the transformation types represent, and how uniquely
Every motion of the plane and of space is a `Chain<Shift, Rotation>` (up to a mirror image), every distance-preserving map of any
dimension is an `Affine` with orthogonal matrix, every affine map is an `Affine`; and the representation is unique (for `Rotation3` up to
the sign of the quaternion, C55).
-/
namespace Vecmat
open Spec
variable {T : Type} {N : Nat}

/-- The distance of two points. -/
noncomputable def Spec.distance [NeZero N] (x y : Vec ℝ N) : ℝ := (x - y).length
/-- A map that keeps all distances (it need not be given by any formula, nor be continuous or invertible a priori). -/
def Spec.KeepsDistances [NeZero N] (f : Vec ℝ N → Vec ℝ N) : Prop := ∀ x y, distance (f x) (f y) = distance x y

/-- The square of the distance, in coordinates. -/
theorem distance_sq [NeZero N] (x y : Vec ℝ N) : distance x y ^ 2 = (coords x - coords y) ⬝ᵥ (coords x - coords y) := by
  rw [distance, ← (C19_dot_self (x - y)).2.1, ← (C19_dot_self (x - y)).1, Vec.dot_coords, Vec.coords_sub]

/-- A map of coordinate space that keeps squared distances and the origin is multiplication by an orthogonal matrix. -/
theorem orthogonal_of_isometry (g : (Fin N → ℝ) → (Fin N → ℝ)) (h0 : g 0 = 0)
    (hg : ∀ u v, (g u - g v) ⬝ᵥ (g u - g v) = (u - v) ⬝ᵥ (u - v)) :
    ∃ A : Matrix (Fin N) (Fin N) ℝ, A.transpose * A = 1 ∧ ∀ u, g u = A.mulVec u := by
  have hself : ∀ u, g u ⬝ᵥ g u = u ⬝ᵥ u := fun u => by simpa [h0] using hg u 0
  have hdot : ∀ u v, g u ⬝ᵥ g v = u ⬝ᵥ v := fun u v => by
    have h := hg u v
    simp only [sub_dotProduct, dotProduct_sub, hself] at h
    have h1 := dotProduct_comm (g v) (g u)
    have h2 := dotProduct_comm v u
    linarith
  refine ⟨Matrix.of fun i j => g (Pi.single j 1) i, ?_, fun u => ?_⟩
  · ext j k
    rw [Matrix.mul_apply]
    have : ∑ i, g (Pi.single j 1) i * g (Pi.single k 1) i = (Pi.single j 1 : Fin N → ℝ) ⬝ᵥ Pi.single k 1 := hdot _ _
    simp only [Matrix.transpose_apply, Matrix.of_apply, this, single_dotProduct, one_mul, Matrix.one_apply, Pi.single_apply]
  · have hA : (Matrix.of fun i j => g (Pi.single j 1) i).transpose * (Matrix.of fun i j => g (Pi.single j 1) i) =
        (1 : Matrix (Fin N) (Fin N) ℝ) := by
      ext j k
      rw [Matrix.mul_apply]
      have : ∑ i, g (Pi.single j 1) i * g (Pi.single k 1) i = (Pi.single j 1 : Fin N → ℝ) ⬝ᵥ Pi.single k 1 := hdot _ _
      simp only [Matrix.transpose_apply, Matrix.of_apply, this, single_dotProduct, one_mul, Matrix.one_apply, Pi.single_apply]
    have hA' := mul_eq_one_comm.mp hA
    have ht : (Matrix.of fun i j => g (Pi.single j 1) i).transpose.mulVec (g u) = u := by
      funext j
      have : ∑ i, g (Pi.single j 1) i * g u i = (Pi.single j 1 : Fin N → ℝ) ⬝ᵥ u := hdot _ _
      simp only [Matrix.mulVec, dotProduct, Matrix.transpose_apply, Matrix.of_apply, this]
      show (Pi.single j 1 : Fin N → ℝ) ⬝ᵥ u = u j
      simp
    rw [← Matrix.one_mulVec (g u), ← hA', ← Matrix.mulVec_mulVec, ht]

/-- Every distance-preserving map, in any dimension, is an affine transformation with an orthogonal matrix. -/
theorem C95_isometry_affine [NeZero N] (f : Vec ℝ N → Vec ℝ N) (hf : KeepsDistances f) :
    ∃ a : Affine ℝ N, a.linear.intoMatrix.transpose.dotM a.linear.intoMatrix = 1 ∧
      (a.linear.intoMatrix.det = 1 ∨ a.linear.intoMatrix.det = -1) ∧ ∀ x, f x = Transform.apply a x := by
  obtain ⟨A, hA, hg⟩ := orthogonal_of_isometry (fun u => coords (f (ofCoords u)) - coords (f (ofCoords 0))) (by simp) (fun u v => by
    have := congrArg (· ^ 2) (hf (ofCoords u) (ofCoords v))
    simp only [distance_sq, Vec.coords_ofCoords] at this
    rw [← this]; congr 1 <;> (funext i; simp))
  let M : Mat ℝ N N := ⟨⟨Vector.ofFn fun i => ⟨Vector.ofFn fun j => A i j⟩⟩⟩
  have hM : M.toMatrix = A := by
    ext i j
    show M[i.1][j.1] = _
    simp [M, Mat.getElem_mk, Vec.getElem_mk]
  have hT : M.transpose.dotM M = 1 := by
    apply Mat.toMatrix_inj; rw [Mat.toMatrix_dotM, Mat.toMatrix_transpose, hM, hA, Mat.toMatrix_one]
  refine ⟨Chain.new (Shift.fromVector (f (ofCoords 0))) (Linear.fromMatrix M), hT, ?_, fun x => ?_⟩
  · show M.det = 1 ∨ M.det = -1
    rw [Mat.det_eq, hM]
    have := congrArg Matrix.det hA
    rw [Matrix.det_mul, Matrix.det_transpose, Matrix.det_one] at this
    exact mul_self_eq_one_iff.mp this
  · apply Vec.coords_inj
    show _ = coords (M.dotV x + f (ofCoords 0))
    have := hg (coords x)
    rw [Vec.ofCoords_coords] at this
    rw [Vec.coords_add, Mat.coords_dotV, hM, ← this]; simp

/-! ## Space -/

private theorem half_angle {a b : ℝ} (h : a * a + b * b = 1) :
    ∃ c s : ℝ, c * c + s * s = 1 ∧ a = 1 - 2 * s * s ∧ b = 2 * c * s := by
  have hz : (⟨a, b⟩ : ℂ) ≠ 0 := fun h0 => by
    have h1 := congrArg Complex.re h0
    have h2 := congrArg Complex.im h0
    simp at h1 h2; rw [h1, h2] at h; norm_num at h
  have hn : ‖(⟨a, b⟩ : ℂ)‖ = 1 := by
    rw [Complex.norm_def, Complex.normSq_mk, h, Real.sqrt_one]
  have hc := Complex.cos_arg hz
  have hs := Complex.sin_arg (⟨a, b⟩ : ℂ)
  rw [hn, div_one] at hc hs
  set t := Complex.arg ⟨a, b⟩
  have h1 := Real.sin_sq_add_cos_sq (t / 2)
  refine ⟨Real.cos (t / 2), Real.sin (t / 2), by nlinarith, ?_, ?_⟩
  · show a = _
    rw [show a = Real.cos t from hc.symm, show t = 2 * (t / 2) by ring, Real.cos_two_mul]
    rw [show 2 * (t / 2) / 2 = t / 2 by ring]; nlinarith
  · rw [show b = Real.sin t from hs.symm, show t = 2 * (t / 2) by ring, Real.sin_two_mul]
    rw [show 2 * (t / 2) / 2 = t / 2 by ring]; ring

private theorem unit_of_sq3 {k : Vec ℝ 3} (h : k[0] * k[0] + k[1] * k[1] + k[2] * k[2] = 1) : k.length = 1 := by
  show Real.sqrt _ = 1
  rw [Vec.squareLength3, h, Real.sqrt_one]

/-- A rotation matrix that fixes `-z` turns the plane `z = 0`. -/
private theorem fix_z (B : Matrix (Fin 3) (Fin 3) ℝ) (b1 : B.transpose * B = 1) (b3 : B.det = 1)
    (bz : B.mulVec ![0, 0, -1] = ![0, 0, -1]) :
    ∃ c s : ℝ, c * c + s * s = 1 ∧ B = !![1 - 2 * s * s, -(2 * c * s), 0; 2 * c * s, 1 - 2 * s * s, 0; 0, 0, 1] := by
  have b2 := mul_eq_one_comm.mp b1
  have z0 := congrFun bz 0
  have z1 := congrFun bz 1
  have z2 := congrFun bz 2
  simp [Matrix.mulVec, dotProduct, Fin.sum_univ_three] at z0 z1 z2
  have q22 := congrFun (congrFun b2 2) 2
  have p00 := congrFun (congrFun b1 0) 0
  have p01 := congrFun (congrFun b1 0) 1
  simp [Matrix.mul_apply, Fin.sum_univ_three, z2] at q22 p00 p01
  have z3 : B 2 0 = 0 := by nlinarith [mul_self_nonneg (B 2 0), mul_self_nonneg (B 2 1)]
  have z4 : B 2 1 = 0 := by nlinarith [mul_self_nonneg (B 2 0), mul_self_nonneg (B 2 1)]
  rw [Matrix.det_fin_three, z0, z1, z2, z3, z4] at b3
  rw [z3] at p00 p01
  simp at b3 p00 p01
  have e11 : B 1 1 = B 0 0 := by linear_combination B 0 0 * b3 + B 1 0 * p01 - B 1 1 * p00
  have e01 : B 0 1 = -B 1 0 := by linear_combination -B 1 0 * b3 + B 0 0 * p01 - B 0 1 * p00
  obtain ⟨c, s, hcs, ha, hb⟩ := half_angle p00
  refine ⟨c, s, hcs, ?_⟩
  ext i j
  fin_cases i <;> fin_cases j <;> simp [z0, z1, z2, z3, z4, e11, e01, ha, hb]

private theorem two_real : (two : ℝ) = 2 := by rfl

private theorem z_coords : coords (Vec.fromTuple3 ((0 : ℝ), 0, -1)) = ![0, 0, -1] := by funext i; fin_cases i <;> rfl

private theorem turn_z (c s : ℝ) : (Rotation3.fromQuaternion (Quat.new c 0 0 s)).toLinear.lin.toMatrix =
    !![1 - 2 * s * s, -(2 * c * s), 0; 2 * c * s, 1 - 2 * s * s, 0; 0, 0, 1] := by
  rw [Rotation3.toMatrix_toLinear]
  ext i j
  fin_cases i <;> fin_cases j <;> simp [Rotation3.fromQuaternion, two_real] <;> ring

private theorem chain_matrix (l m : Linear ℝ 3) (A : Mat ℝ 3 3) (h : A.toMatrix = l.lin.toMatrix * m.lin.toMatrix) :
    (Transform.chain (Vec ℝ 3) l m).intoMatrix = A := by
  apply Mat.toMatrix_inj
  rw [h, ← Mat.toMatrix_dotM, ← Linear.lin_chain]; rfl

/-- Every rotation matrix is the matrix of a unit quaternion. -/
theorem C95_rotation3_complete (A : Mat ℝ 3 3) (hA : IsRotation A) :
    ∃ r : Rotation3 ℝ, r.intoQuaternion.normSqr = 1 ∧ r.toLinear.intoMatrix = A := by
  obtain ⟨h1, h2, h3⟩ := hA
  have m1 : A.toMatrix.transpose * A.toMatrix = 1 := by
    rw [← Mat.toMatrix_transpose, ← Mat.toMatrix_dotM, h1, Mat.toMatrix_one]
  have m3 : A.toMatrix.det = 1 := by rw [← Mat.det_eq, h3]
  have hd : (A.dotV (Vec.fromTuple3 ((0 : ℝ), 0, -1))).length = 1 := by
    apply unit_of_sq3
    have e := congrFun (congrFun m1 2) 2
    simp [Matrix.mul_apply, Fin.sum_univ_three] at e
    rw [Mat.getElem_dotV_sum A _ 0 (by omega), Mat.getElem_dotV_sum A _ 1 (by omega), Mat.getElem_dotV_sum A _ 2 (by omega)]
    simp [Fin.sum_univ_three]
    linear_combination e
  obtain ⟨r, -, hu, hr⟩ := C57_rotation_look_at_any _ hd
  obtain ⟨d1, d2, d3, d4, -⟩ := C55_to_linear r r hu (Vec.fromTuple3 ((0 : ℝ), 0, -1))
  rw [hr] at d1
  have rz : r.toLinear.intoMatrix.toMatrix.mulVec ![0, 0, -1] = A.toMatrix.mulVec ![0, 0, -1] := by
    have := congrArg coords d1
    rw [Linear.apply_coords, Mat.coords_dotV, z_coords] at this
    exact this
  have r1 : r.toLinear.intoMatrix.toMatrix.transpose * r.toLinear.intoMatrix.toMatrix = 1 := by
    rw [← Mat.toMatrix_transpose, ← Mat.toMatrix_dotM, d3, Mat.toMatrix_one]
  have r2 := mul_eq_one_comm.mp r1
  have r3 : r.toLinear.intoMatrix.toMatrix.det = 1 := by rw [← Mat.det_eq, d2]
  have hch := fun t => (C55_to_linear r t hu (Vec.fromTuple3 ((0 : ℝ), 0, -1))).2.2.2.2
  have hcu := fun t => (C55_group (T := ℝ)).2.2.2.2.1 r t hu
  clear d1 d2 d3 d4 hd hr
  generalize hR : r.toLinear.intoMatrix.toMatrix = R at *
  have hAB : A.toMatrix = R * (R.transpose * A.toMatrix) := by rw [← Matrix.mul_assoc, r2, Matrix.one_mul]
  obtain ⟨c, s, hcs, hB⟩ := fix_z (R.transpose * A.toMatrix)
    (by rw [Matrix.transpose_mul, Matrix.transpose_transpose, Matrix.mul_assoc, ← Matrix.mul_assoc R, r2, Matrix.one_mul, m1])
    (by rw [Matrix.det_mul, Matrix.det_transpose, r3, m3, one_mul])
    (by rw [← Matrix.mulVec_mulVec, ← rz, Matrix.mulVec_mulVec, r1, Matrix.one_mulVec])
  have htu : (Rotation3.fromQuaternion (Quat.new c 0 0 s)).intoQuaternion.normSqr = 1 := by
    rw [Quat.normSqr_eq]; simp [Rotation3.fromQuaternion, Rotation3.intoQuaternion]; exact hcs
  refine ⟨Transform.chain (Vec ℝ 3) r (Rotation3.fromQuaternion (Quat.new c 0 0 s)), hcu _ htu, ?_⟩
  rw [hch _ htu]
  exact chain_matrix _ _ _ (by rw [hAB, hB, ← hR, turn_z]; rfl)

/-- Every distance-preserving map of space is a rigid motion `Chain<Shift, Rotation3>`, or a rigid motion after the point reflection
`x ↦ -x`. -/
theorem C95_space_motion (f : Vec ℝ 3 → Vec ℝ 3) (hf : KeepsDistances f) :
    ∃ (s : Shift ℝ 3) (r : Rotation3 ℝ), r.intoQuaternion.normSqr = 1 ∧
      ((∀ x, f x = Transform.apply (Chain.new s r : Chain (Shift ℝ 3) (Rotation3 ℝ) (Vec ℝ 3)) x) ∨
       (∀ x, f x = Transform.apply (Chain.new s r : Chain (Shift ℝ 3) (Rotation3 ℝ) (Vec ℝ 3)) (-x))) := by
  obtain ⟨a, h1, hd, hx⟩ := C95_isometry_affine f hf
  have m1 : a.linear.intoMatrix.toMatrix.transpose * a.linear.intoMatrix.toMatrix = 1 := by
    rw [← Mat.toMatrix_transpose, ← Mat.toMatrix_dotM, h1, Mat.toMatrix_one]
  have h2 : a.linear.intoMatrix.dotM a.linear.intoMatrix.transpose = 1 := by
    apply Mat.toMatrix_inj; rw [Mat.toMatrix_dotM, Mat.toMatrix_transpose, mul_eq_one_comm.mp m1, Mat.toMatrix_one]
  have hx' : ∀ x, f x = a.linear.intoMatrix.dotV x + a.shift.intoVector := hx
  generalize a.linear.intoMatrix = A at *
  have happ : ∀ r : Rotation3 ℝ, r.intoQuaternion.normSqr = 1 → ∀ x, r.toLinear.intoMatrix.dotV x = Transform.apply r x :=
    fun r hr x => (C55_to_linear r r hr x).1
  rcases hd with hd | hd
  · obtain ⟨r, hr, hA⟩ := C95_rotation3_complete A ⟨h1, h2, hd⟩
    refine ⟨a.shift, r, hr, .inl fun x => ?_⟩
    rw [hx', ← hA, happ r hr]; rfl
  · have hneg : (-A).toMatrix = -A.toMatrix := by
      ext i j; simp [Mat.toMatrix_apply]
    obtain ⟨r, hr, hA⟩ := C95_rotation3_complete (-A) ⟨by
        apply Mat.toMatrix_inj
        rw [Mat.toMatrix_dotM, Mat.toMatrix_transpose, hneg, Matrix.transpose_neg, neg_mul_neg, m1, Mat.toMatrix_one], by
        apply Mat.toMatrix_inj
        rw [Mat.toMatrix_dotM, Mat.toMatrix_transpose, hneg, Matrix.transpose_neg, neg_mul_neg, mul_eq_one_comm.mp m1,
          Mat.toMatrix_one], by
        rw [Mat.det_eq] at hd ⊢
        rw [hneg, Matrix.det_neg, hd]; norm_num⟩
    refine ⟨a.shift, r, hr, .inr fun x => ?_⟩
    have : A.dotV x = Transform.apply r (-x) := by
      rw [← happ r hr, hA]
      apply Vec.coords_inj
      rw [Mat.coords_dotV, Mat.coords_dotV, hneg, Vec.coords_neg, Matrix.neg_mulVec, Matrix.mulVec_neg, neg_neg]
    rw [hx', this]; rfl

/-- A distance-preserving map of space that keeps handedness (it carries the cross product of differences to the cross product of the
images' differences) is exactly a rigid motion. -/
theorem C95_space_motion_proper (f : Vec ℝ 3 → Vec ℝ 3) (hf : KeepsDistances f)
    (hc : ∀ o x y z, z - o = (x - o).cross3 (y - o) → f z - f o = (f x - f o).cross3 (f y - f o)) :
    ∃ (s : Shift ℝ 3) (r : Rotation3 ℝ), r.intoQuaternion.normSqr = 1 ∧
      ∀ x, f x = Transform.apply (Chain.new s r : Chain (Shift ℝ 3) (Rotation3 ℝ) (Vec ℝ 3)) x := by
  obtain ⟨s, r, hr, h | h⟩ := C95_space_motion f hf
  · exact ⟨s, r, hr, h⟩
  · exfalso
    have h' : ∀ x, f x = Transform.apply r (-x) + s.pos := h
    have e := hc 0 (Vec.fromTuple3 (1, 0, 0)) (Vec.fromTuple3 (0, 1, 0)) (Vec.fromTuple3 (0, 0, 1)) (by apply Vec.ext3 <;> simp)
    have hd : ∀ x, f x - f 0 = -Transform.apply r x := fun x => by
      rw [h', h', Rotation3.apply_neg, Rotation3.apply_neg]
      have h0 : Transform.apply r (0 : Vec ℝ 3) = 0 := by
        apply Vec.ext3 <;> simp [Rotation3.apply_0, Rotation3.apply_1, Rotation3.apply_2]
      rw [h0]; apply Vec.ext_getElem; intro i hi; simp
    rw [hd, hd, hd] at e
    obtain ⟨-, -, ho⟩ := C55_orthogonal r hr (Vec.fromTuple3 (1, 0, 0)) (Vec.fromTuple3 (0, 1, 0))
    rw [show (Vec.fromTuple3 ((1 : ℝ), 0, 0)).cross3 (Vec.fromTuple3 ((0 : ℝ), 1, 0)) = Vec.fromTuple3 (0, 0, 1) by
      apply Vec.ext3 <;> simp] at ho
    have e2 : ((-Transform.apply r (Vec.fromTuple3 ((1 : ℝ), 0, 0))).cross3 (-Transform.apply r (Vec.fromTuple3 ((0 : ℝ), 1, 0)))) =
        (Transform.apply r (Vec.fromTuple3 ((1 : ℝ), 0, 0))).cross3 (Transform.apply r (Vec.fromTuple3 ((0 : ℝ), 1, 0))) := by
      apply Vec.ext3 <;> simp
    rw [e2, ho] at e
    obtain ⟨-, hl, -⟩ := C55_orthogonal r hr (Vec.fromTuple3 (0, 0, 1)) (Vec.fromTuple3 (0, 1, 0))
    generalize Transform.apply r (Vec.fromTuple3 ((0 : ℝ), 0, 1)) = v at e hl
    have e0 := Vec.getElem_congr_vec e 0 (by omega)
    have e1 := Vec.getElem_congr_vec e 1 (by omega)
    have e2 := Vec.getElem_congr_vec e 2 (by omega)
    simp only [Vec.getElem_neg] at e0 e1 e2
    rw [Vec.squareLength3, Vec.squareLength3] at hl
    simp at hl
    have v0 : v[0] = 0 := by linarith
    have v1 : v[1] = 0 := by linarith
    have v2 : v[2] = 0 := by linarith
    rw [v0, v1, v2] at hl
    norm_num at hl

/-- Conversely rigid motions keep distances and handedness. -/
theorem C95_space_motion_keeps (s : Shift ℝ 3) (r : Rotation3 ℝ) (hr : r.intoQuaternion.normSqr = 1) :
    KeepsDistances (fun x : Vec ℝ 3 => Transform.apply (Chain.new s r : Chain (Shift ℝ 3) (Rotation3 ℝ) (Vec ℝ 3)) x) ∧
    KeepsDistances (fun x : Vec ℝ 3 => Transform.apply (Chain.new s r : Chain (Shift ℝ 3) (Rotation3 ℝ) (Vec ℝ 3)) (-x)) ∧
    ∀ o x y z : Vec ℝ 3, let f := Transform.apply (Chain.new s r : Chain (Shift ℝ 3) (Rotation3 ℝ) (Vec ℝ 3))
      z - o = (x - o).cross3 (y - o) → f z - f o = (f x - f o).cross3 (f y - f o) := by
  have hsub : ∀ x y : Vec ℝ 3, Transform.apply (Chain.new s r : Chain (Shift ℝ 3) (Rotation3 ℝ) (Vec ℝ 3)) x -
      Transform.apply (Chain.new s r : Chain (Shift ℝ 3) (Rotation3 ℝ) (Vec ℝ 3)) y = Transform.apply r (x - y) := fun x y => by
    have : x - y = x + -y := by apply Vec.ext_getElem; intro i hi; simp [sub_eq_add_neg]
    rw [this, Rotation3.apply_add, Rotation3.apply_neg]
    show (Transform.apply r x + s.pos) - (Transform.apply r y + s.pos) = _
    apply Vec.ext_getElem; intro i hi; simp; ring
  refine ⟨fun x y => ?_, fun x y => ?_, fun o x y z => ?_⟩
  · rw [distance, hsub, C55_length r hr]; rfl
  · rw [distance, hsub, C55_length r hr, distance, show -x - -y = -(x - y) by apply Vec.ext_getElem; intro i hi; simp; ring]
    show Real.sqrt _ = Real.sqrt _
    rw [Vec.squareLength3, Vec.squareLength3]; congr 1; simp only [Vec.getElem_neg]; ring
  · intro f h
    show Transform.apply _ z - Transform.apply _ o = _
    rw [hsub, h, show f x - f o = _ from hsub x o, show f y - f o = _ from hsub y o, (C55_orthogonal r hr _ _).2.2]

/-! ## The plane -/

/-- Every rotation matrix of the plane is the matrix of exactly one complex number, which has norm 1. -/
theorem C95_rotation2_complete (A : Mat ℝ 2 2) (h1 : A.transpose.dotM A = 1) (hd : A.det = 1) :
    ∃ r : Rotation2 ℝ, r.intoComplex.normSqr = 1 ∧ r.toLinear.intoMatrix = A ∧
      ∀ s : Rotation2 ℝ, s.toLinear.intoMatrix = A → s = r := by
  have m1 : A.toMatrix.transpose * A.toMatrix = 1 := by
    rw [← Mat.toMatrix_transpose, ← Mat.toMatrix_dotM, h1, Mat.toMatrix_one]
  rw [Mat.det_eq, Matrix.det_fin_two] at hd
  have p00 := congrFun (congrFun m1 0) 0
  have p01 := congrFun (congrFun m1 0) 1
  simp only [Matrix.mul_apply, Fin.sum_univ_two, Matrix.transpose_apply, Matrix.one_apply] at p00 p01
  simp only [if_true, Fin.isValue] at p00
  rw [if_neg (by decide)] at p01
  have e11 : A.toMatrix 1 1 = A.toMatrix 0 0 := by
    linear_combination A.toMatrix 0 0 * hd + A.toMatrix 1 0 * p01 - A.toMatrix 1 1 * p00
  have e01 : A.toMatrix 0 1 = -A.toMatrix 1 0 := by
    linear_combination -A.toMatrix 1 0 * hd + A.toMatrix 0 0 * p01 - A.toMatrix 0 1 * p00
  refine ⟨Rotation2.fromComplex (Cpx.new (A.toMatrix 0 0) (A.toMatrix 1 0)), ?_, ?_, fun s hs => ?_⟩
  · rw [Cpx.normSqr_eq]; simpa [Rotation2.fromComplex, Rotation2.intoComplex] using p00
  · apply Mat.toMatrix_inj
    show (Rotation2.toLinear _).lin.toMatrix = _
    rw [Rotation2.toMatrix_toLinear]
    ext i j
    fin_cases i <;> fin_cases j
    · simp [Rotation2.fromComplex]
    · show -(Cpx.new (A.toMatrix 0 0) (A.toMatrix 1 0)).im = A.toMatrix 0 1
      rw [e01]; simp
    · simp [Rotation2.fromComplex]
    · show (Cpx.new (A.toMatrix 0 0) (A.toMatrix 1 0)).re = A.toMatrix 1 1
      rw [e11]; simp
  · have := congrArg Mat.toMatrix hs
    rw [show s.toLinear.intoMatrix.toMatrix = _ from Rotation2.toMatrix_toLinear s] at this
    have a0 := congrFun (congrFun this 0) 0
    have a1 := congrFun (congrFun this 1) 0
    apply Rotation2.ext
    apply Cpx.ext'
    · rw [show s.comp.re = _ from a0]; simp [Rotation2.fromComplex]
    · rw [show s.comp.im = _ from a1]; simp [Rotation2.fromComplex]

/-- The mirror image in the first axis. -/
def Spec.mirror2 (x : Vec ℝ 2) : Vec ℝ 2 := Vec.fromTuple2 (x[0], -x[1])

/-- Every distance-preserving map of the plane is a rigid motion `Chain<Shift, Rotation2>`, or a rigid motion after a mirror image. -/
theorem C95_plane_motion (f : Vec ℝ 2 → Vec ℝ 2) (hf : KeepsDistances f) :
    ∃ (s : Shift ℝ 2) (r : Rotation2 ℝ), r.intoComplex.normSqr = 1 ∧
      ((∀ x, f x = Transform.apply (Chain.new s r : Chain (Shift ℝ 2) (Rotation2 ℝ) (Vec ℝ 2)) x) ∨
       (∀ x, f x = Transform.apply (Chain.new s r : Chain (Shift ℝ 2) (Rotation2 ℝ) (Vec ℝ 2)) (mirror2 x))) := by
  obtain ⟨a, h1, hd, hx⟩ := C95_isometry_affine f hf
  have m1 : a.linear.intoMatrix.toMatrix.transpose * a.linear.intoMatrix.toMatrix = 1 := by
    rw [← Mat.toMatrix_transpose, ← Mat.toMatrix_dotM, h1, Mat.toMatrix_one]
  have hx' : ∀ x, f x = a.linear.intoMatrix.dotV x + a.shift.intoVector := hx
  generalize a.linear.intoMatrix = A at *
  have happ : ∀ r : Rotation2 ℝ, ∀ x, r.toLinear.intoMatrix.dotV x = Transform.apply r x :=
    fun r x => (C54_to_linear r r x).1
  rcases hd with hd | hd
  · obtain ⟨r, hr, hA, -⟩ := C95_rotation2_complete A h1 hd
    refine ⟨a.shift, r, hr, .inl fun x => ?_⟩
    rw [hx', ← hA, happ r]; rfl
  · let D : Mat ℝ 2 2 := Mat.fromArrArr #v[#v[1, 0], #v[0, -1]]
    have hD : D.toMatrix = !![1, 0; 0, -1] := by ext i j; fin_cases i <;> fin_cases j <;> rfl
    have hDD : D.toMatrix * D.toMatrix = 1 := by rw [hD]; ext i j; fin_cases i <;> fin_cases j <;> simp
    have hDt : D.toMatrix.transpose = D.toMatrix := by rw [hD]; ext i j; fin_cases i <;> fin_cases j <;> rfl
    obtain ⟨r, hr, hA, -⟩ := C95_rotation2_complete (A.dotM D) (by
        apply Mat.toMatrix_inj
        rw [Mat.toMatrix_dotM, Mat.toMatrix_transpose, Mat.toMatrix_dotM, Matrix.transpose_mul, hDt, Matrix.mul_assoc,
          ← Matrix.mul_assoc _ A.toMatrix, m1, Matrix.one_mul, hDD, Mat.toMatrix_one]) (by
        rw [Mat.det_eq] at hd ⊢
        rw [Mat.toMatrix_dotM, Matrix.det_mul, hd, hD, Matrix.det_fin_two]; simp)
    refine ⟨a.shift, r, hr, .inr fun x => ?_⟩
    have : A.dotV x = Transform.apply r (mirror2 x) := by
      rw [← happ r, hA]
      apply Vec.coords_inj
      have hm : coords (mirror2 x) = D.toMatrix.mulVec (coords x) := by
        rw [hD]; funext i; fin_cases i
        · simp [Matrix.mulVec, dotProduct, Fin.sum_univ_two, coords]; rfl
        · simp [Matrix.mulVec, dotProduct, Fin.sum_univ_two, coords]; rfl
      rw [Mat.coords_dotV, Mat.coords_dotV, Mat.toMatrix_dotM, hm, Matrix.mulVec_mulVec, Matrix.mul_assoc, hDD, Matrix.mul_one]
    rw [hx', this]; rfl

/-! ## Affine maps -/

/-- Every map that keeps weighted means of pairs of points (an affine map) is an `Affine`. -/
theorem C95_affine_complete [Field T] (f : Vec T N → Vec T N)
    (ha : ∀ o x y, f (o + x + y) + f o = f (o + x) + f (o + y))
    (hs : ∀ o x s, f (o + x.mulS s) - f o = (f (o + x) - f o).mulS s) : ∃ a : Affine T N, ∀ x, Transform.apply a x = f x := by
  have z : ∀ x : Vec T N, 0 + x = x := fun x => by apply Vec.ext_getElem; intro i hi; simp
  obtain ⟨l, hl⟩ := C53_linear_complete (fun x => f x - f 0) (fun x y => by
      have := ha 0 x y
      simp only [z] at this
      apply Vec.ext_getElem; intro i hi
      have h := Vec.getElem_congr_vec this i hi
      simp only [Vec.getElem_add, Vec.getElem_sub] at h ⊢
      linear_combination h) (fun x s => by
      have := hs 0 x s
      simpa only [z] using this)
  refine ⟨Chain.new (Shift.fromVector (f 0)) l, fun x => ?_⟩
  show Transform.apply l x + f 0 = f x
  rw [hl]; apply Vec.ext_getElem; intro i hi; simp

/-- Equal action means equal data: shifts, scalings (in dimension at least 1), linear and affine transformations and plane rotations
are determined by what they do to points. -/
theorem C95_determined [Field T] :
    (∀ s t : Shift T N, (∀ x : Vec T N, Transform.apply s x = Transform.apply t x) → s = t) ∧
    (∀ s t : Scale T, 0 < N → (∀ x : Vec T N, Transform.apply s x = Transform.apply t x) → s = t) ∧
    (∀ l m : Linear T N, (∀ x : Vec T N, Transform.apply l x = Transform.apply m x) → l = m) ∧
    (∀ a b : Affine T N, (∀ x : Vec T N, Transform.apply a x = Transform.apply b x) → a = b) ∧
    (∀ r s : Rotation2 T, (∀ x : Vec T 2, Transform.apply r x = Transform.apply s x) → r = s) := by
  have hlin : ∀ l m : Linear T N, (∀ x : Vec T N, Transform.apply l x = Transform.apply m x) → l = m := fun l m h => by
    apply Linear.ext; apply Mat.toMatrix_inj
    ext i j
    have := congrArg coords (h (ofCoords (Pi.single j 1)))
    rw [Linear.apply_coords, Linear.apply_coords, Vec.coords_ofCoords] at this
    simpa [Matrix.mulVec_single] using congrFun this i
  have z : ∀ x : Vec T N, 0 + x = x := fun x => by apply Vec.ext_getElem; intro i hi; simp
  refine ⟨fun s t h => ?_, fun s t hN h => ?_, hlin, fun a b h => ?_, fun r s h => ?_⟩
  · have : 0 + s.pos = 0 + t.pos := h 0
    rw [z, z] at this
    exact Shift.ext this
  · have := Vec.getElem_congr_vec (h (Vec.fill 1)) 0 hN
    apply Scale.ext
    simpa [C52_scale_apply, Scale.intoMag] using this
  · have h0 : ∀ c : Affine T N, Transform.apply c (0 : Vec T N) = c.outer.pos := fun c => by
      show Transform.apply c.inner 0 + c.outer.pos = _
      rw [(C53_linear_additive c.inner 0 0 0).2.2, z]
    have e := h 0
    rw [h0, h0] at e
    refine Chain.ext (Shift.ext e) (hlin _ _ fun x => ?_)
    have hx : Transform.apply a.inner x + a.outer.pos = Transform.apply b.inner x + b.outer.pos := h x
    rw [e] at hx
    apply Vec.ext_getElem; intro i hi
    have := Vec.getElem_congr_vec hx i hi
    simpa using this
  · have e := h (Vec.fromTuple2 (1, 0))
    have e0 := Vec.getElem_congr_vec e 0 (by omega)
    have e1 := Vec.getElem_congr_vec e 1 (by omega)
    rw [Rotation2.apply_0, Rotation2.apply_0] at e0
    rw [Rotation2.apply_1, Rotation2.apply_1] at e1
    have f0 : (Vec.fromTuple2 ((1 : T), 0))[0] = 1 := rfl
    have f1 : (Vec.fromTuple2 ((1 : T), 0))[1] = 0 := rfl
    apply Rotation2.ext; apply Cpx.ext'
    · rw [f0, f1] at e0; simpa using e0
    · rw [f0, f1] at e1; simpa using e1

/-! ## Cases that meet the hypotheses -/
namespace Ex

theorem keeps_id [NeZero N] : KeepsDistances (fun x : Vec ℝ N => x) := fun _ _ => rfl
theorem keeps_shift [NeZero N] (s : Vec ℝ N) : KeepsDistances (fun x : Vec ℝ N => x + s) := fun x y => by
  show (x + s - (y + s)).length = (x - y).length
  congr 1; apply Vec.ext_getElem; intro i hi; simp
theorem keeps_neg [NeZero N] : KeepsDistances (fun x : Vec ℝ N => -x) := fun x y => by
  have h : distance (-x) (-y) ^ 2 = distance x y ^ 2 := by
    rw [distance_sq, distance_sq, Vec.coords_neg, Vec.coords_neg]
    simp only [dotProduct]; apply Finset.sum_congr rfl; intro i _; simp; ring
  have nn : ∀ u v : Vec ℝ N, 0 ≤ distance u v := fun u v => Real.sqrt_nonneg _
  have h2 := abs_eq_abs.mpr (sq_eq_sq_iff_eq_or_eq_neg.mp h)
  rwa [abs_of_nonneg (nn _ _), abs_of_nonneg (nn _ _)] at h2

example := C95_isometry_affine (N := 5) _ (keeps_shift (Vec.fill 3))
example := C95_space_motion _ (keeps_neg (N := 3))
example := C95_space_motion _ (keeps_shift (Vec.fromTuple3 ((1 : ℝ), 2, 3)))
example := C95_plane_motion _ (keeps_neg (N := 2))
example := C95_plane_motion _ (keeps_shift (Vec.fromTuple2 ((1 : ℝ), 2)))
example := C95_space_motion_proper _ (keeps_shift (Vec.fromTuple3 ((1 : ℝ), 2, 3))) (fun o x y z h => by
  have e : ∀ a b s : Vec ℝ 3, a + s - (b + s) = a - b := fun a b s => by apply Vec.ext_getElem; intro i hi; simp
  simp only [e]; exact h)
/-- The quarter turn about the third axis, as a matrix. -/
example := C95_rotation3_complete (Mat.fromArrArr #v[#v[(0 : ℝ), -1, 0], #v[1, 0, 0], #v[0, 0, 1]]) (by
  have e : (Mat.fromArrArr #v[#v[(0 : ℝ), -1, 0], #v[1, 0, 0], #v[0, 0, 1]]).toMatrix = !![0, -1, 0; 1, 0, 0; 0, 0, 1] := by
    ext i j; fin_cases i <;> fin_cases j <;> rfl
  refine ⟨?_, ?_, ?_⟩
  · apply Mat.toMatrix_inj
    rw [Mat.toMatrix_dotM, Mat.toMatrix_transpose, e, Mat.toMatrix_one]
    ext i j; fin_cases i <;> fin_cases j <;> simp [Matrix.mul_apply, Fin.sum_univ_three]
  · apply Mat.toMatrix_inj
    rw [Mat.toMatrix_dotM, Mat.toMatrix_transpose, e, Mat.toMatrix_one]
    ext i j; fin_cases i <;> fin_cases j <;> simp [Matrix.mul_apply, Fin.sum_univ_three]
  · rw [Mat.det_eq, e, Matrix.det_fin_three]; simp)
example := C95_rotation2_complete (Mat.fromArrArr #v[#v[(0 : ℝ), -1], #v[1, 0]]) (by
  have e : (Mat.fromArrArr #v[#v[(0 : ℝ), -1], #v[1, 0]]).toMatrix = !![0, -1; 1, 0] := by
    ext i j; fin_cases i <;> fin_cases j <;> rfl
  apply Mat.toMatrix_inj
  rw [Mat.toMatrix_dotM, Mat.toMatrix_transpose, e, Mat.toMatrix_one]
  ext i j; fin_cases i <;> fin_cases j <;> simp [Matrix.mul_apply, Fin.sum_univ_two]) (by
  have e : (Mat.fromArrArr #v[#v[(0 : ℝ), -1], #v[1, 0]]).toMatrix = !![0, -1; 1, 0] := by
    ext i j; fin_cases i <;> fin_cases j <;> rfl
  rw [Mat.det_eq, e, Matrix.det_fin_two]; simp)
example := C95_space_motion_keeps (Shift.fromVector (Vec.fill 1)) (Rotation3.fromQuaternion (Quat.new 0 0 0 1)) (by
  rw [Quat.normSqr_eq]; simp [Rotation3.fromQuaternion, Rotation3.intoQuaternion])
example := C95_affine_complete (N := 3) (fun x : Vec ℚ 3 => x.mulS 2 + Vec.fill 1)
  (fun o x y => by apply Vec.ext_getElem; intro i hi; simp; ring)
  (fun o x s => by apply Vec.ext_getElem; intro i hi; simp; ring)
example := C95_determined (T := ℚ) (N := 3)
end Ex

end Vecmat
