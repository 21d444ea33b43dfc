import Verif.Props.Rotation
import Verif.Props.Quaternion
import Verif.Props.Curve
import Verif.Props.F64
/-!
# C92: what the crate's randomised tests assert, for every input
The tests sample 256 inputs and compare up to an epsilon; here the same expressions are compared exactly over `ℝ` (or over any commutative
ring) for all inputs.  Tests whose assertion is literally another property are listed in DESIGN.md, section 6.
-/
namespace Vecmat
open Spec F64

/-- `r2d::mapping`, src/transform/rotation.rs:375-385. -/
theorem C92_rotation2_mapping (r : Rotation2 ℝ) (hr : r.intoComplex.normSqr = 1) (a : Vec ℝ 2) (ha : a ≠ 0) :
    a.length = (Transform.apply r a).length ∧ a.dot (Transform.apply r a) / a.squareLength = Real.cos r.angle := by
  refine ⟨(C54_length r hr a).symm, ?_⟩
  have h0 : a.squareLength ≠ 0 := by
    rw [Vec.squareLength2]
    intro h
    exact ha (Vec.ext2 (by simp; nlinarith [sq_nonneg a[0], sq_nonneg a[1]]) (by simp; nlinarith [sq_nonneg a[0], sq_nonneg a[1]]))
  rw [div_eq_iff h0]
  obtain ⟨-, h1, h2, -⟩ := C54_new r.angle 0 a
  rw [(C54_angle r).2.2 hr] at h1 h2
  rw [Vec.dot2, Vec.squareLength2, h1, h2]; ring
private theorem mapping_core (k a b a' b' : Vec ℝ 3) (t : ℝ) (hk : k.length = 1) (ha : k.cross3 a ≠ 0) (hb : b = Spec.rodrigues k t a)
    (da : a' = a - k.mulS (a.dot k)) (db : b' = b - k.mulS (b.dot k)) :
    a'.dot b' / a'.squareLength = Real.cos t ∧ (a'.cross3 b').divS a'.squareLength = k.mulS (Real.sin t) := by
  have h1 : k[0] * k[0] + k[1] * k[1] + k[2] * k[2] = 1 := by
    rw [← Vec.squareLength3, (C19_dot_self k).2.1, hk]; norm_num
  have a0 : a'[0] = a[0] - k[0] * (a[0] * k[0] + a[1] * k[1] + a[2] * k[2]) := by simp only [da, Vec.getElem_sub, Vec.getElem_mulS, Vec.dot3]
  have a1 : a'[1] = a[1] - k[1] * (a[0] * k[0] + a[1] * k[1] + a[2] * k[2]) := by simp only [da, Vec.getElem_sub, Vec.getElem_mulS, Vec.dot3]
  have a2 : a'[2] = a[2] - k[2] * (a[0] * k[0] + a[1] * k[1] + a[2] * k[2]) := by simp only [da, Vec.getElem_sub, Vec.getElem_mulS, Vec.dot3]
  -- `a'` is orthogonal to the axis
  have ho : a'[0] * k[0] + a'[1] * k[1] + a'[2] * k[2] = 0 := by
    rw [a0, a1, a2]; linear_combination -(a[0] * k[0] + a[1] * k[1] + a[2] * k[2]) * h1
  -- the image keeps the part along the axis
  have hbk : b.dot k = a[0] * k[0] + a[1] * k[1] + a[2] * k[2] := by
    rw [hb]
    simp only [Spec.rodrigues, Vec.getElem_add, Vec.getElem_mulS, Vec.cross3_0, Vec.cross3_1, Vec.cross3_2, Vec.dot3]
    linear_combination (a[0] * k[0] + a[1] * k[1] + a[2] * k[2]) * (1 - Real.cos t) * h1
  have b0 : b'[0] = a'[0] * Real.cos t + (k[1] * a'[2] - k[2] * a'[1]) * Real.sin t := by
    simp only [db, Vec.getElem_sub, Vec.getElem_mulS, hbk, a0, a1, a2]
    have hi := Vec.getElem_congr_vec hb 0 (by omega)
    simp only [Spec.rodrigues, Vec.getElem_add, Vec.getElem_mulS, Vec.cross3_0, Vec.cross3_1, Vec.cross3_2, Vec.dot3] at hi
    rw [hi]; ring
  have b1 : b'[1] = a'[1] * Real.cos t + (k[2] * a'[0] - k[0] * a'[2]) * Real.sin t := by
    simp only [db, Vec.getElem_sub, Vec.getElem_mulS, hbk, a0, a1, a2]
    have hi := Vec.getElem_congr_vec hb 1 (by omega)
    simp only [Spec.rodrigues, Vec.getElem_add, Vec.getElem_mulS, Vec.cross3_0, Vec.cross3_1, Vec.cross3_2, Vec.dot3] at hi
    rw [hi]; ring
  have b2 : b'[2] = a'[2] * Real.cos t + (k[0] * a'[1] - k[1] * a'[0]) * Real.sin t := by
    simp only [db, Vec.getElem_sub, Vec.getElem_mulS, hbk, a0, a1, a2]
    have hi := Vec.getElem_congr_vec hb 2 (by omega)
    simp only [Spec.rodrigues, Vec.getElem_add, Vec.getElem_mulS, Vec.cross3_0, Vec.cross3_1, Vec.cross3_2, Vec.dot3] at hi
    rw [hi]; ring
  clear hb hbk da db
  have sq0 : ∀ x y z : ℝ, x * x + y * y + z * z = 0 → x = 0 ∧ y = 0 ∧ z = 0 := fun x y z h => by
    have p := mul_self_nonneg x; have q := mul_self_nonneg y; have r := mul_self_nonneg z
    exact ⟨mul_self_eq_zero.1 (by linarith), mul_self_eq_zero.1 (by linarith), mul_self_eq_zero.1 (by linarith)⟩
  have h0 : a'.squareLength ≠ 0 := by
    rw [Vec.squareLength3]
    intro h
    obtain ⟨z0, z1, z2⟩ := sq0 _ _ _ h
    rw [a0] at z0; rw [a1] at z1; rw [a2] at z2
    apply ha
    apply Vec.ext3 <;> simp only [Vec.cross3_0, Vec.cross3_1, Vec.cross3_2, Vec.getElem_zero]
    · linear_combination k[1] * z2 - k[2] * z1
    · linear_combination k[2] * z0 - k[0] * z2
    · linear_combination k[0] * z1 - k[1] * z0
  refine ⟨?_, ?_⟩
  · rw [div_eq_iff h0, Vec.dot3, Vec.squareLength3, b0, b1, b2]; ring
  · have e : ∀ i (hi : i < 3), ((a'.cross3 b').divS a'.squareLength)[i] = (a'.cross3 b')[i] / a'.squareLength := fun i hi => Vec.getElem_divS _ _ i hi
    apply Vec.ext3 <;> rw [e _ (by omega), div_eq_iff h0, Vec.getElem_mulS, Vec.squareLength3] <;>
      simp only [Vec.cross3_0, Vec.cross3_1, Vec.cross3_2, b0, b1, b2]
    · linear_combination -(a'[0] * Real.sin t) * ho
    · linear_combination -(a'[1] * Real.sin t) * ho
    · linear_combination -(a'[2] * Real.sin t) * ho
/-- `r3d::mapping`, src/transform/rotation.rs:424-440: `a'` and `b'` are the parts of `a` and of its image orthogonal to the axis. -/
theorem C92_rotation3_mapping (r : Rotation3 ℝ) (hr : r.intoQuaternion.normSqr = 1) (hv : r.intoQuaternion.xyz ≠ 0) (a : Vec ℝ 3)
    (ha : r.axis.cross3 a ≠ 0) :
    let b := Transform.apply r a
    let a' := a - r.axis.mulS (a.dot r.axis)
    let b' := b - r.axis.mulS (b.dot r.axis)
    a.length = b.length ∧ a'.dot b' / a'.squareLength = Real.cos r.angle ∧
      (a'.cross3 b').divS a'.squareLength = r.axis.mulS (Real.sin r.angle) := by
  intro b a' b'
  obtain ⟨hk, -, -, hn⟩ := C56_decompose r hr hv
  exact ⟨(C55_length r hr a).symm, mapping_core r.axis a b a' b' r.angle hk ha (by rw [← C56_rodrigues _ _ _ hk, hn]) rfl rfl⟩
/-- `derivation`, second case, src/complex/tests/quaternion/advanced.rs:67-70: the difference quotient of the square misses the derivative by
exactly `ε v²`. -/
theorem C92_derivation_square (p v : Quat ℝ) (ε : ℝ) (hε : ε ≠ 0) :
    ((p + Quat.sMul ε v) * (p + Quat.sMul ε v) - p * p).divS ε - (p * v + v * p) = Quat.sMul ε (v * v) := by
  apply Quat.ext' <;> simp [Quat.sMul] <;> field_simp <;> ring
/-- `derivation`, third case, src/complex/tests/quaternion/advanced.rs:71-78: the distance between the difference quotient of the inverse and
the formula for its derivative, relative to the derivative, is exactly `ε |v| / |p + εv|`. -/
theorem C92_derivation_inverse (p v : Quat ℝ) (ε : ℝ) (hε : 0 < ε) (hp : p ≠ 0) (hq : p + Quat.sMul ε v ≠ 0) :
    let d := (v.conj - Quat.sMul (2 * p.dot v / p.normSqr) p.conj).divS p.normSqr
    (((p + Quat.sMul ε v).inv - p.inv).divS ε - d).norm = ε * v.norm / (p + Quat.sMul ε v).norm * d.norm := by
  intro d
  have hd : d = -(p.inv * v * p.inv) := ((C90_inverse_formula 1 0 p v (by intro h; have := congrArg Cpx.re h; simp at this) hp).2).symm
  have sm : ∀ (s : ℝ) (q : Quat ℝ), (Quat.sMul s q).toH = s • q.toH := fun s q => by
    apply Quaternion.ext <;> simp [Quat.sMul] <;> ring
  have ds : ∀ (s : ℝ) (q : Quat ℝ), (q.divS s).toH = s⁻¹ • q.toH := fun s q => by
    apply Quaternion.ext <;> simp [div_eq_mul_inv] <;> ring
  have hinv : ∀ q : Quat ℝ, q.inv.toH = q.toH⁻¹ := fun q => (C43_isomorphic_real q q).1
  have hadd : ∀ a b : Quat ℝ, (a + b).toH = a.toH + b.toH := fun a b => (C43_isomorphic.2.2.2 a b).1
  have hneg : ∀ a : Quat ℝ, (-a).toH = -a.toH := fun a => (C43_isomorphic.2.2.2 a a).2.2.1
  have nz : ∀ q : Quat ℝ, q ≠ 0 → q.toH ≠ 0 := fun q h e => h (C43_isomorphic.1.1 (e.trans C43_isomorphic.2.1.symm))
  have hp' := nz _ hp
  have hq' := nz _ hq
  rw [hadd, sm] at hq'
  rw [hd, norm_eq, norm_eq, norm_eq, norm_eq, toH_sub, ds, toH_sub, hinv, hinv, hneg, toH_mul, toH_mul, hinv, hadd, sm]
  generalize p.toH = P at *
  generalize v.toH = V at *
  have e : ε⁻¹ • ((P + ε • V)⁻¹ - P⁻¹) - -(P⁻¹ * V * P⁻¹) = (P + ε • V)⁻¹ * (ε • V) * (P⁻¹ * V * P⁻¹) := by
    have k1 : (P + ε • V)⁻¹ - P⁻¹ = -((P + ε • V)⁻¹ * (ε • V) * P⁻¹) := by
      have : (P + ε • V)⁻¹ * (ε • V) * P⁻¹ = (P + ε • V)⁻¹ * ((P + ε • V) - P) * P⁻¹ := by congr 2; abel
      rw [this, mul_sub, sub_mul, inv_mul_cancel₀ hq', one_mul, mul_assoc, mul_inv_cancel₀ hp', mul_one]; abel
    have k2 : ε⁻¹ • ((P + ε • V)⁻¹ - P⁻¹) = -((P + ε • V)⁻¹ * V * P⁻¹) := by
      rw [k1, smul_neg, mul_smul_comm, smul_mul_assoc, smul_smul, inv_mul_cancel₀ hε.ne', one_smul]
    have k3 : (P + ε • V)⁻¹ * (ε • V) * (P⁻¹ * V * P⁻¹) = (P⁻¹ - (P + ε • V)⁻¹) * V * P⁻¹ := by
      rw [show P⁻¹ - (P + ε • V)⁻¹ = (P + ε • V)⁻¹ * (ε • V) * P⁻¹ by rw [← neg_sub, k1, neg_neg]]
      simp only [mul_assoc]
    rw [k2, k3, sub_mul, sub_mul]; abel
  rw [e, norm_mul, norm_mul, norm_inv, norm_smul, Real.norm_of_nonneg hε.le, norm_neg]
  field_simp

/-! ## concrete cases -/
example := C92_rotation2_mapping (Rotation2.fromComplex (Cpx.new (3 / 5) (4 / 5))) (by
  rw [Cpx.normSqr_eq]; simp [Rotation2.fromComplex, Rotation2.intoComplex]; norm_num) (Vec.fill 1) (by
  intro h; have := Vec.getElem_congr_vec h 0 (by omega); simp at this)
/-- The hypotheses of `C92_rotation3_mapping`. -/
theorem CrateEx.hyp : ∃ (r : Rotation3 ℝ) (_ : r.intoQuaternion.normSqr = 1) (_ : r.intoQuaternion.xyz ≠ 0) (a : Vec ℝ 3), r.axis.cross3 a ≠ 0 := by
  have hk : (Vec.fromTuple3 ((0 : ℝ), 0, 1)).length = 1 := by
    show Real.sqrt (Vec.squareLength _) = 1
    rw [Vec.squareLength3]; simp
  have hx := (C56_axis_angle (Vec.fromTuple3 ((0 : ℝ), 0, 1)) 1 hk).2 (by norm_num) (by linarith [Real.two_le_pi])
  obtain ⟨-, -, -, hz⟩ := Rotation3.quat_new (Vec.fromTuple3 ((0 : ℝ), 0, 1)) 1
  refine ⟨Rotation3.new (Vec.fromTuple3 (0, 0, 1)) 1, C56_unit _ 1 hk, fun h => ?_, Vec.fromTuple3 (1, 0, 0), fun h => ?_⟩
  · have h2 := Vec.getElem_congr_vec h 2 (by omega)
    have e : (Rotation3.new (Vec.fromTuple3 ((0 : ℝ), 0, 1)) 1).intoQuaternion.xyz[2] = (Rotation3.new (Vec.fromTuple3 ((0 : ℝ), 0, 1)) 1).quat.z := Quat.sv_2 _
    rw [e, hz] at h2
    have : 0 < Real.sin (1 / 2) := Real.sin_pos_of_pos_of_lt_pi (by norm_num) (by linarith [Real.two_le_pi])
    simp at h2; norm_num at this; linarith
  · rw [hx] at h
    have := Vec.getElem_congr_vec h 1 (by omega)
    rw [Vec.cross3_1] at this
    simp at this
example : True := by
  obtain ⟨r, h1, h2, a, h3⟩ := CrateEx.hyp
  have := C92_rotation3_mapping r h1 h2 a h3
  trivial
example := C92_derivation_square (Quat.new 1 2 3 4) (Quat.new 0 1 0 0) (1 / 2) (by norm_num)
example := C92_derivation_inverse (Quat.new 1 2 3 4) (Quat.new 0 1 0 0) (1 / 2) (by norm_num)
  (by intro h; have := congrArg Quat.w h; simp at this) (by intro h; have := congrArg Quat.w h; simp [Quat.sMul] at this)
end Vecmat
