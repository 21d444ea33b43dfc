import Verif.Props.Continuity
/-!
# C57, converse: `look_at` and `look_at_any` need unit directions

With exact real arithmetic `look_at` gives a rotation exactly for unit directions that are not parallel to `up`; both `look_at_any`
give a rotation exactly for unit directions. `Rotation3::look_at_any` returns for every direction; the norm of its quaternion is
computed exactly.
-/
namespace Vecmat
open Spec Cont

namespace LookAtExact
theorem sq3 (v : Vec ℝ 3) : v.length = 1 ↔ v[0] * v[0] + v[1] * v[1] + v[2] * v[2] = 1 := by
  show Real.sqrt (Vec.squareLength _) = 1 ↔ _
  rw [Vec.squareLength3, Real.sqrt_eq_one]

theorem Q_norm (d : Fin 3 → ℝ) (h : d 2 < 1) :
    (Q d).intoQuaternion.normSqr = (1 - 2 * d 2 + (d 0 * d 0 + d 1 * d 1 + d 2 * d 2)) / (2 * (1 - d 2)) := by
  have hC : C d * C d = (1 - d 2) / 2 := by rw [C, Real.mul_self_sqrt (by linarith)]
  have hn : C d ≠ 0 := by rw [C]; exact (Real.sqrt_pos.2 (by linarith)).ne'
  have hi : 1 - d 2 = 2 * (C d * C d) := by rw [hC]; ring
  have hz : d 2 = 1 - 2 * (C d * C d) := by linarith
  rw [Quat.normSqr_eq, hi]
  simp [Q, Rotation3.fromQuaternion, Rotation3.intoQuaternion]
  rw [hz]; field_simp; ring

theorem Q_mz (d : Fin 3 → ℝ) (h : d 2 < 1) :
    coords (Transform.apply (Q d) (Vec.fromTuple3 (0, 0, -1))) = d ↔ d 0 * d 0 + d 1 * d 1 + d 2 * d 2 = 1 := by
  obtain ⟨h0, h1, h2⟩ := Q_apply d (Vec.fromTuple3 (0, 0, -1)) h
  have hn : 1 - d 2 ≠ 0 := by linarith
  have key : coords (Transform.apply (Q d) (Vec.fromTuple3 (0, 0, -1))) 2 = d 2 ↔ d 0 * d 0 + d 1 * d 1 + d 2 * d 2 = 1 := by
    rw [h2]
    simp [coords]
    rw [sub_eq_iff_eq_add, div_eq_iff (by positivity)]
    constructor
    · intro e
      field_simp at e
      linarith
    · intro e
      field_simp
      linarith
  constructor
  · intro e; exact key.1 (congrFun e 2)
  · intro e
    ext i; fin_cases i
    · show _ = d 0
      rw [show (⟨0, by omega⟩ : Fin 3) = 0 from rfl, h0]; simp [coords]
    · show _ = d 1
      rw [show (⟨1, by omega⟩ : Fin 3) = 1 from rfl, h1]; simp [coords]
    · exact key.2 e
end LookAtExact
open LookAtExact

/-- `Linear::look_at` gives a rotation matrix exactly for unit directions that are not parallel to `up`. -/
theorem C57_linear_look_at_iff (dir up : Vec ℝ 3) :
    Spec.IsRotation (Linear.lookAt dir up).intoMatrix ↔ dir.length = 1 ∧ dir.cross3 up ≠ 0 := by
  refine ⟨fun h => ?_, fun h => (C57_linear_look_at dir up h.1 h.2).1⟩
  have hm : (Linear.lookAt dir up).intoMatrix.toMatrix = _ :=
    Mat.toMatrix_cols3 ((dir.cross3 up).normalize) (((dir.cross3 up).normalize).cross3 dir) (-dir)
  have ht := congrArg Mat.toMatrix h.1
  rw [Mat.toMatrix_dotM, Mat.toMatrix_transpose, Mat.toMatrix_one, hm] at ht
  have h00 := congrFun (congrFun ht 0) 0
  have h22 := congrFun (congrFun ht 2) 2
  simp [Matrix.mul_apply, Fin.sum_univ_three] at h00 h22
  refine ⟨(sq3 dir).2 h22, fun h0 => ?_⟩
  rw [h0] at h00
  simp [Vec.normalize] at h00

/-- `Linear::look_at_any` gives a rotation matrix exactly for unit directions. -/
theorem C57_linear_look_at_any_iff (dir : Vec ℝ 3) : Spec.IsRotation (Linear.lookAtAny dir).intoMatrix ↔ dir.length = 1 := by
  refine ⟨fun h => ?_, fun h => (C57_linear_look_at_any dir h).1⟩
  unfold Linear.lookAtAny at h
  split at h
  · exact ((C57_linear_look_at_iff _ _).1 h).1
  · exact ((C57_linear_look_at_iff _ _).1 h).1

/-- `Rotation3::look_at_any` returns for every direction, unit or not; its quaternion has the square norm
`(1 + 2|z| + |dir|²) / (2 (1 + |z|))`, is a unit quaternion exactly for unit directions, and maps `-z` to `dir` exactly for unit directions. -/
theorem C57_rotation_look_at_any_iff (dir : Vec ℝ 3) :
    ∃ r : Rotation3 ℝ, (∀ fuel, 2 ≤ fuel → Rotation3.lookAtAnyR fuel dir = .ok r) ∧
      r.intoQuaternion.normSqr = ((1 : ℝ) + (2 : ℝ) * |dir[2]| + dir.squareLength) / ((2 : ℝ) * ((1 : ℝ) + |dir[2]|)) ∧
      (r.intoQuaternion.normSqr = 1 ↔ dir.length = 1) ∧
      (Transform.apply r (Vec.fromTuple3 (0, 0, -1)) = dir ↔ dir.length = 1) := by
  obtain ⟨d, rfl⟩ : ∃ d, dir = ofCoords d := ⟨coords dir, by apply Vec.ext3 <;> simp [ofCoords, coords]⟩
  have e0 : (ofCoords d : Vec ℝ 3)[0] = d 0 := by simp [ofCoords]
  have e1 : (ofCoords d : Vec ℝ 3)[1] = d 1 := by simp [ofCoords]
  have e2 : (ofCoords d : Vec ℝ 3)[2] = d 2 := by simp [ofCoords]
  have hnorm : ∀ n z s : ℝ, 0 ≤ z → n = (1 + 2 * z + s) / (2 * (1 + z)) → (n = 1 ↔ s = 1) := by
    rintro n z s hz rfl
    rw [div_eq_one_iff_eq (by positivity)]
    constructor <;> intro h <;> linarith
  refine ⟨if d 2 < 0 then Q d else Transform.chain (Vec ℝ 3) (Q (-d)) H, fun fuel hf => ?_, ?_⟩
  · obtain ⟨n, rfl⟩ : ∃ n, fuel = n + 2 := ⟨fuel - 2, by omega⟩
    exact pub n d
  rw [sq3, Vec.squareLength3, e0, e1, e2]
  by_cases h : d 2 < 0
  · rw [if_pos h]
    have hq : (Q d).intoQuaternion.normSqr = (1 + 2 * |d 2| + (d 0 * d 0 + d 1 * d 1 + d 2 * d 2)) / (2 * (1 + |d 2|)) := by
      rw [Q_norm d (by linarith), abs_of_neg h]; congr 1 <;> ring
    refine ⟨hq, hnorm _ _ _ (abs_nonneg _) hq, ?_⟩
    rw [← Q_mz d (by linarith)]
    constructor
    · intro e; rw [e]; ext i; simp [ofCoords, coords]
    · intro e; conv_rhs => rw [← e]
      apply Vec.ext3 <;> simp [ofCoords, coords]
  · rw [if_neg h]
    push Not at h
    have hx : (Vec.fromTuple3 ((1 : ℝ), 0, 0)).length = 1 := by
      rw [sq3]; simp
    have hmul : (Transform.chain (Vec ℝ 3) (Q (-d)) H).intoQuaternion.normSqr = (Q (-d)).intoQuaternion.normSqr := by
      show ((Q (-d)).intoQuaternion * H.intoQuaternion).normSqr = _
      rw [(C44_normSqr_mul _ _).1, show H.intoQuaternion.normSqr = 1 from C56_unit _ _ hx, mul_one]
    have hq : (Transform.chain (Vec ℝ 3) (Q (-d)) H).intoQuaternion.normSqr =
        (1 + 2 * |d 2| + (d 0 * d 0 + d 1 * d 1 + d 2 * d 2)) / (2 * (1 + |d 2|)) := by
      rw [hmul, Q_norm (-d) (by simp; linarith), abs_of_nonneg h]; simp
    refine ⟨hq, hnorm _ _ _ (abs_nonneg _) hq, ?_⟩
    have hs : d 0 * d 0 + d 1 * d 1 + d 2 * d 2 = (-d) 0 * (-d) 0 + (-d) 1 * (-d) 1 + (-d) 2 * (-d) 2 := by simp
    rw [hs, ← Q_mz (-d) (by simp; linarith), chain_apply]
    obtain ⟨a0, a1, a2⟩ := H_apply (Vec.fromTuple3 ((0 : ℝ), 0, -1))
    obtain ⟨b0, b1, b2⟩ := Q_apply (-d) (Transform.apply H (Vec.fromTuple3 ((0 : ℝ), 0, -1))) (by simp; linarith)
    obtain ⟨c0, c1, c2⟩ := Q_apply (-d) (Vec.fromTuple3 ((0 : ℝ), 0, -1)) (by simp; linarith)
    have hneg : ∀ i, coords (Transform.apply (Q (-d)) (Transform.apply H (Vec.fromTuple3 ((0 : ℝ), 0, -1)))) i =
        -coords (Transform.apply (Q (-d)) (Vec.fromTuple3 ((0 : ℝ), 0, -1))) i := by
      have g0 : coords (Transform.apply H (Vec.fromTuple3 ((0 : ℝ), 0, -1))) 0 = 0 := by simpa [coords] using a0
      have g1 : coords (Transform.apply H (Vec.fromTuple3 ((0 : ℝ), 0, -1))) 1 = 0 := by simpa [coords] using a1
      have g2 : coords (Transform.apply H (Vec.fromTuple3 ((0 : ℝ), 0, -1))) 2 = 1 := by simpa [coords] using a2
      have k0 : coords (Vec.fromTuple3 ((0 : ℝ), 0, -1)) 0 = 0 := by simp [coords]
      have k1 : coords (Vec.fromTuple3 ((0 : ℝ), 0, -1)) 1 = 0 := by simp [coords]
      have k2 : coords (Vec.fromTuple3 ((0 : ℝ), 0, -1)) 2 = -1 := by simp [coords]
      intro i; fin_cases i
      · show coords _ 0 = - coords _ 0
        rw [b0, c0, g0, g1, g2, k0, k1, k2]; ring
      · show coords _ 1 = - coords _ 1
        rw [b1, c1, g0, g1, g2, k0, k1, k2]; ring
      · show coords _ 2 = - coords _ 2
        rw [b2, c2, g0, g1, g2, k0, k1, k2]; ring
    constructor
    · intro e; ext i
      have := hneg i
      rw [e] at this
      have hc : coords (ofCoords d : Vec ℝ 3) i = d i := by simp [ofCoords, coords]
      rw [hc] at this
      simp only [Pi.neg_apply]; linarith
    · intro e
      have hc : coords (Transform.apply (Q (-d)) (Transform.apply H (Vec.fromTuple3 ((0 : ℝ), 0, -1)))) = d := by
        ext i; rw [hneg i, e]; simp
      conv_rhs => rw [← hc]
      apply Vec.ext3 <;> simp [ofCoords, coords]

/-- The zero vector as a direction: the result is not a rotation. -/
theorem C57_zero_direction : ∃ r : Rotation3 ℝ, (∀ fuel, 2 ≤ fuel → Rotation3.lookAtAnyR fuel (0 : Vec ℝ 3) = .ok r) ∧
    r.intoQuaternion.normSqr = 1 / 2 := by
  obtain ⟨r, hr, hn, -⟩ := C57_rotation_look_at_any_iff 0
  refine ⟨r, hr, ?_⟩
  rw [hn, Vec.squareLength3]; simp

/-- A direction of length 5 that is not parallel to `up`: no rotation; the unit vector along it: a rotation. -/
example : ¬ Spec.IsRotation (Linear.lookAt (Vec.fromTuple3 (3, 4, 0)) (Vec.fromTuple3 (0, 0, 1))).intoMatrix ∧
    Spec.IsRotation (Linear.lookAt (Vec.fromTuple3 (3/5, 4/5, 0)) (Vec.fromTuple3 (0, 0, 1))).intoMatrix := by
  rw [C57_linear_look_at_iff, C57_linear_look_at_iff, sq3, sq3]
  refine ⟨by simp; norm_num, by simp; norm_num, fun h => ?_⟩
  have := Vec.getElem_congr_vec h 0 (by omega)
  simp at this
end Vecmat
