import Verif.Props.F32
import Verif.Props.F32LookAt
import Verif.Props.F64Renorm
/-!
# C115: norms, normalisation and re-normalised rotations in single precision
-/
namespace Vecmat
open Spec Ieee F32
set_option exponentiation.threshold 3000

namespace F32
theorem valV_vec {q : Quat F} {Q : Quat ℝ} (h : ValQ q Q) : ValV q.vec Q.vec := by
  intro i
  fin_cases i
  · exact h.1
  · exact h.2.1
  · exact h.2.2.1
  · exact h.2.2.2
theorem valQ_vec {q : Quat F} {Q : Quat ℝ} (h : ValV q.vec Q.vec) : ValQ q Q := ⟨h 0, h 1, h 2, h 3⟩
theorem valV_cvec {q : Cpx F} {Q : Cpx ℝ} (h : ValC q Q) : ValV q.vec Q.vec := by
  intro i
  fin_cases i
  · exact h.1
  · exact h.2
theorem toH_normalize (Q : Quat ℝ) : Q.normalize.toH = Renorm.dir Q.toH := by
  rw [Renorm.dir, ← norm_eq]
  apply Quaternion.ext <;> simp [Quat.normalize, div_eq_inv_mul]
theorem toC_normalize (Q : Cpx ℝ) : Q.normalize.toC = Renorm.dir Q.toC := by
  rw [Renorm.dir, ← cnorm_eq]
  have h : Q.norm⁻¹ = Q.norm⁻¹ * Q.norm⁻¹ * Q.norm := by
    by_cases h : Q.norm = 0
    · simp [h]
    · field_simp
  apply Complex.ext <;> simp [Cpx.normalize, div_eq_inv_mul, Cpx.toC] <;> exact Or.inl h
theorem qnormalize {q : Quat F} {Q : Quaternion ℝ} (hq : IsQ q Q) (hl : 1 / 2 ^ 55 ≤ ‖Q‖) (hr : ‖Q‖ ≤ 2 ^ 55) :
    ∃ W, IsQ q.normalize W ∧ ‖W - Renorm.dir Q‖ ≤ 13 / 2 ^ 25 := by
  have e : (ofH Q).vec.length = ‖Q‖ := by rw [← toH_ofH Q, ← norm_eq, toH_ofH]; rfl
  obtain ⟨W, h1, h2⟩ := nrm_val (N := 4) (by norm_num) (valV_vec (valQ_ofH hq)) (by rwa [e]) (by rwa [e])
  refine ⟨(⟨W⟩ : Quat ℝ).toH, valQ_vec (q := q.normalize) (Q := ⟨W⟩) h1, ?_⟩
  rw [show Renorm.dir Q = (ofH Q).normalize.toH by rw [toH_normalize, toH_ofH], ← toH_sub, ← norm_eq]
  exact h2.trans (by norm_num)
theorem cnormalize {q : Cpx F} {Q : ℂ} (hq : IsC q Q) (hl : 1 / 2 ^ 55 ≤ ‖Q‖) (hr : ‖Q‖ ≤ 2 ^ 55) :
    ∃ W, IsC q.normalize W ∧ ‖W - Renorm.dir Q‖ ≤ 11 / 2 ^ 25 := by
  have e : (ofC Q).vec.length = ‖Q‖ := by rw [← toC_ofC Q, ← cnorm_eq, toC_ofC]; rfl
  obtain ⟨W, h1, h2⟩ := nrm_val (N := 2) (by norm_num) (valV_cvec (valC_ofC hq)) (by rwa [e]) (by rwa [e])
  refine ⟨(⟨W⟩ : Cpx ℝ).toC, ⟨h1 0, h1 1⟩, ?_⟩
  rw [show Renorm.dir Q = (ofC Q).normalize.toC by rw [toC_normalize, toC_ofC], ← toC_sub, ← cnorm_eq]
  exact h2.trans (by norm_num)
end F32

/-- `norm`/`normalize` of a quaternion. -/
theorem C115_quaternion_f32 (q : Quat F) (Q : Quat ℝ) (hq : ValQ q Q) (hl : 1 / 2 ^ 55 ≤ Q.norm) (hr : Q.norm ≤ 2 ^ 55) :
    (∃ n, q.norm.toReal? = some n ∧ |n - Q.norm| ≤ 9 / 2 ^ 25 * Q.norm) ∧
    ∃ W, ValQ q.normalize W ∧ (W - Q.normalize).norm ≤ 13 / 2 ^ 25 ∧ |W.norm - 1| ≤ 13 / 2 ^ 25 := by
  constructor
  · obtain ⟨l, h1, h2⟩ := len_val (N := 4) (by norm_num) (valV_vec hq) hl hr
    exact ⟨l, h1, by norm_num at h2 ⊢; exact h2⟩
  · rw [norm_eq] at hl hr
    obtain ⟨W, h1, h2⟩ := qnormalize (Q := Q.toH) hq hl hr
    refine ⟨ofH W, valQ_ofH h1, ?_, ?_⟩
    · rw [norm_eq, toH_sub, toH_ofH, toH_normalize]; exact h2
    · rw [norm_eq, toH_ofH]
      exact Renorm.near (norm_pos_iff.1 (lt_of_lt_of_le (by positivity) hl)) h2
/-- `norm`/`normalize` of a complex number. -/
theorem C115_complex_f32 (z : Cpx F) (Z : Cpx ℝ) (hz : ValC z Z) (hl : 1 / 2 ^ 55 ≤ Z.norm) (hr : Z.norm ≤ 2 ^ 55) :
    (∃ n, z.norm.toReal? = some n ∧ |n - Z.norm| ≤ 7 / 2 ^ 25 * Z.norm) ∧
    ∃ W, ValC z.normalize W ∧ (W - Z.normalize).norm ≤ 11 / 2 ^ 25 ∧ |W.norm - 1| ≤ 11 / 2 ^ 25 := by
  constructor
  · obtain ⟨l, h1, h2⟩ := len_val (N := 2) (by norm_num) (valV_cvec hz) hl hr
    exact ⟨l, h1, by norm_num at h2 ⊢; exact h2⟩
  · rw [cnorm_eq] at hl hr
    obtain ⟨W, h1, h2⟩ := cnormalize (Q := Z.toC) hz hl hr
    refine ⟨ofC W, valC_ofC h1, ?_, ?_⟩
    · rw [cnorm_eq, toC_sub, toC_ofC, toC_normalize]; exact h2
    · rw [cnorm_eq, toC_ofC]
      exact Renorm.near (norm_pos_iff.1 (lt_of_lt_of_le (by positivity) hl)) h2

namespace F32
theorem qstep {a r : Quat F} {A P R : Quaternion ℝ} {e : ℝ} (ha : IsQ a A) (hr : IsQ r R) (hA : |‖A‖ - 1| ≤ 13 / 2 ^ 25) (hP : P ≠ 0)
    (he : ‖A - Renorm.dir P‖ ≤ e) (rl : 1 / 2 ^ 40 ≤ ‖R‖) (rr : ‖R‖ ≤ 2 ^ 40) :
    ∃ W, IsQ (a * r).normalize W ∧ |‖W‖ - 1| ≤ 13 / 2 ^ 25 ∧ ‖W - Renorm.dir (P * R)‖ ≤ e + 32 / 2 ^ 24 := by
  obtain ⟨al, ar⟩ := abs_le.1 hA
  have al' : 1 / 2 ≤ ‖A‖ := by norm_num at al ⊢; linarith
  have ar' : ‖A‖ ≤ 2 := by norm_num at ar ⊢; linarith
  have m1 : 1 / 2 ^ 41 ≤ ‖A‖ * ‖R‖ := by
    calc (1 / 2 ^ 41 : ℝ) = 1 / 2 * (1 / 2 ^ 40) := by norm_num
      _ ≤ _ := by gcongr
  have m2 : ‖A‖ * ‖R‖ ≤ 2 ^ 41 := by
    calc ‖A‖ * ‖R‖ ≤ 2 * 2 ^ 40 := by gcongr
      _ = _ := by norm_num
  obtain ⟨V, v1, v2⟩ := qmul ha hr (m2.trans (by norm_num))
  have v3 : ‖V - A * R‖ ≤ 37 / 2 ^ 26 * (‖A‖ * ‖R‖) := by
    refine v2.trans ?_
    have : (1:ℝ) / 2 ^ 146 ≤ 1 / 2 ^ 26 * (‖A‖ * ‖R‖) := by
      calc (1:ℝ) / 2 ^ 146 ≤ 1 / 2 ^ 26 * (1 / 2 ^ 41) := by norm_num
        _ ≤ _ := by gcongr
    generalize ‖A‖ * ‖R‖ = m at *
    generalize (1:ℝ) / 2 ^ 146 = t at *
    norm_num at *; linarith
  have v4 := abs_le.1 ((abs_norm_sub_norm_le V (A * R)).trans v3)
  rw [norm_mul] at v4
  have vl : 1 / 2 ^ 55 ≤ ‖V‖ := by
    calc (1 / 2 ^ 55 : ℝ) ≤ 1 / 2 * (1 / 2 ^ 41) := by norm_num
      _ ≤ 1 / 2 * (‖A‖ * ‖R‖) := by gcongr
      _ ≤ _ := by
        have : 0 ≤ ‖A‖ * ‖R‖ := by positivity
        generalize ‖A‖ * ‖R‖ = m at *
        norm_num at v4 ⊢; linarith
  have vr : ‖V‖ ≤ 2 ^ 55 := by
    calc ‖V‖ ≤ 2 * (‖A‖ * ‖R‖) := by
          have : 0 ≤ ‖A‖ * ‖R‖ := by positivity
          generalize ‖A‖ * ‖R‖ = m at *
          norm_num at v4 ⊢; linarith
      _ ≤ 2 * 2 ^ 41 := by gcongr
      _ ≤ _ := by norm_num
  obtain ⟨W, w1, w2⟩ := qnormalize v1 vl vr
  have V0 : V ≠ 0 := norm_pos_iff.1 (lt_of_lt_of_le (by positivity) vl)
  refine ⟨W, w1, Renorm.near V0 w2, (Renorm.step hP (norm_pos_iff.1 (lt_of_lt_of_le (by norm_num) al'))
    (norm_pos_iff.1 (lt_of_lt_of_le (by positivity) rl)) V0 hA he v3 w2).trans ?_⟩
  gcongr; norm_num
theorem cstep {a r : Cpx F} {A P R : ℂ} {e : ℝ} (ha : IsC a A) (hr : IsC r R) (hA : |‖A‖ - 1| ≤ 11 / 2 ^ 25) (hP : P ≠ 0)
    (he : ‖A - Renorm.dir P‖ ≤ e) (rl : 1 / 2 ^ 40 ≤ ‖R‖) (rr : ‖R‖ ≤ 2 ^ 40) :
    ∃ W, IsC (a * r).normalize W ∧ |‖W‖ - 1| ≤ 11 / 2 ^ 25 ∧ ‖W - Renorm.dir (P * R)‖ ≤ e + 20 / 2 ^ 24 := by
  obtain ⟨al, ar⟩ := abs_le.1 hA
  have al' : 1 / 2 ≤ ‖A‖ := by norm_num at al ⊢; linarith
  have ar' : ‖A‖ ≤ 2 := by norm_num at ar ⊢; linarith
  have m1 : 1 / 2 ^ 41 ≤ ‖A‖ * ‖R‖ := by
    calc (1 / 2 ^ 41 : ℝ) = 1 / 2 * (1 / 2 ^ 40) := by norm_num
      _ ≤ _ := by gcongr
  have m2 : ‖A‖ * ‖R‖ ≤ 2 ^ 41 := by
    calc ‖A‖ * ‖R‖ ≤ 2 * 2 ^ 40 := by gcongr
      _ = _ := by norm_num
  obtain ⟨V, v1, v2⟩ := cmul ha hr (m2.trans (by norm_num))
  have v3 : ‖V - A * R‖ ≤ 17 / 2 ^ 26 * (‖A‖ * ‖R‖) := by
    refine v2.trans ?_
    have : (1:ℝ) / 2 ^ 147 ≤ 1 / 2 ^ 26 * (‖A‖ * ‖R‖) := by
      calc (1:ℝ) / 2 ^ 147 ≤ 1 / 2 ^ 26 * (1 / 2 ^ 41) := by norm_num
        _ ≤ _ := by gcongr
    generalize ‖A‖ * ‖R‖ = m at *
    generalize (1:ℝ) / 2 ^ 147 = t at *
    norm_num at *; linarith
  have v4 := abs_le.1 ((abs_norm_sub_norm_le V (A * R)).trans v3)
  rw [norm_mul] at v4
  have vl : 1 / 2 ^ 55 ≤ ‖V‖ := by
    calc (1 / 2 ^ 55 : ℝ) ≤ 1 / 2 * (1 / 2 ^ 41) := by norm_num
      _ ≤ 1 / 2 * (‖A‖ * ‖R‖) := by gcongr
      _ ≤ _ := by
        have : 0 ≤ ‖A‖ * ‖R‖ := by positivity
        generalize ‖A‖ * ‖R‖ = m at *
        norm_num at v4 ⊢; linarith
  have vr : ‖V‖ ≤ 2 ^ 55 := by
    calc ‖V‖ ≤ 2 * (‖A‖ * ‖R‖) := by
          have : 0 ≤ ‖A‖ * ‖R‖ := by positivity
          generalize ‖A‖ * ‖R‖ = m at *
          norm_num at v4 ⊢; linarith
      _ ≤ 2 * 2 ^ 41 := by gcongr
      _ ≤ _ := by norm_num
  obtain ⟨W, w1, w2⟩ := cnormalize v1 vl vr
  have V0 : V ≠ 0 := norm_pos_iff.1 (lt_of_lt_of_le (by positivity) vl)
  refine ⟨W, w1, Renorm.near V0 w2, (Renorm.step hP (norm_pos_iff.1 (lt_of_lt_of_le (by norm_num) al'))
    (norm_pos_iff.1 (lt_of_lt_of_le (by positivity) rl)) V0 hA he v3 w2).trans ?_⟩
  gcongr; norm_num
end F32


namespace F32
theorem renorm_core : ∀ (rs : List (Rotation3 F)) (Rs : List (Rotation3 ℝ)),
    List.Forall₂ (fun r R => ValQ r.intoQuaternion R.intoQuaternion ∧ 1 / 2 ^ 40 ≤ R.intoQuaternion.norm ∧ R.intoQuaternion.norm ≤ 2 ^ 40) rs Rs →
    ∀ (k : ℕ) (a : Rotation3 F) (A : Quaternion ℝ) (P : Rotation3 ℝ), IsQ a.quat A → |‖A‖ - 1| ≤ 13 / 2 ^ 25 → P.quat.toH ≠ 0 →
    ‖A - Renorm.dir P.quat.toH‖ ≤ 32 / 2 ^ 24 * k →
    ∃ B, IsQ (rs.foldl chainUnit3 a).quat B ∧ |‖B‖ - 1| ≤ 13 / 2 ^ 25 ∧
      (Rs.foldl (Transform.chain (Vec ℝ 3)) P).quat.toH ≠ 0 ∧
      ‖B - Renorm.dir (Rs.foldl (Transform.chain (Vec ℝ 3)) P).quat.toH‖ ≤ 32 / 2 ^ 24 * (k + rs.length : ℕ) := by
  intro rs Rs h
  induction h with
  | nil => intro k a A P h1 h2 h3 h4; exact ⟨A, h1, h2, h3, by simpa using h4⟩
  | @cons r R rs Rs hr _ ih =>
    intro k a A P h1 h2 h3 h4
    obtain ⟨hr, rl, rr⟩ := hr
    rw [norm_eq] at rl rr
    obtain ⟨W, w1, w2, w3⟩ := qstep (r := r.quat) (R := R.quat.toH) h1 hr h2 h3 h4 rl rr
    have e : (Transform.chain (Vec ℝ 3) P R).quat.toH = P.quat.toH * R.quat.toH := toH_mul _ _
    have := ih (k + 1) (chainUnit3 a r) W (Transform.chain (Vec ℝ 3) P R) w1 w2
      (by rw [e]; exact mul_ne_zero h3 (norm_pos_iff.1 (lt_of_lt_of_le (by positivity) rl)))
      (by rw [e]; refine w3.trans (le_of_eq ?_); push_cast; ring)
    rw [show k + 1 + rs.length = k + (r :: rs).length by simp; omega] at this
    exact this
theorem renorm_core2 : ∀ (rs : List (Rotation2 F)) (Rs : List (Rotation2 ℝ)),
    List.Forall₂ (fun r R => ValC r.intoComplex R.intoComplex ∧ 1 / 2 ^ 40 ≤ R.intoComplex.norm ∧ R.intoComplex.norm ≤ 2 ^ 40) rs Rs →
    ∀ (k : ℕ) (a : Rotation2 F) (A : ℂ) (P : Rotation2 ℝ), IsC a.comp A → |‖A‖ - 1| ≤ 11 / 2 ^ 25 → P.comp.toC ≠ 0 →
    ‖A - Renorm.dir P.comp.toC‖ ≤ 20 / 2 ^ 24 * k →
    ∃ B, IsC (rs.foldl chainUnit2 a).comp B ∧ |‖B‖ - 1| ≤ 11 / 2 ^ 25 ∧
      (Rs.foldl (Transform.chain (Vec ℝ 2)) P).comp.toC ≠ 0 ∧
      ‖B - Renorm.dir (Rs.foldl (Transform.chain (Vec ℝ 2)) P).comp.toC‖ ≤ 20 / 2 ^ 24 * (k + rs.length : ℕ) := by
  intro rs Rs h
  induction h with
  | nil => intro k a A P h1 h2 h3 h4; exact ⟨A, h1, h2, h3, by simpa using h4⟩
  | @cons r R rs Rs hr _ ih =>
    intro k a A P h1 h2 h3 h4
    obtain ⟨hr, rl, rr⟩ := hr
    rw [cnorm_eq] at rl rr
    obtain ⟨W, w1, w2, w3⟩ := cstep (r := r.comp) (R := R.comp.toC) h1 hr h2 h3 h4 rl rr
    have e : (Transform.chain (Vec ℝ 2) P R).comp.toC = P.comp.toC * R.comp.toC := toC_mul _ _
    have := ih (k + 1) (chainUnit2 a r) W (Transform.chain (Vec ℝ 2) P R) w1 w2
      (by rw [e]; exact mul_ne_zero h3 (norm_pos_iff.1 (lt_of_lt_of_le (by positivity) rl)))
      (by rw [e]; refine w3.trans (le_of_eq ?_); push_cast; ring)
    rw [show k + 1 + rs.length = k + (r :: rs).length by simp; omega] at this
    exact this
end F32

/-- A rotation of space accumulated with a normalisation after every product: for any number `n` of steps, and although the factors need not
be unit quaternions, the result is finite, its norm is `1` within `13u/2` whatever `n`, and it is within `32 n u` of the unit quaternion in the
direction of the exact product. -/
theorem C115_rotation3_renormalised_f32 (rs : List (Rotation3 F)) (Rs : List (Rotation3 ℝ))
    (h : List.Forall₂ (fun r R => ValQ r.intoQuaternion R.intoQuaternion ∧ 1 / 2 ^ 40 ≤ R.intoQuaternion.norm ∧ R.intoQuaternion.norm ≤ 2 ^ 40) rs Rs) :
    ∃ B : Rotation3 ℝ, ValQ (rs.foldl chainUnit3 (Transform.identity (Vec F 3))).intoQuaternion B.intoQuaternion ∧ NearUnit3 (13 / 2 ^ 25) B ∧
      (B.intoQuaternion - (Rs.foldl (Transform.chain (Vec ℝ 3)) (Transform.identity (Vec ℝ 3))).intoQuaternion.normalize).norm ≤ 32 / 2 ^ 24 * rs.length := by
  have hid : ValQ (Transform.identity (Vec F 3) : Rotation3 F).intoQuaternion (Transform.identity (Vec ℝ 3) : Rotation3 ℝ).intoQuaternion := by
    refine ⟨?_, ?_, ?_, ?_⟩ <;> simp [Rotation3.intoQuaternion, Transform.identity] <;> rfl
  have hH : (Transform.identity (Vec ℝ 3) : Rotation3 ℝ).quat.toH = 1 := C43_isomorphic.2.2.1
  obtain ⟨B, h1, h2, -, h3⟩ := renorm_core rs Rs h 0 (Transform.identity (Vec F 3)) (Transform.identity (Vec ℝ 3) : Rotation3 ℝ).quat.toH (Transform.identity (Vec ℝ 3)) hid
    (by show |‖(Transform.identity (Vec ℝ 3) : Rotation3 ℝ).quat.toH‖ - 1| ≤ _; rw [hH]; norm_num) (by rw [hH]; exact one_ne_zero)
    (by show ‖(Transform.identity (Vec ℝ 3) : Rotation3 ℝ).quat.toH - _‖ ≤ _; rw [hH]; simp [Renorm.dir])
  rw [zero_add] at h3
  refine ⟨⟨ofH B⟩, valQ_ofH h1, ?_, ?_⟩
  · show |(ofH B).norm - 1| ≤ _
    rwa [norm_eq, toH_ofH]
  · rw [norm_eq, toH_sub, toH_normalize]
    show ‖(ofH B).toH - _‖ ≤ _
    rw [toH_ofH]; exact h3
/-- A rotation of the plane accumulated with a normalisation after every product. -/
theorem C115_rotation2_renormalised_f32 (rs : List (Rotation2 F)) (Rs : List (Rotation2 ℝ))
    (h : List.Forall₂ (fun r R => ValC r.intoComplex R.intoComplex ∧ 1 / 2 ^ 40 ≤ R.intoComplex.norm ∧ R.intoComplex.norm ≤ 2 ^ 40) rs Rs) :
    ∃ B : Rotation2 ℝ, ValC (rs.foldl chainUnit2 (Transform.identity (Vec F 2))).intoComplex B.intoComplex ∧ NearUnit2 (11 / 2 ^ 25) B ∧
      (B.intoComplex - (Rs.foldl (Transform.chain (Vec ℝ 2)) (Transform.identity (Vec ℝ 2))).intoComplex.normalize).norm ≤ 20 / 2 ^ 24 * rs.length := by
  have hid : ValC (Transform.identity (Vec F 2) : Rotation2 F).intoComplex (Transform.identity (Vec ℝ 2) : Rotation2 ℝ).intoComplex := by
    refine ⟨?_, ?_⟩ <;> simp [Rotation2.intoComplex, Transform.identity] <;> rfl
  have hH : (Transform.identity (Vec ℝ 2) : Rotation2 ℝ).comp.toC = 1 := C38_isomorphic.2.2.1
  obtain ⟨B, h1, h2, -, h3⟩ := renorm_core2 rs Rs h 0 (Transform.identity (Vec F 2)) (Transform.identity (Vec ℝ 2) : Rotation2 ℝ).comp.toC (Transform.identity (Vec ℝ 2)) hid
    (by show |‖(Transform.identity (Vec ℝ 2) : Rotation2 ℝ).comp.toC‖ - 1| ≤ _; rw [hH]; norm_num) (by rw [hH]; exact one_ne_zero)
    (by show ‖(Transform.identity (Vec ℝ 2) : Rotation2 ℝ).comp.toC - _‖ ≤ _; rw [hH]; simp [Renorm.dir])
  rw [zero_add] at h3
  refine ⟨⟨ofC B⟩, valC_ofC h1, ?_, ?_⟩
  · show |(ofC B).norm - 1| ≤ _
    rwa [cnorm_eq, toC_ofC]
  · rw [cnorm_eq, toC_sub, toC_normalize]
    show ‖(ofC B).toC - _‖ ≤ _
    rw [toC_ofC]; exact h3

namespace F32
theorem sandwich_close {B P X : Quaternion ℝ} {e η : ℝ} (hB : ‖B‖ ≤ 1 + η) (hP : ‖P‖ = 1) (he : ‖B - P‖ ≤ e) :
    ‖B * X * star B - P * X * star P‖ ≤ e * (2 + η) * ‖X‖ := by
  have e0 : 0 ≤ e := (norm_nonneg _).trans he
  rw [show B * X * star B - P * X * star P = (B - P) * X * star B + P * X * star (B - P) by rw [star_sub]; noncomm_ring]
  refine (norm_add_le _ _).trans ?_
  rw [norm_mul _ (star B), norm_mul _ X, norm_mul _ (star (_ - _)), norm_mul _ X, norm_star, norm_star, hP]
  calc _ ≤ e * ‖X‖ * (1 + η) + 1 * ‖X‖ * e := by gcongr
    _ = _ := by ring
end F32
/-- Applying the accumulated rotation: lengths are kept within `39u` whatever the number of steps, and the image is within `(19 + 65 n) u |x|`
of the image under the exact rotation. -/
theorem C115_rotation3_renormalised_apply_f32 (rs : List (Rotation3 F)) (Rs : List (Rotation3 ℝ)) (v : Vec F 3) (X : Vec ℝ 3)
    (h : List.Forall₂ (fun r R => ValQ r.intoQuaternion R.intoQuaternion ∧ 1 / 2 ^ 40 ≤ R.intoQuaternion.norm ∧ R.intoQuaternion.norm ≤ 2 ^ 40) rs Rs)
    (hv : ValV v X) (hX : X.length ≤ 2 ^ 108) :
    ∃ Y, ValV (Transform.apply (rs.foldl chainUnit3 (Transform.identity (Vec F 3))) v) Y ∧
      |Y.length - X.length| ≤ 39 / 2 ^ 24 * X.length + 1 / 2 ^ 144 ∧
      (Y - Transform.apply (Rotation3.fromQuaternion (Rs.foldl (Transform.chain (Vec ℝ 3)) (Transform.identity (Vec ℝ 3))).intoQuaternion.normalize) X).length ≤
        (19 + 65 * rs.length) / 2 ^ 24 * X.length + 1 / 2 ^ 144 := by
  obtain ⟨B, b1, b2, b3⟩ := C115_rotation3_renormalised_f32 rs Rs h
  obtain ⟨Y, y1, y2, y3⟩ := C107_rotation3_apply _ B v X _ b1 hv b2 (by norm_num) hX
  have x0 : 0 ≤ X.length := by rw [← norm_pureH]; positivity
  refine ⟨Y, y1, y3.trans ?_, ?_⟩
  · gcongr; norm_num
  have hp : (Rs.foldl (Transform.chain (Vec ℝ 3)) (Transform.identity (Vec ℝ 3))).quat.toH ≠ 0 := by
    have : ∀ (Rs : List (Rotation3 ℝ)) (P : Rotation3 ℝ), P.quat.toH ≠ 0 → (∀ R ∈ Rs, R.quat.toH ≠ 0) →
        (Rs.foldl (Transform.chain (Vec ℝ 3)) P).quat.toH ≠ 0 := by
      intro Rs
      induction Rs with
      | nil => intro P hP _; exact hP
      | cons R Rs ih =>
        intro P hP hR
        refine ih _ ?_ fun R' h' => hR R' (List.mem_cons_of_mem _ h')
        rw [show (Transform.chain (Vec ℝ 3) P R).quat.toH = P.quat.toH * R.quat.toH from toH_mul _ _]
        exact mul_ne_zero hP (hR R List.mem_cons_self)
    refine this Rs _ ?_ fun R hR => ?_
    · rw [show (Transform.identity (Vec ℝ 3) : Rotation3 ℝ).quat.toH = 1 from C43_isomorphic.2.2.1]; exact one_ne_zero
    · obtain ⟨i, hi, rfl⟩ := List.getElem_of_mem hR
      have := ((List.forall₂_iff_get.1 h).2 i (by rw [h.length_eq]; exact hi) hi).2.1
      simp only [List.get_eq_getElem] at this
      exact norm_pos_iff.1 (lt_of_lt_of_le (by positivity) (this.trans (le_of_eq (norm_eq _))))
  generalize hG : Rs.foldl (Transform.chain (Vec ℝ 3)) (Transform.identity (Vec ℝ 3)) = G at *
  rw [norm_eq, toH_sub] at b3
  have hu : ‖G.intoQuaternion.normalize.toH‖ = 1 := by rw [toH_normalize]; exact Renorm.norm_dir hp
  have s := sandwich_close (X := pureH X) (near_le b2).2 hu b3
  rw [← norm_pureH, pureH_sub, pureH_apply] at y2
  rw [← norm_pureH, pureH_sub, pureH_apply]
  rw [norm_pureH] at s
  show ‖pureH Y - G.intoQuaternion.normalize.toH * pureH X * star G.intoQuaternion.normalize.toH‖ ≤ _
  calc ‖pureH Y - G.intoQuaternion.normalize.toH * pureH X * star G.intoQuaternion.normalize.toH‖ =
      ‖(pureH Y - B.quat.toH * pureH X * star B.quat.toH) +
        (B.quat.toH * pureH X * star B.quat.toH - G.intoQuaternion.normalize.toH * pureH X * star G.intoQuaternion.normalize.toH)‖ := by congr 1; abel
    _ ≤ _ := norm_add_le _ _
    _ ≤ (19 / 2 ^ 24 * X.length + 1 / 2 ^ 144) + 32 / 2 ^ 24 * rs.length * (2 + 13 / 2 ^ 25) * X.length := add_le_add y2 s
    _ ≤ (19 / 2 ^ 24 * X.length + 1 / 2 ^ 144) + 32 / 2 ^ 24 * rs.length * (65 / 32) * X.length := by gcongr; norm_num
    _ = _ := by ring
/-- The same in the plane: lengths within `11u`, images within `(5 + 20 n) u |x|`. -/
theorem C115_rotation2_renormalised_apply_f32 (rs : List (Rotation2 F)) (Rs : List (Rotation2 ℝ)) (v : Vec F 2) (X : Vec ℝ 2)
    (h : List.Forall₂ (fun r R => ValC r.intoComplex R.intoComplex ∧ 1 / 2 ^ 40 ≤ R.intoComplex.norm ∧ R.intoComplex.norm ≤ 2 ^ 40) rs Rs)
    (hv : ValV v X) (hX : X.length ≤ 2 ^ 108) :
    ∃ Y, ValV (Transform.apply (rs.foldl chainUnit2 (Transform.identity (Vec F 2))) v) Y ∧
      |Y.length - X.length| ≤ 11 / 2 ^ 24 * X.length + 1 / 2 ^ 147 ∧
      (Y - Transform.apply (Rotation2.fromComplex (Rs.foldl (Transform.chain (Vec ℝ 2)) (Transform.identity (Vec ℝ 2))).intoComplex.normalize) X).length ≤
        (5 + 20 * rs.length) / 2 ^ 24 * X.length + 1 / 2 ^ 147 := by
  obtain ⟨B, b1, b2, b3⟩ := C115_rotation2_renormalised_f32 rs Rs h
  obtain ⟨Y, y1, y2, y3⟩ := C107_rotation2_apply _ B v X _ b1 hv b2 (by norm_num) hX
  have x0 : 0 ≤ X.length := by rw [← norm_planeC]; positivity
  refine ⟨Y, y1, y3.trans ?_, ?_⟩
  · gcongr; norm_num
  generalize hG : Rs.foldl (Transform.chain (Vec ℝ 2)) (Transform.identity (Vec ℝ 2)) = G at *
  rw [cnorm_eq, toC_sub] at b3
  rw [← norm_planeC, planeC_sub, planeC_apply] at y2
  rw [← norm_planeC, planeC_sub, planeC_apply]
  show ‖planeC Y - planeC X * G.intoComplex.normalize.toC‖ ≤ _
  calc ‖planeC Y - planeC X * G.intoComplex.normalize.toC‖ =
      ‖(planeC Y - planeC X * B.comp.toC) + planeC X * (B.comp.toC - G.intoComplex.normalize.toC)‖ := by congr 1; ring
    _ ≤ _ := norm_add_le _ _
    _ ≤ (5 / 2 ^ 24 * X.length + 1 / 2 ^ 147) + X.length * (20 / 2 ^ 24 * rs.length) := by
      refine add_le_add y2 ?_
      rw [norm_mul, norm_planeC]
      gcongr
      exact b3
    _ = _ := by ring

/-! ## concrete cases -/
namespace Ex115f
open F32Ex F32Lit
/-- A quaternion that is far from a unit. -/
noncomputable def q : Rotation3 F := Rotation3.fromQuaternion (Quat.new (lit 3) (lit (-4)) (lit 12) (lit 84))
noncomputable def Q : Rotation3 ℝ := Rotation3.fromQuaternion (Quat.new 3 (-4) 12 84)
theorem q_val : ValQ q.intoQuaternion Q.intoQuaternion := valQ _ _ _ _
theorem Q_norm : Q.intoQuaternion.norm = 85 := by
  rw [norm_eq, quat_norm, Real.sqrt_eq_iff_mul_self_eq (by positivity) (by norm_num)]
  simp [Q, Rotation3.intoQuaternion, Rotation3.fromQuaternion]; norm_num
theorem both : List.Forall₂ (fun r R => ValQ r.intoQuaternion R.intoQuaternion ∧ 1 / 2 ^ 40 ≤ R.intoQuaternion.norm ∧ R.intoQuaternion.norm ≤ 2 ^ 40)
    [q, r3, q] [Q, R3, Q] := by
  have h1 : ValQ q.intoQuaternion Q.intoQuaternion ∧ 1 / 2 ^ 40 ≤ Q.intoQuaternion.norm ∧ Q.intoQuaternion.norm ≤ 2 ^ 40 :=
    ⟨q_val, by rw [Q_norm]; norm_num, by rw [Q_norm]; norm_num⟩
  have h2 : ValQ r3.intoQuaternion R3.intoQuaternion ∧ 1 / 2 ^ 40 ≤ R3.intoQuaternion.norm ∧ R3.intoQuaternion.norm ≤ 2 ^ 40 :=
    ⟨r3_val, by rw [R3_norm]; norm_num, by rw [R3_norm]; norm_num⟩
  exact .cons h1 (.cons h2 (.cons h1 .nil))
theorem both2 : List.Forall₂ (fun r R => ValC r.intoComplex R.intoComplex ∧ 1 / 2 ^ 40 ≤ R.intoComplex.norm ∧ R.intoComplex.norm ≤ 2 ^ 40)
    [r2, r2] [R2, R2] := by
  have l := (abs_le.1 (R2_unit le_rfl)).1
  have h : ValC r2.intoComplex R2.intoComplex ∧ 1 / 2 ^ 40 ≤ R2.intoComplex.norm ∧ R2.intoComplex.norm ≤ 2 ^ 40 :=
    ⟨r2_val, by norm_num at l ⊢; linarith, R2_hi.trans (by norm_num)⟩
  exact .cons h (.cons h .nil)
end Ex115f
open F32Ex Ex115f
example := C115_quaternion_f32 q.intoQuaternion _ q_val (by rw [Q_norm]; norm_num) (by rw [Q_norm]; norm_num)
example := C115_complex_f32 r2.intoComplex _ r2_val (le_trans (by norm_num) R2_lo) (R2_hi.trans (by norm_num))
example := C115_rotation3_renormalised_f32 _ _ both
example := C115_rotation2_renormalised_f32 _ _ both2
example := C115_rotation3_renormalised_apply_f32 _ _ _ _ both (valV ![1, -2, 3]) (len3.trans (by norm_num))
example := C115_rotation2_renormalised_apply_f32 _ _ _ _ both2 (valV ![1, -2]) (len2.trans (by norm_num))
end Vecmat
