import Verif.Props.SamplerTypes
import Verif.Props.Sampler32
/-!
# C113: the samplers of every type, end to end, in single precision
Here nothing is assumed about the numbers drawn by `Normal`: the random source is any that keeps the promises of `rand`'s `Uniform` (`UniformOk`),
and everything else follows. `5.77` is the largest value of the scalar `Normal` (C111).
-/
namespace Vecmat
open Spec Ieee F32 Sampler32
open F64 (length_nonneg normalize_length length_eq)
open Sampler (callN_mem vec_of_mem mat_of_mem draws_mono exec_fmap_ok vector_draws matrix_draws)
variable {σ : Type}
set_option exponentiation.threshold 3000

namespace Sampler32
theorem normal_draws [FloatOps F] [FloatConst F] {η : ℝ} (hl : NormalLib Fmt.f32 η) (η0 : 0 ≤ η) (η1 : η ≤ 1 / 2 ^ 15)
    {uniform : F → F → Eff σ F} (hu : UniformOk uniform) : DrawsWithin 5.77 (Distr.normal uniform) := by
  intro s s' a h
  refine ⟨?_, C111_normal_f32 hl η0 η1 uniform hu s s' a h⟩
  unfold Distr.normal at h
  rw [exec_bind] at h
  rcases h1 : (uniform 0 1).exec s with ⟨_ | u, s1⟩
  · rw [h1] at h; simp at h
  rw [h1] at h
  simp only [exec_bind] at h
  rcases h2 : (uniform 0 FloatConst.pi).exec s1 with ⟨_ | p, s2⟩
  · rw [h2] at h; simp at h
  rw [h2] at h
  simp only [exec_pure, Prod.mk.injEq, Except.ok.injEq] at h
  rw [← h.1]
  exact datum_mul C80_formats.1 _ _
theorem fact_bound {N : ℕ} (hN : N ≤ 20) : N.factorial * (5.77 : ℝ) ^ N ≤ 2 ^ 120 := by
  have h1 : N.factorial ≤ Nat.factorial 20 := Nat.factorial_le hN
  have h2 : (5.77 : ℝ) ^ N ≤ 6 ^ 20 := (pow_le_pow_left₀ (by norm_num) (by norm_num) N).trans (pow_le_pow_right₀ (by norm_num) hN)
  have h3 : ((Nat.factorial 20 : ℕ) : ℝ) * 6 ^ 20 ≤ 2 ^ 120 := by
    have : Nat.factorial 20 * 6 ^ 20 ≤ 2 ^ 120 := by decide +kernel
    exact_mod_cast this
  refine le_trans (mul_le_mul (by exact_mod_cast h1) h2 (by positivity) (by positivity)) h3
theorem valC_of {z : Vec F 2} {X : Vec ℝ 2} (h : ValV z X) : ValC (Cpx.fromVector z) (Cpx.fromVector X) := ⟨h 0, h 1⟩
theorem valQ_of {z : Vec F 4} {X : Vec ℝ 4} (h : ValV z X) : ValQ (Quat.fromVector z) (Quat.fromVector X) := ⟨h 0, h 1, h 2, h 3⟩
end Sampler32

section
variable [FloatOps F] [FloatConst F] {η : ℝ}

/-- `Normal` for vectors, complex numbers and quaternions: every component is finite and at most `5.77` in magnitude. -/
theorem C113_normal_vectors_f32 {N : ℕ} (hl : NormalLib Fmt.f32 η) (η0 : 0 ≤ η) (η1 : η ≤ 1 / 2 ^ 15) (uniform : F → F → Eff σ F) (hu : UniformOk uniform) (s s' : σ) :
    (∀ v : Vec F N, (Distr.vector (Distr.normal uniform)).exec s = (.ok v, s') → ∃ X : Vec ℝ N, ValV v X ∧ ∀ i : Fin N, |X[i.1]| ≤ 5.77) ∧
    (∀ z, (Distr.complexNormal (Distr.normal uniform)).exec s = (.ok z, s') → ∃ Z, ValC z Z ∧ |Z.re| ≤ 5.77 ∧ |Z.im| ≤ 5.77) ∧
    ∀ q, (Distr.quaternionNormal (Distr.normal uniform)).exec s = (.ok q, s') → ∃ Q, ValQ q Q ∧ |Q.w| ≤ 5.77 ∧ |Q.x| ≤ 5.77 ∧ |Q.y| ≤ 5.77 ∧ |Q.z| ≤ 5.77 := by
  have hd := normal_draws hl η0 η1 hu
  refine ⟨fun v h => vector_draws hd h, fun z h => ?_, fun q h => ?_⟩
  · obtain ⟨v, h1, rfl⟩ := exec_fmap_ok h
    obtain ⟨X, h2, h3⟩ := vector_draws hd h1
    exact ⟨_, valC_of h2, h3 0, h3 1⟩
  · obtain ⟨v, h1, rfl⟩ := exec_fmap_ok h
    obtain ⟨X, h2, h3⟩ := vector_draws hd h1
    exact ⟨_, valQ_of h2, h3 0, h3 1, h3 2, h3 3⟩

/-- `Normal` for matrices, scalings, shifts, linear and affine transformations (the shift of the latter is drawn first). -/
theorem C113_normal_transforms_f32 {M N : ℕ} (hl : NormalLib Fmt.f32 η) (η0 : 0 ≤ η) (η1 : η ≤ 1 / 2 ^ 15) (uniform : F → F → Eff σ F) (hu : UniformOk uniform) (s s' : σ) :
    (∀ A : Mat F M N, (Distr.matrix (Distr.normal uniform)).exec s = (.ok A, s') →
      ∃ a : Matrix (Fin M) (Fin N) ℝ, (∀ i j, A[i.1][j.1].toReal? = some (a i j)) ∧ ∀ i j, |a i j| ≤ 5.77) ∧
    (∀ c, (Distr.scaleNormal (Distr.normal uniform)).exec s = (.ok c, s') → ∃ x, c.intoMag.toReal? = some x ∧ |x| ≤ 5.77) ∧
    (∀ t : Shift F N, (Distr.shiftNormal (Distr.normal uniform)).exec s = (.ok t, s') → ∃ X, ValV t.intoVector X ∧ ∀ i : Fin N, |X[i.1]| ≤ 5.77) ∧
    (∀ t : Linear F N, (Distr.linearNormal (Distr.normal uniform)).exec s = (.ok t, s') →
      ∃ a : Matrix (Fin N) (Fin N) ℝ, (∀ i j, t.intoMatrix[i.1][j.1].toReal? = some (a i j)) ∧ ∀ i j, |a i j| ≤ 5.77) ∧
    ∀ t : Affine F N, (Distr.affineNormal (Distr.normal uniform)).exec s = (.ok t, s') →
      ∃ s1, (Distr.shiftNormal (Distr.normal uniform)).exec s = (.ok t.shift, s1) ∧ (Distr.linearNormal (Distr.normal uniform)).exec s1 = (.ok t.linear, s') ∧
      ∃ (a : Matrix (Fin N) (Fin N) ℝ) (X : Vec ℝ N), (∀ i j, t.linear.intoMatrix[i.1][j.1].toReal? = some (a i j)) ∧ (∀ i j, |a i j| ≤ 5.77) ∧
        ValV t.shift.intoVector X ∧ ∀ i : Fin N, |X[i.1]| ≤ 5.77 := by
  have hd := normal_draws hl η0 η1 hu
  have hS : ∀ s s' (t : Shift F N), (Distr.shiftNormal (Distr.normal uniform)).exec s = (.ok t, s') → ∃ X, ValV t.intoVector X ∧ ∀ i : Fin N, |X[i.1]| ≤ 5.77 := fun s s' t h => by
    obtain ⟨v, h1, rfl⟩ := exec_fmap_ok h
    exact vector_draws hd h1
  have hL : ∀ s s' (t : Linear F N), (Distr.linearNormal (Distr.normal uniform)).exec s = (.ok t, s') →
      ∃ a : Matrix (Fin N) (Fin N) ℝ, (∀ i j, t.intoMatrix[i.1][j.1].toReal? = some (a i j)) ∧ ∀ i j, |a i j| ≤ 5.77 := fun s s' t h => by
    obtain ⟨v, h1, rfl⟩ := exec_fmap_ok h
    obtain ⟨a, h2, h3⟩ := matrix_draws hd h1
    exact ⟨a, fun i j => (h2 i j).2, h3⟩
  refine ⟨fun A h => ?_, fun c h => ?_, hS s s', hL s s', fun t h => ?_⟩
  · obtain ⟨a, h2, h3⟩ := matrix_draws hd h
    exact ⟨a, fun i j => (h2 i j).2, h3⟩
  · obtain ⟨v, h1, rfl⟩ := exec_fmap_ok h
    exact (hd _ _ _ h1).2
  · unfold Distr.affineNormal at h
    rw [exec_bind] at h
    rcases h1 : (Distr.shiftNormal (N := N) (Distr.normal uniform)).exec s with ⟨_ | p, s1⟩
    · rw [h1] at h; simp at h
    rw [h1] at h
    simp only [exec_bind] at h
    rcases h2 : (Distr.linearNormal (N := N) (Distr.normal uniform)).exec s1 with ⟨_ | q, s2⟩
    · rw [h2] at h; simp at h
    rw [h2] at h
    simp only [exec_pure, Prod.mk.injEq, Except.ok.injEq] at h
    obtain ⟨rfl, rfl⟩ := h
    obtain ⟨X, a1, a2⟩ := hS _ _ _ h1
    obtain ⟨a, b1, b2⟩ := hL _ _ _ h2
    exact ⟨s1, rfl, h2, a, X, b1, b2, a1, a2⟩

/-- `NonZero`: the exact length (norm) of the vector (complex number, quaternion) is above epsilon, up to `(N+5)u/2`. -/
theorem C113_nonzero_f32 {N : ℕ} [NeZero N] (hl : NormalLib Fmt.f32 η) (he : (FloatOps.epsilon : F).toReal? = some (1 / 2 ^ 23)) (η0 : 0 ≤ η) (η1 : η ≤ 1 / 2 ^ 15)
    (uniform : F → F → Eff σ F) (hu : UniformOk uniform) (fuel : ℕ) (s s' : σ) :
    (N ≤ 2 ^ 8 → ∀ v : Vec F N, (Distr.nonZero (Distr.normal uniform) fuel).exec s = (.ok v, s') →
      ∃ X, ValV v X ∧ 1 / 2 ^ 23 < (1 + (N + 5) / 2 ^ 25) * X.length) ∧
    (∀ z, (Distr.complexNonZero (Distr.normal uniform) fuel).exec s = (.ok z, s') → ∃ Z, ValC z Z ∧ 1 / 2 ^ 23 < (1 + 7 / 2 ^ 25) * Z.norm) ∧
    ∀ q, (Distr.quaternionNonZero (Distr.normal uniform) fuel).exec s = (.ok q, s') → ∃ Q, ValQ q Q ∧ 1 / 2 ^ 23 < (1 + 9 / 2 ^ 25) * Q.norm := by
  have hd := draws_mono (d := 2 ^ 40) (by norm_num) (normal_draws hl η0 η1 hu)
  refine ⟨fun hN v h => ?_, fun z h => ?_, fun q h => ?_⟩
  · obtain ⟨-, X, -, h1, h2, -⟩ := C111_nonzero_f32 hl.sqrt he hN _ hd fuel s s' v h
    exact ⟨X, h1, h2⟩
  · obtain ⟨v, h1, rfl⟩ := exec_fmap_ok h
    obtain ⟨-, X, -, h1, h2, -⟩ := C111_nonzero_f32 hl.sqrt he (by norm_num) _ hd fuel s s' v h1
    exact ⟨_, valC_of h1, by norm_num at h2 ⊢; exact h2⟩
  · obtain ⟨v, h1, rfl⟩ := exec_fmap_ok h
    obtain ⟨-, X, -, h1, h2, -⟩ := C111_nonzero_f32 hl.sqrt he (by norm_num) _ hd fuel s s' v h1
    exact ⟨_, valQ_of h1, by norm_num at h2 ⊢; exact h2⟩

/-- `Unit`: all components are finite and the length (norm) is `1` up to `(N+9)u/2`. -/
theorem C113_unit_f32 {N : ℕ} [NeZero N] (hl : NormalLib Fmt.f32 η) (he : (FloatOps.epsilon : F).toReal? = some (1 / 2 ^ 23)) (η0 : 0 ≤ η) (η1 : η ≤ 1 / 2 ^ 15)
    (uniform : F → F → Eff σ F) (hu : UniformOk uniform) (fuel : ℕ) (s s' : σ) :
    (N ≤ 2 ^ 8 → ∀ v : Vec F N, (Distr.unit (Distr.normal uniform) fuel).exec s = (.ok v, s') →
      ∃ X, ValV v X ∧ |X.length - 1| ≤ (N + 9) / 2 ^ 25) ∧
    (∀ z, (Distr.complexUnit (Distr.normal uniform) fuel).exec s = (.ok z, s') → ∃ Z, ValC z Z ∧ |Z.norm - 1| ≤ 11 / 2 ^ 25) ∧
    ∀ q, (Distr.quaternionUnit (Distr.normal uniform) fuel).exec s = (.ok q, s') → ∃ Q, ValQ q Q ∧ |Q.norm - 1| ≤ 13 / 2 ^ 25 := by
  have hd := draws_mono (d := 2 ^ 40) (by norm_num) (normal_draws hl η0 η1 hu)
  refine ⟨fun hN v h => ?_, fun z h => ?_, fun q h => ?_⟩
  · obtain ⟨-, -, W, -, -, h1, -, -, h2⟩ := C111_unit_f32 hl.sqrt he hN _ hd fuel s s' v h
    exact ⟨W, h1, h2⟩
  · obtain ⟨v, h1, rfl⟩ := exec_fmap_ok h
    obtain ⟨-, -, W, -, -, h1, -, -, h2⟩ := C111_unit_f32 hl.sqrt he (by norm_num) _ hd fuel s s' v h1
    exact ⟨_, valC_of h1, by norm_num at h2 ⊢; exact h2⟩
  · obtain ⟨v, h1, rfl⟩ := exec_fmap_ok h
    obtain ⟨-, -, W, -, -, h1, -, -, h2⟩ := C111_unit_f32 hl.sqrt he (by norm_num) _ hd fuel s s' v h1
    exact ⟨_, valQ_of h1, by norm_num at h2 ⊢; exact h2⟩

/-- `Invertible` for linear and affine transformations with `N ≤ 20`: the exact determinant of the matrix exceeds epsilon up to the error bound of
`det`, and the shift of the latter is drawn by `Normal`, before the matrix. -/
theorem C113_invertible_f32 {N : ℕ} (hl : NormalLib Fmt.f32 η) (hb : ∀ a : F, FloatOps.abs a = Ieee.abs a) (he : (FloatOps.epsilon : F).toReal? = some (1 / 2 ^ 23))
    (η0 : 0 ≤ η) (η1 : η ≤ 1 / 2 ^ 15) (uniform : F → F → Eff σ F) (hu : UniformOk uniform) (fuel : ℕ) (hN : N ≤ 20) (s s' : σ) :
    (∀ t : Linear F N, (Distr.linearInvertible ScalarNorm.normL1 (Distr.normal uniform) fuel).exec s = (.ok t, s') →
      ∃ a : Matrix (Fin N) (Fin N) ℝ, (∀ i j : Fin N, t.intoMatrix[i.1][j.1].toReal? = some (a i j)) ∧
        1 / 2 ^ 23 < |a.det| + (101 / 200 * (N * (N + 3)) / 2 ^ 24 * (a.map abs).permanent + N.factorial * 5.77 ^ N / 2 ^ 148)) ∧
    ∀ t : Affine F N, (Distr.affineInvertible ScalarNorm.normL1 (Distr.normal uniform) fuel).exec s = (.ok t, s') →
      ∃ s1, (Distr.shiftNormal (Distr.normal uniform)).exec s = (.ok t.shift, s1) ∧
      (Distr.linearInvertible ScalarNorm.normL1 (Distr.normal uniform) fuel).exec s1 = (.ok t.linear, s') ∧
      ∃ (a : Matrix (Fin N) (Fin N) ℝ) (X : Vec ℝ N), (∀ i j, t.linear.intoMatrix[i.1][j.1].toReal? = some (a i j)) ∧
        1 / 2 ^ 23 < |a.det| + (101 / 200 * (N * (N + 3)) / 2 ^ 24 * (a.map abs).permanent + N.factorial * 5.77 ^ N / 2 ^ 148) ∧
        ValV t.shift.intoVector X ∧ ∀ i : Fin N, |X[i.1]| ≤ 5.77 := by
  have hd := normal_draws hl η0 η1 hu
  have hL : ∀ s s' (t : Linear F N), (Distr.linearInvertible ScalarNorm.normL1 (Distr.normal uniform) fuel).exec s = (.ok t, s') →
      ∃ a : Matrix (Fin N) (Fin N) ℝ, (∀ i j : Fin N, t.intoMatrix[i.1][j.1].toReal? = some (a i j)) ∧
        1 / 2 ^ 23 < |a.det| + (101 / 200 * (N * (N + 3)) / 2 ^ 24 * (a.map abs).permanent + N.factorial * 5.77 ^ N / 2 ^ 148) := fun s s' t h => by
    obtain ⟨v, h1, rfl⟩ := exec_fmap_ok h
    obtain ⟨-, a, -, h2, h3, -⟩ := C111_invertible_f32 hb he 5.77 (by norm_num) (fact_bound hN) _ hd fuel s s' v h1
    exact ⟨a, h2, h3⟩
  refine ⟨hL s s', fun t h => ?_⟩
  unfold Distr.affineInvertible at h
  rw [exec_bind] at h
  rcases h1 : (Distr.shiftNormal (N := N) (Distr.normal uniform)).exec s with ⟨_ | p, s1⟩
  · rw [h1] at h; simp at h
  rw [h1] at h
  simp only [exec_bind] at h
  rcases h2 : (Distr.linearInvertible (N := N) ScalarNorm.normL1 (Distr.normal uniform) fuel).exec s1 with ⟨_ | q, s2⟩
  · rw [h2] at h; simp at h
  rw [h2] at h
  simp only [exec_pure, Prod.mk.injEq, Except.ok.injEq] at h
  obtain ⟨rfl, rfl⟩ := h
  obtain ⟨v, h3, e3⟩ := exec_fmap_ok h1
  obtain ⟨X, a1, a2⟩ := vector_draws hd h3
  obtain ⟨a, b1, b2⟩ := hL _ _ _ h2
  exact ⟨s1, rfl, h2, a, X, b1, b2, by rw [← e3]; exact a1, a2⟩

/-- `Invertible` in two dimensions is exact: linear and affine transformations of the plane and Moebius transformations with real coefficients
are invertible. -/
theorem C113_invertible_two_f32 (hl : NormalLib Fmt.f32 η) (hb : ∀ a : F, FloatOps.abs a = Ieee.abs a) (he : (FloatOps.epsilon : F).toReal? = some (1 / 2 ^ 23))
    (η0 : 0 ≤ η) (η1 : η ≤ 1 / 2 ^ 15) (uniform : F → F → Eff σ F) (hu : UniformOk uniform) (fuel : ℕ) (s s' : σ) :
    (∀ t : Linear F 2, (Distr.linearInvertible ScalarNorm.normL1 (Distr.normal uniform) fuel).exec s = (.ok t, s') →
      ∃ a : Matrix (Fin 2) (Fin 2) ℝ, (∀ i j : Fin 2, t.intoMatrix[i.1][j.1].toReal? = some (a i j)) ∧ a.det ≠ 0) ∧
    (∀ t : Affine F 2, (Distr.affineInvertible ScalarNorm.normL1 (Distr.normal uniform) fuel).exec s = (.ok t, s') →
      ∃ a : Matrix (Fin 2) (Fin 2) ℝ, (∀ i j : Fin 2, t.linear.intoMatrix[i.1][j.1].toReal? = some (a i j)) ∧ a.det ≠ 0) ∧
    ∀ m : Moebius F, (Distr.moebiusInvertible ScalarNorm.normL1 (Distr.normal uniform) fuel).exec s = (.ok m, s') →
      ∃ a : Matrix (Fin 2) (Fin 2) ℝ, (∀ i j : Fin 2, m.intoMatrix[i.1][j.1].toReal? = some (a i j)) ∧ a 0 0 * a 1 1 - a 0 1 * a 1 0 ≠ 0 := by
  have hd := draws_mono (d := 2 ^ 40) (by norm_num) (normal_draws hl η0 η1 hu)
  have hL : ∀ s s' (t : Linear F 2), (Distr.linearInvertible ScalarNorm.normL1 (Distr.normal uniform) fuel).exec s = (.ok t, s') →
      ∃ a : Matrix (Fin 2) (Fin 2) ℝ, (∀ i j : Fin 2, t.intoMatrix[i.1][j.1].toReal? = some (a i j)) ∧ a.det ≠ 0 := fun s s' t h => by
    obtain ⟨v, h1, rfl⟩ := exec_fmap_ok h
    exact C111_invertible_two_f32 hb he _ hd fuel s s' v h1
  refine ⟨hL s s', fun t h => ?_, fun m h => ?_⟩
  · unfold Distr.affineInvertible at h
    rw [exec_bind] at h
    rcases h1 : (Distr.shiftNormal (N := 2) (Distr.normal uniform)).exec s with ⟨_ | p, s1⟩
    · rw [h1] at h; simp at h
    rw [h1] at h
    simp only [exec_bind] at h
    rcases h2 : (Distr.linearInvertible (N := 2) ScalarNorm.normL1 (Distr.normal uniform) fuel).exec s1 with ⟨_ | q, s2⟩
    · rw [h2] at h; simp at h
    rw [h2] at h
    simp only [exec_pure, Prod.mk.injEq, Except.ok.injEq] at h
    obtain ⟨rfl, rfl⟩ := h
    exact hL _ _ _ h2
  · obtain ⟨v, h1, rfl⟩ := exec_fmap_ok h
    obtain ⟨a, h2, h3⟩ := C111_invertible_two_f32 hb he _ hd fuel s s' v h1
    rw [Matrix.det_fin_two] at h3
    exact ⟨a, h2, h3⟩

/-- `Uniform` for rotations of the space: a rotation by the angle drawn about the axis drawn by `NonZero`, up to `2.25 η + 7.125 u`. -/
theorem C113_rotation3_f32 (hl : NormalLib Fmt.f32 η) (he : (FloatOps.epsilon : F).toReal? = some (1 / 2 ^ 23)) (ht : TrigWithin32 η) (η0 : 0 ≤ η) (η1 : η ≤ 1 / 2 ^ 15)
    (uniform : F → F → Eff σ F) (hu : UniformOk uniform)
    (hu2 : ∀ s s' a, (uniform 0 (two * FloatConst.pi)).exec s = (.ok a, s') → Datum a ∧ ∃ t, a.toReal? = some t) (fuel : ℕ) (s s' : σ) (r : Rotation3 F)
    (h : (Distr.rotation3Uniform (Distr.normal uniform) uniform fuel).exec s = (.ok r, s')) :
    ∃ (v : Vec F 3) (X : Vec ℝ 3) (s1 : σ) (a : F) (t : ℝ) (R : Rotation3 ℝ), (Distr.nonZero (Distr.normal uniform) fuel).exec s = (.ok v, s1) ∧ ValV v X ∧
      (uniform 0 (two * FloatConst.pi)).exec s1 = (.ok a, s') ∧ a.toReal? = some t ∧ X.normalize.length = 1 ∧
      ValQ r.intoQuaternion R.intoQuaternion ∧
      (R.intoQuaternion - Quat.fromScalarAndVector3 (Real.cos (t / 2)) (X.normalize.mulS (Real.sin (t / 2)))).norm ≤ 9 / 4 * η + 57 / 8 / 2 ^ 24 ∧
      NearUnit3 (9 / 4 * η + 57 / 8 / 2 ^ 24) R :=
  C111_rotation3_f32 hl.sqrt he ht (η1.trans (by norm_num)) _ (draws_mono (by norm_num) (normal_draws hl η0 η1 hu)) uniform hu2 fuel s s' r h
end

/-! ## Cases that meet the hypotheses -/
namespace SamplerTypes32Ex
open Sampler32Ex
/-- A source whose draws are `1/2` and, for the second and third number of every four, `0`. -/
noncomputable def src2 : F → F → Eff ℕ F := fun _ _ => Eff.ofStep fun n => (if n / 2 % 4 = 1 ∨ n / 2 % 4 = 2 then 0 else half, n + 1)
theorem src2_ok : UniformOk src2 := by
  have hh := (SamplerEx.src_ok (φ := Fmt.f32) C80_formats.1).unit 0 0 half rfl
  have h0 : Datum (0 : F) := trivial
  refine ⟨fun s s' u h => ?_, fun s s' u h => ?_⟩ <;> simp only [src2, exec_ofStep, Prod.mk.injEq, Except.ok.injEq] at h <;> obtain ⟨rfl, -⟩ := h <;> split
  · exact ⟨h0, 0, rfl, by norm_num, by norm_num⟩
  · exact hh
  · exact ⟨0, rfl⟩
  · exact ⟨1 / 2, rfl⟩
noncomputable def zA : F := FloatOps.sqrt (FloatOps.ln (1 - half) * -two) * FloatOps.cos half
noncomputable def zB : F := FloatOps.sqrt (FloatOps.ln (1 - 0) * -two) * FloatOps.cos 0
theorem step (k : ℕ) : (Distr.normal src2).exec (2 * k) = (.ok (if k % 4 = 1 ∨ k % 4 = 2 then zB else zA), 2 * (k + 1)) := by
  unfold Distr.normal
  have e1 : 2 * k / 2 = k := by omega
  have e2 : (2 * k + 1) / 2 = k := by omega
  simp only [src2, exec_bind, exec_ofStep, exec_pure, e1, e2]
  split <;> simp only [zA, zB, Prod.mk.injEq, true_and] <;> omega
theorem runs (n k : ℕ) : (callN (Distr.normal src2) n).exec (2 * k) =
    (.ok (List.ofFn fun i : Fin n => if (k + i.1) % 4 = 1 ∨ (k + i.1) % 4 = 2 then zB else zA), 2 * (k + n)) := by
  induction n generalizing k with
  | zero => simp [callN]
  | succ n ih =>
    rw [callN, exec_bind, step, ]
    simp only [exec_bind, ih, exec_pure, Prod.mk.injEq, Except.ok.injEq]
    refine ⟨?_, by omega⟩
    rw [List.ofFn_succ]
    simp only [Fin.val_zero, add_zero, Fin.val_succ, List.cons.injEq, true_and]
    congr 1; ext i; rw [show k + 1 + i.1 = k + (i.1 + 1) by omega]
theorem tiny_le : tiny Fmt.f32 ≤ 1 / 2 ^ 100 := by rw [tiny_eq]; norm_num
theorem vA : ∃ x, zA.toReal? = some x ∧ 1 / 2 ≤ x ∧ x ≤ 5.77 := by
  obtain ⟨a, s1, b, x, t, d, r, h1, h2, vx, vt, vr, -, -, -, hd, er⟩ := C111_normal C111_library.2.1 C80_formats.1 (by decide) (by decide) (by decide) (by positivity)
    (by norm_num) src2 src2_ok _ _ _ (step 0)
  obtain ⟨r', vr', hr'⟩ := C111_normal_f32 C111_library.2.1 (by positivity) (by norm_num) src2 src2_ok _ _ _ (step 0)
  obtain rfl : r' = r := by rw [vr] at vr'; simpa using vr'.symm
  refine ⟨r', vr, ?_, (abs_le.1 hr').2⟩
  simp only [src2, exec_ofStep, Prod.mk.injEq, Except.ok.injEq] at h1 h2
  norm_num at h1 h2
  obtain ⟨rfl, rfl⟩ := h1
  norm_num at h2
  obtain rfl := h2
  obtain rfl : x = 1 / 2 := by simpa [half, toReal?] using vx.symm
  obtain rfl : t = 1 / 2 := by simpa [half, toReal?] using vt.symm
  have e := hd ⟨2 ^ 23, by norm_num [Fmt.f32]⟩
  rw [e] at er
  have L : Real.log (1 - 1 / 2) = - Real.log 2 := by rw [show (1 - 1 / 2 : ℝ) = 2⁻¹ by norm_num, Real.log_inv]
  rw [L] at er
  have l1 := Real.log_two_gt_d9
  have l2 := Real.log_two_lt_d9
  have s1 : 1 ≤ Real.sqrt (-2 * -Real.log 2) := Real.le_sqrt_of_sq_le (by linarith)
  have s2 : Real.sqrt (-2 * -Real.log 2) ≤ 2 := Real.sqrt_le_iff.2 ⟨by norm_num, by linarith⟩
  have c1 : 7 / 8 ≤ Real.cos (1 / 2) := by have := Real.one_sub_sq_div_two_le_cos (x := 1 / 2); norm_num at this ⊢; linarith
  have := (abs_le.1 er).1
  rw [u_eq] at this
  have t1 := tiny_le
  have p : 7 / 8 ≤ Real.sqrt (-2 * -Real.log 2) * Real.cos (1 / 2) := by nlinarith
  have q : (3 * (1 / 2 ^ 23) + 4 * (1 / 2 ^ 24)) * Real.sqrt (-2 * -Real.log 2) ≤ 1 / 8 := by
    refine (mul_le_mul_of_nonneg_left s2 (by norm_num)).trans (by norm_num)
  have t2 : (1:ℝ) / 2 ^ 100 ≤ 1 / 8 := by norm_num
  linarith
theorem vB : ∃ y, zB.toReal? = some y ∧ |y| ≤ 1 / 2 ^ 100 := by
  obtain ⟨a, s1, b, x, t, d, r, h1, h2, vx, vt, vr, -, -, -, hd, er⟩ := C111_normal C111_library.2.1 C80_formats.1 (by decide) (by decide) (by decide) (by positivity)
    (by norm_num) src2 src2_ok _ _ _ (step 1)
  refine ⟨r, vr, ?_⟩
  simp only [src2, exec_ofStep, Prod.mk.injEq, Except.ok.injEq] at h1 h2
  norm_num at h1 h2
  obtain ⟨rfl, rfl⟩ := h1
  obtain rfl : x = 0 := by simpa [toReal?] using vx.symm
  have e := hd ⟨0, by norm_num [Fmt.f32]⟩
  rw [e, sub_zero, Real.log_one, mul_zero, Real.sqrt_zero, mul_zero, zero_mul, sub_zero, zero_add] at er
  exact er.trans tiny_le
theorem vec_run (N k : ℕ) : ∃ v : Vec F N, (Distr.vector (Distr.normal src2)).exec (2 * k) = (.ok v, 2 * (k + N)) ∧
    v.toList = List.ofFn fun i : Fin N => if (k + i.1) % 4 = 1 ∨ (k + i.1) % 4 = 2 then zB else zA :=
  exec_fmap_ok (by rw [show (Distr.vector (Distr.normal src2) : Eff ℕ (Vec F N)) = Vec.initM (Distr.normal src2) from rfl, Vec.toList_initM]; exact runs N k)
theorem mat_run (M N k : ℕ) : ∃ A : Mat F M N, (Distr.matrix (Distr.normal src2)).exec (2 * k) = (.ok A, 2 * (k + M * N)) ∧
    rowMajor A = List.ofFn fun i : Fin (M * N) => if (k + i.1) % 4 = 1 ∨ (k + i.1) % 4 = 2 then zB else zA :=
  exec_fmap_ok (by rw [show (Distr.matrix (Distr.normal src2) : Eff ℕ (Mat F M N)) = Mat.initM (Distr.normal src2) from rfl, C01_mat_init_calls]; exact runs (M * N) k)
theorem draws : DrawsWithin 5.77 (Distr.normal src2) := normal_draws C111_library.2.1 (by positivity) (by norm_num) src2_ok
theorem nz (N : ℕ) [NeZero N] (hN : N ≤ 2 ^ 8) : ∃ v : Vec F N, (Distr.nonZero (Distr.normal src2) 1).exec 0 = (.ok v, 2 * (0 + N)) := by
  obtain ⟨v, h1, h2⟩ := vec_run N 0
  obtain ⟨X, vX, bX⟩ := vector_draws draws h1
  refine ⟨v, C111_nonzero_accepts_f32 hs eps_val hN _ 0 0 _ v X vX (by rw [h2]; exact runs N 0) ?_ (length_le_of hN fun i => (bX i).trans (by norm_num))⟩
  have N0 := Nat.pos_of_ne_zero (NeZero.ne N)
  obtain ⟨x, ha, h3, -⟩ := vA
  have e0 : v[0] = zA := by
    have : v[0] = v.toList[0]'(by simpa using N0) := by rw [Vec.getElem_toList]
    rw [this]; simp [h2]
  have eX : X[0] = x := by
    have := vX ⟨0, N0⟩
    simp only [e0, ha, Option.some.injEq] at this
    exact this.symm
  have hl : 1 / 2 ≤ X.length := by
    rw [length_eq]
    apply Real.le_sqrt_of_sq_le
    have := Finset.single_le_sum (f := fun i : Fin N => X[i.1] ^ 2) (fun i _ => sq_nonneg _) (Finset.mem_univ ⟨0, N0⟩)
    simp only [eX] at this
    nlinarith
  have hN' : (N : ℝ) ≤ 2 ^ 8 := by exact_mod_cast hN
  have : (N + 5 : ℝ) / 2 ^ 25 ≤ 1 / 2 := by
    calc (N + 5 : ℝ) / 2 ^ 25 ≤ (2 ^ 8 + 5) / 2 ^ 25 := by gcongr
      _ ≤ _ := by norm_num
  have h4 : (1:ℝ) / 2 ^ 23 < 1 / 4 := by norm_num
  nlinarith
theorem un (N : ℕ) [NeZero N] (hN : N ≤ 2 ^ 8) : ∃ v : Vec F N, (Distr.unit (Distr.normal src2) 1).exec 0 = (.ok v, 2 * (0 + N)) := by
  obtain ⟨v, h⟩ := nz N hN
  unfold Distr.unit
  rw [exec_bind, h]
  exact ⟨_, by simp only [Vec.normalize_ok, liftRes_ok, exec_pure]; rfl⟩
/-- In states `0` and `4` an acceptable matrix is drawn: `(x, y; y, x)` and `(y, x; x, y)` with `x ≥ 1/2` and `y` tiny. -/
theorem inv (k : ℕ) (hk : k = 0 ∨ k = 2) : ∃ A : Mat F 2 2, (Distr.invertible ScalarNorm.normL1 (Distr.normal src2) 1).exec (2 * k) = (.ok A, 2 * (k + 2 * 2)) := by
  obtain ⟨A, h1, h2⟩ := mat_run 2 2 k
  obtain ⟨a, va, ba⟩ := matrix_draws draws h1
  obtain ⟨x, vx, x1, x2⟩ := vA
  obtain ⟨y, vy, y1⟩ := vB
  refine ⟨A, C111_invertible_accepts_f32 hb eps_val 5.77 (by norm_num) (fact_bound (by norm_num)) _ 0 _ _ A a (fun i j => (va i j).2) ba (by rw [h2]; exact runs (2 * 2) k) ?_⟩
  have e : rowMajor A = [A[0][0], A[0][1], A[1][0], A[1][1]] := by simp [rowMajor, List.finRange_succ]
  rw [e] at h2
  have w00 := (va 0 0).2; have w01 := (va 0 1).2; have w10 := (va 1 0).2; have w11 := (va 1 1).2
  have p : (a.map abs).permanent = |a 0 0| * |a 1 1| + |a 0 1| * |a 1 0| := by
    rw [permanent_succ_row_zero, Fin.sum_univ_two, permanent_succ_row_zero, permanent_succ_row_zero, Fin.sum_univ_one, Fin.sum_univ_one]
    simp [Matrix.permanent]
  have ys : |y| ≤ 1 / 8 := y1.trans (by norm_num)
  have key : 1 / 8 ≤ |a.det| := by
    rw [Matrix.det_fin_two]
    rcases hk with rfl | rfl <;> simp [List.ofFn_succ] at h2 <;> norm_num at h2 <;> obtain ⟨q1, q2, q3, q4⟩ := h2 <;>
      simp only [Fin.val_zero, Fin.val_one, q1, q2, q3, q4, vx, vy, Option.some.injEq] at w00 w01 w10 w11 <;>
      rw [← w00, ← w01, ← w10, ← w11]
    · refine le_trans ?_ (le_abs_self _); nlinarith [abs_le.1 ys]
    · refine le_trans ?_ (neg_le_abs _); nlinarith [abs_le.1 ys]
  have pb : (a.map abs).permanent ≤ 200 := by
    rw [p]
    calc _ ≤ (5.77:ℝ) * 5.77 + 5.77 * 5.77 := by gcongr <;> exact ba _ _
      _ ≤ _ := by norm_num
  refine lt_of_lt_of_le ?_ key
  calc _ ≤ (1:ℝ) / 2 ^ 23 + (101 / 200 * ((2:ℕ) * ((2:ℕ) + 3)) / 2 ^ 24 * 200 + (Nat.factorial 2) * 5.77 ^ 2 / 2 ^ 148) := by gcongr
    _ < _ := by norm_num [Nat.factorial]
end SamplerTypes32Ex
open SamplerTypes32Ex Sampler32Ex
example := (C113_normal_vectors_f32 (N := 3) C111_library.2.1 (by positivity) (by norm_num) src2 src2_ok 0 6).1 _ (vec_run 3 0).choose_spec.1
example : ∃ z, (Distr.complexNormal (Distr.normal src2)).exec 0 = (.ok z, 4) := ⟨_, by
  rw [Distr.complexNormal, exec_map, (vec_run 2 0).choose_spec.1]; rfl⟩
example : ∃ z, (Distr.quaternionNormal (Distr.normal src2)).exec 0 = (.ok z, 8) := ⟨_, by
  rw [Distr.quaternionNormal, exec_map, (vec_run 4 0).choose_spec.1]; rfl⟩
example := (C113_normal_transforms_f32 (M := 2) (N := 3) C111_library.2.1 (by positivity) (by norm_num) src2 src2_ok 0 12).1 _ (mat_run 2 3 0).choose_spec.1
example : ∃ t : Affine F 2, (Distr.affineNormal (Distr.normal src2)).exec 0 = (.ok t, 12) := ⟨_, by
  rw [Distr.affineNormal, exec_bind, Distr.shiftNormal, exec_map, (vec_run 2 0).choose_spec.1]
  simp only [Res.map_ok, exec_bind]
  rw [Distr.linearNormal, exec_map, (mat_run 2 2 2).choose_spec.1]; rfl⟩
example := (C113_nonzero_f32 (N := 5) C111_library.2.1 eps_val (by positivity) (by norm_num) src2 src2_ok 1 0 10).1 (by norm_num) _ (nz 5 (by norm_num)).choose_spec
example : ∃ z, (Distr.complexNonZero (Distr.normal src2) 1).exec 0 = (.ok z, 4) := ⟨_, by
  rw [Distr.complexNonZero, exec_map, (nz 2 (by norm_num)).choose_spec]; rfl⟩
example : ∃ z, (Distr.quaternionNonZero (Distr.normal src2) 1).exec 0 = (.ok z, 8) := ⟨_, by
  rw [Distr.quaternionNonZero, exec_map, (nz 4 (by norm_num)).choose_spec]; rfl⟩
example := (C113_unit_f32 (N := 5) C111_library.2.1 eps_val (by positivity) (by norm_num) src2 src2_ok 1 0 10).1 (by norm_num) _ (un 5 (by norm_num)).choose_spec
example : ∃ z, (Distr.complexUnit (Distr.normal src2) 1).exec 0 = (.ok z, 4) := ⟨_, by
  rw [Distr.complexUnit, exec_map, (un 2 (by norm_num)).choose_spec]; rfl⟩
example : ∃ z, (Distr.quaternionUnit (Distr.normal src2) 1).exec 0 = (.ok z, 8) := ⟨_, by
  rw [Distr.quaternionUnit, exec_map, (un 4 (by norm_num)).choose_spec]; rfl⟩
theorem SamplerTypes32Ex.lin : ∃ t : Linear F 2, (Distr.linearInvertible ScalarNorm.normL1 (Distr.normal src2) 1).exec 0 = (.ok t, 8) := ⟨_, by
  rw [Distr.linearInvertible, exec_map, show (0:ℕ) = 2 * 0 from rfl, (inv 0 (by simp)).choose_spec]; rfl⟩
theorem SamplerTypes32Ex.aff : ∃ t : Affine F 2, (Distr.affineInvertible ScalarNorm.normL1 (Distr.normal src2) 1).exec 0 = (.ok t, 12) := ⟨_, by
  rw [Distr.affineInvertible, exec_bind, Distr.shiftNormal, exec_map, (vec_run 2 0).choose_spec.1]
  simp only [Res.map_ok, exec_bind]
  rw [Distr.linearInvertible, exec_map, (inv 2 (by simp)).choose_spec]; rfl⟩
example := (C113_invertible_f32 (N := 2) C111_library.2.1 hb eps_val (by positivity) (by norm_num) src2 src2_ok 1 (by norm_num) 0 8).1 _ lin.choose_spec
example := (C113_invertible_f32 (N := 2) C111_library.2.1 hb eps_val (by positivity) (by norm_num) src2 src2_ok 1 (by norm_num) 0 12).2 _ aff.choose_spec
example := (C113_invertible_two_f32 C111_library.2.1 hb eps_val (by positivity) (by norm_num) src2 src2_ok 1 0 8).1 _ lin.choose_spec
example := (C113_invertible_two_f32 C111_library.2.1 hb eps_val (by positivity) (by norm_num) src2 src2_ok 1 0 12).2.1 _ aff.choose_spec
example : ∃ m : Moebius F, (Distr.moebiusInvertible ScalarNorm.normL1 (Distr.normal src2) 1).exec 0 = (.ok m, 8) := ⟨_, by
  rw [Distr.moebiusInvertible, exec_map, show (0:ℕ) = 2 * 0 from rfl, (inv 0 (by simp)).choose_spec]; rfl⟩
theorem SamplerTypes32Ex.rot : ∃ r, (Distr.rotation3Uniform (Distr.normal src2) src2 1).exec 0 = (.ok r, 7) := by
  obtain ⟨w, h⟩ := un 3 (by norm_num)
  exact ⟨Rotation3.new w half, by rw [Distr.rotation3Uniform, exec_bind, h]; rfl⟩
example := C113_rotation3_f32 C111_library.2.1 eps_val C108_library.1 (by positivity) (by norm_num) src2 src2_ok (fun s s' a h => by
    simp only [src2, exec_ofStep, Prod.mk.injEq, Except.ok.injEq] at h
    obtain ⟨rfl, -⟩ := h
    split
    · exact ⟨trivial, 0, rfl⟩
    · exact ⟨⟨1, -1, by norm_num, by decide, by decide, by decide⟩, 1 / 2, rfl⟩) 1 0 7 _ rot.choose_spec
end Vecmat
