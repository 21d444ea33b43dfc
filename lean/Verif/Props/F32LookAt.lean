import Verif.Lemmas.F32Vec
import Verif.Props.F64LookAt
import Verif.Props.Rotation
import Verif.Lemmas.IeeeExact
import Verif.Props.IeeeExact
/-! # C107: lengths, normalisation and `look_at` in single precision -/
namespace Vecmat
open Spec Ieee F32
open F64 (toE toE_apply norm_toE toE_sub toE_divS abs_le_norm ofFn ofFn_get length3 length_nonneg normalize_length length_close cols cols_close entry lookAt_lin length_self_sub rlt_val abs_val half_val lookAt_normalize_close up_z up_y)
set_option exponentiation.threshold 3000

/-- `length`: for every number of components up to `2^8`, if the length is between `2^-55` and `2^55` nothing overflows and the relative
error is at most `(N+5)u/2`. -/
theorem C107_length {N : Nat} [NeZero N] (hN : N ≤ 2 ^ 8) (v : Vec F N) (X : Vec ℝ N) (hv : ValV v X) (hl : 1 / 2 ^ 55 ≤ X.length) (hr : X.length ≤ 2 ^ 55) :
    ∃ l, v.length.toReal? = some l ∧ |l - X.length| ≤ (N + 5) / 2 ^ 25 * X.length := len_val hN hv hl hr
/-- `normalize`: under the same conditions, within `(N+9)u/2` of the unit vector in the direction of the argument, so of length `1` up to that
error. -/
theorem C107_normalize {N : Nat} [NeZero N] (hN : N ≤ 2 ^ 8) (v : Vec F N) (X : Vec ℝ N) (hv : ValV v X) (hl : 1 / 2 ^ 55 ≤ X.length) (hr : X.length ≤ 2 ^ 55) :
    ∃ W, ValV v.normalize W ∧ (W - X.normalize).length ≤ (N + 9) / 2 ^ 25 ∧ |W.length - 1| ≤ (N + 9) / 2 ^ 25 := by
  obtain ⟨W, h, e⟩ := nrm_val hN hv hl hr
  refine ⟨W, h, e, ?_⟩
  have := (length_close W X.normalize).trans e
  rwa [normalize_length (lt_of_lt_of_le (by positivity) hl)] at this
/-- `cross`: within `17u/4 |x||y|` of the exact product (plus a quantity below the smallest positive number when a product underflows). -/
theorem C107_cross (v w : Vec F 3) (X Y : Vec ℝ 3) (hv : ValV v X) (hw : ValV w Y) (h : X.length * Y.length ≤ 2 ^ 120) :
    ∃ W, ValV (v.cross3 w) W ∧ (W - X.cross3 Y).length ≤ 17 / 2 ^ 26 * (X.length * Y.length) + 1 / 2 ^ 147 := cross_val hv hw h

namespace F32
theorem valM_iff {M N : Nat} (A : Mat F M N) (B : Mat ℝ M N) : ValM A B ↔ ∀ i j, (A.toMatrix i j).toReal? = some (B.toMatrix i j) := Iff.rfl
theorem cols_val {a b c : Vec F 3} {A B C : Vec ℝ 3} (ha : ValV a A) (hb : ValV b B) (hc : ValV c C) :
    ValM (Mat.fromArrVec #v[a, b, c]).transpose (cols A B C) := by
  rw [valM_iff]
  intro i j
  rw [cols, Mat.toMatrix_cols3, Mat.toMatrix_cols3]
  fin_cases i <;> fin_cases j
  · exact ha 0
  · exact hb 0
  · exact hc 0
  · exact ha 1
  · exact hb 1
  · exact hc 1
  · exact ha 2
  · exact hb 2
  · exact hc 2
theorem neg_valV {N : Nat} {v : Vec F N} {X : Vec ℝ N} (h : ValV v X) : ValV (-v) (-X) := fun i => by
  rw [Vec.getElem_neg, Vec.getElem_neg]; exact val_neg_iff.2 (by rw [neg_neg]; exact h i)
end F32

theorem C107_look_at (dir up : Vec F 3) (D U : Vec ℝ 3) (hd : ValV dir D) (hu : ValV up U) (hD : |D.length - 1| ≤ 1 / 2 ^ 10)
    (ul : 1 / 2 ^ 40 ≤ U.length) (ur : U.length ≤ 2 ^ 40) (σ : ℝ) (hσ : 1 / 2 ^ 11 ≤ σ) (hc : σ * (D.length * U.length) ≤ (D.cross3 U).length) :
    ∃ A, ValM (Linear.lookAt dir up).intoMatrix A ∧
      ∀ i j : Fin 3, |A[i.1][j.1] - (Linear.lookAt D U).intoMatrix[i.1][j.1]| ≤ (11 + 10 / σ) / 2 ^ 24 := by
  obtain ⟨R, S, hR, hS, eR, eS⟩ := frame_val hd hu hD ul ur hσ hc
  have σ0 : 0 < σ := lt_of_lt_of_le (by positivity) hσ
  have e9 : 9 / σ ≤ 10 / σ := by gcongr; norm_num
  rw [lookAt_lin, lookAt_lin]
  refine ⟨_, cols_val hR hS (neg_valV hd), fun i j => ?_⟩
  rw [entry, entry]
  exact cols_close (eR.trans (by gcongr; norm_num)) eS (by rw [length_self_sub]; positivity) i j

/-- `Linear::look_at_any`: for a direction of length `1` up to `δ ≤ 2^-10` the matrix is finite and within `32u + δ`, entry by entry, of a
rotation matrix that maps `-z` to the normalised direction. -/
theorem C107_look_at_any (dir : Vec F 3) (D : Vec ℝ 3) (hd : ValV dir D) (δ : ℝ) (hD : |D.length - 1| ≤ δ) (hδ : δ ≤ 1 / 2 ^ 10) :
    ∃ A, ValM (Linear.lookAtAny dir).intoMatrix A ∧ ∃ R : Mat ℝ 3 3, IsRotation R ∧
      Transform.apply (Linear.fromMatrix R) (Vec.fromTuple3 (0, 0, -1)) = D.normalize ∧
      ∀ i j : Fin 3, |A[i.1][j.1] - R[i.1][j.1]| ≤ 32 / 2 ^ 24 + δ := by
  have hD' := hD.trans hδ
  obtain ⟨dl, dr⟩ := abs_le.1 hD'
  have d0 : 0 < D.length := by norm_num at dl ⊢; linarith
  have l3 := length3 D
  have u1 : (Vec.fromArray #v[(0:ℝ), 0, 1]).length = 1 := by
    have := length3 (Vec.fromArray #v[(0:ℝ), 0, 1]); simp at this
    rcases this with h | h
    · exact h
    · have := length_nonneg (Vec.fromArray #v[(0:ℝ), 0, 1]); linarith
  have u2 : (Vec.fromArray #v[(0:ℝ), 1, 0]).length = 1 := by
    have := length3 (Vec.fromArray #v[(0:ℝ), 1, 0]); simp at this
    rcases this with h | h
    · exact h
    · have := length_nonneg (Vec.fromArray #v[(0:ℝ), 1, 0]); linarith
  have key : ∀ (up : Vec F 3) (U : Vec ℝ 3), ValV up U → U.length = 1 → (49 / 100 * D.length) ^ 2 ≤ (D.cross3 U).length ^ 2 →
      ∃ A, ValM (Linear.lookAt dir up).intoMatrix A ∧ ∃ R : Mat ℝ 3 3, IsRotation R ∧
        Transform.apply (Linear.fromMatrix R) (Vec.fromTuple3 (0, 0, -1)) = D.normalize ∧
        ∀ i j : Fin 3, |A[i.1][j.1] - R[i.1][j.1]| ≤ 32 / 2 ^ 24 + δ := by
    intro up U hu hU hc
    have hc' : 49 / 100 * D.length ≤ (D.cross3 U).length := abs_le_of_sq_le_sq' hc (length_nonneg _) |>.2
    have c0 : 0 < (D.cross3 U).length := lt_of_lt_of_le (by positivity) hc'
    obtain ⟨A, hA, eA⟩ := C107_look_at dir up D U hd hu hD' (by rw [hU]; norm_num) (by rw [hU]; norm_num) (49 / 100) (by norm_num) (by rw [hU, mul_one]; exact hc')
    have hne : D.normalize.cross3 U ≠ 0 := by
      intro h
      have e1 : D.normalize.cross3 U = (D.cross3 U).divS D.length := by
        apply Vec.ext3 <;> simp [Vec.normalize] <;> ring
      have e2 : ‖toE (D.normalize.cross3 U)‖ = 0 := by
        rw [h]; rw [norm_eq_zero]; ext i; simp
      rw [e1, toE_divS, norm_smul, norm_inv, Real.norm_eq_abs, abs_of_pos d0, norm_toE] at e2
      have : 0 < D.length⁻¹ * (D.cross3 U).length := by positivity
      linarith
    obtain ⟨hr, hz, -, -⟩ := C57_linear_look_at D.normalize U (normalize_length d0) hne
    refine ⟨A, hA, _, hr, hz, fun i j => ?_⟩
    have h2 := lookAt_normalize_close d0 c0 i j
    refine (abs_sub_le _ _ _).trans ((add_le_add (eA i j) (h2.trans hD)).trans ?_)
    gcongr
    norm_num
  unfold Linear.lookAtAny
  have hb : rlt (FloatOps.abs dir.z) (half : F) = true ↔ |D[2]| < 1 / 2 := rlt_val (abs_val (hd 2)) half_val
  split
  · next h =>
    rw [hb] at h
    refine key _ (Vec.fromArray #v[0, 0, 1]) (fun i => by fin_cases i <;> rfl) u1 ?_
    rw [up_z]
    have h4 : D[2] ^ 2 ≤ 1 / 4 := by rw [← sq_abs]; nlinarith [abs_nonneg D[2]]
    norm_num at dl
    nlinarith
  · next h =>
    rw [hb, not_lt] at h
    refine key _ (Vec.fromArray #v[0, 1, 0]) (fun i => by fin_cases i <;> rfl) u2 ?_
    rw [up_y]
    have h4 : 1 / 4 ≤ D[2] ^ 2 := by rw [← sq_abs]; nlinarith
    norm_num at dr
    nlinarith [sq_nonneg D[0]]

end Vecmat
