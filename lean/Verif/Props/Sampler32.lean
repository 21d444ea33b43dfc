import Verif.Props.Sampler
import Verif.Props.F32Angle
import Verif.Props.F32Det
/-!
# C111: the samplers in single precision
As `Sampler`; the lemmas that hold for every format are those there.
-/
namespace Vecmat
open Spec Ieee F32
open F64 (toE norm_toE toE_sub length_nonneg normalize_length length_eq length3 det2)
open Sampler (callN_mem vec_of_mem rgt_val rle_val mat_of_mem abs_val' det3 rep_gap lib_of)
set_option exponentiation.threshold 3000

namespace Sampler32
theorem length_le_of {N : ℕ} [NeZero N] {X : Vec ℝ N} (hN : N ≤ 2 ^ 8) (h : ∀ i : Fin N, |X[i.1]| ≤ 2 ^ 40) : X.length ≤ 2 ^ 55 := by
  rw [length_eq]
  apply Real.sqrt_le_iff.2 ⟨by positivity, ?_⟩
  calc ∑ i : Fin N, X[i.1] ^ 2 ≤ ∑ _i : Fin N, ((2:ℝ) ^ 40) ^ 2 := Finset.sum_le_sum fun i _ => sq_le_sq.2 (by rw [abs_of_pos (a := (2:ℝ) ^ 40) (by positivity)]; exact h i)
    _ = N * (2 ^ 40) ^ 2 := by simp
    _ ≤ 2 ^ 8 * (2 ^ 40) ^ 2 := by gcongr; exact_mod_cast hN
    _ ≤ _ := by norm_num

/-- The length of a very short vector is computed very short. -/
theorem len_tiny {N : ℕ} [NeZero N] (hN : N ≤ 2 ^ 8) {v : Vec F N} {X : Vec ℝ N} (hv : ValV v X) (hl : X.length < 1 / 2 ^ 55) :
    ∃ l, v.length.toReal? = some l ∧ l < 1 / 2 ^ 23 := by
  obtain ⟨d, hd, h1, h2⟩ := C84_length C80_formats.1 (by decide) (Nat.pos_of_ne_zero (NeZero.ne N)) v (fun i => X[i.1]) hv
  rw [Vec.length_ok] at hd; cases hd
  have hs : ∑ i : Fin N, X[i.1] ^ 2 = X.length ^ 2 := by
    rw [length_eq, Real.sq_sqrt (Finset.sum_nonneg fun i _ => sq_nonneg _)]
  rw [hs] at h1 h2
  have l0 := length_nonneg X
  have hq : X.length ^ 2 ≤ 1 / 2 ^ 110 := by
    calc X.length ^ 2 ≤ (1 / 2 ^ 55) ^ 2 := by gcongr
      _ = _ := by norm_num
  have hE : errBound Fmt.f32 N N (X.length ^ 2) ≤ 1 / 2 ^ 110 :=
    ((bnd_mono le_rfl le_rfl (by positivity) hq).trans (errNN hN le_rfl)).trans (by
      have hN' : (N : ℝ) ≤ 2 ^ 8 := by exact_mod_cast hN
      calc ((N:ℝ) + 1) / 2 ^ 24 * (1 / 2 ^ 110) ≤ (2 ^ 8 + 1) / 2 ^ 24 * (1 / 2 ^ 110) := by gcongr
        _ ≤ _ := by norm_num)
  obtain ⟨l, hlv⟩ := h2 (by
    rw [huge_eq]
    refine (add_le_add hq hE).trans_lt (by norm_num))
  refine ⟨l, hlv, ?_⟩
  have b := (h1 l hlv).2
  rw [u_eq] at b
  refine b.trans_lt ?_
  have : Real.sqrt (X.length ^ 2 + errBound Fmt.f32 N N (X.length ^ 2)) ≤ 1 / 2 ^ 40 := by
    apply Real.sqrt_le_iff.2 ⟨by positivity, ?_⟩
    refine (add_le_add hq hE).trans ?_
    norm_num
  calc _ ≤ (1 + 1 / 2 ^ 24 : ℝ) * (1 / 2 ^ 40) := by gcongr
    _ < _ := by norm_num
end Sampler32
open Sampler32

/-- `NonZero` for `f32` vectors: the result is a drawn block of `N` scalars, its length is above epsilon up to `(N+5)u/2`, and every block
drawn before it had a length of at most epsilon up to `(N+5)u/2`. -/
theorem C111_nonzero_f32 {N : ℕ} [NeZero N] [FloatOps F] (hs : ∀ a : F, FloatOps.sqrt a = Ieee.sqrt a) (he : (FloatOps.epsilon : F).toReal? = some (1 / 2 ^ 23))
    (hN : N ≤ 2 ^ 8) (draw : Eff σ F) (hd : DrawsWithin (2 ^ 40) draw) (fuel : ℕ) (s s' : σ) (v : Vec F N)
    (h : (Distr.nonZero draw fuel).exec s = (.ok v, s')) :
    ∃ (bad : List (Vec F N)) (X : Vec ℝ N), (callN draw ((bad.length + 1) * N)).exec s = (.ok (bad.flatMap Vec.toList ++ v.toList), s') ∧
      ValV v X ∧ 1 / 2 ^ 23 < (1 + (N + 5) / 2 ^ 25) * X.length ∧
      ∀ y ∈ bad, ∃ Y, ValV y Y ∧ (1 - (N + 5) / 2 ^ 25) * Y.length ≤ 1 / 2 ^ 23 := by
  unfold Distr.nonZero at h
  rw [Distr.loop_blocks (draw := Distr.vector draw) (comp := Vec.toList) (inner := draw) (Vec.toList_initM draw) (fun _ _ h => Vec.toList_inj h)
    (fun x => by simp)] at h
  obtain ⟨bad, -, h2, h3, h4⟩ := h
  have hm := callN_mem hd h2
  have hN' : (N : ℝ) ≤ 2 ^ 8 := by exact_mod_cast hN
  obtain ⟨X, vX, bX⟩ := vec_of_mem (v := v) fun a ha => hm a (by simp [ha])
  refine ⟨bad, X, h2, vX, ?_, fun y hy => ?_⟩
  · have h5 : rgt v.length (FloatOps.epsilon : F) = true := by simpa [Vec.length_ok] using h4
    rw [length_inst hs] at h5
    by_cases hX : 1 / 2 ^ 55 ≤ X.length
    · obtain ⟨l, vl, el⟩ := len_std hN vX hX (length_le_of hN bX)
      have := (rgt_val vl he).1 h5
      have := (abs_le.1 el).2
      linarith
    · push Not at hX
      obtain ⟨l, vl, el⟩ := len_tiny hN vX hX
      have := (rgt_val (a := stdLength v) vl he).1 h5
      linarith
  · obtain ⟨Y, vY, bY⟩ := vec_of_mem (v := y) fun a ha => hm a (by simp only [List.mem_append, List.mem_flatMap]; exact .inl ⟨y, hy, ha⟩)
    refine ⟨Y, vY, ?_⟩
    have h5 : rgt y.length (FloatOps.epsilon : F) = false := by simpa [Vec.length_ok] using h3 y hy
    rw [length_inst hs] at h5
    by_cases hY : 1 / 2 ^ 55 ≤ Y.length
    · obtain ⟨l, vl, el⟩ := len_std hN vY hY (length_le_of hN bY)
      have h6 : ¬ 1 / 2 ^ 23 < l := fun hc => by
        rw [(rgt_val vl he).2 hc] at h5; cases h5
      push Not at h6
      have := (abs_le.1 el).1
      linarith
    · push Not at hY
      have := length_nonneg Y
      have e0 : (0:ℝ) ≤ (N + 5) / 2 ^ 25 := by positivity
      have : (1:ℝ) / 2 ^ 55 ≤ 1 / 2 ^ 23 := by norm_num
      nlinarith

/-- Progress: a block whose length is above epsilon by more than the error bound is returned at once. -/
theorem C111_nonzero_accepts_f32 {N : ℕ} [NeZero N] [FloatOps F] (hs : ∀ a : F, FloatOps.sqrt a = Ieee.sqrt a) (he : (FloatOps.epsilon : F).toReal? = some (1 / 2 ^ 23))
    (hN : N ≤ 2 ^ 8) (draw : Eff σ F) (fuel : ℕ) (s s' : σ) (v : Vec F N) (X : Vec ℝ N) (hv : ValV v X)
    (h : (callN draw N).exec s = (.ok v.toList, s')) (hl : 1 / 2 ^ 23 < (1 - (N + 5) / 2 ^ 25) * X.length) (hr : X.length ≤ 2 ^ 55) :
    (Distr.nonZero draw (fuel + 1)).exec s = (.ok v, s') := by
  unfold Distr.nonZero
  rw [Distr.loop_blocks (draw := Distr.vector draw) (comp := Vec.toList) (inner := draw) (Vec.toList_initM draw) (fun _ _ h => Vec.toList_inj h)
    (fun x => by simp)]
  refine ⟨[], by simp, by simpa using h, by simp, ?_⟩
  have e0 : (0:ℝ) ≤ (N + 5) / 2 ^ 25 := by positivity
  have l0 := length_nonneg X
  have h1 : 1 / 2 ^ 55 ≤ X.length := by
    have : (1:ℝ) / 2 ^ 55 ≤ 1 / 2 ^ 23 := by norm_num
    nlinarith
  obtain ⟨l, vl, el⟩ := len_std hN hv h1 hr
  rw [Vec.length_ok, length_inst hs]
  simp only [Res.bind_ok, Res.pure_eq, Except.ok.injEq]
  rw [rgt_val vl he]
  have := (abs_le.1 el).1
  linarith

/-- `Unit` for `f32` vectors: the result is within `(N+9)u/2` of the normalised drawn vector, so its length is `1` up to that. -/
theorem C111_unit_f32 {N : ℕ} [NeZero N] [FloatOps F] (hs : ∀ a : F, FloatOps.sqrt a = Ieee.sqrt a) (he : (FloatOps.epsilon : F).toReal? = some (1 / 2 ^ 23))
    (hN : N ≤ 2 ^ 8) (draw : Eff σ F) (hd : DrawsWithin (2 ^ 40) draw) (fuel : ℕ) (s s' : σ) (w : Vec F N)
    (h : (Distr.unit draw fuel).exec s = (.ok w, s')) :
    ∃ (v : Vec F N) (X W : Vec ℝ N), (Distr.nonZero draw fuel).exec s = (.ok v, s') ∧ ValV v X ∧ ValV w W ∧ X.normalize.length = 1 ∧
      (W - X.normalize).length ≤ (N + 9) / 2 ^ 25 ∧ |W.length - 1| ≤ (N + 9) / 2 ^ 25 := by
  unfold Distr.unit at h
  rw [exec_bind] at h
  rcases hx : (Distr.nonZero (N := N) draw fuel).exec s with ⟨_ | v, s1⟩
  · rw [hx] at h; simp at h
  rw [hx] at h
  simp only [Vec.normalize_ok, liftRes_ok, exec_pure, Prod.mk.injEq, Except.ok.injEq] at h
  obtain ⟨rfl, rfl⟩ := h
  obtain ⟨bad, X, h1, vX, hl, -⟩ := C111_nonzero_f32 hs he hN draw hd fuel s s1 v hx
  have hN' : (N : ℝ) ≤ 2 ^ 8 := by exact_mod_cast hN
  have l0 := length_nonneg X
  have h2 : (1:ℝ) / 2 ^ 55 ≤ X.length := by
    have : (1 + (N + 5 : ℝ) / 2 ^ 25) * X.length ≤ (1 + (2 ^ 8 + 5 : ℝ) / 2 ^ 25) * X.length := by gcongr
    norm_num at this hl ⊢
    linarith
  obtain ⟨X', vX', bX⟩ := vec_of_mem (v := v) fun a ha => callN_mem hd h1 a (by simp [ha])
  have e : X' = X := by
    apply Vec.ext_getElem; intro i hi
    have := (vX' ⟨i, hi⟩).symm.trans (vX ⟨i, hi⟩)
    simpa using this
  rw [e] at bX
  obtain ⟨W, vW, eW⟩ := nrm_std hN vX h2 (length_le_of hN bX)
  have n1 := normalize_length (X := X) (lt_of_lt_of_le (by positivity) h2)
  refine ⟨v, X, W, rfl, vX, by rw [normalize_inst hs]; exact vW, n1, eW, ?_⟩
  refine le_trans ?_ eW
  rw [← n1, ← norm_toE, ← norm_toE, ← norm_toE, toE_sub]
  exact abs_norm_sub_norm_le _ _

/-- `Uniform` for `Rotation2` in `f32`: the rotation is, up to `1.5 η`, the one by the angle drawn. -/
theorem C111_rotation2_f32 [FloatOps F] [FloatConst F] {η : ℝ} (hl : TrigWithin32 η) (uniform : F → F → Eff σ F)
    (hu : ∀ s s' a, (uniform 0 (two * FloatConst.pi)).exec s = (.ok a, s') → ∃ t, a.toReal? = some t) (s s' : σ) (r : Rotation2 F)
    (h : (Distr.rotation2Uniform uniform).exec s = (.ok r, s')) :
    ∃ (a : F) (t : ℝ) (R : Rotation2 ℝ), (uniform 0 (two * FloatConst.pi)).exec s = (.ok a, s') ∧ a.toReal? = some t ∧
      ValC r.intoComplex R.intoComplex ∧ (R.intoComplex - Cpx.new (Real.cos t) (Real.sin t)).norm ≤ 3 / 2 * η ∧ NearUnit2 (3 / 2 * η) R := by
  unfold Distr.rotation2Uniform at h
  rw [exec_bind] at h
  rcases h1 : (uniform 0 (two * FloatConst.pi)).exec s with ⟨_ | a, s1⟩
  · rw [h1] at h; simp at h
  rw [h1] at h
  simp only [exec_pure, Prod.mk.injEq, Except.ok.injEq] at h
  obtain ⟨rfl, rfl⟩ := h
  obtain ⟨t, vt⟩ := hu _ _ _ h1
  obtain ⟨R, r1, r2, r3⟩ := C108_rotation2_new hl a t vt
  exact ⟨a, t, R, rfl, vt, r1, r2, r3⟩

/-- `Uniform` for `Rotation3` in `f32`: the rotation is, up to `2.25 η + 7.125 u`, the one about the normalised drawn vector by the angle drawn;
the axis is drawn first. -/
theorem C111_rotation3_f32 [FloatOps F] [FloatConst F] {η : ℝ} (hs : ∀ a : F, FloatOps.sqrt a = Ieee.sqrt a) (he : (FloatOps.epsilon : F).toReal? = some (1 / 2 ^ 23))
    (hl : TrigWithin32 η) (hη : η ≤ 1 / 2 ^ 12) (draw : Eff σ F) (hd : DrawsWithin (2 ^ 40) draw) (uniform : F → F → Eff σ F)
    (hu : ∀ s s' a, (uniform 0 (two * FloatConst.pi)).exec s = (.ok a, s') → Datum a ∧ ∃ t, a.toReal? = some t) (fuel : ℕ) (s s' : σ) (r : Rotation3 F)
    (h : (Distr.rotation3Uniform draw uniform fuel).exec s = (.ok r, s')) :
    ∃ (v : Vec F 3) (X : Vec ℝ 3) (s1 : σ) (a : F) (t : ℝ) (R : Rotation3 ℝ), (Distr.nonZero draw fuel).exec s = (.ok v, s1) ∧ ValV v X ∧
      (uniform 0 (two * FloatConst.pi)).exec s1 = (.ok a, s') ∧ a.toReal? = some t ∧ X.normalize.length = 1 ∧
      ValQ r.intoQuaternion R.intoQuaternion ∧
      (R.intoQuaternion - Quat.fromScalarAndVector3 (Real.cos (t / 2)) (X.normalize.mulS (Real.sin (t / 2)))).norm ≤ 9 / 4 * η + 57 / 8 / 2 ^ 24 ∧
      NearUnit3 (9 / 4 * η + 57 / 8 / 2 ^ 24) R := by
  unfold Distr.rotation3Uniform at h
  rw [exec_bind] at h
  rcases h1 : (Distr.unit (N := 3) draw fuel).exec s with ⟨_ | w, s1⟩
  · rw [h1] at h; simp at h
  rw [h1] at h
  simp only [exec_bind] at h
  rcases h2 : (uniform 0 (two * FloatConst.pi)).exec s1 with ⟨_ | a, s2⟩
  · rw [h2] at h; simp at h
  rw [h2] at h
  simp only [exec_pure, Prod.mk.injEq, Except.ok.injEq] at h
  obtain ⟨rfl, rfl⟩ := h
  obtain ⟨da, t, vt⟩ := hu _ _ _ h2
  obtain ⟨v, X, W, hv, vX, vW, n1, eW, -⟩ := C111_unit_f32 hs he (by norm_num) draw hd fuel s s1 w h1
  have e6 : ((3 : ℕ) + 9 : ℝ) / 2 ^ 25 = 6 / 2 ^ 24 := by norm_num
  rw [e6] at eW
  obtain ⟨R, r1, r2, r3⟩ := C108_rotation3_new hl hη w W X.normalize vW n1 eW (by norm_num) a t vt da
  have e7 : 9 / 4 * η + 9 / 8 / 2 ^ 24 + 6 / 2 ^ 24 = 9 / 4 * η + 57 / 8 / 2 ^ 24 := by ring
  rw [e7] at r2 r3
  exact ⟨v, X, s1, a, t, R, hv, vX, h2, vt, n1, r1, r2, r3⟩

namespace Sampler32
/-- The test of the sampler. -/
theorem accept_val {N : ℕ} [FloatOps F] (hb : ∀ a : F, FloatOps.abs a = Ieee.abs a) (he : (FloatOps.epsilon : F).toReal? = some (1 / 2 ^ 23))
    (A : Mat F N N) (r : ℝ) (hr : A.det.toReal? = some r) (b : Bool)
    (h : (do let d ← A.detR; pure (!Distr.isEpsilon (ScalarNorm.normL1 d)) : Res Bool) = .ok b) : b = true ↔ 1 / 2 ^ 23 < |r| := by
  rw [show A.detR = .ok A.det from Res.ok_get _ _] at h
  simp only [Res.bind_ok, Res.pure_eq, Except.ok.injEq, Distr.isEpsilon] at h
  have h1 : (FloatOps.abs (ScalarNorm.normL1 A.det : F)).toReal? = some |r| := by
    rw [hb, ← abs_abs]; exact abs_val' (abs_val' hr)
  have := rle_val h1 he
  rw [← not_le, ← this, ← h]
  simp
end Sampler32

/-- `Invertible` for `f32` matrices: the result is a drawn block of `N²` scalars, row by row, and the magnitude of its exact determinant is above
epsilon up to the error bound of `det`; every block drawn before had one of at most epsilon up to the same bound. -/
theorem C111_invertible_f32 {N : ℕ} [FloatOps F] (hb : ∀ a : F, FloatOps.abs a = Ieee.abs a) (he : (FloatOps.epsilon : F).toReal? = some (1 / 2 ^ 23))
    (c : ℝ) (hc : 1 ≤ c) (hN : N.factorial * c ^ N ≤ 2 ^ 120) (draw : Eff σ F) (hd : DrawsWithin c draw) (fuel : ℕ) (s s' : σ) (A : Mat F N N)
    (h : (Distr.invertible ScalarNorm.normL1 draw fuel).exec s = (.ok A, s')) :
    ∃ (bad : List (Mat F N N)) (a : Matrix (Fin N) (Fin N) ℝ),
      (callN draw ((bad.length + 1) * (N * N))).exec s = (.ok (bad.flatMap rowMajor ++ rowMajor A), s') ∧
      (∀ i j : Fin N, A[i.1][j.1].toReal? = some (a i j)) ∧
      1 / 2 ^ 23 < |a.det| + (101 / 200 * (N * (N + 3)) / 2 ^ 24 * (a.map abs).permanent + N.factorial * c ^ N / 2 ^ 148) ∧
      ∀ B ∈ bad, ∃ b : Matrix (Fin N) (Fin N) ℝ, (∀ i j : Fin N, B[i.1][j.1].toReal? = some (b i j)) ∧
        |b.det| ≤ 1 / 2 ^ 23 + (101 / 200 * (N * (N + 3)) / 2 ^ 24 * (b.map abs).permanent + N.factorial * c ^ N / 2 ^ 148) := by
  unfold Distr.invertible at h
  rw [Distr.loop_blocks (draw := Distr.matrix draw) (comp := rowMajor) (inner := draw) (C01_mat_init_calls draw) (fun _ _ h => Mat.rowMajor_inj h)
    (fun x => by simp [Mat.length_rowMajor])] at h
  obtain ⟨bad, -, h2, h3, h4⟩ := h
  have hm := callN_mem hd h2
  obtain ⟨a, va, ba⟩ := mat_of_mem (A := A) fun x hx => hm x (by simp [hx])
  refine ⟨bad, a, h2, fun i j => (va i j).2, ?_, fun B hB => ?_⟩
  · obtain ⟨r, vr, er⟩ := C109_det A a (fun i j => (va i j).2) c hc ba hN
    have h5 := (accept_val hb he A r vr _ h4).1 rfl
    have : |r| ≤ |a.det| + |r - a.det| := by
      calc |r| = |a.det + (r - a.det)| := by ring_nf
        _ ≤ _ := abs_add_le _ _
    linarith
  · obtain ⟨b, vb, bb⟩ := mat_of_mem (A := B) fun x hx => hm x (by simp only [List.mem_append, List.mem_flatMap]; exact .inl ⟨B, hB, hx⟩)
    refine ⟨b, fun i j => (vb i j).2, ?_⟩
    obtain ⟨r, vr, er⟩ := C109_det B b (fun i j => (vb i j).2) c hc bb hN
    have h5 : ¬ 1 / 2 ^ 23 < |r| := fun hc => Bool.false_ne_true ((accept_val hb he B r vr _ (h3 B hB)).2 hc)
    push Not at h5
    have : |b.det| ≤ |r| + |r - b.det| := by
      calc |b.det| = |r - (r - b.det)| := by ring_nf
        _ ≤ _ := abs_sub _ _
    linarith

/-- Progress: a block whose exact determinant is above epsilon by more than the error bound is returned at once. -/
theorem C111_invertible_accepts_f32 {N : ℕ} [FloatOps F] (hb : ∀ a : F, FloatOps.abs a = Ieee.abs a) (he : (FloatOps.epsilon : F).toReal? = some (1 / 2 ^ 23))
    (c : ℝ) (hc : 1 ≤ c) (hN : N.factorial * c ^ N ≤ 2 ^ 120) (draw : Eff σ F) (fuel : ℕ) (s s' : σ) (A : Mat F N N) (a : Matrix (Fin N) (Fin N) ℝ)
    (ha : ∀ i j : Fin N, A[i.1][j.1].toReal? = some (a i j)) (hac : ∀ i j, |a i j| ≤ c) (h : (callN draw (N * N)).exec s = (.ok (rowMajor A), s'))
    (hd : 1 / 2 ^ 23 + (101 / 200 * (N * (N + 3)) / 2 ^ 24 * (a.map abs).permanent + N.factorial * c ^ N / 2 ^ 148) < |a.det|) :
    (Distr.invertible ScalarNorm.normL1 draw (fuel + 1)).exec s = (.ok A, s') := by
  unfold Distr.invertible
  rw [Distr.loop_blocks (draw := Distr.matrix draw) (comp := rowMajor) (inner := draw) (C01_mat_init_calls draw) (fun _ _ h => Mat.rowMajor_inj h)
    (fun x => by simp [Mat.length_rowMajor])]
  refine ⟨[], by simp, by simpa using h, by simp, ?_⟩
  obtain ⟨r, vr, er⟩ := C109_det A a ha c hc hac hN
  have hk : ∃ b, (do let d ← A.detR; pure (!Distr.isEpsilon (ScalarNorm.normL1 d)) : Res Bool) = .ok b := ⟨_, by
    rw [show A.detR = .ok A.det from Res.ok_get _ _]; rfl⟩
  obtain ⟨b, hk⟩ := hk
  rw [hk, (accept_val hb he A r vr b hk).2 ?_]
  have : |a.det| ≤ |r| + |r - a.det| := by
    calc |a.det| = |r - (r - a.det)| := by ring_nf
      _ ≤ _ := abs_sub _ _
  linarith

/-- For 2×2 matrices the documented guarantee holds exactly: an accepted matrix has an exact determinant different from `0`. -/
theorem C111_invertible_two_f32 [FloatOps F] (hb : ∀ a : F, FloatOps.abs a = Ieee.abs a) (he : (FloatOps.epsilon : F).toReal? = some (1 / 2 ^ 23))
    (draw : Eff σ F) (hd : DrawsWithin (2 ^ 40) draw) (fuel : ℕ) (s s' : σ) (A : Mat F 2 2)
    (h : (Distr.invertible ScalarNorm.normL1 draw fuel).exec s = (.ok A, s')) :
    ∃ a : Matrix (Fin 2) (Fin 2) ℝ, (∀ i j : Fin 2, A[i.1][j.1].toReal? = some (a i j)) ∧ a.det ≠ 0 := by
  unfold Distr.invertible at h
  rw [Distr.loop_blocks (draw := Distr.matrix draw) (comp := rowMajor) (inner := draw) (C01_mat_init_calls draw) (fun _ _ h => Mat.rowMajor_inj h)
    (fun x => by simp [Mat.length_rowMajor])] at h
  obtain ⟨bad, -, h2, h3, h4⟩ := h
  have hm := callN_mem hd h2
  obtain ⟨a, va, ba⟩ := mat_of_mem (A := A) fun x hx => hm x (by simp [hx])
  refine ⟨a, fun i j => (va i j).2, fun h0 => ?_⟩
  rw [Matrix.det_fin_two] at h0
  have hrep : ∀ i j, Representable Fmt.f32 (a i j) := fun i j => Datum.rep C80_formats.1 (va i j).1 (va i j).2
  have ids : ∀ i j : Fin 2, ((0 : F) + A[i.1][j.1] * (1 : F)).toReal? = some (a i j) := fun i j => by
    have hl : |a i j| < huge Fmt.f32 := rep_lt (hrep i j)
    refine val_add_iff.2 ⟨0, a i j, rfl, val_mul_iff.2 ⟨a i j, 1, (va i j).2, rfl, ?_, ?_⟩, ?_, ?_⟩ <;>
      simp only [mul_one, zero_add, Fmt.near_rep (hrep i j)] <;> exact hl
  set m := a 0 0 * a 1 1 with hmd
  have hM : |m| ≤ 2 ^ 120 := by
    rw [hmd, abs_mul]
    calc |a 0 0| * |a 1 1| ≤ 2 ^ 40 * 2 ^ 40 := by gcongr <;> exact ba _ _
      _ ≤ _ := by norm_num
  have hfin : |Fmt.f32.near m| < huge Fmt.f32 := by
    have e := near_err_add (φ := Fmt.f32) m
    rw [u_eq, tiny_eq] at e
    rw [huge_eq]
    have : |Fmt.f32.near m| ≤ |Fmt.f32.near m - m| + |m| := by
      calc |Fmt.f32.near m| = |(Fmt.f32.near m - m) + m| := by ring_nf
        _ ≤ _ := abs_add_le _ _
    refine lt_of_le_of_lt (this.trans (add_le_add e hM)) ?_
    calc (1:ℝ) / 2 ^ 24 * |m| + 1 / 2 ^ 150 + 2 ^ 120 ≤ 1 / 2 ^ 24 * 2 ^ 120 + 1 / 2 ^ 150 + 2 ^ 120 := by gcongr
      _ < _ := by norm_num
  have hrm : Representable Fmt.f32 (Fmt.f32.near m) := Fmt.rep_near C80_formats.1 hfin
  have v1 : ((0 : F) + A[0][0] * ((0 : F) + A[1][1] * (1 : F))).toReal? = some (Fmt.f32.near m) := by
    refine val_add_iff.2 ⟨0, Fmt.f32.near m, rfl, val_mul_iff.2 ⟨a 0 0, a 1 1, (va 0 0).2, ids 1 1, rfl, hfin⟩, ?_, ?_⟩ <;>
      simp only [zero_add, Fmt.near_rep hrm] <;> exact hfin
  have v2 : (A[0][1] * (-((0 : F) + A[1][0] * (1 : F)))).toReal? = some (-Fmt.f32.near m) := by
    have e : a 0 1 * -a 1 0 = -m := by rw [hmd]; linarith
    refine val_mul_iff.2 ⟨a 0 1, -a 1 0, (va 0 1).2, val_neg (ids 1 0), ?_, ?_⟩ <;> rw [e, Fmt.near_neg]
    rw [abs_neg]; exact hfin
  have v3 : A.det.toReal? = some 0 := by
    rw [det2]
    refine val_add_iff.2 ⟨_, _, v1, v2, ?_, ?_⟩ <;> simp only [add_neg_cancel, Fmt.near_zero]
    rw [abs_zero, huge_eq]; positivity
  have := (accept_val hb he A 0 v3 _ h4).1 rfl
  norm_num at this

namespace Sampler32
theorem eps_val : (FloatOps.epsilon : F).toReal? = some (1 / 2 ^ 23) := by
  have e : (2:ℝ) ^ (1 - ((Fmt.f32.p : ℕ) : ℤ)) = 1 / 2 ^ 23 := by
    show (2:ℝ) ^ (1 - ((24 : ℕ) : ℤ)) = _
    rw [show (1 - ((24 : ℕ) : ℤ)) = -((23 : ℕ) : ℤ) by norm_num, zpow_neg, zpow_natCast, one_div]
  show (if h : (2 : ℝ) ^ (1 - (Fmt.f32.p : ℤ)) = 0 then (0 : F) else Ieee.num _ h).toReal? = _
  rw [dif_neg (by positivity), ← e]; rfl
theorem near_of {x : ℝ} (m e : ℤ) (h1 : (2:ℝ) ^ e ≤ |x|) (h2 : |x| < 2 ^ (e + 1)) (he : -126 ≤ e) (h : |x / 2 ^ (e - 23) - m| < 1 / 2) :
    Fmt.f32.near x = m * 2 ^ (e - 23) := by
  unfold Fmt.near
  rw [Fmt.ulp_eq (φ := Fmt.f32) h1 h2 he, show e - (Fmt.f32.p : ℤ) + 1 = e - 23 by show e - 24 + 1 = _; ring, roundEven_eq h]
theorem mv {a b : F} {x y z : ℝ} (ha : a.toReal? = some x) (hb : b.toReal? = some y) (h : Fmt.f32.near (x * y) = z) (hz : |z| < 16) :
    (a * b).toReal? = some z :=
  val_mul_iff.2 ⟨x, y, ha, hb, h.symm, by rw [h, huge_eq]; refine hz.trans (by norm_num)⟩
theorem av {a b : F} {x y z : ℝ} (ha : a.toReal? = some x) (hb : b.toReal? = some y) (h : Fmt.f32.near (x + y) = z) (hz : |z| < 16) :
    (a + b).toReal? = some z :=
  val_add_iff.2 ⟨x, y, ha, hb, h.symm, by rw [h, huge_eq]; refine hz.trans (by norm_num)⟩
theorem z0 {a : F} {x : ℝ} (ha : a.toReal? = some x) (h : Fmt.f32.near x = x) (hx : |x| < 16) : ((0 : F) + a).toReal? = some x :=
  av rfl ha (by rw [zero_add]; exact h) hx
theorem id1 {a : F} {x : ℝ} (ha : a.toReal? = some x) (h : Fmt.f32.near x = x) (hx : |x| < 16) : ((0 : F) + a * (1 : F)).toReal? = some x :=
  z0 (mv ha (y := 1) rfl (by rw [mul_one]; exact h) hx) h hx
theorem zm {a b : F} {y : ℝ} (ha : a.toReal? = some 0) (hb : b.toReal? = some y) : (a * b).toReal? = some 0 :=
  mv ha hb (by rw [zero_mul]; exact Fmt.near_zero) (by norm_num)
theorem az {a b : F} {x : ℝ} (ha : a.toReal? = some x) (hb : b.toReal? = some 0) (h : Fmt.f32.near x = x) (hx : |x| < 16) : (a + b).toReal? = some x :=
  av ha hb (by rw [add_zero]; exact h) hx
/-- The singular matrix. -/
noncomputable def sing : Matrix (Fin 3) (Fin 3) ℝ := !![1, 0, -3; 1 + 3 / 2 ^ 13, 3 + 9 / 2 ^ 13, 0; 0, 1 + 1 / 2 ^ 13, 1 + 1 / 2 ^ 13]
theorem rep13 (m : ℤ) (hm : |m| < 2 ^ 24) : Representable Fmt.f32 (m / 2 ^ 13) :=
  ⟨m, -13, by rw [zpow_neg, div_eq_mul_inv]; norm_num, hm, by decide, by decide⟩
theorem sing_rep (i j : Fin 3) : Representable Fmt.f32 (sing i j) := by
  have k : ∀ (x : ℝ) (m : ℤ), x = m / 2 ^ 13 → |m| < 2 ^ 24 → Representable Fmt.f32 x := fun x m h hm => h ▸ rep13 m hm
  fin_cases i <;> fin_cases j <;> simp [sing]
  · exact k _ (2 ^ 13) (by norm_num) (by decide)
  · exact k _ 0 (by norm_num) (by decide)
  · exact k _ (-3 * 2 ^ 13) (by norm_num) (by decide)
  · exact k _ (2 ^ 13 + 3) (by norm_num) (by decide)
  · exact k _ (3 * 2 ^ 13 + 9) (by norm_num) (by decide)
  · exact k _ 0 (by norm_num) (by decide)
  · exact k _ 0 (by norm_num) (by decide)
  · exact k _ (2 ^ 13 + 1) (by norm_num) (by decide)
  · exact k _ (2 ^ 13 + 1) (by norm_num) (by decide)
theorem sing_det : sing.det = 0 := by
  rw [Matrix.det_fin_three]; simp [sing]; norm_num
theorem sing_computed (A : Mat F 3 3) (h : ∀ i j : Fin 3, A[i.1][j.1].toReal? = some (sing i j)) : A.det.toReal? = some (1 / 2 ^ 22) := by
  have n1 : Fmt.f32.near (1 + 1 / 2 ^ 13) = 1 + 1 / 2 ^ 13 := by
    have := Fmt.near_rep (rep13 (2 ^ 13 + 1) (by decide)); norm_num at this ⊢; exact this
  have nP : Fmt.f32.near ((3 + 9 / 2 ^ 13) * (1 + 1 / 2 ^ 13)) = 3 + 12 / 2 ^ 13 + 1 / 2 ^ 22 := by
    rw [near_of (3 * 2 ^ 22 + 12 * 2 ^ 9 + 1) 1] <;> norm_num [zpow_neg, abs_lt]
  have nP' : Fmt.f32.near (3 + 12 / 2 ^ 13 + 1 / 2 ^ 22) = 3 + 12 / 2 ^ 13 + 1 / 2 ^ 22 := by
    refine Fmt.near_rep ⟨3 * 2 ^ 22 + 12 * 2 ^ 9 + 1, -22, ?_, by decide, by decide, by decide⟩
    rw [zpow_neg]; norm_num
  have nQ : Fmt.f32.near ((1 + 3 / 2 ^ 13) * (1 + 1 / 2 ^ 13)) = 1 + 4 / 2 ^ 13 := by
    rw [near_of (2 ^ 23 + 4 * 2 ^ 10) 0] <;> norm_num [zpow_neg, abs_lt]
  have nQ' : Fmt.f32.near (1 + 4 / 2 ^ 13) = 1 + 4 / 2 ^ 13 := by
    have := Fmt.near_rep (rep13 (2 ^ 13 + 4) (by decide)); norm_num at this ⊢; exact this
  have nR : Fmt.f32.near (-3 * (1 + 4 / 2 ^ 13)) = -3 * (1 + 4 / 2 ^ 13) := by
    have := Fmt.near_rep (rep13 (-3 * 2 ^ 13 - 12) (by decide)); norm_num at this ⊢; exact this
  have nD : Fmt.f32.near (3 + 12 / 2 ^ 13 + 1 / 2 ^ 22 + -3 * (1 + 4 / 2 ^ 13)) = 1 / 2 ^ 22 := by
    rw [show (3 + 12 / 2 ^ 13 + 1 / 2 ^ 22 + -3 * (1 + 4 / 2 ^ 13) : ℝ) = 1 / 2 ^ 22 by norm_num]
    refine Fmt.near_rep ⟨1, -22, ?_, by decide, by decide, by decide⟩
    rw [zpow_neg]; norm_num
  have v00 : A[0][0].toReal? = some (1:ℝ) := by simpa [sing] using h 0 0
  have v01 : A[0][1].toReal? = some (0:ℝ) := by simpa [sing] using h 0 1
  have v02 : A[0][2].toReal? = some (-3:ℝ) := by simpa [sing] using h 0 2
  have v10 : A[1][0].toReal? = some (1 + 3 / 2 ^ 13:ℝ) := by simpa [sing] using h 1 0
  have v11 : A[1][1].toReal? = some (3 + 9 / 2 ^ 13:ℝ) := by simpa [sing] using h 1 1
  have v12 : A[1][2].toReal? = some (0:ℝ) := by simpa [sing] using h 1 2
  have v20 : A[2][0].toReal? = some (0:ℝ) := by simpa [sing] using h 2 0
  have v21 : A[2][1].toReal? = some (1 + 1 / 2 ^ 13:ℝ) := by simpa [sing] using h 2 1
  have v22 : A[2][2].toReal? = some (1 + 1 / 2 ^ 13:ℝ) := by simpa [sing] using h 2 2
  have one : (1 : F).toReal? = some (1:ℝ) := rfl
  have zero : (0 : F).toReal? = some (0:ℝ) := rfl
  have b1 : |(1 + 1 / 2 ^ 13 : ℝ)| < 16 := by norm_num [abs_lt]
  have bP : |(3 + 12 / 2 ^ 13 + 1 / 2 ^ 22 : ℝ)| < 16 := by norm_num [abs_lt]
  have bQ : |(1 + 4 / 2 ^ 13 : ℝ)| < 16 := by norm_num [abs_lt]
  have b0 : |(0 : ℝ)| < 16 := by norm_num
  have h21 := id1 v21 n1 b1
  have h22 := id1 v22 n1 b1
  have h20 := id1 v20 Fmt.near_zero b0
  have h20' : (-((0 : F) + A[2][0] * (1 : F))).toReal? = some 0 := by rw [← neg_zero]; exact val_neg h20
  have m00 := az (z0 (mv v11 h22 nP bP) nP' bP) (zm v12 (val_neg h21)) nP' bP
  have m01 := az (z0 (mv v10 h22 nQ bQ) nQ' bQ) (zm v12 h20') nQ' bQ
  have m02 := az (z0 (mv v10 h21 nQ bQ) nQ' bQ) (mv v11 h20' (z := 0) (by rw [mul_zero]; exact Fmt.near_zero) b0) nQ' bQ
  rw [det3]
  exact av (az (z0 (mv v00 m00 (by rw [one_mul]; exact nP') bP) nP' bP) (zm v01 (val_neg m01)) nP' bP)
    (mv v02 m02 nR (by norm_num [abs_lt])) nD (by norm_num [abs_lt])
end Sampler32

/-- For 3×3 matrices it fails: a matrix of `f32` numbers whose exact determinant is `0` is accepted by `Invertible` (its computed determinant is
twice epsilon), so the documented guarantee of an invertible result does not hold of every drawn block. -/
theorem C111_invertible_singular_refuted_f32 : ∃ (A : Mat F 3 3) (a : Matrix (Fin 3) (Fin 3) ℝ),
    (∀ i j : Fin 3, Datum A[i.1][j.1] ∧ A[i.1][j.1].toReal? = some (a i j)) ∧ a.det = 0 ∧
    ∀ (σ : Type) (draw : Eff σ F) (s s' : σ) (fuel : ℕ), (callN draw 9).exec s = (.ok (rowMajor A), s') →
      (Distr.invertible ScalarNorm.normL1 draw (fuel + 1)).exec s = (.ok A, s') := by
  refine ⟨F32Lit.mat sing, sing, fun i j => ⟨?_, F32Lit.mat_val sing i j⟩, sing_det, fun σ draw s s' fuel h => ?_⟩
  · have : (F32Lit.mat sing)[i.1] = F32Lit.vec (sing i) := Vector.getElem_ofFn i.2
    rw [this, F32Lit.vec_get]
    exact F32Lit.lit_datum (sing_rep i j)
  · unfold Distr.invertible
    rw [Distr.loop_blocks (draw := Distr.matrix draw) (comp := rowMajor) (inner := draw) (C01_mat_init_calls draw) (fun _ _ h => Mat.rowMajor_inj h)
      (fun x => by simp [Mat.length_rowMajor])]
    refine ⟨[], by simp, by simpa using h, by simp, ?_⟩
    have hv := sing_computed _ (F32Lit.mat_val sing)
    rw [show (F32Lit.mat sing).detR = .ok (F32Lit.mat sing).det from Res.ok_get _ _]
    simp only [Res.bind_ok, Res.pure_eq, Except.ok.injEq, Distr.isEpsilon]
    have h1 : (FloatOps.abs (ScalarNorm.normL1 (F32Lit.mat sing).det : F)).toReal? = some (1 / 2 ^ 22) := by
      have := abs_val' (abs_val' hv)
      rw [abs_abs, abs_of_pos (by positivity)] at this
      exact this
    have h2 := rle_val h1 eps_val
    have : ¬ (1 / 2 ^ 22 : ℝ) ≤ 1 / 2 ^ 23 := by norm_num
    rw [Bool.not_eq_true', ← Bool.not_eq_true, h2]
    exact this

/-! ## Cases that meet the hypotheses -/
namespace Sampler32Ex
open SamplerEx (src)

/-- A source that counts: `0, 1, 2, …`, up to `1000`. -/
noncomputable def cnt : Eff ℕ F := Eff.ofStep fun n => (F32Lit.lit ((min n 1000 : ℕ) : ℝ), n + 1)
theorem cnt_ok (c : ℝ) (hc : 1000 ≤ c) : DrawsWithin c cnt := by
  intro s s' a h
  simp only [cnt, exec_ofStep, Prod.mk.injEq, Except.ok.injEq] at h
  obtain ⟨rfl, -⟩ := h
  have := F32Lit.lit_int ((min s 1000 : ℕ) : ℤ) (by omega)
  refine ⟨by simpa using this, _, F32Lit.lit_val _, ?_⟩
  rw [abs_of_nonneg (by positivity)]
  exact le_trans (by exact_mod_cast min_le_right s 1000) hc
theorem run (n p : ℕ) : (callN cnt n).exec p = (.ok (List.ofFn fun i : Fin n => F32Lit.lit ((min (p + i.1) 1000 : ℕ) : ℝ)), p + n) := by
  induction n generalizing p with
  | zero => simp [callN]
  | succ n ih =>
    rw [callN, exec_bind]
    simp only [cnt, exec_ofStep]
    rw [show (Eff.ofStep fun n : ℕ => (F32Lit.lit ((min n 1000 : ℕ) : ℝ), n + 1)) = cnt from rfl, exec_bind, ih]
    simp only [exec_pure, Prod.mk.injEq, Except.ok.injEq]
    refine ⟨?_, by omega⟩
    rw [List.ofFn_succ]
    simp only [Fin.val_zero, add_zero, Fin.val_succ, List.cons.injEq, true_and]
    congr 1; ext i; rw [show p + 1 + i.1 = p + (i.1 + 1) by omega]
/-- The block `3, 4, 5`, the first one drawn in state `3`. -/
noncomputable def X3 : Vec ℝ 3 := Vec.fromArray #v[3, 4, 5]
theorem v3 : ValV (F32Lit.vec ![(3:ℝ), 4, 5]) X3 := fun i => by
  rw [F32Lit.vec_val]; fin_cases i <;> rfl
theorem run3 : (callN cnt 3).exec 3 = (.ok (F32Lit.vec ![(3:ℝ), 4, 5]).toList, 6) := by
  rw [run, Vec.toList_eq_ofFn]
  simp only [Prod.mk.injEq, Except.ok.injEq, and_true]
  congr 1; ext i
  rw [F32Lit.vec_get]
  fin_cases i <;> norm_num
theorem l3 : X3.length ^ 2 = 50 := by rw [length3]; simp [X3]; norm_num
theorem hs : ∀ a : F, FloatOps.sqrt a = Ieee.sqrt a := fun _ => rfl
theorem hb : ∀ a : F, FloatOps.abs a = Ieee.abs a := fun _ => rfl
theorem nz3 : (Distr.nonZero cnt 7).exec 3 = (.ok (F32Lit.vec ![(3:ℝ), 4, 5]), 6) := by
  have h0 := length_nonneg X3
  have h1 := l3
  exact C111_nonzero_accepts_f32 hs eps_val (by norm_num) cnt 6 3 6 _ X3 v3 run3 (by push_cast; norm_num; nlinarith) (by
    have : X3.length ≤ 8 := by nlinarith
    exact this.trans (by norm_num))
example : (Distr.nonZero cnt 7).exec 3 = (.ok (F32Lit.vec ![(3:ℝ), 4, 5]), 6) := by
  have h0 := length_nonneg X3
  have h1 := l3
  exact C111_nonzero_accepts_f32 hs eps_val (by norm_num) cnt 6 3 6 _ X3 v3 run3 (by push_cast; norm_num; nlinarith) (by
    have : X3.length ≤ 8 := by nlinarith
    exact this.trans (by norm_num))
example := C111_nonzero_f32 hs eps_val (by norm_num) cnt (cnt_ok _ (by norm_num)) 7 3 6 _ nz3
theorem un3 : ∃ w, (Distr.unit (N := 3) cnt 7).exec 3 = (.ok w, 6) := by
  unfold Distr.unit
  rw [exec_bind, nz3]
  exact ⟨_, by simp only [Vec.normalize_ok, liftRes_ok, exec_pure]; rfl⟩
example : True := by
  obtain ⟨w, h⟩ := un3
  have := C111_unit_f32 hs eps_val (by norm_num) cnt (cnt_ok _ (by norm_num)) 7 3 6 w h
  trivial
example := C111_rotation2_f32 C108_library.1 src (fun s s' a h => by
  simp only [src, exec_pure, Prod.mk.injEq, Except.ok.injEq] at h
  exact ⟨1 / 2, by rw [← h.1]; rfl⟩) 0 0 _ rfl
example : True := by
  obtain ⟨w, h⟩ := un3
  have := C111_rotation3_f32 hs eps_val C108_library.1 (by norm_num) cnt (cnt_ok _ (by norm_num)) src (fun s s' a h => by
    simp only [src, exec_pure, Prod.mk.injEq, Except.ok.injEq] at h
    refine ⟨?_, 1 / 2, by rw [← h.1]; rfl⟩
    rw [← h.1]
    exact ⟨1, -1, by norm_num, by decide, by decide, by decide⟩) 7 3 6 (Rotation3.new w half) (by
      unfold Distr.rotation3Uniform
      rw [exec_bind, h]
      rfl)
  trivial
/-- The matrix `(3, 4; 5, 6)`, the first one drawn in state `3`. -/
noncomputable def A2 : Matrix (Fin 2) (Fin 2) ℝ := !![3, 4; 5, 6]
theorem run4 : (callN cnt (2 * 2)).exec 3 = (.ok (rowMajor (F32Lit.mat A2)), 7) := by
  rw [run]
  have hg : ∀ i j : Fin 2, (F32Lit.mat A2)[i.1][j.1] = F32Lit.lit (A2 i j) := fun i j => by
    have : (F32Lit.mat A2)[i.1] = F32Lit.vec (A2 i) := Vector.getElem_ofFn i.2
    rw [this, F32Lit.vec_get]
  have e : rowMajor (F32Lit.mat A2) = [F32Lit.lit 3, F32Lit.lit 4, F32Lit.lit 5, F32Lit.lit 6] := by
    have a := hg 0 0; have b := hg 0 1; have c := hg 1 0; have d := hg 1 1
    simp only [Fin.val_zero, Fin.val_one] at a b c d
    simp [rowMajor, List.finRange_succ, a, b, c, d]
    simp [A2]
  rw [e]
  simp [List.ofFn_succ]
  norm_num
theorem inv2 : (Distr.invertible ScalarNorm.normL1 cnt 7).exec 3 = (.ok (F32Lit.mat A2), 7) := by
  refine C111_invertible_accepts_f32 hb eps_val 10 (by norm_num) (by norm_num [Nat.factorial]) cnt 6 3 7 _ A2 (F32Lit.mat_val A2) ?_ run4 ?_
  · intro i j; fin_cases i <;> fin_cases j <;> norm_num [A2]
  · have e : (A2.map abs).permanent = 38 := by
      rw [show A2.map abs = A2 by ext i j; fin_cases i <;> fin_cases j <;> simp [A2]]
      rw [permanent_succ_row_zero, Fin.sum_univ_two, permanent_succ_row_zero, permanent_succ_row_zero, Fin.sum_univ_one, Fin.sum_univ_one]
      simp [A2, Matrix.permanent]
      norm_num
    rw [e, Matrix.det_fin_two]
    simp [A2, Nat.factorial]
    norm_num
example : (Distr.invertible ScalarNorm.normL1 cnt 7).exec 3 = (.ok (F32Lit.mat A2), 7) := by
  refine C111_invertible_accepts_f32 hb eps_val 10 (by norm_num) (by norm_num [Nat.factorial]) cnt 6 3 7 _ A2 (F32Lit.mat_val A2) ?_ run4 ?_
  · intro i j; fin_cases i <;> fin_cases j <;> norm_num [A2]
  · have e : (A2.map abs).permanent = 38 := by
      rw [show A2.map abs = A2 by ext i j; fin_cases i <;> fin_cases j <;> simp [A2]]
      rw [permanent_succ_row_zero, Fin.sum_univ_two, permanent_succ_row_zero, permanent_succ_row_zero, Fin.sum_univ_one, Fin.sum_univ_one]
      simp [A2, Matrix.permanent]
      norm_num
    rw [e, Matrix.det_fin_two]
    simp [A2, Nat.factorial]
    norm_num
example := C111_invertible_f32 hb eps_val 1000 (by norm_num) (by norm_num [Nat.factorial]) cnt (cnt_ok _ le_rfl) 7 3 7 _ inv2
example := C111_invertible_two_f32 hb eps_val cnt (cnt_ok _ (by norm_num)) 7 3 7 _ inv2
end Sampler32Ex
end Vecmat
