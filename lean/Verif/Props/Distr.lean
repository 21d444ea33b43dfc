import Verif.Lemmas.Distr
import Verif.Lemmas.Square
import Verif.Props.VectorOps
import Verif.Props.Rotation
import Verif.Props.Moebius
/-!
# C62, C63: random distributions
All statements hold for every random source: `normal : Eff σ ℝ` is any computation over any generator state.
-/
namespace Vecmat
open Spec
variable {σ T : Type} {M N : Nat}

private theorem eps_pos : (0 : ℝ) < FloatOps.epsilon := by
  show (0 : ℝ) < 1 / 2 ^ 52
  positivity

private theorem length_sqrt [NeZero N] (v : Vec ℝ N) : v.length = Real.sqrt (∑ i : Fin N, v[i.1] ^ 2) := by
  unfold Vec.length
  rw [Vec.squareLength_eq_sum]; simp [sq]

private theorem accept_vec (x : Vec ℝ N) (b : Bool) (hN : 0 < N) :
    ((do let l ← x.lengthR; pure (rgt l FloatOps.epsilon) : Res Bool) = .ok b) ↔
      (b = true ↔ (FloatOps.epsilon : ℝ) < Real.sqrt (∑ i : Fin N, x[i.1] ^ 2)) := by
  have : NeZero N := ⟨by omega⟩
  rw [Vec.length_ok, length_sqrt]
  simp only [Res.bind_ok, Res.pure_eq, Except.ok.injEq]
  rw [Bool.eq_iff_iff, rgt_iff]
  exact iff_comm

/-! ## C62 rejection samplers -/

/-- `NonZero` returns `x` exactly when it drew `bad.length + 1` blocks of `N` scalars, one after another, all blocks before
the last one (the `bad` ones) having length at most epsilon, and `x` is the last block and has length above epsilon.  So the
result is always longer than epsilon, it is the first acceptable draw, its components are in drawing order, and nothing else
is drawn. -/
theorem C62_nonzero (normal : Eff σ ℝ) (fuel : Nat) (s s' : σ) (x : Vec ℝ N) :
    (Distr.nonZero normal fuel).exec s = (.ok x, s') ↔
      ∃ bad : List (Vec ℝ N), bad.length < fuel ∧
        (callN normal ((bad.length + 1) * N)).exec s = (.ok (bad.flatMap Vec.toList ++ x.toList), s') ∧
        (∀ y ∈ bad, Real.sqrt (∑ i : Fin N, y[i.1] ^ 2) ≤ FloatOps.epsilon) ∧
        (FloatOps.epsilon : ℝ) < Real.sqrt (∑ i : Fin N, x[i.1] ^ 2) := by
  unfold Distr.nonZero
  rw [Distr.loop_blocks (draw := Distr.vector normal) (comp := Vec.toList) (inner := normal) (Vec.toList_initM normal) (fun _ _ h => Vec.toList_inj h)
    (fun x => by simp)]
  refine exists_congr fun bad => and_congr_right fun _ => and_congr_right fun _ => ?_
  rcases Nat.eq_zero_or_pos N with rfl | hN
  · simp only [Finset.univ_eq_empty, Finset.sum_empty, Real.sqrt_zero]
    constructor
    · rintro ⟨-, h⟩
      simp [Vec.lengthR, Vec.squareLengthR, Vec.sumR_zero] at h
    · rintro ⟨-, h⟩; exact absurd h (by simpa using eps_pos.le)
  · refine and_congr (forall₂_congr fun y _ => ?_) ?_
    · rw [accept_vec y false hN]; simp
    · rw [accept_vec x true hN]; simp

/-- With a scalar stream `g`: the sample is the first block `g (p + N k), …, g (p + N k + N - 1)` longer than epsilon, and the
generator is left right after it. -/
theorem C62_nonzero_stream (g : Nat → ℝ) (fuel p p' : Nat) (x : Vec ℝ N) :
    (Distr.nonZero (stream g) fuel).exec p = (.ok x, p') ↔
      ∃ k, k < fuel ∧ p' = p + (k + 1) * N ∧ (∀ i (h : i < N), x[i] = g (p + k * N + i)) ∧
        (∀ j, j < k → Real.sqrt (∑ i : Fin N, g (p + j * N + i) ^ 2) ≤ FloatOps.epsilon) ∧
        (FloatOps.epsilon : ℝ) < Real.sqrt (∑ i : Fin N, g (p + k * N + i) ^ 2) := by
  have hres : ∀ n p, (callN (stream g) n).exec p = (.ok (List.ofFn fun i : Fin n => g (p + i)), p + n) := by
    intro n
    induction n with
    | zero => intro p; simp [callN]
    | succ n ih =>
      intro p
      rw [callN, exec_bind]
      simp only [stream, exec_ofStep]
      rw [exec_bind]
      rw [show (Eff.ofStep fun n => (g n, n + 1)) = stream g from rfl, ih]
      simp only [exec_pure, List.ofFn_succ, Fin.val_zero, Fin.val_succ, Nat.add_zero, Prod.mk.injEq, Except.ok.injEq,
        List.cons.injEq, true_and]
      constructor
      · congr 1; funext i; congr 1; omega
      · omega
  rw [C62_nonzero]
  constructor
  · rintro ⟨bad, h1, h2, h3, h4⟩
    rw [hres] at h2
    simp only [Prod.mk.injEq, Except.ok.injEq] at h2
    obtain ⟨h2, rfl⟩ := h2
    have hsum : ∀ l : List (Vec ℝ N), ∀ q, (List.ofFn fun i : Fin (l.length * N) => g (q + i)) = l.flatMap Vec.toList →
        ∀ j (hj : j < l.length) i (hi : i < N), l[j][i] = g (q + j * N + i) := by
      intro l
      induction l with
      | nil => intro q _ j hj; simp at hj
      | cons v l ih =>
        intro q hq j hj i hi
        have e : (List.ofFn fun i : Fin ((v :: l).length * N) => g (q + i)) =
            (List.ofFn fun i : Fin N => g (q + i)) ++ List.ofFn fun i : Fin (l.length * N) => g (q + N + i) := by
          apply List.ext_getElem
          · simp; ring
          · intro n hn1 hn2
            simp only [List.getElem_ofFn, List.getElem_append, List.length_ofFn]
            split
            · rfl
            · congr 1; omega
        rw [e, List.flatMap_cons] at hq
        obtain ⟨q1, q2⟩ := List.append_inj hq (by simp)
        cases j with
        | zero =>
          have : v.toList[i]'(by simpa using hi) = v[i] := by simp
          simp only [List.getElem_cons_zero, ← this, ← q1]
          simp
        | succ j =>
          simp only [List.getElem_cons_succ]
          rw [ih (q + N) q2 j (by simpa using hj) i hi]
          congr 1; ring
    have hall : ∀ j (hj : j < (bad ++ [x]).length) i (hi : i < N), (bad ++ [x])[j][i] = g (p + j * N + i) := by
      apply hsum
      rw [List.flatMap_append]
      simp only [List.flatMap_cons, List.flatMap_nil, List.append_nil]
      rw [← h2]
      simp
    have hx : ∀ i (h : i < N), x[i] = g (p + bad.length * N + i) := by
      intro i hi
      have := hall bad.length (by simp) i hi
      simpa using this
    refine ⟨bad.length, h1, by ring, hx, ?_, ?_⟩
    · intro j hj
      have := h3 bad[j] (List.getElem_mem _)
      convert this using 5 with i
      have := hall j (by simp; omega) i.1 i.2
      rw [← this]
      congr 1
      simp [List.getElem_append_left, hj]
    · convert h4 using 5 with i
      exact (hx i.1 i.2).symm
  · rintro ⟨k, h1, rfl, hx, h3, h4⟩
    have hflat : ∀ (n q : Nat), (List.ofFn fun j : Fin n => (⟨Vector.ofFn fun i : Fin N => g (q + j * N + i)⟩ : Vec ℝ N)).flatMap Vec.toList =
        List.ofFn fun i : Fin (n * N) => g (q + i) := by
      intro n
      induction n with
      | zero => intro q; simp
      | succ n ih =>
        intro q
        rw [List.ofFn_succ, List.flatMap_cons]
        have : (fun j : Fin n => (⟨Vector.ofFn fun i : Fin N => g (q + (j.succ : Fin (n+1)) * N + i)⟩ : Vec ℝ N)) =
            fun j : Fin n => ⟨Vector.ofFn fun i : Fin N => g (q + N + j * N + i)⟩ := by
          funext j; congr 2; funext i; congr 1; rw [Fin.val_succ]; ring
        rw [this, ih]
        apply List.ext_getElem
        · simp; ring
        · intro m hm1 hm2
          simp only [List.getElem_append, List.getElem_ofFn]
          split
          · rename_i h
            have h : m < N := by simpa using h
            rw [Vec.getElem_toList]
            simp
          · rename_i h
            have h : N ≤ m := by simpa using h
            congr 1
            simp; omega
    refine ⟨List.ofFn fun j : Fin k => ⟨Vector.ofFn fun i : Fin N => g (p + j * N + i)⟩, by simpa using h1, ?_, ?_, ?_⟩
    · rw [hres, hflat]
      simp only [List.length_ofFn, Prod.mk.injEq, Except.ok.injEq, and_true]
      apply List.ext_getElem
      · simp; ring
      · intro m hm1 hm2
        simp only [List.getElem_append, List.getElem_ofFn]
        split
        · rfl
        · rename_i h
          have h : k * N ≤ m := by simpa using h
          have hm : m < (k + 1) * N := by simpa using hm1
          rw [Nat.succ_mul] at hm
          rw [Vec.getElem_toList, hx _ (by simp; omega)]
          congr 1; simp; omega
    · intro y hy
      rw [List.mem_ofFn] at hy
      obtain ⟨j, rfl⟩ := hy
      have := h3 j j.2
      convert this using 5 with i
      simp
    · convert h4 using 5 with i
      exact hx i.1 i.2

/-- Over any scalar type at all (in particular floats with NaN) a returned vector satisfies `length() > epsilon()`; a vector whose
length does not compare greater (NaN) is never returned. -/
theorem C62_nonzero_any_scalar [NeZero N] [FloatOps T] [RPartialOrd T] [Add T] [Mul T] (normal : Eff σ T) (fuel : Nat) (s s' : σ)
    (x : Vec T N) (h : (Distr.nonZero normal fuel).exec s = (.ok x, s')) : rgt x.length FloatOps.epsilon = true := by
  unfold Distr.nonZero at h
  rw [Distr.loopUntil_iff] at h
  obtain ⟨_, _, _, _, h⟩ := h
  simpa [Vec.length_ok] using h

/-- More allowed iterations never change a result, and the sampler halts on a stream exactly when some block is long
enough. -/
theorem C62_nonzero_halts (g : Nat → ℝ) (p : Nat) :
    (∃ fuel, ∃ x : Vec ℝ N, ∃ p', (Distr.nonZero (stream g) fuel).exec p = (.ok x, p')) ↔
      ∃ k, (FloatOps.epsilon : ℝ) < Real.sqrt (∑ i : Fin N, g (p + k * N + i) ^ 2) := by
  constructor
  · rintro ⟨fuel, x, p', h⟩
    rw [C62_nonzero_stream] at h
    obtain ⟨k, _, _, _, _, h⟩ := h
    exact ⟨k, h⟩
  · intro h
    classical
    refine ⟨Nat.find h + 1, ⟨Vector.ofFn fun i : Fin N => g (p + Nat.find h * N + i)⟩, p + (Nat.find h + 1) * N, ?_⟩
    rw [C62_nonzero_stream]
    refine ⟨Nat.find h, by omega, rfl, by intro i hi; simp, ?_, Nat.find_spec h⟩
    intro j hj
    exact not_lt.mp (Nat.find_min h hj)
theorem C62_nonzero_mono (normal : Eff σ ℝ) {fuel fuel' : Nat} (hf : fuel ≤ fuel') (s s' : σ) (x : Vec ℝ N)
    (h : (Distr.nonZero normal fuel).exec s = (.ok x, s')) : (Distr.nonZero normal fuel').exec s = (.ok x, s') :=
  Distr.loop_mono hf h
/-- For `N > 0` sampling itself never panics: a fault is either the iteration bound of the model or a fault of the source. -/
theorem C62_nonzero_no_panic (hN : 0 < N) (normal : Eff σ ℝ) (fuel : Nat) (s s' : σ) (e : Fault)
    (h : (Distr.nonZero (N := N) normal fuel).exec s = (.error e, s')) :
    e = .outOfFuel ∨ ∃ k, (callN normal k).exec s = (.error e, s') := by
  have : NeZero N := ⟨by omega⟩
  rcases Distr.loop_fault (fun x => ⟨_, by rw [Vec.length_ok]; rfl⟩) h with h | ⟨k, _, hk⟩
  · exact .inl h
  · refine .inr ⟨k * N, ?_⟩
    rw [← flatMap_callN Vec.toList (Distr.vector normal : Eff σ (Vec ℝ N)) normal (Vec.toList_initM normal), exec_map, hk]
    rfl
/-- `NonZero` of the zero-dimensional vector panics at once (`length` of an empty vector). -/
theorem C62_nonzero_zero_dim (normal : Eff σ ℝ) (fuel : Nat) (s : σ) :
    (Distr.nonZero (N := 0) normal (fuel + 1)).exec s = (.error .unwrapNone, s) := by
  have h := Vec.exec_initM_of_ok (N := 0) (f := normal) (s := s) (s' := s) (l := []) (by simp [callN])
  obtain ⟨_, h⟩ := h
  simp only [Distr.nonZero, Distr.loopUntil, Distr.vector, exec_bind, h]
  simp [Vec.lengthR, Vec.squareLengthR, Vec.sumR_zero]

example : (Distr.nonZero (N := 2) (stream fun n => if n < 4 then 0 else (n : ℝ)) 5).exec 0 =
    (.ok (Vec.fromArray #v[4, 5]), 6) := by
  rw [C62_nonzero_stream]
  refine ⟨2, by omega, by omega, ?_, ?_, ?_⟩
  · intro i hi
    interval_cases i <;> simp [Vec.fromArray]
  · intro j hj
    have : ∀ i : Fin 2, j * 2 + i.1 < 4 := fun i => by have := i.2; omega
    simp [this]
    exact eps_pos.le
  · have h1 : ∀ i : Fin 2, ¬ (2 * 2 + i.1 < 4) := fun i => by omega
    simp only [Nat.zero_add, h1, if_false, Fin.sum_univ_two]
    show (1 / 2 ^ 52 : ℝ) < _
    apply Real.lt_sqrt_of_sq_lt
    norm_num

/-- `Unit` is `NonZero` followed by a division by the length; the result has length 1 and points in the drawn direction. -/
theorem C62_unit (normal : Eff σ ℝ) (fuel : Nat) (s s' : σ) (u : Vec ℝ N) :
    (Distr.unit normal fuel).exec s = (.ok u, s') ↔
      ∃ x : Vec ℝ N, (Distr.nonZero normal fuel).exec s = (.ok x, s') ∧
        ∀ i (h : i < N), u[i] = x[i] / Real.sqrt (∑ i : Fin N, x[i.1] ^ 2) := by
  unfold Distr.unit
  rw [exec_bind]
  constructor
  · intro h
    rcases hx : (Distr.nonZero (N := N) normal fuel).exec s with ⟨_ | x, s1⟩
    · rw [hx] at h; simp at h
    · rw [hx] at h
      have h4 := hx
      rw [C62_nonzero] at h4
      obtain ⟨bad, _, _, _, h4⟩ := h4
      have hN : 0 < N := by
        rcases Nat.eq_zero_or_pos N with rfl | h
        · simp at h4; exact absurd h4 (by simpa using eps_pos.le)
        · exact h
      have : NeZero N := ⟨by omega⟩
      simp only [Vec.normalize_ok, liftRes_ok, exec_pure, Prod.mk.injEq, Except.ok.injEq] at h
      obtain ⟨rfl, rfl⟩ := h
      refine ⟨x, rfl, fun i hi => ?_⟩
      rw [← length_sqrt]; simp [Vec.normalize]
  · rintro ⟨x, h1, h2⟩
    rw [h1]
    have h4 := h1
    rw [C62_nonzero] at h4
    obtain ⟨bad, _, _, _, h4⟩ := h4
    have hN : 0 < N := by
      rcases Nat.eq_zero_or_pos N with rfl | h
      · simp at h4; exact absurd h4 (by simpa using eps_pos.le)
      · exact h
    have : NeZero N := ⟨by omega⟩
    simp only [Vec.normalize_ok, liftRes_ok, exec_pure, Prod.mk.injEq, Except.ok.injEq, and_true]
    apply Vec.ext_getElem; intro i hi
    rw [h2 i hi, ← length_sqrt]; simp [Vec.normalize]
theorem C62_unit_length (normal : Eff σ ℝ) (fuel : Nat) (s s' : σ) (u : Vec ℝ N)
    (h : (Distr.unit normal fuel).exec s = (.ok u, s')) : ∑ i : Fin N, u[i.1] ^ 2 = 1 := by
  rw [C62_unit] at h
  obtain ⟨x, h1, h2⟩ := h
  rw [C62_nonzero] at h1
  obtain ⟨bad, _, _, _, h4⟩ := h1
  have hp : 0 < Real.sqrt (∑ i : Fin N, x[i.1] ^ 2) := lt_trans eps_pos h4
  have : ∀ i : Fin N, u[i.1] ^ 2 = x[i.1] ^ 2 / (∑ i : Fin N, x[i.1] ^ 2) := by
    intro i
    rw [h2 i.1 i.2, div_pow, Real.sq_sqrt (Finset.sum_nonneg fun i _ => sq_nonneg _)]
  simp only [this]
  rw [← Finset.sum_div, div_self]
  exact (Real.sqrt_pos.mp hp).ne'

/-- `Invertible` returns the first drawn matrix (`N·N` scalars per attempt, row by row) whose determinant exceeds epsilon in
absolute value. -/
theorem C62_invertible (normal : Eff σ ℝ) (fuel : Nat) (s s' : σ) (A : Mat ℝ N N) :
    (Distr.invertible ScalarNorm.normL1 normal fuel).exec s = (.ok A, s') ↔
      ∃ bad : List (Mat ℝ N N), bad.length < fuel ∧
        (callN normal ((bad.length + 1) * (N * N))).exec s = (.ok (bad.flatMap rowMajor ++ rowMajor A), s') ∧
        (∀ B ∈ bad, |B.toMatrix.det| ≤ FloatOps.epsilon) ∧ (FloatOps.epsilon : ℝ) < |A.toMatrix.det| := by
  unfold Distr.invertible
  rw [Distr.loop_blocks (draw := Distr.matrix normal) (comp := rowMajor) (inner := normal) (C01_mat_init_calls normal) (fun _ _ h => Mat.rowMajor_inj h)
    (fun x => by simp [Mat.length_rowMajor])]
  have acc : ∀ (B : Mat ℝ N N) (b : Bool), ((do
      let d ← B.detR
      pure (!Distr.isEpsilon (ScalarNorm.normL1 d)) : Res Bool) = .ok b) ↔
      (b = true ↔ (FloatOps.epsilon : ℝ) < |B.toMatrix.det|) := by
    intro B b
    rw [show B.detR = .ok B.det from Res.ok_get _ _, Mat.det_eq]
    simp only [Res.bind_ok, Res.pure_eq, Except.ok.injEq, Distr.isEpsilon, normL1_real, fabs_real, abs_abs]
    rw [Bool.eq_iff_iff, Bool.not_eq_true', ← Bool.not_eq_true, rle_iff, not_le]
    exact iff_comm
  refine exists_congr fun bad => and_congr_right fun _ => and_congr_right fun _ => ?_
  simp only [acc]; simp
/-- So the result has an inverse, and `inv` computes it. -/
theorem C62_invertible_inverse (normal : Eff σ ℝ) (fuel : Nat) (s s' : σ) (A : Mat ℝ N N)
    (h : (Distr.invertible ScalarNorm.normL1 normal fuel).exec s = (.ok A, s')) :
    A.toMatrix.det ≠ 0 ∧ A.inv.dotM A = 1 ∧ A.dotM A.inv = 1 := by
  rw [C62_invertible] at h
  obtain ⟨_, _, _, _, h⟩ := h
  have hd : A.toMatrix.det ≠ 0 := by
    intro h0; rw [h0, abs_zero] at h; exact absurd h (not_lt.mpr eps_pos.le)
  exact ⟨hd, Mat.inv_dotM A (by rw [Mat.det_eq]; exact hd)⟩
/-- The samplers of invertible `Linear`, `Affine` and real `Moebius` maps deliver maps with working inverses. -/
theorem C62_linear_invertible (normal : Eff σ ℝ) (fuel : Nat) (s s' : σ) (l : Linear ℝ N)
    (h : (Distr.linearInvertible ScalarNorm.normL1 normal fuel).exec s = (.ok l, s')) : InverseOk (Vec ℝ N) l := by
  obtain ⟨A, h1, rfl⟩ := Distr.exec_eq_of_map h
  obtain ⟨_, h2, h3⟩ := C62_invertible_inverse normal fuel s s' A h1
  intro x
  constructor
  · show A.inv.dotV (A.dotV x) = x
    rw [← Mat.dotV_dotM, h2, Mat.one_dotV]
  · show A.dotV (A.inv.dotV x) = x
    rw [← Mat.dotV_dotM, h3, Mat.one_dotV]
/-- A zero-dimensional square matrix has determinant 1 and is accepted at once. -/
theorem C62_invertible_zero_dim (normal : Eff σ ℝ) (fuel : Nat) (s : σ) :
    ∃ A : Mat ℝ 0 0, (Distr.invertible ScalarNorm.normL1 normal (fuel + 1)).exec s = (.ok A, s) := by
  refine ⟨Mat.fill 0, ?_⟩
  rw [C62_invertible]
  refine ⟨[], by simp, by simp [callN, rowMajor], by simp, ?_⟩
  simp only [Matrix.det_isEmpty, abs_one]
  show (1 / 2 ^ 52 : ℝ) < 1
  norm_num
theorem C62_invertible_no_panic (normal : Eff σ ℝ) (fuel : Nat) (s s' : σ) (e : Fault)
    (h : (Distr.invertible (N := N) ScalarNorm.normL1 normal fuel).exec s = (.error e, s')) :
    e = .outOfFuel ∨ ∃ k, (callN normal k).exec s = (.error e, s') := by
  rcases Distr.loop_fault (fun B : Mat ℝ N N =>
      ⟨_, by rw [show B.detR = .ok B.det from Res.ok_get _ _]; rfl⟩) h with h | ⟨k, _, hk⟩
  · exact .inl h
  · refine .inr ⟨k * (N * N), ?_⟩
    rw [← flatMap_callN rowMajor (Distr.matrix normal : Eff σ (Mat ℝ N N)) normal (C01_mat_init_calls normal), exec_map, hk]
    rfl
theorem C62_invertible_mono (normal : Eff σ ℝ) {fuel fuel' : Nat} (hf : fuel ≤ fuel') (s s' : σ) (A : Mat ℝ N N)
    (h : (Distr.invertible ScalarNorm.normL1 normal fuel).exec s = (.ok A, s')) :
    (Distr.invertible ScalarNorm.normL1 normal fuel').exec s = (.ok A, s') :=
  Distr.loop_mono hf h

example : ∃ A : Mat ℝ 1 1, (Distr.invertible ScalarNorm.normL1 (stream fun n => (n : ℝ)) 2).exec 0 = (.ok A, 2) := by
  refine ⟨Mat.fill 1, ?_⟩
  rw [C62_invertible]
  refine ⟨[Mat.fill 0], by simp, ?_, ?_, ?_⟩
  · simp [callN, rowMajor, stream, exec_bind, exec_map, List.finRange_succ]
  · simp [Matrix.det_fin_one, Mat.toMatrix]; exact eps_pos.le
  · simp [Matrix.det_fin_one, Mat.toMatrix]
    show (1 / 2 ^ 52 : ℝ) < 1
    norm_num

/-- `Affine` samplers draw the shift first, then the linear part. -/
theorem C62_affine_normal (normal : Eff σ ℝ) (s s' : σ) (a : Affine ℝ N) :
    (Distr.affineNormal normal).exec s = (.ok a, s') ↔
      (callN normal (N + N * N)).exec s = (.ok (a.shift.intoVector.toList ++ rowMajor a.linear.intoMatrix), s') := by
  have h1 := Vec.toList_initM (N := N) normal
  have h2 := C01_mat_init_calls (M := N) (N := N) normal
  rw [callN_add, ← h1, ← h2]
  obtain ⟨⟨v⟩, ⟨B⟩⟩ := a
  simp only [Distr.affineNormal, Distr.shiftNormal, Distr.linearNormal, Distr.vector, Distr.matrix, exec_bind, exec_map]
  rcases (Vec.initM (N := N) normal).exec s with ⟨e | w, s1⟩
  · simp
  · simp only [Res.map_ok]
    rcases (Mat.initM (M := N) (N := N) normal).exec s1 with ⟨e | C, s2⟩
    · simp
    · simp only [Res.map_ok, exec_pure, Prod.mk.injEq, Except.ok.injEq]
      apply and_congr_left; intro _
      constructor
      · intro h
        have a1 := congrArg Chain.outer h
        have a2 := congrArg Chain.inner h
        simp only [Chain.new, Shift.fromVector, Linear.fromMatrix, Shift.mk.injEq, Linear.mk.injEq] at a1 a2
        simp [Affine.shift, Affine.linear, Shift.intoVector, Linear.intoMatrix, a1, a2]
      · intro h
        obtain ⟨a1, a2⟩ := List.append_inj h (by simp)
        rw [Vec.toList_inj a1, Mat.rowMajor_inj a2]
        rfl
theorem C62_affine_invertible (normal : Eff σ ℝ) (fuel : Nat) (s s' : σ) (a : Affine ℝ N)
    (h : (Distr.affineInvertible ScalarNorm.normL1 normal fuel).exec s = (.ok a, s')) : InverseOk (Vec ℝ N) a := by
  unfold Distr.affineInvertible at h
  rw [exec_bind] at h
  rcases h1 : (Distr.shiftNormal (N := N) normal).exec s with ⟨e | v, s1⟩
  · rw [h1] at h; simp at h
  · rw [h1] at h
    simp only [exec_bind] at h
    rcases h2 : (Distr.linearInvertible (N := N) ScalarNorm.normL1 normal fuel).exec s1 with ⟨e | l, s2⟩
    · rw [h2] at h; simp at h
    · rw [h2] at h
      simp only [exec_pure, Prod.mk.injEq, Except.ok.injEq] at h
      obtain ⟨rfl, rfl⟩ := h
      obtain ⟨A, h3, rfl⟩ := Distr.exec_eq_of_map h2
      exact C58_affine_group.2.2.1 _ (by
        show A.det ≠ 0
        rw [Mat.det_eq]; exact (C62_invertible_inverse normal fuel s1 s2 A h3).1)

/-- Complex and quaternion samples are the vector samples read as `re, im` and `w, x, y, z`. -/
theorem C62_complex (normal : Eff σ ℝ) (fuel : Nat) (s s' : σ) (z : Cpx ℝ) :
    ((Distr.complexNormal normal).exec s = (.ok z, s') ↔ (callN normal 2).exec s = (.ok [z.re, z.im], s')) ∧
    ((Distr.complexNonZero normal fuel).exec s = (.ok z, s') → (FloatOps.epsilon : ℝ) < z.norm ∧ z ≠ 0) ∧
    ((Distr.complexUnit normal fuel).exec s = (.ok z, s') → z.norm = 1) := by
  refine ⟨?_, ?_, ?_⟩
  · rw [← Vec.toList_initM (N := 2) normal]
    simp only [Distr.complexNormal, Distr.vector, exec_map]
    rcases (Vec.initM (N := 2) normal).exec s with ⟨e | w, s1⟩
    · simp
    · have hw : w.toList = [w[0], w[1]] := by rw [Vec.toList_eq_ofFn]; simp
      simp only [Res.map_ok, Prod.mk.injEq, Except.ok.injEq, hw]
      apply and_congr_left; intro _
      constructor
      · rintro rfl; simp [Cpx.fromVector]
      · intro h
        simp only [List.cons.injEq, and_true] at h
        apply Cpx.ext'
        · rw [← h.1]; simp [Cpx.fromVector]
        · rw [← h.2]; simp [Cpx.fromVector]
  · intro h
    obtain ⟨x, h1, rfl⟩ := Distr.exec_eq_of_map h
    rw [C62_nonzero] at h1
    obtain ⟨_, _, _, _, h4⟩ := h1
    have : (Cpx.fromVector x).norm = Real.sqrt (∑ i : Fin 2, x[i.1] ^ 2) := length_sqrt x
    refine ⟨by rw [this]; exact h4, ?_⟩
    intro h0
    rw [← this, h0] at h4
    have : (0 : Cpx ℝ).norm = 0 := by
      rw [show (0 : Cpx ℝ).norm = Real.sqrt (∑ i : Fin 2, (0 : Cpx ℝ).vec[i.1] ^ 2) from length_sqrt _]
      have : ∀ i : Fin 2, (0 : Cpx ℝ).vec[i.1] = 0 := by
        intro i; fin_cases i <;> rfl
      simp [this]
    rw [this] at h4
    exact absurd h4 (not_lt.mpr eps_pos.le)
  · intro h
    obtain ⟨x, h1, rfl⟩ := Distr.exec_eq_of_map h
    have := C62_unit_length normal fuel s s' x h1
    rw [show (Cpx.fromVector x).norm = Real.sqrt (∑ i : Fin 2, x[i.1] ^ 2) from length_sqrt x, this, Real.sqrt_one]
theorem C62_quaternion (normal : Eff σ ℝ) (fuel : Nat) (s s' : σ) (q : Quat ℝ) :
    ((Distr.quaternionNormal normal).exec s = (.ok q, s') ↔ (callN normal 4).exec s = (.ok [q.w, q.x, q.y, q.z], s')) ∧
    ((Distr.quaternionNonZero normal fuel).exec s = (.ok q, s') → (FloatOps.epsilon : ℝ) < q.norm ∧ q ≠ 0) ∧
    ((Distr.quaternionUnit normal fuel).exec s = (.ok q, s') → q.norm = 1) := by
  refine ⟨?_, ?_, ?_⟩
  · rw [← Vec.toList_initM (N := 4) normal]
    simp only [Distr.quaternionNormal, Distr.vector, exec_map]
    rcases (Vec.initM (N := 4) normal).exec s with ⟨e | w, s1⟩
    · simp
    · have hw : w.toList = [w[0], w[1], w[2], w[3]] := by rw [Vec.toList_eq_ofFn]; simp
      simp only [Res.map_ok, Prod.mk.injEq, Except.ok.injEq, hw]
      apply and_congr_left; intro _
      constructor
      · rintro rfl; simp [Quat.w, Quat.x, Quat.y, Quat.z, Quat.fromVector]
      · intro h
        simp only [List.cons.injEq, and_true] at h
        obtain ⟨h0, h1, h2, h3⟩ := h
        apply Quat.ext'
        · rw [← h0]; simp [Quat.w, Quat.fromVector]
        · rw [← h1]; simp [Quat.x, Quat.fromVector]
        · rw [← h2]; simp [Quat.y, Quat.fromVector]
        · rw [← h3]; simp [Quat.z, Quat.fromVector]
  · intro h
    obtain ⟨x, h1, rfl⟩ := Distr.exec_eq_of_map h
    rw [C62_nonzero] at h1
    obtain ⟨_, _, _, _, h4⟩ := h1
    have : (Quat.fromVector x).norm = Real.sqrt (∑ i : Fin 4, x[i.1] ^ 2) := length_sqrt x
    refine ⟨by rw [this]; exact h4, ?_⟩
    intro h0
    rw [← this, h0] at h4
    have : (0 : Quat ℝ).norm = 0 := by
      rw [show (0 : Quat ℝ).norm = Real.sqrt (∑ i : Fin 4, (0 : Quat ℝ).vec[i.1] ^ 2) from length_sqrt _]
      have : ∀ i : Fin 4, (0 : Quat ℝ).vec[i.1] = 0 := by
        intro i; fin_cases i <;> rfl
      simp [this]
    rw [this] at h4
    exact absurd h4 (not_lt.mpr eps_pos.le)
  · intro h
    obtain ⟨x, h1, rfl⟩ := Distr.exec_eq_of_map h
    have := C62_unit_length normal fuel s s' x h1
    rw [show (Quat.fromVector x).norm = Real.sqrt (∑ i : Fin 4, x[i.1] ^ 2) from length_sqrt x, this, Real.sqrt_one]

/-- `Invertible` for complex `Moebius` maps: the determinant's 1-norm exceeds epsilon, so the map has an inverse (C49). -/
theorem C62_moebius_complex (normal : Eff σ ℝ) (fuel : Nat) (s s' : σ) (m : Moebius (Cpx ℝ))
    (h : (Distr.moebiusInvertible Cpx.normL1 (Distr.complexNormal normal) fuel).exec s = (.ok m, s')) :
    (FloatOps.epsilon : ℝ) < |m.det.re| + |m.det.im| ∧ m.det ≠ 0 := by
  obtain ⟨A, h1, rfl⟩ := Distr.exec_eq_of_map h
  rw [Distr.invertible, Distr.loopUntil_iff] at h1
  obtain ⟨_, _, _, _, h4⟩ := h1
  rw [show A.detR = .ok A.det from Res.ok_get _ _] at h4
  simp only [Res.bind_ok, Res.pure_eq, Except.ok.injEq, Distr.isEpsilon, fabs_real] at h4
  rw [Bool.not_eq_true', ← Bool.not_eq_true, rle_iff, not_le] at h4
  have e : ∀ z : Cpx ℝ, z.normL1 = |z.re| + |z.im| := by
    intro z
    rw [Cpx.normL1, Vec.sum_eq_sum, Fin.sum_univ_two]
    simp
  rw [e, abs_of_nonneg (by positivity)] at h4
  refine ⟨h4, ?_⟩
  intro h0
  have h0' : A.det = 0 := h0
  have e1 : (0 : Cpx ℝ).re = 0 := rfl
  have e2 : (0 : Cpx ℝ).im = 0 := rfl
  rw [h0', e1, e2, abs_zero, add_zero] at h4
  exact absurd h4 (not_lt.mpr eps_pos.le)

/-- `Uniform` rotations: the drawn angle is the only random input in 2D; the result is a proper rotation. -/
theorem C62_rotation2 (uniform : ℝ → ℝ → Eff σ ℝ) (s s' : σ) (r : Rotation2 ℝ)
    (h : (Distr.rotation2Uniform uniform).exec s = (.ok r, s')) :
    r.intoComplex.normSqr = 1 ∧ ∃ a, (uniform 0 (2 * Real.pi)).exec s = (.ok a, s') ∧ r = Rotation2.new a := by
  unfold Distr.rotation2Uniform at h
  rw [exec_bind] at h
  simp only [two_eq, pi_real] at h
  rcases h1 : (uniform 0 (2 * Real.pi)).exec s with ⟨e | a, s1⟩
  · rw [h1] at h; simp at h
  · rw [h1] at h
    simp only [exec_pure, Prod.mk.injEq, Except.ok.injEq] at h
    obtain ⟨rfl, rfl⟩ := h
    refine ⟨?_, a, rfl, rfl⟩
    rw [Cpx.normSqr_eq]
    simp [Rotation2.new, Rotation2.intoComplex]
    have := Real.cos_sq_add_sin_sq a
    nlinarith [this]
/-- In 3D the axis is drawn first (a unit vector), then the angle; the result is a unit quaternion, and when the angle lies
strictly between 0 and 2π, `axis()` and `angle()` give back the drawn axis and angle. -/
theorem C62_rotation3 (normal : Eff σ ℝ) (uniform : ℝ → ℝ → Eff σ ℝ) (fuel : Nat) (s s' : σ) (r : Rotation3 ℝ)
    (h : (Distr.rotation3Uniform normal uniform fuel).exec s = (.ok r, s')) :
    r.intoQuaternion.normSqr = 1 ∧ ∃ u a s1, (Distr.unit normal fuel).exec s = (.ok u, s1) ∧
      (uniform 0 (2 * Real.pi)).exec s1 = (.ok a, s') ∧ r = Rotation3.new u a ∧
      (0 < a → a < 2 * Real.pi → r.axis = u ∧ r.angle = a) := by
  unfold Distr.rotation3Uniform at h
  rw [exec_bind] at h
  rcases h1 : (Distr.unit (N := 3) normal fuel).exec s with ⟨e | u, s1⟩
  · rw [h1] at h; simp at h
  · rw [h1] at h
    simp only [exec_bind, two_eq, pi_real] at h
    rcases h2 : (uniform 0 (2 * Real.pi)).exec s1 with ⟨e | a, s2⟩
    · rw [h2] at h; simp at h
    · rw [h2] at h
      simp only [exec_pure, Prod.mk.injEq, Except.ok.injEq] at h
      obtain ⟨rfl, rfl⟩ := h
      have hu : u.length = 1 := by rw [length_sqrt, C62_unit_length normal fuel s s1 u h1, Real.sqrt_one]
      refine ⟨C56_unit u a hu, u, a, s1, rfl, h2, rfl, fun h3 h4 => ?_⟩
      have := C56_axis_angle u a hu
      exact ⟨this.2 h3 h4, this.1 h3.le h4.le⟩

/-! ## C63 the normal sampler -/

/-- One `Normal` scalar is two uniform draws `u` (from `0, 1`) and `phi` (from `0, π`), in this order, and the value
`sqrt(-2 ln(1 - u)) · cos(phi)`. -/
theorem C63_formula (uniform : ℝ → ℝ → Eff σ ℝ) (s s' : σ) (x : ℝ) :
    (Distr.normal uniform).exec s = (.ok x, s') ↔ ∃ u phi s1, (uniform 0 1).exec s = (.ok u, s1) ∧
      (uniform 0 Real.pi).exec s1 = (.ok phi, s') ∧ x = Real.sqrt (-2 * Real.log (1 - u)) * Real.cos phi := by
  unfold Distr.normal
  rw [exec_bind]
  rcases h1 : (uniform 0 1).exec s with ⟨e | u, s1⟩
  · simp
  · simp only [exec_bind, pi_real]
    rcases h2 : (uniform 0 Real.pi).exec s1 with ⟨e | p, s2⟩
    · simp only [Prod.mk.injEq, reduceCtorEq, false_and, Except.ok.injEq, false_iff, not_exists, not_and]
      rintro u' phi s1' ⟨rfl, rfl⟩ h3
      rw [h2] at h3; simp at h3
    · simp only [exec_pure, Prod.mk.injEq, Except.ok.injEq]
      have e : FloatOps.ln (1 - u) * -(two : ℝ) = -2 * Real.log (1 - u) := by
        show Real.log (1 - u) * -2 = _
        ring
      rw [e]
      constructor
      · rintro ⟨rfl, rfl⟩
        exact ⟨u, p, s1, ⟨rfl, rfl⟩, h2, rfl⟩
      · rintro ⟨u', p', s1', ⟨rfl, rfl⟩, h3, rfl⟩
        rw [h2] at h3
        simp only [Prod.mk.injEq, Except.ok.injEq] at h3
        obtain ⟨rfl, rfl⟩ := h3
        exact ⟨rfl, rfl⟩
/-- If the uniform source keeps its promise (`u ∈ [0, 1)`), the logarithm is taken of a positive number in `(0, 1]` and the
square root of a non-negative number, so no step leaves the real line; the sample is at most `sqrt(-2 ln(1 - u))` in absolute
value. -/
theorem C63_domain (u phi : ℝ) (h0 : 0 ≤ u) (h1 : u < 1) :
    0 < 1 - u ∧ 1 - u ≤ 1 ∧ 0 ≤ -2 * Real.log (1 - u) ∧
    |Real.sqrt (-2 * Real.log (1 - u)) * Real.cos phi| ≤ Real.sqrt (-2 * Real.log (1 - u)) := by
  refine ⟨by linarith, by linarith, ?_, ?_⟩
  · have := Real.log_nonpos (x := 1 - u) (by linarith) (by linarith)
    linarith
  · rw [abs_mul, abs_of_nonneg (Real.sqrt_nonneg _)]
    exact mul_le_of_le_one_right (Real.sqrt_nonneg _) (Real.abs_cos_le_one _)
example : ∃ x s', (Distr.normal fun lo hi : ℝ => stream fun _ => (lo + hi) / 2).exec 0 = (.ok x, s') ∧ x = 0 ∧ s' = 2 := by
  refine ⟨0, 2, ?_, rfl, rfl⟩
  rw [C63_formula]
  refine ⟨1 / 2, Real.pi / 2, 1, ?_, ?_, ?_⟩
  · simp [stream]
  · simp [stream]
  · simp

/-! ## further cases: the hypotheses are satisfiable -/
/-! ### Witnesses -/
namespace DistrEx
/-- Two draws of zero vectors are rejected, the third is accepted. -/
theorem nz : (Distr.nonZero (N := 2) (stream fun n => if n < 4 then 0 else (n : ℝ)) 5).exec 0 =
    (.ok (Vec.fromArray #v[4, 5]), 6) := by
  rw [C62_nonzero_stream]
  refine ⟨2, by omega, by omega, ?_, ?_, ?_⟩
  · intro i hi
    interval_cases i <;> simp [Vec.fromArray]
  · intro j hj
    have : ∀ i : Fin 2, j * 2 + i.1 < 4 := fun i => by have := i.2; omega
    simp [this]
    exact eps_pos.le
  · have h1 : ∀ i : Fin 2, ¬ (2 * 2 + i.1 < 4) := fun i => by omega
    simp only [Nat.zero_add, h1, if_false, Fin.sum_univ_two]
    show (1 / 2 ^ 52 : ℝ) < _
    apply Real.lt_sqrt_of_sq_lt
    norm_num
theorem nz3 : (Distr.nonZero (N := 3) (stream fun n => (n : ℝ)) 1).exec 0 = (.ok (Vec.fromArray #v[0, 1, 2]), 3) := by
  rw [C62_nonzero_stream]
  refine ⟨0, by omega, by omega, ?_, ?_, ?_⟩
  · intro i hi
    interval_cases i <;> simp [Vec.fromArray]
  · intro j hj; omega
  · simp only [Nat.zero_add, Fin.sum_univ_three]
    show (1 / 2 ^ 52 : ℝ) < _
    apply Real.lt_sqrt_of_sq_lt
    norm_num
theorem un3 : ∃ u : Vec ℝ 3, (Distr.unit (stream fun n => (n : ℝ)) 1).exec 0 = (.ok u, 3) :=
  ⟨(Vec.fromArray #v[0, 1, 2]).normalize, (C62_unit ..).mpr ⟨_, nz3, fun i h => by rw [← length_sqrt]; simp [Vec.normalize]⟩⟩
/-- The singular 1×1 matrix is rejected, the next accepted. -/
theorem inv1 : (Distr.invertible ScalarNorm.normL1 (stream fun n => (n : ℝ)) 2).exec 0 =
    (.ok (Mat.fill 1 : Mat ℝ 1 1), 2) := by
  rw [C62_invertible]
  refine ⟨[Mat.fill 0], by simp, ?_, ?_, ?_⟩
  · simp [callN, rowMajor, stream, exec_bind, exec_map, List.finRange_succ]
  · simp [Matrix.det_fin_one, Mat.toMatrix]; exact eps_pos.le
  · simp [Matrix.det_fin_one, Mat.toMatrix]
    show (1 / 2 ^ 52 : ℝ) < 1
    norm_num
theorem aff1 : (Distr.affineInvertible ScalarNorm.normL1 (stream fun n => (n : ℝ) - 1) 2).exec 0 =
    (.ok (Chain.new (Shift.fromVector (Vec.fill (-1))) (Linear.fromMatrix (Mat.fill 1)) : Affine ℝ 1), 3) := by
  have h : (Distr.invertible ScalarNorm.normL1 (stream fun n => (n : ℝ) - 1) 2).exec 1 =
      (.ok (Mat.fill 1 : Mat ℝ 1 1), 3) := by
    rw [C62_invertible]
    refine ⟨[Mat.fill 0], by simp, ?_, ?_, ?_⟩
    · simp [callN, rowMajor, stream, exec_bind, exec_map, List.finRange_succ]; norm_num
    · simp [Matrix.det_fin_one, Mat.toMatrix]; exact eps_pos.le
    · simp [Matrix.det_fin_one, Mat.toMatrix]
      show (1 / 2 ^ 52 : ℝ) < 1
      norm_num
  have h0 : (Distr.shiftNormal (N := 1) (stream fun n => (n : ℝ) - 1)).exec 0 = (.ok (Shift.fromVector (Vec.fill (-1))), 1) := by
    obtain ⟨hl, hv⟩ := Vec.exec_initM_of_ok (N := 1) (f := stream fun n => (n : ℝ) - 1) (s := 0) (s' := 1) (l := [-1])
      (by simp [callN, stream, exec_bind, exec_map])
    have : Vec.ofList [(-1 : ℝ)] hl = Vec.fill (-1) := Vec.toList_inj (by rw [Vec.toList_eq_ofFn, Vec.toList_eq_ofFn]; simp)
    simp [Distr.shiftNormal, Distr.vector, exec_map, hv, this]
  simp [Distr.affineInvertible, exec_bind, h0, Distr.linearInvertible, exec_map, h]
theorem cn (p : Nat) : (Distr.complexNormal (stream fun n => (n : ℝ))).exec p = (.ok (Cpx.new (p : ℝ) (p + 1 : ℝ)), p + 2) :=
  ((C62_complex _ 0 _ _ _).1).mpr (by simp [callN, stream, exec_bind, exec_map])
theorem moe : ∃ m, (Distr.moebiusInvertible Cpx.normL1 (Distr.complexNormal (stream fun n => (n : ℝ))) 1).exec 0 = (.ok m, 8) := by
  let A : Mat (Cpx ℝ) 2 2 := ⟨⟨#v[⟨#v[Cpx.new 0 1, Cpx.new 2 3]⟩, ⟨#v[Cpx.new 4 5, Cpx.new 6 7]⟩]⟩⟩
  refine ⟨Moebius.fromMatrix A, ?_⟩
  have : (Distr.invertible (N := 2) Cpx.normL1 (Distr.complexNormal (stream fun n => (n : ℝ))) 1).exec 0 = (.ok A, 8) := by
    unfold Distr.invertible
    rw [Distr.loop_blocks (draw := Distr.matrix (Distr.complexNormal (stream fun n => (n : ℝ)))) (comp := rowMajor)
      (inner := Distr.complexNormal (stream fun n => (n : ℝ))) (C01_mat_init_calls _) (fun _ _ h => Mat.rowMajor_inj h)
      (fun x => by simp [Mat.length_rowMajor])]
    refine ⟨[], by simp, ?_, by simp, ?_⟩
    · have hr : rowMajor A = [Cpx.new 0 1, Cpx.new 2 3, Cpx.new 4 5, Cpx.new 6 7] := rfl
      simp only [hr, callN, exec_bind, exec_map, cn, List.length_nil, List.flatMap_nil, List.nil_append]
      simp [callN, exec_bind, exec_map, cn]
      norm_num
    · rw [show A.detR = .ok A.det from Res.ok_get _ _]
      have hd : A.det = Cpx.new 0 (-16) := by
        rw [Mat.det_eq, Matrix.det_fin_two]
        show Cpx.new 0 1 * Cpx.new 6 7 - Cpx.new 2 3 * Cpx.new 4 5 = Cpx.new 0 (-16)
        apply Cpx.ext' <;> simp <;> norm_num
      simp only [Res.bind_ok, Res.pure_eq, Except.ok.injEq, Distr.isEpsilon, fabs_real, hd]
      rw [Bool.not_eq_true', ← Bool.not_eq_true, rle_iff, not_le]
      have : (Cpx.new 0 (-16) : Cpx ℝ).normL1 = 16 := by
        rw [Cpx.normL1, Vec.sum_eq_sum, Fin.sum_univ_two]
        show ScalarNorm.normL1 (0 : ℝ) + ScalarNorm.normL1 (-16 : ℝ) = 16
        simp
      rw [this]
      show (1 / 2 ^ 52 : ℝ) < |16|
      norm_num
  simp [Distr.moebiusInvertible, exec_map, this]
end DistrEx
example := C62_nonzero_mono _ (show 5 ≤ 9 by omega) _ _ _ DistrEx.nz
example := C62_nonzero_any_scalar _ _ _ _ _ DistrEx.nz
example := C62_nonzero_no_panic (N := 2) (by omega) (stream fun _ => (0 : ℝ)) 0 0 0 .outOfFuel rfl
example : ∑ i : Fin 3, DistrEx.un3.choose[i.1] ^ 2 = 1 := C62_unit_length _ _ _ _ _ DistrEx.un3.choose_spec
example := C62_invertible_inverse _ _ _ _ _ DistrEx.inv1
example := C62_invertible_mono _ (show 2 ≤ 7 by omega) _ _ _ DistrEx.inv1
example := C62_invertible_no_panic (N := 2) (stream fun _ => (0 : ℝ)) 0 0 0 .outOfFuel rfl
example := C62_linear_invertible (N := 1) (stream fun n => (n : ℝ)) 2 0 2 (Linear.fromMatrix (Mat.fill 1))
  (by simp [Distr.linearInvertible, exec_map, DistrEx.inv1])
example := C62_affine_invertible _ _ _ _ _ DistrEx.aff1
example := C62_rotation2 (fun lo hi : ℝ => stream fun _ => (lo + hi) / 2) 0 1 (Rotation2.new ((0 + two * FloatConst.pi) / 2))
  (by simp only [Distr.rotation2Uniform, exec_bind]; simp [stream, exec_map])
example : ∃ r : Rotation3 ℝ, r.intoQuaternion.normSqr = 1 := by
  obtain ⟨u, h⟩ := DistrEx.un3
  exact ⟨_, (C62_rotation3 (stream fun n => (n : ℝ)) (fun lo hi : ℝ => stream fun _ => (lo + hi) / 2) 1 0 4
    (Rotation3.new u ((0 + two * FloatConst.pi) / 2))
    (by simp only [Distr.rotation3Uniform, exec_bind, h]; simp [stream, exec_map])).1⟩
example : (FloatOps.epsilon : ℝ) < |DistrEx.moe.choose.det.re| + |DistrEx.moe.choose.det.im| ∧ DistrEx.moe.choose.det ≠ 0 :=
  C62_moebius_complex _ _ _ _ _ DistrEx.moe.choose_spec
example := C63_domain (1 / 2) 1 (by norm_num) (by norm_num)

end Vecmat
