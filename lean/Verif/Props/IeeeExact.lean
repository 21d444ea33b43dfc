import Verif.Lemmas.IeeeExact
import Verif.Lemmas.Diagonal
import Verif.Props.IeeeNan
import Mathlib.LinearAlgebra.Matrix.Determinant.Basic
/-!
# C82: neutral elements and axis permutations are exact in floating point
Scalars are IEEE-754 floats (`Ieee φ`); `toReal?` is the value of a finite float.  `Spec.Datum` says that a float exists in the format.
-/
namespace Vecmat
open Spec Ieee
variable {φ : Fmt} {L M N : Nat}

/-- Adding the zero vector, multiplying and dividing by one change nothing (up to the sign of a zero). -/
theorem C82_neutral (v : Vec (Ieee φ) N) (i : Nat) (hi : i < N) (h : Datum v[i]) :
    Same (v + 0)[i] v[i] ∧ (v.mulS 1)[i] = v[i] ∧ (v.divS 1)[i] = v[i] := by
  refine ⟨?_, ?_, ?_⟩
  · rw [Vec.getElem_add, Vec.getElem_zero]; exact iadd_zero h false
  · rw [Vec.getElem_mulS]; exact imul_one h
  · rw [Vec.getElem_divS]; exact idiv_one h

theorem rep_unit_mul (hφ : WF φ) {n : ℤ} (hn : |n| ≤ 1) {x : ℝ} (h : Representable φ x) : Representable φ (n * x) := by
  rw [abs_le] at hn
  obtain rfl | rfl | rfl : n = -1 ∨ n = 0 ∨ n = 1 := by omega
  · simpa using rep_neg h
  · simpa using rep_zero hφ
  · simpa using h

theorem dot_unit [NeZero N] (hφ : WF φ) (v w : Vec (Ieee φ) N) (a : Fin N → ℤ) (x : Fin N → ℝ)
    (ha : ∀ j : Fin N, v[j.1].toReal? = some (a j : ℝ)) (h1 : ∀ j, |a j| ≤ 1) (h2 : ∀ j k, j ≠ k → a j = 0 ∨ a k = 0)
    (hw : ∀ j : Fin N, Datum w[j.1]) (hx : ∀ j : Fin N, w[j.1].toReal? = some (x j)) :
    (v.dot w).toReal? = some (∑ j, a j * x j) := by
  have hr := fun j => rep_unit_mul hφ (h1 j) (Datum.rep hφ (hw j) (hx j))
  refine (Vec.val_sum_single _ (fun j => a j * x j) (fun j => ⟨?_, hr j⟩) ?_).1
  · rw [Vec.getElem_map, Vec.getElem_zip]; exact val_mul (ha j) (hx j) (hr j)
  · intro j k hjk
    rcases h2 j k hjk with h | h <;> simp [h]

/-- A matrix with entries `0`, `1`, `-1` and at most one non-zero entry per row (axis permutations, reflections, projections) acts without
rounding on finite vectors. -/
theorem C82_permutation_vec (hφ : WF φ) (hN : 0 < N) (A : Mat (Ieee φ) M N) (a : Matrix (Fin M) (Fin N) ℤ) (v : Vec (Ieee φ) N) (x : Fin N → ℝ)
    (ha : ∀ (i : Fin M) (j : Fin N), A[i.1][j.1].toReal? = some (a i j : ℝ)) (h1 : ∀ i j, |a i j| ≤ 1)
    (h2 : ∀ i j k, j ≠ k → a i j = 0 ∨ a i k = 0) (hv : ∀ j : Fin N, Datum v[j.1]) (hx : ∀ j : Fin N, v[j.1].toReal? = some (x j)) :
    ∃ w, A.dotVR v = .ok w ∧ ∀ i : Fin M, w[i.1].toReal? = some (∑ j, a i j * x j) := by
  have : NeZero N := ⟨by omega⟩
  refine ⟨_, Mat.dotVR_get A v, fun i => ?_⟩
  simpa using dot_unit hφ A[i.1] v (a i) x (ha i) (h1 i) (h2 i) hv hx
/-- ... and on finite matrices. -/
theorem C82_permutation_mat (hφ : WF φ) (hM : 0 < M) (A : Mat (Ieee φ) L M) (a : Matrix (Fin L) (Fin M) ℤ) (B : Mat (Ieee φ) M N)
    (b : Matrix (Fin M) (Fin N) ℝ)
    (ha : ∀ (i : Fin L) (j : Fin M), A[i.1][j.1].toReal? = some (a i j : ℝ)) (h1 : ∀ i j, |a i j| ≤ 1)
    (h2 : ∀ i j k, j ≠ k → a i j = 0 ∨ a i k = 0) (hB : ∀ (i : Fin M) (j : Fin N), Datum B[i.1][j.1])
    (hb : ∀ (i : Fin M) (j : Fin N), B[i.1][j.1].toReal? = some (b i j)) :
    ∃ X, A.dotMR B = .ok X ∧ ∀ (i : Fin L) (j : Fin N), X[i.1][j.1].toReal? = some (∑ k, a i k * b k j) := by
  have : NeZero M := ⟨by omega⟩
  refine ⟨_, Mat.dotMR_get A B, fun i j => ?_⟩
  simpa using dot_unit hφ A[i.1] (B.colOf j.1 j.2) (a i) (fun k => b k j) (ha i) (h1 i) (h2 i)
    (fun k => by simpa using hB k j) (fun k => by simpa using hb k j)

/-! ## the identity -/
theorem one_entry (i j : Fin N) : (1 : Mat (Ieee φ) N N)[i.1][j.1].toReal? = some (((1 : Matrix (Fin N) (Fin N) ℤ) i j : ℤ) : ℝ) := by
  rw [Mat.getElem_one]
  by_cases h : i = j
  · subst h; simp; rfl
  · have h' : i.1 ≠ j.1 := fun e => h (Fin.ext e)
    simp [h, h']; rfl
theorem one_abs (i j : Fin N) : |(1 : Matrix (Fin N) (Fin N) ℤ) i j| ≤ 1 := by
  by_cases h : i = j
  · subst h; simp
  · simp [h]
theorem one_row (i j k : Fin N) (h : j ≠ k) : (1 : Matrix (Fin N) (Fin N) ℤ) i j = 0 ∨ (1 : Matrix (Fin N) (Fin N) ℤ) i k = 0 := by
  by_cases h' : i = j
  · right; subst h'; simp [h]
  · left; simp [h']
theorem same_of_val {a b : Ieee φ} {x : ℝ} (ha : a.toReal? = some x) (hb : b.toReal? = some x) : Same a b := by
  rcases Val.cases ha with ⟨rfl, s, rfl⟩ | ⟨hx, rfl⟩ <;> rcases Val.cases hb with ⟨h, t, rfl⟩ | ⟨hy, rfl⟩
  · exact .inr ⟨_, _, rfl, rfl⟩
  · exact absurd rfl hy
  · exact absurd h hx
  · exact .inl rfl

/-- The identity transformation maps a finite vector to itself. -/
theorem C82_identity (hφ : WF φ) (v : Vec (Ieee φ) N) (hv : ∀ j (hj : j < N), Datum v[j] ∧ Finite v[j]) (i : Nat) (hi : i < N) :
    Same (Transform.apply (Transform.identity (X := Vec (Ieee φ) N) : Linear (Ieee φ) N) v)[i] v[i] := by
  choose x hx using fun j : Fin N => finite_val (hv j.1 j.2).2
  obtain ⟨w, h1, h2⟩ := C82_permutation_vec hφ (by omega) (1 : Mat (Ieee φ) N N) 1 v x one_entry one_abs one_row (fun j => (hv j.1 j.2).1) hx
  have e : Transform.apply (Transform.identity (X := Vec (Ieee φ) N) : Linear (Ieee φ) N) v = w := Res.get_eq h1 _
  rw [e]
  refine same_of_val (h2 ⟨i, hi⟩) ?_
  have hs : ∑ j, (((1 : Matrix (Fin N) (Fin N) ℤ) ⟨i, hi⟩ j : ℤ) : ℝ) * x j = x ⟨i, hi⟩ := by
    rw [Finset.sum_eq_single ⟨i, hi⟩]
    · simp
    · intro b _ hb; simp [hb.symm]
    · simp
  rw [hs]; exact hx ⟨i, hi⟩
/-- `1·A = A` for finite `A`. -/
theorem C82_one_mul (hφ : WF φ) (A : Mat (Ieee φ) M N) (hA : ∀ i (hi : i < M) j (hj : j < N), Datum A[i][j] ∧ Finite A[i][j])
    (hM : 0 < M) : ∃ X, (1 : Mat (Ieee φ) M M).dotMR A = .ok X ∧ ∀ i (hi : i < M) j (hj : j < N), Same X[i][j] A[i][j] := by
  choose b hb using fun (i : Fin M) (j : Fin N) => finite_val (hA i.1 i.2 j.1 j.2).2
  obtain ⟨X, h1, h2⟩ := C82_permutation_mat hφ hM (1 : Mat (Ieee φ) M M) 1 A (Matrix.of b) one_entry one_abs one_row
    (fun i j => (hA i.1 i.2 j.1 j.2).1) hb
  refine ⟨X, h1, fun i hi j hj => same_of_val (h2 ⟨i, hi⟩ ⟨j, hj⟩) ?_⟩
  have hs : ∑ k, (((1 : Matrix (Fin M) (Fin M) ℤ) ⟨i, hi⟩ k : ℤ) : ℝ) * Matrix.of b k ⟨j, hj⟩ = b ⟨i, hi⟩ ⟨j, hj⟩ := by
    rw [Finset.sum_eq_single ⟨i, hi⟩]
    · simp
    · intro b _ hb; simp [hb.symm]
    · simp
  rw [hs]; exact hb ⟨i, hi⟩ ⟨j, hj⟩
/-- `A·1 = A` for finite `A`. -/
theorem C82_mul_one (hφ : WF φ) (A : Mat (Ieee φ) M N) (hA : ∀ i (hi : i < M) j (hj : j < N), Datum A[i][j] ∧ Finite A[i][j])
    (hN : 0 < N) : ∃ X, A.dotMR (1 : Mat (Ieee φ) N N) = .ok X ∧ ∀ i (hi : i < M) j (hj : j < N), Same X[i][j] A[i][j] := by
  have : NeZero N := ⟨by omega⟩
  obtain ⟨Y, hY, hY'⟩ := C82_one_mul hφ A.transpose (fun i hi j hj => by rw [Mat.getElem_transpose]; exact hA j hj i hi) hN
  obtain ⟨X, h1, h2⟩ := C80_transpose_mul A (1 : Mat (Ieee φ) N N)
  have ht : (1 : Mat (Ieee φ) N N).transpose = 1 := by
    ext i hi j hj; simp [eq_comm]
  rw [ht, hY] at h2
  refine ⟨X, h1, fun i hi j hj => ?_⟩
  have := hY' j hj i hi
  rw [Except.ok.inj h2] at this
  simpa using this
/-- Infinite components must be excluded: `1·[∞, 0]` has a NaN. -/
theorem C82_infinite_refuted : ¬ ∀ (v : Vec (Ieee φ) 2), ∃ w, (1 : Mat (Ieee φ) 2 2).dotVR v = .ok w ∧ ∀ i (hi : i < 2), Same w[i] v[i] := by
  intro h
  obtain ⟨w, h1, h2⟩ := h (Vec.fromArray #v[.inf false, 0])
  rw [Mat.dotVR_get] at h1
  have h3 := h2 1 (by omega)
  rw [← Except.ok.inj h1] at h3
  simp only [Vec.getElem_mk, Vector.getElem_ofFn] at h3
  have : ((1 : Mat (Ieee φ) 2 2)[1].dot (Vec.fromArray #v[.inf false, 0])) = .nan := by
    have e0 : (1 : Mat (Ieee φ) 2 2)[1] = Vec.fromArray #v[0, 1] := by
      ext i hi
      match i, hi with
      | 0, _ => simp [Vec.fromArray]
      | 1, _ => simp [Vec.fromArray]
    rw [e0]
    refine Except.ok.inj ((Vec.dot_ok _ _).symm.trans (C81_sum _ 0 (by omega) ?_))
    rfl
  rw [this] at h3
  rcases h3 with h | ⟨s, t, h, -⟩ <;> cases h

/-! ## determinants -/
theorem lap_unit (hφ : WF φ) {f : Nat → Nat → Ieee φ} {g : Nat → Nat → ℤ} (h : ∀ i j, (f i j).toReal? = some (g i j : ℝ))
    (h1 : ∀ i j, |g i j| ≤ 1) (h2 : ∀ i j k, j ≠ k → g i j = 0 ∨ g i k = 0) (R C : List Nat) (hC : C.Nodup) :
    (Mat.lap f R C).toReal? = some ((Mat.lap g R C : ℤ) : ℝ) ∧ |Mat.lap g R C| ≤ 1 := by
  induction R generalizing C with
  | nil => exact ⟨by simp [Mat.lap]; rfl, by simp [Mat.lap]⟩
  | cons i R ih =>
    have hsg : ∀ (k : Nat) (a : Ieee φ) (n : ℤ), a.toReal? = some (n : ℝ) → (Mat.sgn k a).toReal? = some ((Mat.sgn k n : ℤ) : ℝ) := by
      intro k a n ha
      unfold Mat.sgn
      split
      · push_cast; exact val_neg ha
      · exact ha
    have hsg1 : ∀ (k : Nat) (n : ℤ), |n| ≤ 1 → |Mat.sgn k n| ≤ 1 := by
      intro k n hn; unfold Mat.sgn; split
      · rwa [abs_neg]
      · exact hn
    have repn : ∀ n : ℤ, |n| ≤ 1 → Representable φ (n : ℝ) := fun n hn => by
      simpa using rep_unit_mul hφ hn (rep_one hφ)
    have hterm : ∀ k, (f i (C[k]?.getD 0) * Mat.sgn k (Mat.lap f R (C.eraseIdx k))).toReal? =
        some ((g i (C[k]?.getD 0) * Mat.sgn k (Mat.lap g R (C.eraseIdx k)) : ℤ) : ℝ) ∧
        |g i (C[k]?.getD 0) * Mat.sgn k (Mat.lap g R (C.eraseIdx k))| ≤ 1 := by
      intro k
      obtain ⟨e1, e2⟩ := ih (C.eraseIdx k) (hC.sublist (List.eraseIdx_sublist _ _))
      have b : |g i (C[k]?.getD 0) * Mat.sgn k (Mat.lap g R (C.eraseIdx k))| ≤ 1 := by
        rw [abs_mul]; exact mul_le_one₀ (h1 _ _) (abs_nonneg _) (hsg1 _ _ e2)
      refine ⟨?_, b⟩
      have := repn _ b
      push_cast at this ⊢
      exact val_mul (h _ _) (hsg _ _ _ e1) this
    unfold Mat.lap
    have loop : ∀ (l : List Nat) (a : Ieee φ) (n : ℤ), a.toReal? = some (n : ℝ) → |n| ≤ 1 →
        (∀ k ∈ l, k < C.length) → l.Nodup → (n ≠ 0 → ∀ k ∈ l, g i (C[k]?.getD 0) = 0) →
        (l.foldl (fun a k => a + f i (C[k]?.getD 0) * Mat.sgn k (Mat.lap f R (C.eraseIdx k))) a).toReal? =
          some ((l.foldl (fun a k => a + g i (C[k]?.getD 0) * Mat.sgn k (Mat.lap g R (C.eraseIdx k))) n : ℤ) : ℝ) ∧
        |l.foldl (fun a k => a + g i (C[k]?.getD 0) * Mat.sgn k (Mat.lap g R (C.eraseIdx k))) n| ≤ 1 := by
      intro l
      induction l with
      | nil => intro a n ha hn _ _ _; exact ⟨ha, hn⟩
      | cons k l ihl =>
        intro a n ha hn hk hnd hz
        obtain ⟨t1, t2⟩ := hterm k
        have hkl : k < C.length := hk k (by simp)
        rw [List.nodup_cons] at hnd
        simp only [List.foldl_cons]
        by_cases h0 : n = 0
        · subst h0
          refine ihl _ _ ?_ (by simpa using t2) (fun k' hk' => hk k' (by simp [hk'])) hnd.2 ?_
          · have := repn _ t2
            have := val_add ha t1 (by simpa using this)
            push_cast at this ⊢
            exact this
          · intro hne k' hk'
            have hk'l : k' < C.length := hk k' (by simp [hk'])
            have hgk : g i (C[k]?.getD 0) ≠ 0 := by intro e; simp [e] at hne
            rcases h2 i (C[k]?.getD 0) (C[k']?.getD 0) (by
              rw [List.getElem?_eq_getElem hkl, List.getElem?_eq_getElem hk'l]
              intro e
              have : k = k' := (List.Nodup.getElem_inj_iff hC).mp e
              exact hnd.1 (this ▸ hk')) with h | h
            · exact absurd h hgk
            · exact h
        · have hg := hz h0 k (by simp)
          have e0 : g i (C[k]?.getD 0) * Mat.sgn k (Mat.lap g R (C.eraseIdx k)) = 0 := by rw [hg, zero_mul]
          rw [e0] at t1
          rw [e0, add_zero]
          refine ihl _ _ ?_ hn (fun k' hk' => hk k' (by simp [hk'])) hnd.2 (fun hne k' hk' => hz hne k' (by simp [hk']))
          have := val_add ha t1 (by simpa using repn _ hn)
          simpa [Val] using this
    exact loop _ _ 0 (by simp; rfl) (by simp) (by simp) List.nodup_range (by simp)

/-- The determinant of such a matrix (identity, axis permutation, reflection) is computed without rounding. -/
theorem C82_permutation_det (hφ : WF φ) (A : Mat (Ieee φ) N N) (a : Matrix (Fin N) (Fin N) ℤ)
    (ha : ∀ i j : Fin N, A[i.1][j.1].toReal? = some (a i j : ℝ)) (h1 : ∀ i j, |a i j| ≤ 1)
    (h2 : ∀ i j k, j ≠ k → a i j = 0 ∨ a i k = 0) :
    ∃ d, A.detR = .ok d ∧ d.toReal? = some (a.det : ℝ) := by
  obtain ⟨B, hB⟩ : ∃ B : Mat ℤ N N, ∀ i j : Fin N, B[i.1][j.1] = a i j :=
    ⟨⟨⟨Vector.ofFn fun i => ⟨Vector.ofFn fun j => a i j⟩⟩⟩, by intro i j; simp⟩
  refine ⟨_, Mat.detR_eq A, ?_⟩
  have e : B.det = a.det := by rw [Mat.det_eq]; congr 1; ext i j; simp [hB]
  rw [← e, show B.det = _ from Res.get_eq (Mat.detR_eq B) _]
  refine (lap_unit hφ (fun i j => ?_) (fun i j => ?_) (fun i j k hjk => ?_) _ _ List.nodup_range).1
  · unfold Mat.ent
    split
    · next h => rw [hB ⟨i, h.1⟩ ⟨j, h.2⟩]; exact ha ⟨i, h.1⟩ ⟨j, h.2⟩
    · simp; rfl
  · unfold Mat.ent
    split
    · next h => rw [hB ⟨i, h.1⟩ ⟨j, h.2⟩]; exact h1 _ _
    · simp
  · unfold Mat.ent
    split
    · next h =>
      split
      · next h' => rw [hB ⟨i, h.1⟩ ⟨j, h.2⟩, hB ⟨i, h'.1⟩ ⟨k, h'.2⟩]; exact h2 _ _ _ (fun e => hjk (Fin.mk.inj e))
      · exact .inr rfl
    · exact .inl rfl
/-- `det 1 = 1`. -/
theorem C82_det_one (hφ : WF φ) : (1 : Mat (Ieee φ) N N).detR = .ok 1 := by
  obtain ⟨d, h1, h2⟩ := C82_permutation_det hφ (1 : Mat (Ieee φ) N N) 1 one_entry one_abs one_row
  rw [h1]; congr 1
  rcases same_of_val h2 (by rw [Matrix.det_one, Int.cast_one]; exact val_one) with h | ⟨s, t, -, h⟩
  · exact h
  · cases h

/-! ## complex numbers and quaternions -/
theorem val_add_zero {a b : Ieee φ} {x : ℝ} (ha : Val a x) (hx : Representable φ x) (hb : Val b 0) : Val (a + b) x := by
  simpa using val_add ha hb (by simpa using hx)
theorem val_sub_zero {a b : Ieee φ} {x : ℝ} (ha : Val a x) (hx : Representable φ x) (hb : Val b 0) : Val (a - b) x := by
  simpa using val_sub ha hb (by simpa using hx)
theorem val_zero_add {a b : Ieee φ} {x : ℝ} (ha : Val a 0) (hb : Val b x) (hx : Representable φ x) : Val (a + b) x := by
  simpa using val_add ha hb (by simpa using hx)
theorem val_zero_mul (hφ : WF φ) {a b : Ieee φ} {x : ℝ} (ha : Val a 0) (hb : Val b x) : Val (a * b) 0 := by
  simpa using val_mul ha hb (by simpa using rep_zero hφ)
theorem val_mul_zero (hφ : WF φ) {a b : Ieee φ} {x : ℝ} (ha : Val a x) (hb : Val b 0) : Val (a * b) 0 := by
  simpa using val_mul ha hb (by simpa using rep_zero hφ)
theorem val_one_mul {a b : Ieee φ} {x : ℝ} (ha : Val a 1) (hb : Val b x) (hx : Representable φ x) : Val (a * b) x := by
  simpa using val_mul ha hb (by simpa using hx)
theorem val_mul_one {a b : Ieee φ} {x : ℝ} (ha : Val a x) (hx : Representable φ x) (hb : Val b 1) : Val (a * b) x := by
  simpa using val_mul ha hb (by simpa using hx)

/-- `1·z = z` and `z·1 = z` for finite complex numbers. -/
theorem C82_complex_one (hφ : WF φ) (z : Cpx (Ieee φ)) (h1 : Datum z.re ∧ Finite z.re) (h2 : Datum z.im ∧ Finite z.im) :
    Same (1 * z).re z.re ∧ Same (1 * z).im z.im ∧ Same (z * 1).re z.re ∧ Same (z * 1).im z.im := by
  obtain ⟨x, hx⟩ := finite_val h1.2
  obtain ⟨y, hy⟩ := finite_val h2.2
  have rx := Datum.rep hφ h1.1 hx
  have ry := Datum.rep hφ h2.1 hy
  have a : Same (1 * z).re z.re := by
    rw [Cpx.re_mul, Cpx.re_one, Cpx.im_one]
    exact same_of_val (val_sub_zero (val_one_mul val_one hx rx) rx (val_zero_mul hφ val_zero' hy)) hx
  have b : Same (1 * z).im z.im := by
    rw [Cpx.im_mul, Cpx.re_one, Cpx.im_one]
    exact same_of_val (val_add_zero (val_one_mul val_one hy ry) ry (val_zero_mul hφ val_zero' hx)) hy
  exact ⟨a, b, by rwa [C80_complex_mul_comm], by rwa [C80_complex_mul_comm]⟩
/-- `1·q = q` for finite quaternions. -/
theorem C82_quaternion_one (hφ : WF φ) (q : Quat (Ieee φ)) (h0 : Datum q.w ∧ Finite q.w) (h1 : Datum q.x ∧ Finite q.x)
    (h2 : Datum q.y ∧ Finite q.y) (h3 : Datum q.z ∧ Finite q.z) :
    Same (1 * q).w q.w ∧ Same (1 * q).x q.x ∧ Same (1 * q).y q.y ∧ Same (1 * q).z q.z := by
  obtain ⟨w, hw⟩ := finite_val h0.2
  obtain ⟨x, hx⟩ := finite_val h1.2
  obtain ⟨y, hy⟩ := finite_val h2.2
  obtain ⟨z, hz⟩ := finite_val h3.2
  have rw' := Datum.rep hφ h0.1 hw
  have rx := Datum.rep hφ h1.1 hx
  have ry := Datum.rep hφ h2.1 hy
  have rz := Datum.rep hφ h3.1 hz
  have z0 : ∀ {b : Ieee φ} {x}, Val b x → Val (0 * b) 0 := fun h => val_zero_mul hφ val_zero' h
  simp only [Quat.w_mul, Quat.x_mul, Quat.y_mul, Quat.z_mul, Quat.w_one, Quat.x_one, Quat.y_one, Quat.z_one]
  exact ⟨same_of_val (val_sub_zero (val_sub_zero (val_sub_zero (val_one_mul val_one hw rw') rw' (z0 hx)) rw' (z0 hy)) rw' (z0 hz)) hw,
    same_of_val (val_sub_zero (val_add_zero (val_add_zero (val_one_mul val_one hx rx) rx (z0 hw)) rx (z0 hz)) rx (z0 hy)) hx,
    same_of_val (val_add_zero (val_add_zero (val_sub_zero (val_one_mul val_one hy ry) ry (z0 hz)) ry (z0 hw)) ry (z0 hx)) hy,
    same_of_val (val_add_zero (val_sub_zero (val_add_zero (val_one_mul val_one hz rz) rz (z0 hy)) rz (z0 hx)) rz (z0 hw)) hz⟩

example : ∃ A : Mat (Ieee Fmt.f64) 2 2, A.detR = .ok (-1) :=
  ⟨Mat.fromArrArr #v[#v[0, 1], #v[1, 0]], by
    obtain ⟨d, h1, h2⟩ := C82_permutation_det C80_formats.2 (Mat.fromArrArr #v[#v[0, 1], #v[1, 0]] : Mat (Ieee Fmt.f64) 2 2) !![0, 1; 1, 0]
      (by intro i j; fin_cases i <;> fin_cases j <;> simp <;> rfl) (by decide) (by intro i j k h; fin_cases i <;> fin_cases j <;> fin_cases k <;> simp at h ⊢)
    rw [h1]; congr 1
    have hd : ((!![0, 1; 1, 0] : Matrix (Fin 2) (Fin 2) ℤ).det : ℝ) = -1 := by
      rw [Matrix.det_fin_two]; simp
    rw [hd] at h2
    rcases same_of_val h2 (b := -1) rfl with h | ⟨s, t, -, h⟩
    · exact h
    · cases h⟩

/-! ## further cases: the hypotheses are satisfiable -/
example := C82_neutral (IeeeEx.vec fun i => ((![1, -2, 3] : Fin 3 → ℤ) i : ℝ)) 1 (by omega) (IeeeEx.vec_ok _ (by decide) 1 (by omega)).1
example := C82_complex_one C80_formats.2 (Cpx.new (IeeeEx.lit (3 : ℤ)) (IeeeEx.lit (-4 : ℤ)))
  ⟨IeeeEx.lit_int _ (by decide), IeeeEx.lit_finite _⟩ ⟨IeeeEx.lit_int _ (by decide), IeeeEx.lit_finite _⟩
example := C82_quaternion_one C80_formats.2 (Quat.new (IeeeEx.lit (3 : ℤ)) (IeeeEx.lit (-4 : ℤ)) (IeeeEx.lit (0 : ℤ)) (IeeeEx.lit (7 : ℤ)))
  ⟨IeeeEx.lit_int _ (by decide), IeeeEx.lit_finite _⟩ ⟨IeeeEx.lit_int _ (by decide), IeeeEx.lit_finite _⟩
  ⟨IeeeEx.lit_int _ (by decide), IeeeEx.lit_finite _⟩ ⟨IeeeEx.lit_int _ (by decide), IeeeEx.lit_finite _⟩
example := C82_det_one (N := 4) C80_formats.1
example := C82_identity C80_formats.2 (IeeeEx.vec fun i => ((![1, -2, 3] : Fin 3 → ℤ) i : ℝ)) (IeeeEx.vec_ok _ (by decide)) 2 (by omega)
example := C82_mul_one C80_formats.2 (IeeeEx.mat fun i j => ((!![1, -2, 3; 4, 0, 6] : Matrix (Fin 2) (Fin 3) ℤ) i j : ℝ))
  (IeeeEx.mat_ok _ (by decide)) (by omega)
example := C82_one_mul C80_formats.2 (IeeeEx.mat fun i j => ((!![1, -2, 3; 4, 0, 6] : Matrix (Fin 2) (Fin 3) ℤ) i j : ℝ))
  (IeeeEx.mat_ok _ (by decide)) (by omega)
/-- A signed exchange of two coordinates. -/
example := C82_permutation_vec C80_formats.2 (by omega) (IeeeEx.mat fun i j => ((!![0, -1; 1, 0] : Matrix (Fin 2) (Fin 2) ℤ) i j : ℝ)) _
  (IeeeEx.vec fun i => ((![5, -7] : Fin 2 → ℤ) i : ℝ)) _ (IeeeEx.mat_val _) (by decide)
  (by intro i j k h; fin_cases i <;> fin_cases j <;> fin_cases k <;> simp at h ⊢) (fun j => (IeeeEx.vec_ok _ (by decide) _ j.2).1) (IeeeEx.vec_val _)
example := C82_permutation_mat C80_formats.2 (by omega) (IeeeEx.mat fun i j => ((!![0, -1; 1, 0] : Matrix (Fin 2) (Fin 2) ℤ) i j : ℝ)) _
  (IeeeEx.mat fun i j => ((!![1, -2, 3; 4, 0, 6] : Matrix (Fin 2) (Fin 3) ℤ) i j : ℝ)) _ (IeeeEx.mat_val _) (by decide)
  (by intro i j k h; fin_cases i <;> fin_cases j <;> fin_cases k <;> simp at h ⊢) (fun i j => (IeeeEx.mat_ok _ (by decide) _ i.2 _ j.2).1) (IeeeEx.mat_val _)

end Vecmat
