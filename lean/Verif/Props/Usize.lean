import Verif.Model.Usize
import Verif.Props.Square
import Verif.Props.MatrixBase
import Verif.Lemmas.Det
/-!
# C106: `usize` arithmetic on machine words
A type that exists in memory keeps every index computation of the library in range, whatever the word size and whether overflow checks are on
or off. The only type for which `M * N` can overflow has a zero-sized component type; there `TryFrom<&[T]>` panics.
-/
namespace Vecmat
variable {T : Type} {M N : Nat}

namespace Spec
/-- A matrix of `M × N` components of `s ≥ 1` bytes exists on a machine with `w`-bit addresses: no object is larger than `isize::MAX`. -/
def Exists (w s M N : Nat) : Prop := 1 ≤ s ∧ s * (M * N) < 2 ^ (w - 1)
end Spec

theorem Spec.Exists.lt {w s M N : Nat} (h : Spec.Exists w s M N) : M * N < 2 ^ (w - 1) :=
  lt_of_le_of_lt (Nat.le_mul_of_pos_left _ h.1) h.2
theorem Spec.Exists.lt' {w s M N : Nat} (h : Spec.Exists w s M N) : M * N < 2 ^ w :=
  lt_of_lt_of_le h.lt (Nat.pow_le_pow_right (by norm_num) (by omega))
theorem Spec.Exists.square {w s N : Nat} (h : Spec.Exists w s N N) (hN : 0 < N) : N + N < 2 ^ w + 1 := by
  have h1 := h.lt
  have h2 : N ≤ N * N := Nat.le_mul_of_pos_left _ hN
  rcases w with _ | w
  · simp at h1; omega
  · rw [pow_succ]; simp at h1; omega

namespace Mat

theorem addU_ok {w : Nat} {chk : Bool} {a b : Nat} (h : a + b < 2 ^ w) : addU w chk a b = .ok (a + b) := if_pos h
theorem mulU_ok {w : Nat} {chk : Bool} {a b : Nat} (h : a * b < 2 ^ w) : mulU w chk a b = .ok (a * b) := if_pos h

theorem indicesU_eq {w : Nat} {chk : Bool} (h : M * N < 2 ^ w) : (indicesU w chk : Res (Mat (Nat × Nat) M N)) = indicesR := by
  unfold indicesU indicesR
  rw [mulU_ok h]; rfl

theorem maskFind_lt (a : Vector Bool N) (i : Nat) {k : Nat} (h : maskFind a i = .ok k) : k < N := by
  fun_induction maskFind a i with
  | case1 i hi ha => cases h; exact hi
  | case2 i hi ha ih => exact ih h
  | case3 i hi => cases h

theorem maskFindU_eq {w : Nat} {chk : Bool} (hw : N < 2 ^ w) (a : Vector Bool N) (f i : Nat) (hf : N - i < f) :
    maskFindU w chk a f i = maskFind a i := by
  induction f generalizing i with
  | zero => omega
  | succ f ih =>
    unfold maskFindU maskFind
    by_cases h : i < N
    · rw [dif_pos h, dif_pos h]
      by_cases ha : a[i]
      · rw [if_pos ha, if_pos ha]
      · rw [if_neg ha, if_neg ha, addU_ok (by omega), Res.bind_ok, ih (i + 1) (by omega)]
    · rw [dif_neg h, dif_neg h]

/-- Runs of two computations agree, and a run that returns restores the degree of the mask. -/
def Agrees (x y : Eff (Mask N) α) (m : Mask N) : Prop :=
  x.exec m = y.exec m ∧ ∀ a, (y.exec m).1 = .ok a → (y.exec m).2.deg = m.deg

theorem excludeU_eq {w : Nat} {chk : Bool} (i j : Nat) (m : Mask N) (hd : 0 < m.deg) :
    (excludeU w chk i j).exec m = (exclude i j).exec m ∧
      ∀ a, ((exclude i j).exec m).1 = .ok a → ((exclude i j).exec m).2.deg + 1 = m.deg := by
  unfold excludeU exclude
  rcases hc : maskSet m.col i false with e | c
  · simp [exec_bind, liftRes, hc]
  · rcases hr : maskSet m.row j false with e | r
    · simp [exec_bind, liftRes, hc, hr]
    · have : subU w chk m.deg 1 = .ok (m.deg - 1) := if_pos hd
      simp [exec_bind, liftRes, hc, hr, this, show m.deg ≠ 0 by omega]
      omega

theorem includeU_eq {w : Nat} {chk : Bool} (i j : Nat) (m : Mask N) (hd : m.deg + 1 < 2 ^ w) :
    (includeU w chk i j).exec m = (include_ i j).exec m ∧
      ∀ a, ((include_ i j).exec m).1 = .ok a → ((include_ i j).exec m).2.deg = m.deg + 1 := by
  unfold includeU include_
  rcases hc : maskSet m.col i true with e | c
  · simp [exec_bind, liftRes, hc]
  · rcases hr : maskSet m.row j true with e | r
    · simp [exec_bind, liftRes, hc, hr]
    · simp [exec_bind, liftRes, hc, hr, addU_ok hd]

theorem cofactorWithU_agrees [Neg T] {w : Nat} {chk : Bool} (x y : Eff (Mask N) T) (ir jr : Nat × Nat) (m : Mask N)
    (hd : 0 < m.deg) (hm : m.deg < 2 ^ w)
    (hk : ∃ k, addU w chk ir.2 jr.2 = .ok k ∧ k % 2 = (ir.2 + jr.2) % 2)
    (h : ∀ m' : Mask N, m'.deg < m.deg → Agrees x y m') :
    Agrees (cofactorWithU w chk x ir jr) (cofactorWith y ir jr) m := by
  unfold Agrees cofactorWithU cofactorWith
  obtain ⟨k, hk, hk2⟩ := hk
  obtain ⟨h1, h2⟩ := excludeU_eq (w := w) (chk := chk) ir.1 jr.1 m hd
  rw [exec_bind, exec_bind, h1]
  rcases he : (exclude ir.1 jr.1).exec m with ⟨r, m1⟩
  rw [he] at h2
  rcases r with e | u
  · simp
  · have h3 : m1.deg + 1 = m.deg := h2 u rfl
    obtain ⟨h4, h5⟩ := h m1 (by omega)
    simp only [exec_bind, h4]
    rcases hy : y.exec m1 with ⟨r, m2⟩
    rw [hy] at h5
    rcases r with e | a
    · simp
    · have h6 : m2.deg = m1.deg := h5 a rfl
      obtain ⟨h7, h8⟩ := includeU_eq (w := w) (chk := chk) ir.1 jr.1 m2 (by omega)
      simp only [hk, hk2, liftRes, exec_pure, h7]
      rcases hi : (include_ ir.1 jr.1).exec m2 with ⟨r, m3⟩
      rw [hi] at h8
      rcases r with e | u
      · simp
      · have : m3.deg = m2.deg + 1 := h8 u rfl
        simp only [exec_pure, true_and]
        intro _ _; omega

theorem forRange_agrees {S : Type} {w : Nat} (n lo : Nat) (s : S) (f g : Nat → S → Eff (Mask N) S) (d : Nat)
    (h : ∀ k s (m : Mask N), lo ≤ k → k < lo + n → m.deg = d → Agrees (f k s) (g k s) m) (m : Mask N) (hm : m.deg = d) :
    Agrees (forRange n lo s f) (forRange n lo s g) m := by
  induction n generalizing lo s m with
  | zero => exact ⟨rfl, fun _ _ => rfl⟩
  | succ n ih =>
    obtain ⟨h1, h2⟩ := h lo s m le_rfl (by omega) hm
    unfold Agrees forRange
    rw [exec_bind, exec_bind, h1]
    rcases hg : (g lo s).exec m with ⟨r, m1⟩
    rw [hg] at h2
    rcases r with e | a
    · simp
    · have h3 : m1.deg = m.deg := h2 a rfl
      have := ih (lo + 1) a (fun k s m hk hk' hm => h k s m (by omega) (by omega) hm) m1 (h3.trans hm)
      exact ⟨this.1, fun b hb => (this.2 b hb).trans h3⟩

variable [Neg T] [Add T] [Mul T] [Zero T] [One T]

theorem detAuxU_agrees {w : Nat} {chk : Bool} (hw : N < 2 ^ w) (A : Mat T N N) (n : Nat) (m : Mask N) (hm : m.deg ≤ N) :
    Agrees (detAuxU w chk A n) (detAux A n) m := by
  induction n generalizing m with
  | zero => exact ⟨rfl, fun _ _ => rfl⟩
  | succ n ih =>
    unfold detAuxU detAux Agrees
    simp only [exec_bind, exec_get]
    by_cases hd : m.deg = 0
    · simp [hd]
    · simp only [if_neg hd]
      rw [maskFindU_eq hw _ _ _ (by omega)]
      rcases hi : maskFind m.col 0 with e | i
      · simp [exec_bind, liftRes]
      · simp only [exec_bind, liftRes, exec_pure]
        have := forRange_agrees (w := w) m.deg 0 ((0 : Nat), (0 : T))
          (fun rj s => do
            let m ← get
            let j ← liftRes (maskFindU w chk m.row (N + 1) s.1)
            let x ← liftRes (A.index (i, j))
            let c ← cofactorWithU w chk (detAuxU w chk A n) (i, 0) (j, rj)
            let j' ← liftRes (addU w chk j 1)
            pure (j', s.2 + x * c))
          (fun rj s => do
            let m ← get
            let j ← liftRes (maskFind m.row s.1)
            let x ← liftRes (A.index (i, j))
            let c ← cofactorWith (detAux A n) (i, 0) (j, rj)
            pure (j + 1, s.2 + x * c)) m.deg (fun rj s m1 _ hrj hm1 => ?_) m rfl
        · obtain ⟨h1, h2⟩ := this
          simp only [liftRes] at h1 h2
          rw [h1]
          generalize Eff.exec _ m = q at h2 ⊢
          obtain ⟨r, m2⟩ := q
          rcases r with e | a
          · simp
          · simp only [exec_pure, true_and]
            intro _ _; exact h2 a rfl
        · unfold Agrees
          simp only [exec_bind, exec_get]
          rw [maskFindU_eq hw _ _ _ (by omega)]
          rcases hj : maskFind m1.row s.1 with e | j
          · simp [liftRes]
          · simp only [liftRes, exec_pure]
            rcases hx : A.index (i, j) with e | x
            · simp
            · have hjN := maskFind_lt _ _ hj
              obtain ⟨h1, h2⟩ := cofactorWithU_agrees (w := w) (chk := chk) (detAuxU w chk A n) (detAux A n) (i, 0) (j, rj) m1 (by omega)
                (by omega) ⟨_, addU_ok (by simp only []; omega), rfl⟩ (fun m' hm' => ih m' (by omega))
              simp only [exec_pure, h1]
              generalize Eff.exec (cofactorWith (detAux A n) (i, 0) (j, rj)) m1 = q at h2 ⊢
              obtain ⟨r, m2⟩ := q
              rcases r with e | a
              · simp
              · rw [addU_ok (by omega)]
                simp only [exec_pure, true_and]
                intro _ _; exact h2 a rfl


theorem detU_eq {w : Nat} {chk : Bool} (hw : N < 2 ^ w) (A : Mat T N N) : A.detU w chk = A.detR := by
  unfold detU detR
  rw [(detAuxU_agrees hw A (N + 1) Mask.new le_rfl).1]

theorem cofactorU_eq {w : Nat} {chk : Bool} (hw : N < 2 ^ w) (hc : chk = true → N + N < 2 ^ w + 2) (A : Mat T N N) (i j : Nat) :
    A.cofactorU w chk i j = A.cofactorR i j := by
  unfold cofactorU cofactorR
  by_cases h : i < N ∧ j < N
  · rw [if_pos h, if_pos h]
    rw [(cofactorWithU_agrees (detAuxU w chk A (N + 1)) (detAux A (N + 1)) (i, i) (j, j) Mask.new (show 0 < N by omega) hw ?_
      fun m' hm' => detAuxU_agrees hw A (N + 1) m' (le_of_lt hm')).1]
    by_cases hij : i + j < 2 ^ w
    · exact ⟨_, addU_ok hij, rfl⟩
    · rcases chk with _ | _
      · refine ⟨(i + j) % 2 ^ w, ?_, ?_⟩
        · unfold addU; rw [if_neg hij]; rfl
        · rcases w with _ | w
          · simp at hw; omega
          · exact Nat.mod_mod_of_dvd _ (dvd_pow_self 2 (by omega))
      · exact absurd (hc rfl) (by omega)
  · rw [if_neg h, if_neg h]

end Mat

/-- `Matrix::indices` on a machine with `w`-bit words, for a matrix that exists in memory: the product `M * N` does not overflow, and entry
`(i, j)` is `(i, j)`. -/
theorem C106_indices (w s : Nat) (chk : Bool) (h : Spec.Exists w s M N) :
    ∃ I : Mat (Nat × Nat) M N, Mat.indicesU w chk = .ok I ∧ ∀ i (hi : i < M) j (hj : j < N), I[i][j] = (i, j) :=
  ⟨Mat.indices, by rw [Mat.indicesU_eq h.lt', C08_mat_indices_ok], C08_mat_indices⟩

/-- `Matrix::try_from(&[T])` on a machine with `w`-bit words, for a matrix that exists in memory: `Ok` exactly for slices of length `M·N`, in
row order; no overflow, no panic. -/
theorem C106_try_from_slice (w s : Nat) (chk : Bool) (h : Spec.Exists w s M N) (l : List T) :
    (l.length ≠ M * N → (Mat.tryFromSliceU w chk l : Res (Option (Mat T M N))) = .ok none) ∧
    (l.length = M * N → ∃ A : Mat T M N, Mat.tryFromSliceU w chk l = .ok (some A) ∧
      ∀ i (hi : i < M) j (hj : j < N), l[i * N + j]? = some A[i][j]) := by
  have e : (Mat.tryFromSliceU w chk l : Res (Option (Mat T M N))) = Mat.tryFromSlice l := by
    unfold Mat.tryFromSliceU Mat.tryFromSlice
    rw [Mat.mulU_ok h.lt']; rfl
  rw [e]
  exact C10_mat_try_from_slice l

/-- If `M·N` does not fit a word (the matrix only exists for a zero-sized `T`), `Matrix::try_from(&[T])` panics for every slice when overflow
checks are on; when they are off it panics for the slices of length `M·N mod 2^w`, and rejects the others. No slice is accepted. -/
theorem C106_try_from_slice_overflow (w : Nat) (h : 2 ^ w ≤ M * N) (l : List T) (hl : l.length < 2 ^ w) :
    (Mat.tryFromSliceU w true l : Res (Option (Mat T M N))) = .error .arithOverflow ∧
    (l.length = M * N % 2 ^ w → (Mat.tryFromSliceU w false l : Res (Option (Mat T M N))) = .error .unwrapNone) ∧
    (l.length ≠ M * N % 2 ^ w → (Mat.tryFromSliceU w false l : Res (Option (Mat T M N))) = .ok none) := by
  have h1 : ¬ M * N < 2 ^ w := by omega
  refine ⟨?_, fun e => ?_, fun e => ?_⟩
  · unfold Mat.tryFromSliceU mulU; rw [if_neg h1]; rfl
  · unfold Mat.tryFromSliceU mulU
    rw [if_neg h1]
    simp only [Bool.false_eq_true, if_false, Res.bind_ok, if_pos e]
    have h2 := congrArg (fun x => (Eff.exec x l).1) (C02_mat_try_from_iter_refines (m := Eff (List T)) (M := M) (N := N) listNext)
    simp only [exec_map, takeN_listNext] at h2
    have h3 : min (M * N) l.length ≠ M * N := by omega
    generalize (Eff.exec (Mat.tryFromIter (M := M) (N := N) listNext) l).1 = q at h2 ⊢
    rcases q with e | o
    · simp at h2
    · rcases o with _ | A
      · rfl
      · simp [h3] at h2
  · unfold Mat.tryFromSliceU mulU
    rw [if_neg h1]
    simp only [Bool.false_eq_true, if_false, Res.bind_ok, if_neg e]; rfl

section
variable [Neg T] [Add T] [Mul T] [Zero T] [One T]

/-- Determinants, cofactors, adjugates and inverses on a machine with `w`-bit words, for matrices that exist in memory: the index arithmetic
never overflows, with overflow checks on or off, and the results are those of the unbounded model (C31–C34). -/
theorem C106_square [Div T] (w s : Nat) (chk : Bool) (h : Spec.Exists w s N N) (A : Mat T N N) :
    A.detU w chk = .ok A.det ∧ A.adjU w chk = .ok A.adj ∧ A.invU w chk = .ok A.inv ∧
      ∀ i j, A.cofactorU w chk i j = A.cofactorR i j := by
  have hN : N < 2 ^ w := by
    rcases Nat.eq_zero_or_pos N with rfl | hN
    · positivity
    · exact lt_of_le_of_lt (Nat.le_mul_of_pos_left _ hN) h.lt'
  have hc : chk = true → N + N < 2 ^ w + 2 := fun _ => by
    rcases Nat.eq_zero_or_pos N with rfl | hN
    · have : 0 < 2 ^ w := by positivity
      omega
    · have := h.square hN; omega
  have h1 : A.detU w chk = .ok A.det := (Mat.detU_eq hN A).trans (C31_det_ok A).1
  have h3 : ∀ i j, A.cofactorU w chk i j = A.cofactorR i j := fun i j => Mat.cofactorU_eq hN hc A i j
  have h2 : A.adjU w chk = .ok A.adj := by
    unfold Mat.adjU
    rw [Mat.indicesU_eq h.lt', C08_mat_indices_ok, Res.bind_ok]
    simp only [h3]
    exact (C33_adj_ok A).1
  refine ⟨h1, h2, ?_, h3⟩
  have h4 := (C33_adj_ok A).2
  unfold Mat.invR at h4
  rw [(C33_adj_ok A).1, (C31_det_ok A).1] at h4
  unfold Mat.invU
  rw [h1, h2]
  exact h4

/-- For any `N` that is a `usize` at all, also when the components are zero-sized: the determinant is not affected by the word size, and
neither are cofactors in release builds, because wrapping around keeps the parity of `i + j`. -/
theorem C106_det_any_size (w : Nat) (chk : Bool) (hN : N < 2 ^ w) (A : Mat T N N) :
    A.detU w chk = .ok A.det ∧ ∀ i j, A.cofactorU w false i j = A.cofactorR i j :=
  ⟨(Mat.detU_eq hN A).trans (C31_det_ok A).1, fun i j => Mat.cofactorU_eq hN (fun h => by cases h) A i j⟩

/-- With overflow checks, and only then, a cofactor with `i + j ≥ 2^w` panics (such matrices have zero-sized components); all others are those of C32. -/
theorem C106_cofactor_overflow (w : Nat) (hN : N < 2 ^ w) (A : Mat T N N) (i j : Nat) (hi : i < N) (hj : j < N) :
    (2 ^ w ≤ i + j → A.cofactorU w true i j = .error .arithOverflow) ∧ (i + j < 2 ^ w → A.cofactorU w true i j = A.cofactorR i j) := by
  constructor
  · intro hij
    have h1 : A.cofactorU w false i j = A.cofactorR i j := Mat.cofactorU_eq hN (fun h => by cases h) A i j
    obtain ⟨x, hx⟩ : ∃ x, A.cofactorR i j = .ok x := Mat.cofactorR_ok A i j hi hj
    unfold Mat.cofactorR at hx
    unfold Mat.cofactorU
    rw [if_pos ⟨hi, hj⟩] at hx ⊢
    unfold Mat.cofactorWith at hx
    unfold Mat.cofactorWithU
    obtain ⟨h1, h2⟩ := Mat.excludeU_eq (w := w) (chk := true) i j (Mat.Mask.new : Mat.Mask N) (show 0 < N by omega)
    rw [exec_bind] at hx ⊢
    rw [h1]
    rcases he : (Mat.exclude i j).exec (Mat.Mask.new : Mat.Mask N) with ⟨r, m1⟩
    rw [he] at h2 hx
    rcases r with e | u
    · simp at hx
    · have h3 : m1.deg + 1 = N := h2 u rfl
      obtain ⟨h4, h5⟩ := Mat.detAuxU_agrees (chk := true) hN A (N + 1) m1 (by omega)
      simp only [exec_bind, h4] at hx ⊢
      rcases hy : (Mat.detAux A (N + 1)).exec m1 with ⟨r, m2⟩
      rw [hy] at hx
      rcases r with e | a
      · simp at hx
      · simp only [addU, if_neg (show ¬ i + j < 2 ^ w by omega)]
        rfl
  · intro hij
    unfold Mat.cofactorU Mat.cofactorR
    rw [if_pos ⟨hi, hj⟩, if_pos ⟨hi, hj⟩]
    rw [(Mat.cofactorWithU_agrees (Mat.detAuxU w true A (N + 1)) (Mat.detAux A (N + 1)) (i, i) (j, j) Mat.Mask.new (show 0 < N by omega) hN
      ⟨_, Mat.addU_ok hij, rfl⟩ fun m' hm' => Mat.detAuxU_agrees hN A (N + 1) m' (le_of_lt hm')).1]
end

/-! Witnesses: `f64` matrices on a 64-bit machine; a matrix of `2^32 × 2^32` values of type `()`. -/
theorem Ex.exists33 : Spec.Exists 64 8 3 3 := ⟨by norm_num, by norm_num⟩
example : ∃ I : Mat (Nat × Nat) 3 3, Mat.indicesU 64 true = .ok I ∧ ∀ i (hi : i < 3) j (hj : j < 3), I[i][j] = (i, j) :=
  C106_indices 64 8 true Ex.exists33
example : (Mat.tryFromSliceU 64 false [1, 2, 3, 4] : Res (Option (Mat Int 3 3))) = .ok none :=
  (C106_try_from_slice 64 8 false Ex.exists33 [1, 2, 3, 4]).1 (by decide)
example : ∃ A : Mat Int 3 3, Mat.tryFromSliceU 64 false [1, 2, 3, 4, 5, 6, 7, 8, 9] = .ok (some A) ∧
    ∀ i (hi : i < 3) j (hj : j < 3), ([1, 2, 3, 4, 5, 6, 7, 8, 9] : List Int)[i * 3 + j]? = some A[i][j] :=
  (C106_try_from_slice 64 8 false Ex.exists33 [1, 2, 3, 4, 5, 6, 7, 8, 9]).2 (by decide)
example : (Mat.tryFromSliceU 64 true [] : Res (Option (Mat Unit (2 ^ 32) (2 ^ 32)))) = .error .arithOverflow ∧
    (Mat.tryFromSliceU 64 false [] : Res (Option (Mat Unit (2 ^ 32) (2 ^ 32)))) = .error .unwrapNone ∧
    (Mat.tryFromSliceU 64 false [()] : Res (Option (Mat Unit (2 ^ 32) (2 ^ 32)))) = .ok none :=
  ⟨(C106_try_from_slice_overflow 64 (by norm_num) [] (by norm_num)).1,
    (C106_try_from_slice_overflow 64 (by norm_num) [] (by norm_num)).2.1 (by norm_num),
    (C106_try_from_slice_overflow 64 (by norm_num) [()] (by norm_num)).2.2 (by norm_num)⟩
example (A : Mat Int 3 3) : A.adjU 64 true = .ok A.adj := (C106_square 64 8 true Ex.exists33 A).2.1
example (A : Mat Int 3 3) : A.detU 2 true = .ok A.det := (C106_det_any_size 2 true (by norm_num) A).1
/-- With 2-bit words and overflow checks, the cofactor `(2, 2)` of a `3 × 3` matrix panics: the size hypotheses matter. -/
example : (Mat.cofactorU 2 true (1 : Mat Int 3 3) 2 2) = .error .arithOverflow := (C106_cofactor_overflow 2 (by norm_num) _ 2 2 (by norm_num) (by norm_num)).1 (by norm_num)
example : (Mat.cofactorU 2 true (1 : Mat Int 3 3) 2 2) = .error .arithOverflow := by decide +kernel
end Vecmat
