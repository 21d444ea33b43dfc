import Verif.Model.Memory
import Verif.Lemmas.Matrix
import Verif.Lemmas.MatrixOps
import Verif.Props.MatrixBase
import Verif.Lemmas.VectorPure
import Mathlib.Tactic.Ring
/-!
# C75: pointer casts and `MaybeUninit` transpositions
-/
namespace Vecmat
variable {A B T : Type} {M N : Nat}

namespace Layout
/-- Cells that represent a value are read as that value. -/
def Lawful (l : Layout A T) : Prop := ∀ a c, (∀ k < l.size, c k = l.enc a k) → l.dec c = .ok a

theorem lawful_scalar : Lawful (scalar : Layout T T) := by
  intro a c h
  have := h 0 (by simp [scalar])
  simp only [scalar] at this ⊢
  rw [this]
theorem lawful_maybeUninit : Lawful (maybeUninit : Layout (Option T) T) := by
  intro a c h
  have := h 0 (by simp [maybeUninit])
  simp only [maybeUninit] at this ⊢
  rw [this]
theorem enc_array (l : Layout A T) (v : Vector A N) (i k : Nat) (hi : i < N) (hk : k < l.size) :
    (l.array N).enc v (i * l.size + k) = l.enc v[i] k := by
  have h1 : (i * l.size + k) / l.size = i := by
    rw [Nat.add_comm, Nat.add_mul_div_right _ _ (by omega), Nat.div_eq_of_lt hk, Nat.zero_add]
  have h2 : (i * l.size + k) % l.size = k := by
    rw [Nat.add_comm, Nat.add_mul_mod_self_right, Nat.mod_eq_of_lt hk]
  simp only [array, h1, h2, dif_pos hi]
theorem dec_array_ok (l : Layout A T) (c : Nat → Option T) (v : Vector A N)
    (h : ∀ i (hi : i < N), l.dec (fun k => c (i * l.size + k)) = .ok v[i]) : (l.array N).dec c = .ok v := by
  have h' : ∀ i : Fin N, ∃ a, l.dec (fun k => c (i.1 * l.size + k)) = .ok a := fun i => ⟨_, h i.1 i.2⟩
  simp only [array, dif_pos h']
  congr 1
  apply Vector.ext
  intro i hi
  rw [Vector.getElem_ofFn]
  exact Res.get_eq (h i hi) _
theorem dec_array_ub (l : Layout A T) (c : Nat → Option T) (i : Nat) (hi : i < N)
    (h : ∀ a, l.dec (fun k => c (i * l.size + k)) ≠ .ok a) : (l.array N).dec c = .error .ub := by
  have h' : ¬ ∀ i : Fin N, ∃ a, l.dec (fun k => c (i.1 * l.size + k)) = .ok a := fun h' => by
    obtain ⟨a, ha⟩ := h' ⟨i, hi⟩
    exact h a ha
  simp only [array, dif_neg h']
theorem Lawful.array {l : Layout A T} (hl : l.Lawful) (N : Nat) : (l.array N).Lawful := by
  intro v c h
  refine dec_array_ok l c v fun i hi => hl _ _ fun k hk => ?_
  have hlt : i * l.size + k < N * l.size := by
    have : (i + 1) * l.size ≤ N * l.size := Nat.mul_le_mul_right _ hi
    rw [Nat.add_mul] at this; omega
  rw [h _ hlt, enc_array l v i k hi hk]
theorem Lawful.transparent {l : Layout A T} (hl : l.Lawful) {mk : A → B} {field : B → A} (h : ∀ b, mk (field b) = b) :
    (l.transparent mk field).Lawful := by
  intro b c hc
  have := hl (field b) c hc
  simp only [Layout.transparent, this, Res.bind_ok, Res.pure_eq, h]
theorem Lawful.vec {l : Layout A T} (hl : l.Lawful) (N : Nat) : (Vec.layout l N).Lawful := (hl.array N).transparent fun _ => rfl
theorem Lawful.mat {l : Layout A T} (hl : l.Lawful) (M N : Nat) : (Mat.layout l M N).Lawful := ((hl.vec N).vec M).transparent fun _ => rfl

/-- What is stored is read back. -/
theorem Lawful.load_store {l : Layout A T} (hl : l.Lawful) (m : Memory T) (p : Nat) (a : A) : l.load (l.store m p a) p = .ok a := by
  refine hl _ _ fun k hk => ?_
  simp only [store, if_pos (show p ≤ p + k ∧ p + k < p + l.size by omega)]
  congr 1; omega
end Layout
open Layout

theorem Mat.size_layout (l : Layout A T) : (Mat.layout l M N).size = M * (N * l.size) := rfl
theorem Mat.enc_layout (l : Layout A T) (C : Mat A M N) (i j k : Nat) (hi : i < M) (hj : j < N) (hk : k < l.size) :
    (Mat.layout l M N).enc C (i * (N * l.size) + (j * l.size + k)) = l.enc C[i][j] k := by
  have h1 := enc_array (Vec.layout l N) C.data.data i (j * l.size + k) hi (by
    show _ < N * l.size
    have : (j + 1) * l.size ≤ N * l.size := Nat.mul_le_mul_right _ hj
    rw [Nat.add_mul] at this; omega)
  exact h1.trans (enc_array l C[i].data j k hj hk)
theorem Mat.enc_arrArr (l : Layout A T) (a : Vector (Vector A N) M) (i j k : Nat) (hi : i < M) (hj : j < N) (hk : k < l.size) :
    ((l.array N).array M).enc a (i * (N * l.size) + (j * l.size + k)) = l.enc a[i][j] k := by
  have h1 := enc_array (l.array N) a i (j * l.size + k) hi (by
    show _ < N * l.size
    have : (j + 1) * l.size ≤ N * l.size := Nat.mul_le_mul_right _ hj
    rw [Nat.add_mul] at this; omega)
  exact h1.trans (enc_array l a[i] j k hj hk)
/-- Every offset inside a matrix of scalars is `i * N + j`. -/
theorem offset_cases {k : Nat} (h : k < M * N) : ∃ i j, i < M ∧ j < N ∧ k = i * N + j := by
  have hN : 0 < N := by rcases Nat.eq_zero_or_pos N with rfl | h'; · simp at h
                        · exact h'
  refine ⟨k / N, k % N, ?_, Nat.mod_lt _ hN, (Nat.div_add_mod' k N).symm⟩
  rw [Nat.div_lt_iff_lt_mul hN]; exact h
theorem offset_inj {i j i' j' : Nat} (hj : j < N) (hj' : j' < N) (h : i * N + j = i' * N + j') : i = i' ∧ j = j' := by
  have hN : 0 < N := by omega
  have h1 : ∀ a b, b < N → (a * N + b) / N = a := fun a b hb => by
    rw [Nat.add_comm, Nat.add_mul_div_right _ _ hN, Nat.div_eq_of_lt hb, Nat.zero_add]
  have e : i = i' := by rw [← h1 i j hj, ← h1 i' j' hj', h]
  subst e
  exact ⟨rfl, by omega⟩
theorem offset_lt {i j : Nat} (hi : i < M) (hj : j < N) : i * N + j < M * N := by
  have : (i + 1) * N ≤ M * N := Nat.mul_le_mul_right _ hi
  rw [Nat.add_mul] at this; omega
theorem enc_vec_scalar (v : Vec T N) (i : Nat) (hi : i < N) : (Vec.layout scalar N).enc v i = some v[i] := by
  have := enc_array (scalar : Layout T T) v.data i 0 hi (by simp [scalar])
  simp only [scalar, Nat.mul_one, Nat.add_zero] at this
  exact this
theorem size_vec_scalar : (Vec.layout (scalar : Layout T T) N).size = N := by
  show N * 1 = N; omega
theorem store_scalar (m : Memory T) (p : Nat) (x : T) (q : Nat) : scalar.store m p x q = if q = p then some x else m q := by
  have e : (scalar : Layout T T).size = 1 := rfl
  simp only [store]
  by_cases h : q = p
  · rw [if_pos (by omega), if_pos h]; rfl
  · rw [if_neg (by omega), if_neg h]
theorem load_scalar (m : Memory T) (p : Nat) (x : T) (h : m p = some x) : scalar.load m p = .ok x := by
  show (match m (p + 0) with | some x => .ok x | none => .error .ub : Res T) = _
  rw [Nat.add_zero, h]
theorem enc_mat_scalar (C : Mat T M N) (i j : Nat) (hi : i < M) (hj : j < N) :
    (Mat.layout scalar M N).enc C (i * N + j) = some C[i][j] := by
  have := Mat.enc_layout (scalar : Layout T T) C i j 0 hi hj (by simp [scalar])
  simpa [scalar] using this
theorem enc_arrArr_scalar (a : Vector (Vector T N) M) (i j : Nat) (hi : i < M) (hj : j < N) :
    ((scalar.array N).array M).enc a (i * N + j) = some a[i][j] := by
  have := Mat.enc_arrArr (scalar : Layout T T) a i j 0 hi hj (by simp [scalar])
  simpa [scalar] using this
theorem size_mat_scalar : (Mat.layout (scalar : Layout T T) M N).size = M * N := by
  rw [Mat.size_layout]; simp [scalar]
theorem size_arrArr_scalar : (((scalar : Layout T T).array N).array M).size = M * N := by
  show M * (N * 1) = _; rw [Nat.mul_one]

/-- A matrix and the array of arrays of its rows are the same cells. -/
theorem store_eq (m : Memory T) (p : Nat) (C : Mat T M N) :
    ((scalar.array N).array M).store m p C.intoArrArr = (Mat.layout scalar M N).store m p C := by
  funext q
  simp only [store, size_mat_scalar, size_arrArr_scalar]
  split
  · rename_i h
    obtain ⟨i, j, hi, hj, e⟩ := offset_cases (M := M) (N := N) (k := q - p) (by omega)
    rw [e, enc_mat_scalar _ _ _ hi hj, enc_arrArr_scalar _ _ _ hi hj, (C09_mat_positions C C.intoVecVec C.intoArrVec C.intoArrArr i hi j hj).2.2.2.2.2]
  · rfl

/-! ## C75 -/

/-- `as_array_of_arrays` shows the rows of the matrix, whatever is in the rest of the memory; the cast reads only initialised cells of
the matrix. -/
theorem C75_as_array_of_arrays (m : Memory T) (p : Nat) (C : Mat T M N) :
    Mat.asArrArr ((Mat.layout scalar M N).store m p C) p = .ok C.intoArrArr := by
  rw [← store_eq]
  exact ((lawful_scalar.array N).array M).load_store m p _

/-- Writing through `as_mut_array_of_arrays` makes the matrix `from_array_of_arrays` of what was written, and nothing else in memory
changes. -/
theorem C75_as_mut_array_of_arrays (m : Memory T) (p : Nat) (a : Vector (Vector T N) M) :
    (Mat.layout scalar M N).load (Mat.setArrArr m p a) p = .ok (Mat.fromArrArr a) ∧
    ∀ q, (q < p ∨ p + M * N ≤ q) → Mat.setArrArr m p a q = m q := by
  constructor
  · have e : a = (Mat.fromArrArr a).intoArrArr :=
      (C09_mat_roundtrip (Mat.fromArrArr a) (Mat.fromArrArr a).intoVecVec (Mat.fromArrArr a).intoArrVec a).2.2.2.2.2.symm
    unfold Mat.setArrArr
    conv_lhs => rw [e]
    rw [store_eq]
    exact (lawful_scalar.mat M N).load_store m p _
  · intro q hq
    simp only [Mat.setArrArr, store, size_arrArr_scalar]
    rw [if_neg (by omega)]

/-- The pointer of `as_ptr` addresses the elements in row-major order: `*ptr.add(i * N + j)` is the element of row `i` and column `j`,
and the matrix takes exactly `M * N` cells. -/
theorem C75_as_ptr (m : Memory T) (p : Nat) (C : Mat T M N) :
    (∀ i j (hi : i < M) (hj : j < N), scalar.load ((Mat.layout scalar M N).store m p C) (Mat.asPtr p + (i * N + j)) = .ok C[i][j]) ∧
    ∀ q, (q < p ∨ p + M * N ≤ q) → (Mat.layout scalar M N).store m p C q = m q := by
  constructor
  · intro i j hi hj
    have hlt : i * N + j < M * N := by
      have : (i + 1) * N ≤ M * N := Nat.mul_le_mul_right _ hi
      rw [Nat.add_mul] at this; omega
    have e : (Mat.layout scalar M N).store m p C (p + (i * N + j)) = some C[i][j] := by
      simp only [store, size_mat_scalar]
      rw [if_pos (by omega), show p + (i * N + j) - p = i * N + j by omega, enc_mat_scalar _ _ _ hi hj]
    show (match (Mat.layout scalar M N).store m p C (p + (i * N + j)) with | some x => .ok x | none => .error .ub : Res T) = _
    rw [e]
  · intro q hq
    simp only [store, size_mat_scalar]
    rw [if_neg (by omega)]

/-- Writing `*ptr.add(i * N + j) = x` through `as_mut_ptr` is the assignment `matrix[(i, j)] = x`. -/
theorem C75_as_mut_ptr (m : Memory T) (p : Nat) (C : Mat T M N) (i j : Nat) (hi : i < M) (hj : j < N) (x : T) :
    ∃ D, C.indexSet (i, j) x = .ok D ∧
      scalar.store ((Mat.layout scalar M N).store m p C) (Mat.asPtr p + (i * N + j)) x = (Mat.layout scalar M N).store m p D := by
  obtain ⟨D, h1, h2⟩ := Mat.indexSet_lt C i j hi hj x
  refine ⟨D, h1, ?_⟩
  funext q
  rw [store_scalar]
  simp only [store, size_mat_scalar, Mat.asPtr, Vec.asPtr]
  have hlt := offset_lt hi hj
  by_cases hq : p ≤ q ∧ q < p + M * N
  · obtain ⟨a, b, ha, hb, e⟩ := offset_cases (M := M) (N := N) (k := q - p) (by omega)
    rw [if_pos hq, if_pos hq, e, enc_mat_scalar _ _ _ ha hb, enc_mat_scalar _ _ _ ha hb, h2 a ha b hb]
    by_cases hab : a = i ∧ b = j
    · obtain ⟨rfl, rfl⟩ := hab
      rw [if_pos (by omega), if_pos ⟨rfl, rfl⟩]
    · rw [if_neg hab, if_neg]
      intro h
      exact hab (offset_inj hb hj (by omega))
  · rw [if_neg hq, if_neg hq, if_neg (by omega)]

/-- Vectors: `as_ptr` addresses the elements in order, and writing through `as_mut_ptr` is indexed assignment. -/
theorem C75_vector_ptr (m : Memory T) (p : Nat) (v : Vec T N) (i : Nat) (hi : i < N) (x : T) :
    scalar.load ((Vec.layout scalar N).store m p v) (Vec.asPtr p + i) = .ok v[i] ∧
    (∃ w, v.indexSet i x = .ok w ∧
      scalar.store ((Vec.layout scalar N).store m p v) (Vec.asPtr p + i) x = (Vec.layout scalar N).store m p w) := by
  have hlt : ∀ q, p ≤ q → q < p + N → (Vec.layout scalar N).enc v (q - p) = v.data[q - p]? := fun q h1 h2 => by
    rw [enc_vec_scalar v _ (by omega)]
    exact (Vector.getElem?_eq_getElem _).symm
  refine ⟨load_scalar _ _ _ ?_, ⟨v.data.set i x⟩, by simp [Vec.indexSet, hi], ?_⟩
  · simp only [store, size_vec_scalar, Vec.asPtr]
    rw [if_pos (by omega), show p + i - p = i by omega, enc_vec_scalar v i hi]
  · funext q
    rw [store_scalar]
    simp only [store, size_vec_scalar, Vec.asPtr]
    by_cases hq : p ≤ q ∧ q < p + N
    · rw [if_pos hq, if_pos hq, enc_vec_scalar v _ (by omega), enc_vec_scalar _ _ (by omega)]
      show _ = some ((v.data.set i x)[q - p]'(by omega))
      rw [Vector.getElem_set]
      by_cases h : q = p + i
      · rw [if_pos h, if_pos (by omega)]
      · rw [if_neg h, if_neg (by omega)]; rfl
    · rw [if_neg hq, if_neg hq, if_neg (by omega)]

/-! `MaybeUninit` -/

theorem enc_vec_uninit (v : Vec (Option T) N) (i : Nat) (hi : i < N) : v.intoUninit i = v[i] := by
  have := enc_array (maybeUninit : Layout (Option T) T) v.data i 0 hi (by simp [maybeUninit])
  simp only [maybeUninit, Nat.mul_one, Nat.add_zero] at this
  exact this
theorem enc_mat_uninit (C : Mat (Option T) M N) (i j : Nat) (hi : i < M) (hj : j < N) : C.intoUninit (i * N + j) = C[i][j] := by
  have h := Mat.enc_layout (maybeUninit : Layout (Option T) T) C i j 0 hi hj (by simp [maybeUninit])
  have e : (maybeUninit : Layout (Option T) T).size = 1 := rfl
  rw [e, Nat.mul_one, Nat.mul_one, Nat.add_zero] at h
  exact h

/-- `from_uninit` never faults: element `i` of the vector is cell `i`, whether or not it is initialised. -/
theorem C75_vector_from_uninit (cells : Nat → Option T) :
    ∃ v : Vec (Option T) N, Vec.fromUninit cells = .ok v ∧ ∀ i (h : i < N), v[i] = cells i := by
  refine ⟨⟨Vector.ofFn fun i => cells i⟩, ?_, fun i h => by show (Vector.ofFn _)[i] = _; simp⟩
  refine lawful_maybeUninit.vec N _ _ fun k hk => ?_
  have hk : k < N := by simpa [Vec.layout, Layout.transparent, Layout.array, maybeUninit] using hk
  refine Eq.trans ?_ (enc_vec_uninit _ k hk).symm
  show _ = (Vector.ofFn _)[k]
  simp
theorem C75_matrix_from_uninit (cells : Nat → Option T) :
    ∃ C : Mat (Option T) M N, Mat.fromUninit cells = .ok C ∧ ∀ i (_ : i < M) j (_ : j < N), C[i][j] = cells (i * N + j) := by
  have he : ∀ i (_ : i < M) j (_ : j < N),
      (⟨⟨Vector.ofFn fun i => ⟨Vector.ofFn fun j => cells (i.1 * N + j.1)⟩⟩⟩ : Mat (Option T) M N)[i][j] = cells (i * N + j) := by
    intro i hi j hj
    show (((Vector.ofFn _)[i] : Vec (Option T) N).data)[j] = _
    simp
  refine ⟨_, ?_, he⟩
  refine lawful_maybeUninit.mat M N _ _ fun k hk => ?_
  have hk : k < M * N := by
    have e : (Mat.layout (maybeUninit : Layout (Option T) T) M N).size = M * N := by rw [Mat.size_layout]; simp [maybeUninit]
    omega
  obtain ⟨i, j, hi, hj, rfl⟩ := offset_cases hk
  exact ((enc_mat_uninit _ i j hi hj).trans (he i hi j hj)).symm
/-- `from_uninit` undoes `into_uninit`. -/
theorem C75_uninit_round_trip (v : Vec (Option T) N) (C : Mat (Option T) M N) :
    Vec.fromUninit v.intoUninit = .ok v ∧ Mat.fromUninit C.intoUninit = .ok C :=
  ⟨lawful_maybeUninit.vec N _ _ fun _ _ => rfl, lawful_maybeUninit.mat M N _ _ fun _ _ => rfl⟩
/-- `uninit()` never faults and gives elements that are all uninitialised. -/
theorem C75_uninit :
    (∃ v : Vec (Option T) N, Vec.uninitMem = .ok v ∧ ∀ i (h : i < N), v[i] = none) ∧
    (∃ C : Mat (Option T) M N, Mat.uninitMem = .ok C ∧ ∀ i (_ : i < M) j (_ : j < N), C[i][j] = none) :=
  ⟨C75_vector_from_uninit _, C75_matrix_from_uninit _⟩
theorem decode_vec_scalar (c : Nat → Option T) :
    (∀ v : Vec T N, (∀ i (h : i < N), c i = some v[i]) → (Vec.layout scalar N).dec c = .ok v) ∧
    ((∃ i, i < N ∧ c i = none) → (Vec.layout scalar N).dec c = .error .ub) := by
  constructor
  · intro v h
    refine lawful_scalar.vec N _ _ fun k hk => ?_
    rw [size_vec_scalar] at hk
    rw [h k hk, enc_vec_scalar v k hk]
  · rintro ⟨i, hi, h⟩
    simp only [Vec.layout, Layout.transparent]
    rw [dec_array_ub _ _ i hi]
    · rfl
    · intro a
      simp [scalar, h]
/-- `assume_init` gives the contents of the cells when all are initialised; it is undefined behaviour as soon as one is not. -/
theorem C75_vector_assume_init (v : Vec (Option T) N) :
    (∀ w : Vec T N, (∀ i (h : i < N), v[i] = some w[i]) → v.assumeInitMem = .ok w) ∧
    ((∃ i, ∃ h : i < N, v[i] = none) → v.assumeInitMem = .error .ub) := by
  refine ⟨fun w h => (decode_vec_scalar _).1 w fun i hi => ?_, fun ⟨i, hi, h⟩ => (decode_vec_scalar _).2 ⟨i, hi, ?_⟩⟩
  · rw [enc_vec_uninit v i hi, h i hi]
  · rw [enc_vec_uninit v i hi, h]
theorem C75_matrix_assume_init (C : Mat (Option T) M N) :
    (∀ D : Mat T M N, (∀ i (_ : i < M) j (_ : j < N), C[i][j] = some D[i][j]) → C.assumeInitMem = .ok D) ∧
    ((∃ i, ∃ _ : i < M, ∃ j, ∃ _ : j < N, C[i][j] = none) → C.assumeInitMem = .error .ub) := by
  constructor
  · intro D h
    refine lawful_scalar.mat M N _ _ fun k hk => ?_
    rw [size_mat_scalar] at hk
    obtain ⟨i, j, hi, hj, rfl⟩ := offset_cases hk
    rw [enc_mat_scalar D i j hi hj, enc_mat_uninit C i j hi hj, h i hi j hj]
  · rintro ⟨i, hi, j, hj, h⟩
    simp only [Mat.assumeInitMem, Mat.layout, Layout.transparent]
    have : (Vec.layout (Vec.layout (scalar : Layout T T) N) M).dec C.intoUninit = .error .ub := by
      simp only [Vec.layout, Layout.transparent]
      rw [dec_array_ub _ _ i hi]
      · rfl
      · intro a ha
        have h2 := (decode_vec_scalar (N := N) fun k => C.intoUninit (i * N + k)).2 ⟨j, hj, by rw [enc_mat_uninit C i j hi hj, h]⟩
        simp only [Vec.layout, Layout.transparent] at h2
        have e : ∀ k, i * (scalar.array N : Layout (Vector T N) T).size + k = i * N + k := fun k => by
          show i * (N * 1) + k = _; rw [Nat.mul_one]
        simp only [e] at ha
        rw [h2] at ha
        cases ha
    rw [this]; rfl
/-- Reading the cells of a matrix as `Matrix<MaybeUninit<T>>`, as `transpose` does with `ptr::read`, gives its elements, all
initialised. -/
theorem C75_read_as_uninit (m : Memory T) (p : Nat) (C : Mat T M N) :
    ∃ D : Mat (Option T) M N, (Mat.layout maybeUninit M N).load ((Mat.layout scalar M N).store m p C) p = .ok D ∧
      ∀ i (_ : i < M) j (_ : j < N), D[i][j] = some C[i][j] := by
  obtain ⟨D, h1, h2⟩ := C75_matrix_from_uninit (M := M) (N := N) fun k => (Mat.layout scalar M N).store m p C (p + k)
  refine ⟨D, h1, fun i hi j hj => ?_⟩
  have := offset_lt hi hj
  rw [h2 i hi j hj]
  simp only [store, size_mat_scalar]
  rw [if_pos (by omega), show p + (i * N + j) - p = i * N + j by omega, enc_mat_scalar _ _ _ hi hj]
/-- The models of `assume_init` used by the rest of the model (initialisation loops, `unzip`, `transpose`) agree with the memory
model. -/
theorem C75_model_agrees (v : Vec (Option T) N) (C : Mat (Option T) M N) :
    v.assumeInitMem = Vec.assumeInit v.data ∧ C.assumeInitMem = Mat.assumeInit (C.data.data.map Vec.data) := by
  constructor
  · unfold Vec.assumeInit
    split
    · rename_i h
      refine (C75_vector_assume_init v).1 _ fun i hi => ?_
      show v.data[i] = some (Vector.ofFn _)[i]
      simp
    · rename_i h
      push Not at h
      obtain ⟨i, hi⟩ := h
      exact (C75_vector_assume_init v).2 ⟨i.1, i.2, by simp at hi; exact hi⟩
  · unfold Mat.assumeInit
    split
    · rename_i h
      refine (C75_matrix_assume_init C).1 _ fun i hi j hj => ?_
      show _ = some (((Vector.ofFn _)[i] : Vec T N).data)[j]
      simp
      rfl
    · rename_i h
      push Not at h
      obtain ⟨i, j, hi⟩ := h
      refine (C75_matrix_assume_init C).2 ⟨i.1, i.2, j.1, j.2, ?_⟩
      simp at hi
      exact hi

/-- A 2×3 matrix at address 10: the element `(1, 2)` is at address 15. -/
example (m : Memory Nat) : scalar.load ((Mat.layout scalar 2 3).store m 10 ⟨⟨#v[⟨#v[1, 2, 3]⟩, ⟨#v[4, 5, 6]⟩]⟩⟩) (Mat.asPtr 10 + (1 * 3 + 2)) = .ok 6 :=
  (C75_as_ptr m 10 (⟨⟨#v[⟨#v[1, 2, 3]⟩, ⟨#v[4, 5, 6]⟩]⟩⟩ : Mat Nat 2 3)).1 1 2 (by decide) (by decide)
example : (⟨#v[some 1, none]⟩ : Vec (Option Nat) 2).assumeInitMem = .error .ub := (C75_vector_assume_init _).2 ⟨1, by decide, rfl⟩
example : (⟨#v[some 1, some 4]⟩ : Vec (Option Nat) 2).assumeInitMem = .ok ⟨#v[1, 4]⟩ :=
  (C75_vector_assume_init _).1 _ fun i hi => by
    have : i = 0 ∨ i = 1 := by omega
    rcases this with rfl | rfl <;> rfl
end Vecmat
