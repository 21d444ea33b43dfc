import Verif.Lemmas.MatrixIter
import Verif.Lemmas.Diagonal
import Verif.Props.VectorBase
/-!
# C01, C02, C04, C05, C07–C10 (matrix part), C26–C29: construction, iteration, indexing, conversion, transposition of
`Matrix<T, M, N>`
-/
namespace Vecmat
open Spec
variable {T U S σ τ : Type} {M N : Nat} {m : Type → Type}

/-! ## C01 `Matrix::init` -/

theorem callN_add [Monad m] [LawfulMonad m] (f : m T) (a b : Nat) :
    callN f (a + b) = callN f a >>= fun x => callN f b >>= fun y => pure (x ++ y) := by
  induction a with
  | zero => simp [callN]
  | succ a ih => rw [Nat.add_right_comm]; simp [callN, ih]

theorem flatMap_callN [Monad m] [LawfulMonad m] {A : Type} (items : A → List T) (g : m A) (f : m T)
    (hg : items <$> g = callN f N) (k : Nat) : (fun l => l.flatMap items) <$> callN g k = callN f (k * N) := by
  induction k with
  | zero => simp [callN]
  | succ k ih =>
    rw [Nat.succ_mul, Nat.add_comm (k * N) N, callN_add f N, ← ih, ← hg]
    simp [callN, List.flatMap_cons]

/-- `Matrix::init(f)` is: call `f` exactly `M·N` times, one after another, and fill the matrix row by row. -/
theorem C01_mat_init_calls [Monad m] [LawfulMonad m] [MonadExcept Fault m] (f : m T) :
    rowMajor <$> (Mat.initM f : m (Mat T M N)) = callN f (M * N) := by
  have h := flatMap_callN (N := N) Vec.toList (Vec.initM f : m (Vec T N)) f (Vec.toList_initM f) M
  rw [← h, ← Vec.toList_initM]
  unfold Mat.initM
  simp [Mat.rowMajor_mk]
/-- The pure version of `Vector::init` (a closure that does not panic): its values and the state it leaves are those of the run above. -/
theorem C01_init_pure (f : σ → T × σ) (s : σ) :
    (Vec.initM (Eff.ofStep f)).exec s = (.ok (Vec.initS f s : Vec T N × σ).1, (Vec.initS f s : Vec T N × σ).2) := by
  rw [Vec.initS_fst, Vec.initS_snd, Vec.exec_initM_ofStep']
/-- The same for `Matrix::init`: the state left by one row is the one the next row starts with. -/
theorem C01_mat_init_pure (f : σ → T × σ) (s : σ) :
    (Mat.initM (Eff.ofStep f)).exec s = (.ok (Mat.initS f s : Mat T M N × σ).1, (Mat.initS f s : Mat T M N × σ).2) := by
  have h : (Vec.initM (Eff.ofStep f) : Eff σ (Vec T N)) = Eff.ofStep (fun s => Vec.initS f s) := by
    funext s
    exact C01_init_pure f s
  unfold Mat.initM
  rw [h, exec_bind, C01_init_pure]
  rfl
theorem C01_mat_fill (x : T) (i : Nat) (hi : i < M) (j : Nat) (hj : j < N) : (Mat.fill x : Mat T M N)[i][j] = x := by simp
theorem C01_mat_default [Inhabited T] (i : Nat) (hi : i < M) (j : Nat) (hj : j < N) :
    (Mat.default : Mat T M N)[i][j] = default := by simp

example : (Mat.initM (M := 2) (N := 2) (Eff.ofStep fun n : Nat => (n * n, n + 1))).exec 0 =
    (.ok ⟨⟨#v[⟨#v[0, 1]⟩, ⟨#v[4, 9]⟩]⟩⟩, 4) := by decide

/-! ## C02 `Matrix::try_from_iter` -/

theorem takeN_add [Monad m] [LawfulMonad m] (next : m (Option T)) (a b : Nat) :
    takeN next (a + b) = takeN next a >>= fun x =>
      if x.length = a then takeN next b >>= fun y => pure (x ++ y) else pure x := by
  induction a with
  | zero => simp [takeN]
  | succ a ih =>
    rw [Nat.add_right_comm]
    simp only [takeN, bind_assoc]
    congr 1; funext o
    cases o with
    | none => simp
    | some x =>
      simp only [ih, bind_assoc, pure_bind]
      congr 1; funext l
      by_cases h : l.length = a <;> simp [h]

theorem takeN_groups [Monad m] [LawfulMonad m] [MonadExcept Fault m] (next : m (Option T)) (k : Nat) :
    (fun rows : List (Vec T N) => if rows.length = k then some (rows.flatMap Vec.toList) else none) <$>
        takeN (Vec.groupNext N next) k =
      (fun l : List T => if l.length = k * N then some l else none) <$> takeN next (k * N) := by
  induction k with
  | zero => simp [takeN]
  | succ k ih =>
    rw [Nat.succ_mul, Nat.add_comm (k * N) N, takeN_add next N, takeN]
    simp only [Vec.groupNext, Vec.tryFromIter_eq, Vec.takeN_length next N, bind_assoc,
      ← bind_pure_comp, pure_bind]
    congr 1; funext ⟨l, hl⟩
    by_cases h : l.length = N
    · simp only [h, if_true, dite_true, bind_assoc, pure_bind]
      have := congrArg (fun x => (Option.map (fun r => l ++ r)) <$> x) ih
      simp only [Vec.groupNext, Vec.tryFromIter_eq, Vec.takeN_length next N, ← bind_pure_comp, bind_assoc,
        pure_bind] at this ⊢
      convert this using 3 with rows l2
      · by_cases h2 : rows.length = k <;> simp [h2]
      · by_cases h2 : l2.length = k * N <;> simp [h2, h]
    · have h2 : l.length ≠ N + k * N := by
        have := Nat.zero_le (k * N); omega
      simp [h, h2]

/-- `Matrix::try_from_iter` pulls at most `M·N` items, stopping at the first `None`, and returns the matrix with exactly these
items in row-major order iff there are `M·N` of them; no other effect, no fault of its own, for every iterator. -/
theorem C02_mat_try_from_iter_refines [Monad m] [LawfulMonad m] [MonadExcept Fault m] (next : m (Option T)) :
    (Option.map rowMajor) <$> (Mat.tryFromIter next : m (Option (Mat T M N))) =
      (fun l => if l.length = M * N then some l else none) <$> takeN next (M * N) := by
  rw [← takeN_groups]
  unfold Mat.tryFromIter Mat.tryFromIterVec
  rw [Vec.tryFromIter_eq]
  simp only [← bind_pure_comp, bind_assoc, pure_bind]
  congr 1; funext rows
  by_cases h : rows.length = M
  · simp [h, Mat.fromVecVec, Mat.rowMajor_mk]
  · simp [h]

example : (Mat.tryFromIter (M := 2) (N := 2) listNext).exec [1, 2, 3, 4, 5] =
    (.ok (some ⟨⟨#v[⟨#v[1, 2]⟩, ⟨#v[3, 4]⟩]⟩⟩), [5]) := by decide

/-! ## C04 `Matrix::map`, `for_each` -/

/-- `map(f)` calls `f` on every element once, in row-major order, and puts the results in the same positions – for any
closure with effects. -/
theorem C04_mat_map_calls [Monad m] [LawfulMonad m] (f : T → m U) (A : Mat T M N) :
    rowMajor <$> A.mapM f = (rowMajor A).mapM f := Mat.rowMajor_mapM f A
theorem C04_mat_map_get (f : T → U) (A : Mat T M N) (i : Nat) (hi : i < M) (j : Nat) (hj : j < N) :
    (A.map f)[i][j] = f A[i][j] := by simp
theorem C04_mat_map_log (f : T → U) (A : Mat T M N) :
    (A.mapM (logged f)).exec [] = (.ok (A.map f), rowMajor A) := by
  have h := congrArg (fun x => Eff.exec x []) (Mat.rowMajor_mapM (logged f) A)
  simp only [exec_map, mapM_logged, List.nil_append] at h
  rcases hr : (A.mapM (logged f)).exec [] with ⟨e | B, s⟩
  · rw [hr] at h; simp at h
  · rw [hr] at h
    simp only [Res.map_ok, Prod.mk.injEq, Except.ok.injEq] at h
    obtain ⟨h1, rfl⟩ := h
    have : B = A.map f := by
      apply Mat.rowMajor_inj
      rw [h1]
      simp [rowMajor, List.map_flatMap, Function.comp_def]
    rw [this]
theorem C04_mat_for_each_log (A : Mat T M N) :
    (A.forEachM (logged fun _ => ())).exec [] = (.ok (), rowMajor A) := by
  rw [Mat.forEachM_rowMajor]
  have : ∀ (l log : List T), (l.foldlM (fun (_ : Unit) x => logged (fun _ => ()) x) ()).exec log = (.ok (), log ++ l) := by
    intro l; induction l with
    | nil => intro log; simp
    | cons x l ih =>
      intro log
      rw [List.foldlM_cons, exec_bind]
      simp only [logged, exec_ofStep]
      rw [show (l.foldlM (fun (_ : Unit) x => Eff.ofStep fun log => ((), log ++ [x])) () : Eff (List T) Unit) =
        l.foldlM (fun (_ : Unit) x => logged (fun _ => ()) x) () from rfl, ih]
      simp
  simpa using this (rowMajor A) []

/-! ## C05 `Matrix::zip`, `unzip` -/

theorem C05_mat_zip_get (A : Mat T M N) (B : Mat U M N) (i : Nat) (hi : i < M) (j : Nat) (hj : j < N) :
    (A.zip B)[i][j] = (A[i][j], B[i][j]) := by simp
theorem C05_mat_unzip_zip (A : Mat T M N) (B : Mat U M N) : (A.zip B).unzip = (A, B) := by
  apply Prod.ext <;> apply Mat.ext_getElem <;> intro i hi j hj <;> simp
theorem C05_mat_zip_unzip (A : Mat (T × U) M N) : A.unzip.1.zip A.unzip.2 = A := by
  apply Mat.ext_getElem; intro i hi j hj; simp

/-! ## C07 indexing -/

theorem C07_mat_index_get (A : Mat T M N) (i j : Nat) (hi : i < M) (hj : j < N) : A.index (i, j) = .ok A[i][j] :=
  Mat.index_lt A i j hi hj
theorem C07_mat_index_panics (A : Mat T M N) (i j : Nat) : (∃ e, A.index (i, j) = .error e) ↔ M ≤ i ∨ N ≤ j := by
  by_cases h : i < M ∧ j < N
  · simp [Mat.index_lt A i j h.1 h.2]; omega
  · have : M ≤ i ∨ N ≤ j := by omega
    simp [Mat.index_ge A i j this, this]
theorem C07_mat_index_set_panics (A : Mat T M N) (i j : Nat) (x : T) :
    (∃ e, A.indexSet (i, j) x = .error e) ↔ M ≤ i ∨ N ≤ j := by
  by_cases hi : i < M
  · by_cases hj : j < N
    · obtain ⟨B, h, _⟩ := Mat.indexSet_lt A i j hi hj x
      simp [h]; omega
    · simp only [Mat.indexSet, Vec.index_lt _ _ hi, Vec.indexSet, hj, Res.bind_ok, dite_false, Res.bind_error]
      simp; omega
  · simp only [Mat.indexSet, Vec.index_ge _ _ (Nat.not_lt.mp hi), Res.bind_error]
    simp; omega
/-- Read-back and frame: after `A[(i, j)] = x` position `(i, j)` reads `x`, every other position reads as before. -/
theorem C07_mat_index_set (A B : Mat T M N) (i j : Nat) (x : T) (h : A.indexSet (i, j) x = .ok B) (a b : Nat) :
    B.index (a, b) = if (a, b) = (i, j) then .ok x else A.index (a, b) := by
  have hp : ¬ (M ≤ i ∨ N ≤ j) := by
    intro hp
    obtain ⟨e, he⟩ := (C07_mat_index_set_panics A i j x).mpr hp
    rw [h] at he; simp at he
  obtain ⟨C, h1, h2⟩ := Mat.indexSet_lt A i j (by omega) (by omega) x
  rw [h, Except.ok.injEq] at h1; subst h1
  by_cases hab : a < M ∧ b < N
  · rw [Mat.index_lt B a b hab.1 hab.2, Mat.index_lt A a b hab.1 hab.2, h2 a hab.1 b hab.2]
    simp only [Prod.mk.injEq]
    split <;> rfl
  · rw [Mat.index_ge B a b (by omega), Mat.index_ge A a b (by omega), if_neg]
    simp only [Prod.mk.injEq]; omega
theorem C07_mat_get_unchecked (A : Mat T M N) (i j : Nat) :
    (i < M → j < N → A.getUnchecked i j = A.index (i, j)) ∧ (M ≤ i ∨ N ≤ j → A.getUnchecked i j = .error .ub) := by
  constructor
  · intro hi hj
    simp [Mat.getUnchecked, Mat.index, Vec.getUnchecked, Vec.index, hi, hj]
  · intro h
    by_cases hi : i < M
    · have hj : ¬ j < N := by omega
      simp [Mat.getUnchecked, Vec.getUnchecked, hi, hj]
    · simp [Mat.getUnchecked, Vec.getUnchecked, hi]
theorem C07_mat_set_unchecked (A : Mat T M N) (i j : Nat) (x : T) (hi : i < M) (hj : j < N) :
    A.setUnchecked i j x = A.indexSet (i, j) x := by
  simp [Mat.setUnchecked, Mat.indexSet, Vec.getUnchecked, Vec.index, Vec.setUnchecked, Vec.indexSet, hi, hj]

example : (⟨⟨#v[⟨#v[1, 2]⟩, ⟨#v[3, 4]⟩]⟩⟩ : Mat Nat 2 2).indexSet (1, 0) 7 =
    .ok ⟨⟨#v[⟨#v[1, 2]⟩, ⟨#v[7, 4]⟩]⟩⟩ := by decide

/-! ## C08 `Matrix::indices` -/

theorem C08_mat_indices_ok : (Mat.indicesR : Res (Mat (Nat × Nat) M N)) = .ok Mat.indices := Res.ok_get _ _
theorem C08_mat_indices (i : Nat) (hi : i < M) (j : Nat) (hj : j < N) :
    (Mat.indices : Mat (Nat × Nat) M N)[i][j] = (i, j) := by simp

example : (Mat.indicesR : Res (Mat (Nat × Nat) 2 1)) = .ok ⟨⟨#v[⟨#v[(0, 0)]⟩, ⟨#v[(1, 0)]⟩]⟩⟩ := by decide

/-! ## C09 conversions -/

theorem C09_mat_roundtrip (A : Mat T M N) (v : Vec (Vec T N) M) (a : Vector (Vec T N) M) (b : Vector (Vector T N) M) :
    Mat.fromVecVec A.intoVecVec = A ∧ (Mat.fromVecVec v).intoVecVec = v ∧
    Mat.fromArrVec A.intoArrVec = A ∧ (Mat.fromArrVec a).intoArrVec = a ∧
    Mat.fromArrArr A.intoArrArr = A ∧ (Mat.fromArrArr b).intoArrArr = b := by
  refine ⟨rfl, rfl, rfl, rfl, ?_, ?_⟩
  · apply Mat.ext_getElem; intro i hi j hj
    show (((Vec.fromArray (A.intoVecVec.map Vec.intoArray).intoArray).map Vec.fromArray)[i])[j] = _
    simp only [Vec.getElem_map]
    show ((A.intoVecVec.map Vec.intoArray)[i])[j] = _
    simp only [Vec.getElem_map]; rfl
  · apply Vector.ext; intro i hi
    show ((((Vec.fromArray b).map Vec.fromArray)).map Vec.intoArray)[i] = _
    simp only [Vec.getElem_map]; rfl
theorem C09_mat_positions (A : Mat T M N) (v : Vec (Vec T N) M) (a : Vector (Vec T N) M) (b : Vector (Vector T N) M)
    (i : Nat) (hi : i < M) (j : Nat) (hj : j < N) :
    (Mat.fromVecVec v)[i][j] = v[i][j] ∧ (Mat.fromArrVec a)[i][j] = a[i][j] ∧ (Mat.fromArrArr b)[i][j] = b[i][j] ∧
    A.intoVecVec[i][j] = A[i][j] ∧ A.intoArrVec[i][j] = A[i][j] ∧ A.intoArrArr[i][j] = A[i][j] := by
  refine ⟨rfl, rfl, ?_, rfl, rfl, ?_⟩
  · show (((Vec.fromArray b).map Vec.fromArray)[i])[j] = _
    simp only [Vec.getElem_map]; rfl
  · show ((A.intoVecVec.map Vec.intoArray)[i])[j] = _
    simp only [Vec.getElem_map]; rfl

/-! ## C10 fallible slice conversions -/

/-- `Matrix::try_from(&[T])` never panics; it is `Ok` exactly for slices of length `M·N`, and then element `(i, j)` is
`slice[i·N + j]`. -/
theorem C10_mat_try_from_slice (s : List T) :
    (s.length ≠ M * N → (Mat.tryFromSlice s : Res (Option (Mat T M N))) = .ok none) ∧
    (s.length = M * N → ∃ A : Mat T M N, Mat.tryFromSlice s = .ok (some A) ∧
      ∀ i (hi : i < M) j (hj : j < N), s[i * N + j]? = some A[i][j]) := by
  unfold Mat.tryFromSlice
  refine ⟨fun h => by rw [if_neg h]; rfl, fun h => ?_⟩
  obtain ⟨A, h1, h2⟩ := Mat.exec_tryFromIter_list s (M := M) (N := N) (by omega)
  refine ⟨A, ?_, h2⟩
  rw [if_pos h, h1]; rfl
theorem C10_mat_try_from_slice_of_vectors (s : List (Vec T N)) :
    (s.length ≠ M → (Mat.tryFromSliceVec s : Res (Option (Mat T M N))) = .ok none) ∧
    (s.length = M → ∃ A : Mat T M N, Mat.tryFromSliceVec s = .ok (some A) ∧ ∀ i (hi : i < M), s[i]? = some A[i]) := by
  unfold Mat.tryFromSliceVec
  refine ⟨fun h => by rw [if_neg h]; rfl, fun h => ?_⟩
  have h1 := Vec.exec_tryFromIter_some (takeN_listNext M s) (by simp [h])
  refine ⟨⟨Vec.ofList (s.take M) (by simp [h])⟩, ?_, ?_⟩
  · rw [if_pos h]
    unfold Mat.tryFromIterVec
    rw [exec_bind, h1]; rfl
  · intro i hi
    rw [List.getElem?_eq_getElem (by omega)]
    simp

example : (Mat.tryFromSlice [1, 2, 3, 4, 5, 6] : Res (Option (Mat Nat 2 3))) =
    .ok (some ⟨⟨#v[⟨#v[1, 2, 3]⟩, ⟨#v[4, 5, 6]⟩]⟩⟩) := by decide
example : (Mat.tryFromSlice [1, 2, 3, 4, 5] : Res (Option (Mat Nat 2 3))) = .ok none := by decide

/-! ## C26 iteration order -/

/-- `iter()` / `into_iter()` on a matrix with at least one row: the iterator yields every element once in row-major order
and then `None`. -/
theorem C26_iter (hM : 0 < M) (A : Mat T M N) :
    ∃ st, Mat.iterNew A = .ok st ∧ Yields Mat.iterNext st (rowMajor A) := Mat.iterNew_yields hM A
/-- `iter_mut()` yields references to the positions `(0,0), (0,1), …` in row-major order, each once. -/
theorem C26_iter_mut (hM : 0 < M) (A : Mat T M N) :
    ∃ st, Mat.iterMutNew A = .ok st ∧
      Yields (Mat.iterMutNext N) st ((List.range M).flatMap fun i => (List.range N).map fun j => (i, j)) :=
  Mat.iterMutNew_yields hM A
/-- `iter()`, `into_iter()` and `iter_mut()` panic exactly when the matrix has no rows. -/
theorem C26_iter_panics (A : Mat T M N) :
    ((∃ e, Mat.iterNew A = .error e) ↔ M = 0) ∧ ((∃ e, Mat.iterMutNew A = .error e) ↔ M = 0) := by
  cases M with
  | zero => exact ⟨by simp [Mat.iterNew_zero], by simp [Mat.iterMutNew_zero]⟩
  | succ n =>
    obtain ⟨s, h, _⟩ := Mat.iterNew_yields (Nat.succ_pos n) A
    obtain ⟨s', h', _⟩ := Mat.iterMutNew_yields (Nat.succ_pos n) A
    exact ⟨by simp [h], by simp [h']⟩
theorem C26_fold (f : S → T → S) (s : S) (A : Mat T M N) : A.fold f s = (rowMajor A).foldl f s := Mat.fold_eq f s A
theorem C26_fold_calls [Monad m] [LawfulMonad m] (f : S → T → m S) (s : S) (A : Mat T M N) :
    A.foldM f s = (rowMajor A).foldlM f s := Mat.foldM_rowMajor f s A
theorem C26_fold_first (f : T → T → T) (A : Mat T M N) (hM : 0 < M) (hN : 0 < N) :
    ∃ x l, rowMajor A = x :: l ∧ A.foldFirstR f = .ok (l.foldl f x) := by
  refine ⟨_, _, ?_, Mat.foldFirstR_ok hM hN f A⟩
  obtain ⟨n, rfl⟩ : ∃ n, M = n + 1 := ⟨M - 1, by omega⟩
  obtain ⟨k, rfl⟩ : ∃ k, N = k + 1 := ⟨N - 1, by omega⟩
  rw [rowMajor, List.finRange_succ (n := n), List.flatMap_cons, List.finRange_succ (n := k)]
  simp
theorem C26_fold_first_panics (f : T → T → T) (A : Mat T M N) :
    (∃ e, A.foldFirstR f = .error e) ↔ M = 0 ∨ N = 0 := by
  by_cases hM : 0 < M
  · by_cases hN : 0 < N
    · rw [Mat.foldFirstR_ok hM hN]; simp; omega
    · have : N = 0 := by omega
      subst this
      obtain ⟨n, rfl⟩ : ∃ n, M = n + 1 := ⟨M - 1, by omega⟩
      simp only [or_true, iff_true]
      refine ⟨.unwrapNone, ?_⟩
      simp [Mat.foldFirstR, Mat.foldFirstM, Vec.toList_cons, Vec.foldFirstM, Vec.toList_zero]
  · have : M = 0 := by omega
    subst this
    simp only [true_or, iff_true]
    exact ⟨.unwrapNone, by simp [Mat.foldFirstR, Mat.foldFirstM, Vec.toList_zero]⟩
/-- `scan` calls the closure on the elements in row-major order, threading its state across the rows. -/
theorem C26_scan (f : S → T → Eff σ (U × S)) (A : Mat T M N) (s : S) :
    rowMajor <$> A.scanE s f = scanCalls f s (rowMajor A) := Mat.rowMajor_scanE f A s

example : rowMajor (⟨⟨#v[⟨#v[1, 2, 3]⟩, ⟨#v[4, 5, 6]⟩]⟩⟩ : Mat Nat 2 3) = [1, 2, 3, 4, 5, 6] := by decide

/-! ## C27 `FlatIter` -/

/-- Exact behaviour of `FlatIter::new(it)`: it is `None` iff `it` is empty; otherwise it yields the first sub-sequence
followed by the sub-sequences before the **first empty one among the later ones**. -/
theorem C27_flat_iter_exact {A : Type} {next : Eff σ (Option A)} {into : A → τ} {sub : Eff τ (Option T)} {items : A → List T}
    (hitems : ∀ a, Yields sub (into a) (items a)) {s : σ} {as : List A} (hs : Yields next s as) :
    (as = [] → flatNew next into s = .ok none) ∧
    (∀ a rest, as = a :: rest → ∃ st, flatNew next into s = .ok (some st) ∧
      Yields (flatNext next into sub) st (items a ++ (rest.takeWhile fun b => !(items b).isEmpty).flatMap items)) := by
  cases hs with
  | done h => exact ⟨fun _ => by simp [flatNew, h], by simp⟩
  | step h t =>
    refine ⟨by simp, ?_⟩
    rintro a rest e
    obtain ⟨rfl, rfl⟩ := List.cons.inj e
    exact ⟨_, by simp [flatNew, h], yields_flat hitems t (hitems _)⟩
/-- If no later sub-sequence is empty, `FlatIter` yields the concatenation of all sub-sequences. -/
theorem C27_flat_iter {A : Type} {next : Eff σ (Option A)} {into : A → τ} {sub : Eff τ (Option T)} {items : A → List T}
    (hitems : ∀ a, Yields sub (into a) (items a)) {s : σ} {a : A} {rest : List A} (hs : Yields next s (a :: rest))
    (hne : ∀ b ∈ rest, items b ≠ []) :
    ∃ st, flatNew next into s = .ok (some st) ∧ Yields (flatNext next into sub) st ((a :: rest).flatMap items) := by
  obtain ⟨st, h1, h2⟩ := (C27_flat_iter_exact hitems hs).2 a rest rfl
  refine ⟨st, h1, ?_⟩
  rw [List.takeWhile_eq_self_iff.mpr (by simpa using hne)] at h2
  simpa using h2
/-- The general claim is false: the iterator over `[[1], [], [2]]` reports its end after `1` and never before yields `2`. -/
theorem C27_flat_iter_refuted :
    ∃ st, flatNew (listNext (T := List Nat)) id [[1], [], [2]] = .ok (some st) ∧
      Yields (flatNext listNext id (listNext (T := Nat))) st [1] ∧
      ¬ Yields (flatNext listNext id (listNext (T := Nat))) st [1, 2] := by
  obtain ⟨st, h1, h2⟩ := (C27_flat_iter_exact (next := listNext (T := List Nat)) (into := id) (sub := listNext (T := Nat))
    (items := id) (fun a => yields_listNext a) (yields_listNext [[1], [], [2]])).2 [1] [[], [2]] rfl
  refine ⟨st, h1, by simpa using h2, fun h => ?_⟩
  have := yields_unique h h2
  simp at this

example : ∃ st, flatNew (listNext (T := List Nat)) id [[], [1, 2], [3]] = .ok (some st) ∧
    Yields (flatNext listNext id (listNext (T := Nat))) st [1, 2, 3] := by
  simpa using C27_flat_iter (next := listNext (T := List Nat)) (into := id) (sub := listNext (T := Nat))
    (items := id) (fun a => yields_listNext a) (yields_listNext [[], [1, 2], [3]]) (by simp)

/-! ## C28 `transpose` -/

/-- `transpose` returns (no uninitialised cell is ever assumed initialised). -/
theorem C28_transpose_ok (A : Mat T M N) : Mat.transposeR A = .ok A.transpose := Res.ok_get _ _
theorem C28_transpose_get (A : Mat T M N) (i : Nat) (hi : i < M) (j : Nat) (hj : j < N) :
    A.transpose[j][i] = A[i][j] := by simp
theorem C28_transpose_involutive (A : Mat T M N) : A.transpose.transpose = A := by
  apply Mat.ext_getElem; intro i hi j hj; simp
/-- When the loops of `transpose` end, every source cell has been moved out (is uninitialised) and every destination cell
holds the source element of the mirrored position: each element is moved exactly once. -/
theorem C28_transpose_moves (A : Mat T M N) : ∃ st, Mat.transposeLoop A = .ok st ∧
    (∀ i (hi : i < M) j (hj : j < N), st.1[i][j] = none ∧ st.2[j][i] = some A[i][j]) := by
  refine ⟨_, Mat.transposeLoop_eq A, ?_⟩
  intro i hi j hj
  simp [Mat.trSt, Mat.movedBefore]

example : (⟨⟨#v[⟨#v[1, 2, 3]⟩, ⟨#v[4, 5, 6]⟩]⟩⟩ : Mat Nat 2 3).transposeR =
    .ok ⟨⟨#v[⟨#v[1, 4]⟩, ⟨#v[2, 5]⟩, ⟨#v[3, 6]⟩]⟩⟩ := by
  rw [C28_transpose_ok]; congr 1; apply Mat.ext_getElem; intro i hi j hj; rw [Mat.getElem_transpose]
  match i, j, hi, hj with
  | 0, 0, _, _ | 0, 1, _, _ | 1, 0, _, _ | 1, 1, _, _ | 2, 0, _, _ | 2, 1, _, _ => rfl

/-! ## C29 `row`, `col` -/

theorem C29_row (A : Mat T M N) (i : Nat) (hi : i < M) :
    ∃ v, A.rowR i = .ok v ∧ ∀ j (hj : j < N), v[j] = A[i][j] := ⟨_, Mat.rowR_lt A i hi, fun _ _ => rfl⟩
theorem C29_row_panics (A : Mat T M N) (i : Nat) : (∃ e, A.rowR i = .error e) ↔ M ≤ i := C07_index_panics _ _
theorem C29_col (A : Mat T M N) (j : Nat) (hj : j < N) :
    ∃ v, A.colR j = .ok v ∧ ∀ i (hi : i < M), v[i] = A[i][j] := ⟨_, Mat.colR_lt A j hj, fun _ _ => by simp⟩
theorem C29_col_panics (A : Mat T M N) (j : Nat) : (∃ e, A.colR j = .error e) ↔ N ≤ j ∧ 0 < M := by
  by_cases hj : j < N
  · simp [Mat.colR_lt A j hj]; omega
  · by_cases hM : 0 < M
    · have : A.colR j = .error .indexOob := by
        unfold Mat.colR
        refine Mat.vec_mapM_error 0 hM (Mat.index_ge _ _ _ (.inr (by omega))) fun i hi => .inr (Mat.index_ge _ _ _ (.inr (by omega)))
      simp [this, hM]; omega
    · have : M = 0 := by omega
      subst this
      have : A.colR j = .ok ⟨#v[]⟩ := Mat.vec_mapM_ok (by omega)
      simp [this]

example : (⟨⟨#v[⟨#v[1, 2, 3]⟩, ⟨#v[4, 5, 6]⟩]⟩⟩ : Mat Nat 2 3).colR 1 = .ok ⟨#v[2, 5]⟩ := by decide

/-! ## further cases: the hypotheses are satisfiable -/
example := C07_mat_index_set (Mat.fromArrArr #v[#v[1, 2], #v[3, 4], #v[5, 6]] : Mat Nat 3 2) (Mat.fromArrArr #v[#v[1, 2], #v[3, 9], #v[5, 6]]) 1 1 9 (by decide)
example := C26_fold_first (fun a b => 10 * a + b) (Mat.fromArrArr #v[#v[1, 2], #v[3, 4], #v[5, 6]] : Mat Nat 3 2) (by decide) (by decide)
example := C26_iter (by decide) (Mat.fromArrArr #v[#v[1, 2], #v[3, 4], #v[5, 6]] : Mat Nat 3 2)
example := C26_iter_mut (by decide) (Mat.fromArrArr #v[#v[1, 2], #v[3, 4], #v[5, 6]] : Mat Nat 3 2)

example := (C27_flat_iter_exact (next := listNext) (into := Vec.toList) (sub := listNext) (items := fun v : Vec Nat 2 => v.toList)
  (fun a => yields_listNext _) (yields_listNext [⟨#v[1, 2]⟩, ⟨#v[3, 4]⟩])).2 _ _ rfl

end Vecmat
