import Verif.Model.MatrixOps
import Mathlib.Data.List.TakeWhile
/-! Helper lemmas: matrix operators. -/
namespace Vecmat
open Spec
variable {T U S σ : Type} {L M N : Nat}
namespace Mat

@[simp] theorem getElem_indices (i : Nat) (hi : i < M) (j : Nat) (hj : j < N) :
    (indices : Mat (Nat × Nat) M N)[i][j] = (i, j) := by
  obtain ⟨A, h1, h2⟩ := indicesR_ok (M := M) (N := N)
  rw [getElem_congr_mat (show indices = A from Res.get_eq h1 _) i hi j hj, h2]
@[simp] theorem getElem_transpose (A : Mat T M N) (i : Nat) (hi : i < N) (j : Nat) (hj : j < M) :
    A.transpose[i][j] = A[j][i] := by
  obtain ⟨B, h1, h2⟩ := transposeR_ok A
  rw [getElem_congr_mat (show A.transpose = B from Res.get_eq h1 _) i hi j hj, h2 j hj i hi]

theorem initS_const (x : T) (i : Nat) (hi : i < M) (j : Nat) (hj : j < N) :
    (initS (M := M) (N := N) (fun _ : Unit => (x, ())) ()).1[i][j] = x := by
  show (Vec.initS (fun s => Vec.initS (N := N) (fun _ : Unit => (x, ())) s) ()).1[i][j] = x
  have e : (fun s : Unit => Vec.initS (N := N) (fun _ : Unit => (x, ())) s) = fun _ : Unit => (Vec.fill x, ()) := by
    funext s; rfl
  have h := Vec.getElem_fill (N := M) (Vec.fill x : Vec T N) i hi
  have h2 : (Vec.initS (fun s => Vec.initS (N := N) (fun _ : Unit => (x, ())) s) ()).1[i] = (Vec.fill x : Vec T N) := by
    rw [← h]; simp only [e]; rfl
  rw [h2]; simp

@[simp] theorem getElem_fill (x : T) (i : Nat) (hi : i < M) (j : Nat) (hj : j < N) : (fill x : Mat T M N)[i][j] = x :=
  initS_const x i hi j hj
@[simp] theorem getElem_default [Inhabited T] (i : Nat) (hi : i < M) (j : Nat) (hj : j < N) :
    (default : Mat T M N)[i][j] = Inhabited.default := initS_const _ i hi j hj
@[simp] theorem getElem_zero [Zero T] (i : Nat) (hi : i < M) (j : Nat) (hj : j < N) : (0 : Mat T M N)[i][j] = 0 :=
  initS_const _ i hi j hj

section ops
variable (A B : Mat T M N) (i : Nat) (hi : i < M) (j : Nat) (hj : j < N)
@[simp] theorem getElem_neg [Neg T] : (-A)[i][j] = -A[i][j] := by show (A.map fun x => -x)[i][j] = _; simp
@[simp] theorem getElem_add [Add T] : (A + B)[i][j] = A[i][j] + B[i][j] := by
  show ((A.zip B).map fun p => p.1 + p.2)[i][j] = _; simp
@[simp] theorem getElem_sub [Sub T] : (A - B)[i][j] = A[i][j] - B[i][j] := by
  show ((A.zip B).map fun p => p.1 - p.2)[i][j] = _; simp
@[simp] theorem getElem_mul [Mul T] : (A * B)[i][j] = A[i][j] * B[i][j] := by
  show ((A.zip B).map fun p => p.1 * p.2)[i][j] = _; simp
@[simp] theorem getElem_div [Div T] : (A / B)[i][j] = A[i][j] / B[i][j] := by
  show ((A.zip B).map fun p => p.1 / p.2)[i][j] = _; simp
@[simp] theorem getElem_mod [Mod T] : (A % B)[i][j] = A[i][j] % B[i][j] := by
  show ((A.zip B).map fun p => p.1 % p.2)[i][j] = _; simp
@[simp] theorem getElem_mulS [Mul T] (a : T) : (A.mulS a)[i][j] = A[i][j] * a := by simp [mulS]
@[simp] theorem getElem_divS [Div T] (a : T) : (A.divS a)[i][j] = A[i][j] / a := by simp [divS]
@[simp] theorem getElem_remS [Mod T] (a : T) : (A.remS a)[i][j] = A[i][j] % a := by simp [remS]
@[simp] theorem getElem_not [Complement T] : A.not[i][j] = ~~~A[i][j] := by simp [Mat.not]
@[simp] theorem getElem_bitand [AndOp T] : (A.bitand B)[i][j] = A[i][j] &&& B[i][j] := by simp [bitand]
@[simp] theorem getElem_bitor [OrOp T] : (A.bitor B)[i][j] = A[i][j] ||| B[i][j] := by simp [bitor]
@[simp] theorem getElem_bitxor [XorOp T] : (A.bitxor B)[i][j] = A[i][j] ^^^ B[i][j] := by simp [bitxor]
end ops

/-! ### iterators -/

theorem flat_takeWhile {A : Type} {items : A → List T} (N : Nat) (as : List A) (h : ∀ a ∈ as, (items a).length = N) :
    (as.takeWhile fun a => !(items a).isEmpty).flatMap items = as.flatMap items := by
  by_cases hN : N = 0
  · have : ∀ a ∈ as, items a = [] := fun a ha => List.length_eq_zero_iff.mp (by rw [h a ha, hN])
    have h2 : as.flatMap items = [] := by simpa using this
    rw [h2]
    simp only [List.flatMap_eq_nil_iff]
    intro a ha; exact this a (List.takeWhile_subset _ ha)
  · congr 1
    apply List.takeWhile_eq_self_iff.mpr
    intro a ha
    have := h a ha
    cases hi : items a with
    | nil => rw [hi] at this; simp at this; omega
    | cons => simp

theorem iterNew_zero (A : Mat T 0 N) : iterNew A = .error .unwrapNone := by
  simp [iterNew, flatNew, Vec.toList_zero]
theorem iterMutNew_zero (A : Mat T 0 N) : iterMutNew A = .error .unwrapNone := by
  simp [iterMutNew, flatNew]

/-- `iter()` / `into_iter()` on a matrix with at least one row yields all elements in row-major order. -/
theorem iterNew_yields (hM : 0 < M) (A : Mat T M N) :
    ∃ st, iterNew A = .ok st ∧ Yields iterNext st (rowMajor A) := by
  obtain ⟨n, rfl⟩ : ∃ n, M = n + 1 := ⟨M - 1, by omega⟩
  rw [rowMajor_eq]
  have e := Vec.toList_cons A.data
  generalize hr : (List.ofFn fun i : Fin n => A.data[i.1 + 1]) = rest at e
  refine ⟨(rest, A.data[0].toList), ?_, ?_⟩
  · simp only [iterNew, flatNew, e]; simp
  · rw [e, List.flatMap_cons, ← flat_takeWhile N rest (fun a _ => by simp)]
    exact yields_flat (fun a => yields_listNext a.toList) (yields_listNext rest) (yields_listNext _)

/-- All positions of an `M × N` matrix in row-major order. -/
def positions (M N : Nat) : List (Nat × Nat) := (List.range M).flatMap fun i => (List.range N).map fun j => (i, j)

theorem iterMutNew_yields (hM : 0 < M) (A : Mat T M N) :
    ∃ st, iterMutNew A = .ok st ∧ Yields (iterMutNext N) st (positions M N) := by
  obtain ⟨n, rfl⟩ : ∃ n, M = n + 1 := ⟨M - 1, by omega⟩
  refine ⟨((List.range n).map Nat.succ, (List.range N).map fun j => (0, j)), ?_, ?_⟩
  · simp [iterMutNew, flatNew, List.range_succ_eq_map]
  · rw [positions, List.range_succ_eq_map, List.flatMap_cons,
      ← flat_takeWhile N ((List.range n).map Nat.succ) (fun a _ => by simp)]
    exact yields_flat (items := fun i => (List.range N).map fun j => (i, j))
      (fun a => yields_listNext _) (yields_listNext _) (yields_listNext _)

theorem length_positions : (positions M N).length = M * N := by simp [positions, List.length_flatMap]

theorem mem_positions (p : Nat × Nat) : p ∈ positions M N ↔ p.1 < M ∧ p.2 < N := by
  obtain ⟨a, b⟩ := p
  simp [positions]

theorem nodup_positions : (positions M N).Nodup := by
  unfold positions
  rw [List.nodup_flatMap]
  constructor
  · intro i _
    exact (List.nodup_range).map fun a b h => (Prod.mk.inj h).2
  · apply List.Pairwise.imp _ (List.nodup_range (n := M))
    intro a b hab x hx hy
    simp only [List.mem_map] at hx hy
    obtain ⟨_, _, rfl⟩ := hx
    obtain ⟨_, _, h⟩ := hy
    exact hab (Prod.mk.inj h).1.symm

theorem zip_positions (B : Mat U M N) :
    (positions M N).zip (rowMajor B) =
      (List.finRange M).flatMap fun i => (List.finRange N).map fun j => ((i.1, j.1), B[i.1][j.1]) := by
  have h1 : positions M N = (List.finRange M).flatMap fun i => (List.finRange N).map fun j => (i.1, j.1) := by
    unfold positions
    rw [← List.map_coe_finRange_eq_range (n := N), ← List.map_coe_finRange_eq_range (n := M), List.flatMap_map]
    simp only [List.map_map, Function.comp_def]
  rw [h1, rowMajor]
  generalize List.finRange M = l
  induction l with
  | nil => rfl
  | cons x l ih =>
    simp only [List.flatMap_cons]
    rw [List.zip_append (by simp), ih]
    congr 1
    rw [List.zip_map']

theorem indexSet_lt (A : Mat T M N) (i j : Nat) (hi : i < M) (hj : j < N) (x : T) :
    ∃ B, A.indexSet (i, j) x = .ok B ∧
      ∀ a (ha : a < M) b (hb : b < N), B[a][b] = if a = i ∧ b = j then x else A[a][b] := by
  refine ⟨⟨⟨A.data.data.set i ⟨A[i].data.set j x⟩⟩⟩, ?_, ?_⟩
  · simp [indexSet, Vec.index_lt _ _ hi, Vec.indexSet, hi, hj, data_getElem]
  · intro a ha b hb
    show ((A.data.data.set i (⟨A[i].data.set j x⟩ : Vec T N))[a])[b] = _
    by_cases h1 : i = a
    · subst h1
      simp only [Vector.getElem_set_self, true_and]
      show (A[i].data.set j x)[b] = _
      rw [Vector.getElem_set]
      by_cases h2 : j = b
      · subst h2; simp
      · rw [if_neg h2, if_neg (fun h => h2 h.symm)]; rfl
    · rw [if_neg (fun h => h1 h.1.symm)]; simp only [Vector.getElem_set_ne _ _ h1]; rfl

theorem updAt_lt (f : T → T) (A : Mat T M N) (i j : Nat) (hi : i < M) (hj : j < N) :
    ∃ B, updAt f A (i, j) = .ok B ∧
      ∀ a (ha : a < M) b (hb : b < N), B[a][b] = if a = i ∧ b = j then f A[a][b] else A[a][b] := by
  obtain ⟨B, h1, h2⟩ := indexSet_lt A i j hi hj (f A[i][j])
  refine ⟨B, by simp [updAt, index_lt A i j hi hj, h1], ?_⟩
  intro a ha b hb
  rw [h2 a ha b hb]
  by_cases h : a = i ∧ b = j
  · obtain ⟨rfl, rfl⟩ := h; simp
  · simp [h]

/-- Updating a list of distinct positions. -/
theorem foldlM_updAt {A : Type} (f : T → A → T) (pos : A → Nat × Nat) (l : List A) (X : Mat T M N)
    (hin : ∀ a ∈ l, (pos a).1 < M ∧ (pos a).2 < N) (hnd : (l.map pos).Nodup) :
    ∃ Y, l.foldlM (fun X a => updAt (fun s => f s a) X (pos a)) X = .ok Y ∧
      ∀ i (hi : i < M) j (hj : j < N),
        (∀ a ∈ l, pos a = (i, j) → Y[i][j] = f X[i][j] a) ∧ ((∀ a ∈ l, pos a ≠ (i, j)) → Y[i][j] = X[i][j]) := by
  induction l generalizing X with
  | nil => exact ⟨X, rfl, by simp⟩
  | cons a l ih =>
    have ha := hin a (by simp)
    obtain ⟨Z, hZ1, hZ2⟩ := updAt_lt (fun s => f s a) X (pos a).1 (pos a).2 ha.1 ha.2
    simp only [List.map_cons, List.nodup_cons] at hnd
    obtain ⟨Y, hY1, hY2⟩ := ih Z (fun b hb => hin b (by simp [hb])) hnd.2
    refine ⟨Y, by rw [List.foldlM_cons, hZ1]; exact hY1, ?_⟩
    intro i hi j hj
    have hnot : pos a = (i, j) → ∀ b ∈ l, pos b ≠ (i, j) := by
      intro h b hb hbe
      exact hnd.1 (List.mem_map.mpr ⟨b, hb, by rw [hbe, h]⟩)
    constructor
    · intro b hb hbe
      rcases List.mem_cons.mp hb with rfl | hb
      · rw [(hY2 i hi j hj).2 (hnot hbe), hZ2 i hi j hj, if_pos (by rw [hbe]; simp)]
      · rw [(hY2 i hi j hj).1 b hb hbe, hZ2 i hi j hj, if_neg]
        intro h
        exact hnot (Prod.ext h.1.symm h.2.symm) b hb hbe
    · intro h
      rw [(hY2 i hi j hj).2 fun b hb => h b (by simp [hb]), hZ2 i hi j hj, if_neg]
      intro h2
      exact h a (by simp) (Prod.ext h2.1.symm h2.2.symm)

theorem assignWithR_ok (hM : 0 < M) (f : T → U → T) (A : Mat T M N) (B : Mat U M N) :
    assignWithR f A B = .ok ((A.zip B).map fun p => f p.1 p.2) := by
  obtain ⟨ia, ha1, ha2⟩ := iterMutNew_yields hM A
  obtain ⟨ib, hb1, hb2⟩ := iterNew_yields hM B
  simp only [assignWithR, ha1, hb1, Res.bind_ok]
  rw [iterFold_yields _ (yields_zip ha2 hb2) _ (by simp [fuelFor, length_positions, length_rowMajor])]
  rw [zip_positions]
  obtain ⟨Y, h1, h2⟩ := foldlM_updAt (fun s (p : (Nat × Nat) × U) => f s p.2) Prod.fst
    ((List.finRange M).flatMap fun i : Fin M => (List.finRange N).map fun j : Fin N => ((i.1, j.1), B[i.1][j.1])) A (by
      intro a ha
      simp only [List.mem_flatMap, List.mem_map] at ha
      obtain ⟨i, _, j, _, rfl⟩ := ha
      exact ⟨i.2, j.2⟩) (by
      rw [← zip_positions, List.map_fst_zip (by simp [length_positions, length_rowMajor])]
      exact nodup_positions)
  rw [h1]
  congr 1
  apply ext_getElem; intro i hi j hj
  rw [(h2 i hi j hj).1 ((i, j), B[i][j]) (by
    simp only [List.mem_flatMap, List.mem_map]
    exact ⟨⟨i, hi⟩, by simp, ⟨j, hj⟩, by simp, rfl⟩) rfl]
  simp

theorem assignEachR_ok (hM : 0 < M) (f : T → T) (A : Mat T M N) : assignEachR f A = .ok (A.map f) := by
  obtain ⟨ia, ha1, ha2⟩ := iterMutNew_yields hM A
  simp only [assignEachR, ha1, Res.bind_ok]
  rw [iterFold_yields _ ha2 _ (by simp [fuelFor, length_positions])]
  obtain ⟨Y, h1, h2⟩ := foldlM_updAt (fun s (_ : Nat × Nat) => f s) id (positions M N) A
    (fun a ha => (mem_positions a).mp ha) (by simpa using nodup_positions)
  simp only [id] at h1
  rw [h1]
  congr 1
  apply ext_getElem; intro i hi j hj
  rw [(h2 i hi j hj).1 (i, j) ((mem_positions _).mpr ⟨hi, hj⟩) rfl]
  simp

theorem all_rowMajor (p : T → Bool) (A : Mat T M N) :
    (rowMajor A).all p = true ↔ ∀ i (hi : i < M) j (hj : j < N), p A[i][j] = true := by
  simp only [rowMajor, List.all_eq_true, List.mem_flatMap, List.mem_map]
  constructor
  · intro h i hi j hj
    exact h _ ⟨⟨i, hi⟩, by simp, ⟨j, hj⟩, by simp, rfl⟩
  · rintro h x ⟨i, _, j, _, rfl⟩
    exact h i.1 i.2 j.1 j.2
theorem any_rowMajor (p : T → Bool) (A : Mat T M N) :
    (rowMajor A).any p = true ↔ ∃ i, ∃ hi : i < M, ∃ j, ∃ hj : j < N, p A[i][j] = true := by
  simp only [rowMajor, List.any_eq_true, List.mem_flatMap, List.mem_map]
  constructor
  · rintro ⟨x, ⟨i, _, j, _, rfl⟩, h⟩
    exact ⟨i.1, i.2, j.1, j.2, h⟩
  · rintro ⟨i, hi, j, hj, h⟩
    exact ⟨_, ⟨⟨i, hi⟩, by simp, ⟨j, hj⟩, by simp, rfl⟩, h⟩

theorem allR_ok (hM : 0 < M) (A : Mat Bool M N) : A.allR = .ok ((rowMajor A).all fun x => x) := by
  obtain ⟨st, h1, h2⟩ := iterNew_yields hM A
  simp only [allR, h1, Res.bind_ok]
  exact iterAll_yields _ h2 _ (by simp [fuelFor, length_rowMajor])
theorem anyR_ok (hM : 0 < M) (A : Mat Bool M N) : A.anyR = .ok ((rowMajor A).any fun x => x) := by
  obtain ⟨st, h1, h2⟩ := iterNew_yields hM A
  simp only [anyR, h1, Res.bind_ok]
  exact iterAny_yields _ h2 _ (by simp [fuelFor, length_rowMajor])
theorem isZeroR_ok [IsZero T] (hM : 0 < M) (A : Mat T M N) : A.isZeroR = .ok ((rowMajor A).all IsZero.isZero) := by
  obtain ⟨st, h1, h2⟩ := iterNew_yields hM A
  simp only [isZeroR, h1, Res.bind_ok]
  exact iterAll_yields _ h2 _ (by simp [fuelFor, length_rowMajor])

/-! ### folds -/

theorem fold_eq (f : S → T → S) (s : S) (A : Mat T M N) : A.fold f s = (rowMajor A).foldl f s := by
  unfold fold
  rw [Vec.fold_eq, rowMajor_eq, List.foldl_flatMap]
  congr 1; funext t a; rw [Vec.fold_eq]

theorem foldFirstR_ok (hM : 0 < M) (hN : 0 < N) (f : T → T → T) (A : Mat T M N) :
    A.foldFirstR f = .ok ((rowMajor A).tail.foldl f (A[0][0])) := by
  obtain ⟨n, rfl⟩ : ∃ n, M = n + 1 := ⟨M - 1, by omega⟩
  obtain ⟨k, rfl⟩ : ∃ k, N = k + 1 := ⟨N - 1, by omega⟩
  have e := Vec.toList_cons A.data
  have e2 := Vec.toList_cons A.data[0]
  generalize hr : (List.ofFn fun i : Fin n => A.data[i.1 + 1]) = rest at e
  have hff : A.data[0].foldFirstM (m := Res) (fun x y => pure (f x y)) = A.data[0].foldFirstR f := rfl
  simp only [foldFirstR, foldFirstM, e, List.head?_cons, unwrap_some, List.tail_cons]
  rw [Res.pure_eq, Res.bind_ok, hff, Vec.foldFirstR_succ, Res.bind_ok]
  rw [rowMajor_eq, e, List.flatMap_cons, e2]
  simp only [List.cons_append, List.tail_cons, List.foldl_append, List.foldl_flatMap]
  have : ∀ (l : List (Vec T (k + 1))) (s : T), (l.foldlM (fun t a => a.foldM (fun x y => pure (f x y)) t) s : Res T) =
      .ok (l.foldl (fun t a => a.toList.foldl f t) s) := by
    intro l
    induction l with
    | nil => intro s; rfl
    | cons a l ih =>
      intro s
      rw [List.foldlM_cons]
      have h2 : (a.foldM (fun x y => pure (f x y)) s : Res T) = .ok (a.toList.foldl f s) := by
        unfold Vec.foldM; rw [List.foldlM_pure]; rfl
      rw [h2, Res.bind_ok, ih]; rfl
  rw [this]
  rfl

/-! ### products -/

theorem rowR_lt (A : Mat T M N) (i : Nat) (hi : i < M) : A.rowR i = .ok A[i] := Vec.index_lt _ _ hi
theorem colR_lt (A : Mat T M N) (j : Nat) (hj : j < N) :
    A.colR j = .ok ⟨Vector.ofFn fun i => A[i.1][j]⟩ := by
  unfold colR
  apply vec_mapM_ok
  intro i hi
  rw [Vec.getElem_indices, index_lt A i j hi hj]
  simp

theorem outerR_ok [Mul T] (v : Vec T M) (w : Vec T N) :
    ∃ A, outerR v w = .ok A ∧ ∀ i (hi : i < M) j (hj : j < N), A[i][j] = v[i] * w[j] := by
  refine ⟨⟨⟨Vector.ofFn fun i => ⟨Vector.ofFn fun j => v[i.1] * w[j.1]⟩⟩⟩, ?_, by intros; simp⟩
  unfold outerR
  apply mapM_ok
  intro i hi j hj
  simp [Vec.index_lt _ _ hi, Vec.index_lt _ _ hj]

theorem dotVR_get [Mul T] [Add T] [NeZero N] (A : Mat T M N) (v : Vec T N) :
    A.dotVR v = .ok ⟨Vector.ofFn fun i => A[i.1].dot v⟩ := by
  unfold dotVR
  apply vec_mapM_ok
  intro i hi
  simp [rowR_lt A i hi, Vec.dot_ok]

/-- Column `j` as a vector (specification side). -/
def colOf (A : Mat T M N) (j : Nat) (hj : j < N) : Vec T M := ⟨Vector.ofFn fun i => A[i.1][j]⟩
@[simp] theorem getElem_colOf (A : Mat T M N) (j : Nat) (hj : j < N) (i : Nat) (hi : i < M) :
    (A.colOf j hj)[i] = A[i][j] := by simp [colOf]

theorem vDotR_get [Mul T] [Add T] [NeZero M] (v : Vec T M) (A : Mat T M N) :
    vDotR v A = .ok ⟨Vector.ofFn fun j => v.dot (A.colOf j.1 j.2)⟩ := by
  unfold vDotR
  apply vec_mapM_ok
  intro i hi
  simp [colR_lt A i hi, Vec.dot_ok, colOf]

theorem dotMR_get [Mul T] [Add T] [NeZero M] (A : Mat T L M) (B : Mat T M N) :
    A.dotMR B = .ok ⟨⟨Vector.ofFn fun i => ⟨Vector.ofFn fun j => A[i.1].dot (B.colOf j.1 j.2)⟩⟩⟩ := by
  unfold dotMR
  apply mapM_ok
  intro i hi j hj
  simp [rowR_lt A i hi, colR_lt B j hj, Vec.dot_ok, colOf]

end Mat
end Vecmat
