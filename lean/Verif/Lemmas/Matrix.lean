import Verif.Model.Matrix
import Verif.Spec.Matrix
import Verif.Lemmas.Iter
import Verif.Lemmas.VectorOps
/-! Helper lemmas: matrices. -/
namespace Vecmat
open Spec
variable {T U S σ : Type} {M N L : Nat} {m : Type → Type}

namespace Mat
@[simp] theorem getElem_mk (d : Vec (Vec T N) M) (i : Nat) (h : i < M) : (Mat.mk d)[i] = d[i] := rfl
theorem data_getElem (A : Mat T M N) (i : Nat) (h : i < M) : A.data[i] = A[i] := rfl
@[ext] theorem ext_getElem {A B : Mat T M N} (h : ∀ i (hi : i < M) j (hj : j < N), A[i][j] = B[i][j]) : A = B := by
  cases A; cases B; congr 1
  apply Vec.ext_getElem; intro i hi; apply Vec.ext_getElem; intro j hj; exact h i hi j hj
theorem getElem_congr_mat {A B : Mat T M N} (h : A = B) (i : Nat) (hi : i < M) (j : Nat) (hj : j < N) :
    A[i][j] = B[i][j] := by rw [h]

theorem toList_eq_finRange (v : Vec T N) : v.toList = (List.finRange N).map fun i => v[i.1] := by
  rw [Vec.toList_eq_ofFn, List.ofFn_eq_map]

theorem rowMajor_eq (A : Mat T M N) : rowMajor A = A.data.toList.flatMap Vec.toList := by
  rw [rowMajor, toList_eq_finRange, List.flatMap_map]
  congr 1; funext i
  rw [toList_eq_finRange]; rfl

theorem length_rowMajor (A : Mat T M N) : (rowMajor A).length = M * N := by
  simp [rowMajor, List.length_flatMap]

@[simp] theorem getElem_map (f : T → U) (A : Mat T M N) (i : Nat) (hi : i < M) (j : Nat) (hj : j < N) :
    (A.map f)[i][j] = f A[i][j] := by
  simp [map, data_getElem]
@[simp] theorem getElem_zip (A : Mat T M N) (B : Mat U M N) (i : Nat) (hi : i < M) (j : Nat) (hj : j < N) :
    (A.zip B)[i][j] = (A[i][j], B[i][j]) := by
  simp [zip, data_getElem]
@[simp] theorem getElem_unzip_fst (A : Mat (T × U) M N) (i : Nat) (hi : i < M) (j : Nat) (hj : j < N) :
    A.unzip.1[i][j] = A[i][j].1 := by
  simp [unzip, data_getElem]
@[simp] theorem getElem_unzip_snd (A : Mat (T × U) M N) (i : Nat) (hi : i < M) (j : Nat) (hj : j < N) :
    A.unzip.2[i][j] = A[i][j].2 := by
  simp [unzip, data_getElem]

theorem index_lt (A : Mat T M N) (i j : Nat) (hi : i < M) (hj : j < N) : A.index (i, j) = .ok A[i][j] := by
  simp [index, Vec.index_lt _ _ hi, Vec.index_lt _ _ hj, data_getElem]
theorem index_ge (A : Mat T M N) (i j : Nat) (h : M ≤ i ∨ N ≤ j) : A.index (i, j) = .error .indexOob := by
  unfold index
  by_cases hi : i < M
  · have hj : N ≤ j := by omega
    simp [Vec.index_lt _ _ hi, Vec.index_ge _ j hj]
  · simp [Vec.index_ge _ i (Nat.le_of_not_lt hi)]

/-- `Vec::map` with a closure that may fault: it faults at the first faulting element. -/
theorem vec_mapM_ok {f : T → Res U} {v : Vec T N} {w : Vec U N} (h : ∀ i (hi : i < N), f v[i] = .ok w[i]) :
    v.mapM f = .ok w := by
  have h1 : Vec.toList <$> v.mapM f = .ok w.toList := by
    rw [Vec.toList_mapM]
    have : ∀ (l : List T) (k : List U) (hl : l.length = k.length)
        (_ : ∀ i (h1 : i < l.length) (h2 : i < k.length), f l[i] = .ok k[i]), l.mapM f = .ok k := by
      intro l
      induction l with
      | nil => intro k hl _; cases k with
        | nil => rfl
        | cons => simp at hl
      | cons x l ih =>
        intro k hl hk
        cases k with
        | nil => simp at hl
        | cons y k =>
          have h0 := hk 0 (by simp) (by simp)
          simp only [List.getElem_cons_zero] at h0
          have := ih k (by simpa using hl) (fun i h1 h2 => by
            exact hk (i + 1) (by simpa using h1) (by simpa using h2))
          simp [List.mapM_cons, h0, this]
    apply this _ _ (by simp)
    intro i h1 h2; simpa using h i (by simpa using h1)
  cases hv : v.mapM f with
  | error e => rw [hv] at h1; simp at h1
  | ok a => rw [hv] at h1; simp at h1; rw [Vec.toList_inj h1]

theorem list_mapM_error {f : T → Res U} {l : List T} (x : T) (hx : x ∈ l) {e : Fault} (h : f x = .error e)
    (hall : ∀ y ∈ l, (∃ u, f y = .ok u) ∨ f y = .error e) : l.mapM f = .error e := by
  induction l with
  | nil => simp at hx
  | cons y l ih =>
    rw [List.mapM_cons]
    rcases hall y (by simp) with ⟨u, hu⟩ | hu
    · rw [hu]
      rcases List.mem_cons.mp hx with rfl | hx
      · rw [h] at hu; simp at hu
      · simp [ih hx fun z hz => hall z (by simp [hz])]
    · simp [hu]

/-- If one element faults with `e`, and every other element returns or faults with `e`, then `map` faults with `e`. -/
theorem vec_mapM_error {f : T → Res U} {v : Vec T N} (i : Nat) (hi : i < N) {e : Fault} (h : f v[i] = .error e)
    (hall : ∀ j (hj : j < N), (∃ u, f v[j] = .ok u) ∨ f v[j] = .error e) : v.mapM f = .error e := by
  have h1 : Vec.toList <$> v.mapM f = .error e := by
    rw [Vec.toList_mapM]
    apply list_mapM_error v[i] (List.mem_iff_getElem.mpr ⟨i, by simpa using hi, by simp⟩) h
    intro y hy
    obtain ⟨j, hj, rfl⟩ := List.mem_iff_getElem.mp hy
    simpa using hall j (by simpa using hj)
  cases hv : v.mapM f with
  | error e' => rw [hv] at h1; simpa using h1
  | ok a => rw [hv] at h1; simp at h1

theorem mapM_ok {f : T → Res U} {A : Mat T M N} {B : Mat U M N}
    (h : ∀ i (hi : i < M) j (hj : j < N), f A[i][j] = .ok B[i][j]) : A.mapM f = .ok B := by
  unfold mapM
  rw [vec_mapM_ok (w := B.data) fun i hi => vec_mapM_ok fun j hj => h i hi j hj]
  rfl
theorem mapM_error {f : T → Res U} {A : Mat T M N} (i : Nat) (hi : i < M) (j : Nat) (hj : j < N) {e : Fault}
    (h : f A[i][j] = .error e)
    (hall : ∀ i (hi : i < M) j (hj : j < N), (∃ u, f A[i][j] = .ok u) ∨ f A[i][j] = .error e) : A.mapM f = .error e := by
  unfold mapM
  rw [vec_mapM_error i hi (e := e) (vec_mapM_error j hj h fun k hk => hall i hi k hk)]
  · rfl
  · intro k hk
    by_cases hx : ∃ l, ∃ hl : l < N, f A[k][l] = .error e
    · obtain ⟨l, hl, hx⟩ := hx
      exact .inr (vec_mapM_error l hl hx fun j hj => hall k hk j hj)
    · left
      have : ∀ l (hl : l < N), ∃ u, f A[k][l] = .ok u := by
        intro l hl
        rcases hall k hk l hl with h | h
        · exact h
        · exact absurd ⟨l, hl, h⟩ hx
      choose g hg using this
      refine ⟨⟨Vector.ofFn fun i => g i.1 i.2⟩, vec_mapM_ok fun l hl => ?_⟩
      rw [show A.data[k][l] = A[k][l] from rfl, hg l hl]; simp

/-! ### `try_from_iter`, `indices` -/

theorem exec_groupNext_list (l : List T) :
    (Vec.groupNext N listNext).exec l =
      (.ok (if h : N ≤ l.length then some (Vec.ofList (l.take N) (by simp [h])) else none), l.drop N) := by
  unfold Vec.groupNext
  by_cases h : N ≤ l.length
  · rw [Vec.exec_tryFromIter_some (takeN_listNext N l) (by simp [h]), dif_pos h]
  · rw [Vec.exec_tryFromIter_none (takeN_listNext N l) (by simp; omega), dif_neg h]

theorem takeN_group (M : Nat) (l : List T) (h : M * N ≤ l.length) :
    ∃ rows : List (Vec T N), ∃ hr : rows.length = M,
      (takeN (Vec.groupNext N listNext) M).exec l = (.ok rows, l.drop (M * N)) ∧
      ∀ i (hi : i < M) j (hj : j < N), l[i * N + j]? = some rows[i][j] := by
  induction M generalizing l with
  | zero => exact ⟨[], rfl, by simp [takeN], by intro i hi; omega⟩
  | succ M ih =>
    rw [Nat.succ_mul] at h
    obtain ⟨rows, hr, h1, h2⟩ := ih (l.drop N) (by simp; omega)
    have hN : N ≤ l.length := by omega
    refine ⟨Vec.ofList (l.take N) (by simp [hN]) :: rows, by simp [hr], ?_, ?_⟩
    · simp only [takeN, exec_bind, exec_groupNext_list, dif_pos hN, h1]
      simp [List.drop_drop, Nat.succ_mul, Nat.add_comm]
    · intro i hi j hj
      cases i with
      | zero =>
        simp only [Nat.zero_mul, Nat.zero_add, List.getElem_cons_zero, Vec.getElem_ofList, List.getElem_take]
        rw [List.getElem?_eq_getElem]
      | succ i =>
        simp only [List.getElem_cons_succ]
        rw [← h2 i (by omega) j hj, List.getElem?_drop]
        congr 1
        rw [Nat.succ_mul]; omega

theorem exec_tryFromIter_list (l : List T) (h : M * N ≤ l.length) :
    ∃ A : Mat T M N, (tryFromIter (M := M) (N := N) listNext).exec l = (.ok (some A), l.drop (M * N)) ∧
      ∀ i (hi : i < M) j (hj : j < N), l[i * N + j]? = some A[i][j] := by
  obtain ⟨rows, hr, h1, h2⟩ := takeN_group M l h
  refine ⟨⟨Vec.ofList rows hr⟩, ?_, ?_⟩
  · unfold tryFromIter tryFromIterVec
    rw [exec_bind, Vec.exec_tryFromIter_some h1 hr]; rfl
  · intro i hi j hj
    rw [h2 i hi j hj]; rfl

theorem indicesR_ok : ∃ A : Mat (Nat × Nat) M N, (indicesR : Res (Mat (Nat × Nat) M N)) = .ok A ∧
    ∀ i (hi : i < M) j (hj : j < N), A[i][j] = (i, j) := by
  obtain ⟨A, h1, h2⟩ := exec_tryFromIter_list (M := M) (N := N) ((List.range (M * N)).map fun x => (x / N, x % N)) (by simp)
  refine ⟨A, by simp [indicesR, h1], ?_⟩
  intro i hi j hj
  have := h2 i hi j hj
  have hlt : i * N + j < M * N := by
    calc i * N + j < i * N + N := by omega
      _ = (i + 1) * N := by rw [Nat.succ_mul]
      _ ≤ M * N := Nat.mul_le_mul_right _ hi
  rw [List.getElem?_eq_getElem (by simpa using hlt)] at this
  simp only [List.getElem_map, List.getElem_range, Option.some.injEq] at this
  rw [← this]
  have hN : 0 < N := by omega
  rw [Nat.mul_comm i N, Nat.mul_add_div hN, Nat.mul_add_mod, Nat.div_eq_of_lt hj, Nat.mod_eq_of_lt hj]
  simp

end Mat
end Vecmat
