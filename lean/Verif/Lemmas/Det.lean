import Verif.Model.Square
import Verif.Lemmas.MatrixOps
import Mathlib.Data.List.Sort
import Mathlib.Data.List.Nodup
/-! Helper lemmas: the mask-based determinant never faults and computes the Laplace expansion (for any scalar operations). -/
namespace Vecmat
variable {T : Type} {N : Nat} {σ : Type}

@[simp] theorem exec_get (s : σ) : Eff.exec (get : Eff σ σ) s = (.ok s, s) := rfl
@[simp] theorem exec_set (s t : σ) : Eff.exec (set t : Eff σ PUnit) s = (.ok ⟨⟩, t) := rfl

namespace Mat

/-- The free indices of a mask, ascending. -/
def avail (a : Vector Bool N) : List Nat := (List.range N).filter fun i => a[i]? == some true

theorem mem_avail (a : Vector Bool N) (i : Nat) : i ∈ avail a ↔ ∃ h : i < N, a[i] = true := by
  simp only [avail, List.mem_filter, List.mem_range, beq_iff_eq]
  constructor
  · rintro ⟨h, h2⟩; rw [Vector.getElem?_eq_getElem h] at h2; exact ⟨h, by simpa using h2⟩
  · rintro ⟨h, h2⟩; exact ⟨h, by rw [Vector.getElem?_eq_getElem h, h2]⟩
theorem pairwise_avail (a : Vector Bool N) : (avail a).Pairwise (· < ·) :=
  List.Pairwise.filter _ List.pairwise_lt_range
theorem nodup_avail (a : Vector Bool N) : (avail a).Nodup := (List.nodup_range).filter _

theorem avail_set_false (a : Vector Bool N) (i : Nat) (hi : i < N) : avail (a.set i false) = (avail a).erase i := by
  rw [(nodup_avail a).erase_eq_filter]
  unfold avail
  rw [List.filter_filter]
  apply List.filter_congr
  intro x hx
  have hx : x < N := by simpa using hx
  simp only [Vector.getElem?_eq_getElem hx, Vector.getElem_set]
  by_cases h : i = x
  · subst h; simp
  · simp [h, Ne.symm h]

theorem avail_replicate : avail (Vector.replicate N true) = List.range N := by
  unfold avail
  rw [List.filter_eq_self]
  intro x hx
  have hx : x < N := by simpa using hx
  simp [hx]

theorem maskFind_eq (a : Vector Bool N) (i x : Nat) (hix : i ≤ x) (hx : x < N) (hax : a[x] = true)
    (h : ∀ y (hy : y < N), i ≤ y → y < x → a[y] = false) : maskFind a i = .ok x := by
  induction hn : x - i generalizing i with
  | zero =>
    have : i = x := by omega
    subst this
    rw [maskFind, dif_pos hx, if_pos hax]
  | succ n ih =>
    rw [maskFind, dif_pos (by omega), if_neg (by rw [h i (by omega) (by omega) (by omega)]; simp)]
    exact ih (i + 1) (by omega) (fun y hy h1 h2 => h y hy (by omega) h2) (by omega)

/-- The sign rule `if r % 2 != 0 { -a } else { a }`. -/
def sgn [Neg T] (r : Nat) (a : T) : T := if r % 2 ≠ 0 then -a else a

/-- Laplace expansion along the first of the rows `R`, using the columns `C` (both lists of indices), with the operations
associated exactly as in the code. -/
def lap [Neg T] [Add T] [Mul T] [Zero T] [One T] (f : Nat → Nat → T) : List Nat → List Nat → T
  | [], _ => 1
  | i :: R, C => (List.range C.length).foldl (fun a k => a + f i (C[k]?.getD 0) * sgn k (lap f R (C.eraseIdx k))) 0

/-- Total entry function. -/
def ent [Zero T] (A : Mat T N N) (i j : Nat) : T := if h : i < N ∧ j < N then (A[i]'h.1)[j]'h.2 else 0
theorem ent_lt [Zero T] (A : Mat T N N) (i j : Nat) (hi : i < N) (hj : j < N) : ent A i j = A[i][j] := by
  simp [ent, hi, hj]

variable [Neg T] [Add T] [Mul T] [Zero T] [One T]

theorem exec_exclude (m : Mask N) (i j : Nat) (hi : i < N) (hj : j < N) (hd : m.deg ≠ 0) :
    (exclude i j).exec m = (.ok (), ⟨m.col.set i false, m.row.set j false, m.deg - 1⟩) := by
  simp [exclude, exec_bind, maskSet, hi, hj, hd]
theorem exec_include (m : Mask N) (i j : Nat) (hi : i < N) (hj : j < N) :
    (include_ i j).exec m = (.ok (), ⟨m.col.set i true, m.row.set j true, m.deg + 1⟩) := by
  simp [include_, exec_bind, maskSet, hi, hj]

/-- What is assumed of a mask: its free rows are `R`, its free columns are `C`, and `deg` counts both. -/
structure MaskOk (m : Mask N) (R C : List Nat) : Prop where
  col : avail m.col = R
  row : avail m.row = C
  deg : m.deg = R.length
  len : R.length = C.length

theorem MaskOk.new : MaskOk (Mask.new : Mask N) (List.range N) (List.range N) :=
  ⟨avail_replicate, avail_replicate, by simp [Mask.new], rfl⟩

theorem set_restore (a : Vector Bool N) (i : Nat) (hi : i < N) (h : a[i] = true) :
    (a.set i false).set i true = a := by
  apply Vector.ext; intro j hj
  rw [Vector.getElem_set]
  by_cases e : i = j
  · subst e; simp [h]
  · rw [if_neg e, Vector.getElem_set, if_neg e]

omit [Add T] [Mul T] [Zero T] [One T] in
/-- `Determinator::cofactor` excludes row `R[a]` and column `C[b]`, computes the determinant of the rest and restores the
mask. -/
theorem exec_cofactorWith {det : Eff (Mask N) T} {m : Mask N} {R C : List Nat} (hm : MaskOk m R C)
    (a b : Nat) (ha : a < R.length) (hb : b < C.length) (ra rb : Nat) (v : T)
    (hdet : ∀ m' : Mask N, MaskOk m' (R.eraseIdx a) (C.eraseIdx b) → det.exec m' = (.ok v, m')) :
    (cofactorWith det (R[a], ra) (C[b], rb)).exec m = (.ok (sgn (ra + rb) v), m) := by
  have h1 : R[a] ∈ avail m.col := by rw [hm.col]; exact List.getElem_mem _
  have h2 : C[b] ∈ avail m.row := by rw [hm.row]; exact List.getElem_mem _
  rw [mem_avail] at h1 h2
  obtain ⟨hi, hti⟩ := h1
  obtain ⟨hj, htj⟩ := h2
  have hd : m.deg ≠ 0 := by rw [hm.deg]; omega
  have ndR : R.Nodup := hm.col ▸ nodup_avail _
  have ndC : C.Nodup := hm.row ▸ nodup_avail _
  have hm' : MaskOk (⟨m.col.set R[a] false, m.row.set C[b] false, m.deg - 1⟩ : Mask N) (R.eraseIdx a) (C.eraseIdx b) := by
    refine ⟨?_, ?_, ?_, ?_⟩
    · rw [avail_set_false _ _ hi, hm.col]; exact ndR.erase_getElem a ha
    · rw [avail_set_false _ _ hj, hm.row]; exact ndC.erase_getElem b hb
    · rw [List.length_eraseIdx_of_lt ha]; simp [hm.deg]
    · rw [List.length_eraseIdx_of_lt ha, List.length_eraseIdx_of_lt hb, hm.len]
  unfold cofactorWith
  rw [exec_bind, exec_exclude m _ _ hi hj hd]
  simp only
  rw [exec_bind, hdet _ hm']
  simp only
  rw [exec_bind, exec_include _ _ _ hi hj]
  simp only [exec_pure, sgn]
  rw [set_restore _ _ hi hti, set_restore _ _ hj htj]
  have : m.deg - 1 + 1 = m.deg := by omega
  rw [this]

omit [Neg T] [One T] in
/-- The loop over the free columns. -/
theorem exec_loop {A : Mat T N N} {m : Mask N} {R C : List Nat} (hm : MaskOk m R C) (i : Nat) (hi : i < N)
    (body : Nat → Nat → Eff (Mask N) T) (v : Nat → T)
    (hbody : ∀ k (hk : k < C.length), (body C[k] k).exec m = (.ok (v k), m))
    (n k j : Nat) (hn : k + n = C.length) (hj : ∀ l (hl : l < C.length), C[l] < j ↔ l < k) (acc : T) :
    ∃ j', (forRange n k (j, acc) fun rj (s : Nat × T) => do
        let m ← get
        let j ← liftRes (maskFind m.row s.1)
        let x ← liftRes (A.index (i, j))
        let c ← body j rj
        pure (j + 1, s.2 + x * c) : Eff (Mask N) (Nat × T)).exec m =
      (.ok (j', (List.range' k n).foldl (fun a k => a + ent A i (C[k]?.getD 0) * v k) acc), m) := by
  induction n generalizing k j acc with
  | zero => exact ⟨j, rfl⟩
  | succ n ih =>
    have hk : k < C.length := by omega
    have hmem : C[k] ∈ avail m.row := by rw [hm.row]; exact List.getElem_mem _
    rw [mem_avail] at hmem
    obtain ⟨hx, htx⟩ := hmem
    have hsorted : C.Pairwise (· < ·) := hm.row ▸ pairwise_avail _
    have hmono : ∀ a b (ha : a < C.length) (hb : b < C.length), a < b → C[a] < C[b] := by
      intro a b ha hb hab; exact List.pairwise_iff_getElem.mp hsorted a b ha hb hab
    have hjk : j ≤ C[k] := by
      have := (hj k hk).not.mpr (by omega); omega
    have hfind : maskFind m.row j = .ok C[k] := by
      apply maskFind_eq _ _ _ hjk hx htx
      intro y hy h1 h2
      by_contra hne
      have hy2 : m.row[y] = true := by simpa using hne
      have hyC : y ∈ C := by rw [← hm.row, mem_avail]; exact ⟨hy, hy2⟩
      obtain ⟨l, hl, rfl⟩ := List.mem_iff_getElem.mp hyC
      have hlk : ¬ l < k := fun h => by have := (hj l hl).mpr h; omega
      rcases Nat.lt_or_eq_of_le (Nat.le_of_not_lt hlk) with h | h
      · have := hmono k l hk hl h; omega
      · subst h; omega
    have hj' : ∀ l (hl : l < C.length), C[l] < C[k] + 1 ↔ l < k + 1 := by
      intro l hl
      constructor
      · intro h
        by_contra hlk
        have := hmono k l hk hl (by omega); omega
      · intro h
        rcases Nat.lt_or_eq_of_le (Nat.le_of_lt_succ h) with h | h
        · have := hmono l k hl hk h; omega
        · subst h; omega
    obtain ⟨j', h⟩ := ih (k + 1) (C[k] + 1) (by omega) hj' (acc + ent A i (C[k]?.getD 0) * v k)
    refine ⟨j', ?_⟩
    rw [forRange]
    simp only [exec_bind, exec_get, hfind, liftRes_ok, exec_pure, index_lt A i C[k] hi hx, hbody k hk]
    rw [List.range'_succ, List.foldl_cons, ← h]
    simp only [List.getElem?_eq_getElem hk, Option.getD_some, ent_lt A i C[k] hi hx]

theorem exec_detAux (A : Mat T N N) (fuel : Nat) {m : Mask N} {R C : List Nat} (hm : MaskOk m R C)
    (hf : R.length < fuel) : (detAux A fuel).exec m = (.ok (lap (ent A) R C), m) := by
  induction fuel generalizing m R C with
  | zero => omega
  | succ n ih =>
    rw [detAux, exec_bind, exec_get]
    simp only
    cases R with
    | nil =>
      rw [if_pos (by simpa using hm.deg)]
      simp [lap]
    | cons i R =>
      have hd : m.deg ≠ 0 := by rw [hm.deg]; simp
      rw [if_neg hd]
      have hmem : i ∈ avail m.col := by rw [hm.col]; simp
      rw [mem_avail] at hmem
      obtain ⟨hi, hti⟩ := hmem
      have hfind : maskFind m.col 0 = .ok i := by
        apply maskFind_eq _ _ _ (Nat.zero_le _) hi hti
        intro y hy _ h2
        by_contra hne
        have hy2 : m.col[y] = true := by simpa using hne
        have hyR : y ∈ i :: R := by rw [← hm.col, mem_avail]; exact ⟨hy, hy2⟩
        have hs : (i :: R).Pairwise (· < ·) := hm.col ▸ pairwise_avail _
        rcases List.mem_cons.mp hyR with rfl | hyR
        · omega
        · have := List.rel_of_pairwise_cons hs hyR; omega
      rw [exec_bind, hfind, liftRes_ok, exec_pure]
      simp only
      obtain ⟨j', h⟩ := exec_loop (A := A) hm i hi (fun j rj => cofactorWith (detAux A n) (i, 0) (j, rj))
        (fun k => sgn k (lap (ent A) R (C.eraseIdx k))) (by
          intro k hk
          have := exec_cofactorWith hm 0 k (by simp) hk 0 k (lap (ent A) R (C.eraseIdx k)) (det := detAux A n) (by
            intro m' hm'
            simp only [List.eraseIdx_cons_zero] at hm'
            exact ih hm' (by simpa using hf))
          simpa using this) m.deg 0 0 (by rw [hm.deg, hm.len]; simp) (by simp) 0
      rw [exec_bind, h]
      simp only [exec_pure, lap]
      rw [List.range_eq_range', hm.deg, hm.len]

theorem detR_eq (A : Mat T N N) : A.detR = .ok (lap (ent A) (List.range N) (List.range N)) := by
  unfold detR
  rw [exec_detAux A (N + 1) MaskOk.new (by simp)]

theorem cofactorR_eq (A : Mat T N N) (i j : Nat) (hi : i < N) (hj : j < N) :
    A.cofactorR i j = .ok (sgn (i + j) (lap (ent A) ((List.range N).eraseIdx i) ((List.range N).eraseIdx j))) := by
  unfold cofactorR
  rw [if_pos ⟨hi, hj⟩]
  have := exec_cofactorWith (MaskOk.new (N := N)) i j (by simpa using hi) (by simpa using hj) i j _ (det := detAux A (N + 1))
    (fun m' hm' => exec_detAux A (N + 1) hm' (by rw [List.length_eraseIdx]; simp; split <;> omega))
  simp only [List.getElem_range] at this
  rw [this]

theorem adjR_ok (A : Mat T N N) : ∃ B, A.adjR = .ok B ∧ ∀ i (hi : i < N) j (hj : j < N),
    B[i][j] = sgn (j + i) (lap (ent A) ((List.range N).eraseIdx j) ((List.range N).eraseIdx i)) := by
  refine ⟨⟨⟨Vector.ofFn fun i => ⟨Vector.ofFn fun j =>
    sgn (j + i) (lap (ent A) ((List.range N).eraseIdx j) ((List.range N).eraseIdx i))⟩⟩⟩, ?_, by intros; simp⟩
  unfold adjR
  apply mapM_ok
  intro i hi j hj
  simp [cofactorR_eq A j i hj hi]

theorem detR_ok (A : Mat T N N) : ∃ a, A.detR = .ok a := ⟨_, detR_eq A⟩
theorem cofactorR_ok (A : Mat T N N) (i j : Nat) (hi : i < N) (hj : j < N) : ∃ a, A.cofactorR i j = .ok a :=
  ⟨_, cofactorR_eq A i j hi hj⟩
theorem invR_ok [Div T] (A : Mat T N N) : ∃ B, A.invR = .ok B := by
  obtain ⟨a, ha⟩ := detR_ok A
  obtain ⟨B, hB, _⟩ := adjR_ok A
  exact ⟨B.divS a, by simp [invR, ha, hB]⟩

end Mat
end Vecmat
