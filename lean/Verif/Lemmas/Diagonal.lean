import Verif.Lemmas.Det
/-! Helper lemmas: stateful `map`, `diagonal`, square products never fault. -/
namespace Vecmat
variable {T U σ : Type} {L M N : Nat}
namespace Vec

theorem exec_list_mapM {f : T → Eff σ U} (l : List T) (k : List U) (hlen : l.length = k.length) (st : Nat → σ) (lo : Nat)
    (h : ∀ i (h1 : i < l.length) (h2 : i < k.length), (f l[i]).exec (st (lo + i)) = (.ok k[i], st (lo + i + 1))) :
    (l.mapM f).exec (st lo) = (.ok k, st (lo + l.length)) := by
  induction l generalizing k lo with
  | nil => cases k with
    | nil => rfl
    | cons => simp at hlen
  | cons x l ih => cases k with
    | nil => simp at hlen
    | cons y k =>
      have h0 := h 0 (by simp) (by simp)
      simp only [List.getElem_cons_zero, Nat.add_zero] at h0
      rw [List.mapM_cons, exec_bind_ok h0]
      rw [exec_bind_ok (ih k (by simpa using hlen) (lo + 1) (fun i h1 h2 => by
        have := h (i + 1) (by simpa using h1) (by simpa using h2)
        simp only [List.getElem_cons_succ] at this
        rw [show lo + 1 + i = lo + (i + 1) by omega]; exact this))]
      simp only [exec_pure, List.length_cons]
      rw [show lo + 1 + l.length = lo + (l.length + 1) by omega]

/-- `map` with a stateful closure: if the `i`-th call takes state `st i` to `st (i+1)` and returns `w[i]`, the result is `w`. -/
theorem exec_mapM {f : T → Eff σ U} {v : Vec T N} {w : Vec U N} (st : Nat → σ)
    (h : ∀ i (hi : i < N), (f v[i]).exec (st i) = (.ok w[i], st (i + 1))) : (v.mapM f).exec (st 0) = (.ok w, st N) := by
  have h1 : (Vec.toList <$> v.mapM f).exec (st 0) = (.ok w.toList, st N) := by
    rw [Vec.toList_mapM]
    have := exec_list_mapM (f := f) v.toList w.toList (by simp) st 0 (by
      intro i h1 h2; simpa using h i (by simpa using h1))
    simpa using this
  rw [exec_map] at h1
  cases hv : (v.mapM f).exec (st 0) with
  | mk r s =>
    rw [hv] at h1
    cases r with
    | error e => simp at h1
    | ok a =>
      simp only [Res.map_ok, Prod.mk.injEq, Except.ok.injEq] at h1
      rw [Vec.toList_inj h1.1, h1.2]
end Vec

namespace Mat

theorem exec_mapM {f : T → Eff σ U} {A : Mat T M N} {B : Mat U M N} (st : Nat → σ) (stc : Nat → Nat → σ)
    (h0 : ∀ i, i < M → stc i 0 = st i) (hN : ∀ i, i < M → stc i N = st (i + 1))
    (h : ∀ i (hi : i < M) j (hj : j < N), (f A[i][j]).exec (stc i j) = (.ok B[i][j], stc i (j + 1))) :
    (A.mapM f).exec (st 0) = (.ok B, st M) := by
  unfold mapM
  rw [exec_bind_ok (Vec.exec_mapM (w := B.data) st fun i hi => by
    rw [← h0 i hi, ← hN i hi]
    exact Vec.exec_mapM (stc i) fun j hj => h i hi j hj)]
  rfl

theorem diagonalR_ok [Zero T] (d : Vec T N) : ∃ A, diagonalR d = .ok A ∧
    ∀ i (hi : i < N) j (hj : j < N), A[i][j] = if i = j then d[i] else 0 := by
  refine ⟨⟨⟨Vector.ofFn fun i => ⟨Vector.ofFn fun j => if i.1 = j.1 then d[i.1] else 0⟩⟩⟩, ?_, by intros; simp⟩
  unfold diagonalR
  have := exec_mapM (A := (indices (M := N) (N := N)))
    (B := ⟨⟨Vector.ofFn fun i => ⟨Vector.ofFn fun j => if i.1 = j.1 then d[i.1] else 0⟩⟩⟩)
    (f := fun p => if p.1 = p.2 then Vec.nextUnwrap else pure 0)
    (fun i => d.toList.drop i) (fun i j => d.toList.drop (if j ≤ i then i else i + 1)) (by intros; simp)
    (by intro i hi; rw [if_neg (by omega)]) (by
      intro i hi j hj
      simp only [getElem_indices]
      by_cases e : i = j
      · subst e
        have hd : d.toList.drop i = d[i] :: d.toList.drop (i + 1) := by
          rw [List.drop_eq_getElem_cons (by simpa using hi)]; simp
        simp only [if_true, le_refl, hd, Vec.nextUnwrap]
        rw [exec_bind_ok (exec_listNext_cons _ _), if_neg (show ¬ i + 1 ≤ i by omega)]
        simp
      · simp only [if_neg e, exec_pure]
        have e2 : (if j ≤ i then i else i + 1) = (if j + 1 ≤ i then i else i + 1) := by
          split <;> split <;> omega
        rw [e2]; simp [e])
  simp only [List.drop_zero] at this
  rw [this]

@[simp] theorem getElem_one [Zero T] [One T] (i : Nat) (hi : i < N) (j : Nat) (hj : j < N) :
    (1 : Mat T N N)[i][j] = if i = j then 1 else 0 := by
  show ((indices (M := N) (N := N)).map fun p => if p.1 = p.2 then (1 : T) else 0)[i][j] = _
  simp

theorem dotVR_ok [Mul T] [Add T] (A : Mat T N N) (v : Vec T N) : ∃ w, A.dotVR v = .ok w := by
  cases N with
  | zero => exact ⟨⟨#v[]⟩, vec_mapM_ok (by omega)⟩
  | succ n => exact ⟨_, dotVR_get A v⟩
theorem vDotR_ok [Mul T] [Add T] (v : Vec T N) (A : Mat T N N) : ∃ w, vDotR v A = .ok w := by
  cases N with
  | zero => exact ⟨⟨#v[]⟩, vec_mapM_ok (by omega)⟩
  | succ n => exact ⟨_, vDotR_get v A⟩
theorem dotMR_ok [Mul T] [Add T] (A B : Mat T N N) : ∃ C, A.dotMR B = .ok C := by
  cases N with
  | zero => exact ⟨⟨⟨#v[]⟩⟩, mapM_ok (by omega)⟩
  | succ n => exact ⟨_, dotMR_get A B⟩

end Mat
end Vecmat
