import Verif.Spec.ScalarEff
import Verif.Lemmas.Det
import Verif.Lemmas.MatrixIter
/-! Helper lemmas for C100: the mask-based determinant over effectful scalars evaluates the Laplace expansion. -/
namespace Vecmat
open Spec
variable {T U α β σ : Type} {L M N : Nat}
namespace Mat

/-- `Spec.laplace` with total functions for the entries and positions. The expansion along the first of the rows `R` of the submatrix with rows `R` and columns `C`:
`((0 + a·m₀) + a·(-m₁)) + a·m₂ …`, where `m_k` is the expansion of the minor without the `k`-th of the columns. -/
def laplaceN (a : Nat → Nat → T) : List Nat → List Nat → Expr T
  | [], _ => .one
  | i :: R, C => (List.range C.length).foldl (fun e k =>
      let m := laplaceN a R (C.eraseIdx k)
      .add e (.mul (.lit (a i (C[k]?.getD 0))) (if k % 2 = 1 then .neg m else m))) .zero


/-- Started with mask `m`, the computation `c` does what `d` does; if it returns, the mask is `m` again. -/
def Impl (m : Mask N) (c : Eff (Mask N × σ) α) (d : Eff σ α) : Prop :=
  ∀ s, (∀ x s', d.exec s = (.ok x, s') → c.exec (m, s) = (.ok x, (m, s'))) ∧
    (∀ e s', d.exec s = (.error e, s') → ∃ m', c.exec (m, s) = (.error e, (m', s')))

theorem Impl.pure (m : Mask N) (x : α) : Impl (σ := σ) m (Pure.pure x) (Pure.pure x) := by
  intro s
  constructor
  · intro y s' h
    simp only [exec_pure, Prod.mk.injEq, Except.ok.injEq] at h ⊢
    exact ⟨h.1, trivial, h.2⟩
  · intro e s' h; simp at h

theorem Impl.bind {m : Mask N} {c : Eff (Mask N × σ) α} {d : Eff σ α} {f : α → Eff (Mask N × σ) β} {g : α → Eff σ β}
    (h : Impl m c d) (h' : ∀ x, Impl m (f x) (g x)) : Impl m (c >>= f) (d >>= g) := by
  intro s
  rw [exec_bind, exec_bind]
  rcases hd : d.exec s with ⟨e | x, s1⟩
  · obtain ⟨m', hm⟩ := (h s).2 e s1 hd
    rw [hm]
    constructor
    · intro y s' h; simp at h
    · intro e' s' h
      simp only [Prod.mk.injEq, Except.error.injEq] at h ⊢
      exact ⟨m', h.1, rfl, h.2⟩
  · rw [(h s).1 x s1 hd]
    exact h' x s1

theorem Impl.onEnv (m : Mask N) (c : Eff σ α) : Impl m (onEnv c) c := by
  intro s
  constructor
  · intro x s' h
    show (((c.exec s).1, (m, (c.exec s).2)) : Res α × (Mask N × σ)) = _
    rw [h]
  · intro e s' h
    refine ⟨m, ?_⟩
    show (((c.exec s).1, (m, (c.exec s).2)) : Res α × (Mask N × σ)) = _
    rw [h]

theorem Impl.left {m : Mask N} {c : Eff (Mask N × σ) α} {f : α → Eff (Mask N × σ) β} {g : Eff σ β} (x : α)
    (h : ∀ s, c.exec (m, s) = (.ok x, (m, s))) (h' : Impl m (f x) g) : Impl m (c >>= f) g := by
  intro s
  rw [exec_bind, h s]
  exact h' s

theorem Impl.mapRet {m : Mask N} {c : Eff (Mask N × σ) α} {d : Eff σ α} (h : Impl m c d) : Impl m (do let x ← c; Pure.pure x) d := by
  simpa using h

theorem exec_onMask (c : Eff (Mask N) α) (m : Mask N) (s : σ) : (onMask c).exec (m, s) = ((c.exec m).1, ((c.exec m).2, s)) := rfl

/-- the sign, as a computation -/
def sgnE (o : ScalarE σ T) (k : Nat) (a : T) : Eff σ T := if k % 2 ≠ 0 then o.neg a else Pure.pure a

theorem impl_cofactorWithE (o : ScalarE σ T) {det : Eff (Mask N × σ) T} {d : Eff σ T} {m : Mask N} {R C : List Nat}
    (hm : MaskOk m R C) (a b : Nat) (ha : a < R.length) (hb : b < C.length) (ra rb : Nat)
    (hdet : ∀ m' : Mask N, MaskOk m' (R.eraseIdx a) (C.eraseIdx b) → Impl m' det d) :
    Impl m (cofactorWithE o det (R[a], ra) (C[b], rb)) (d >>= sgnE o (ra + rb)) := by
  have h1 : R[a] ∈ avail m.col := by rw [hm.col]; exact List.getElem_mem _
  have h2 : C[b] ∈ avail m.row := by rw [hm.row]; exact List.getElem_mem _
  rw [mem_avail] at h1 h2
  obtain ⟨hi, hti⟩ := h1
  obtain ⟨hj, htj⟩ := h2
  have hd : m.deg ≠ 0 := by rw [hm.deg]; omega
  have ndR : R.Nodup := hm.col ▸ nodup_avail _
  have ndC : C.Nodup := hm.row ▸ nodup_avail _
  have hm' : MaskOk (⟨m.col.set R[a] false, m.row.set C[b] false, m.deg - 1⟩ : Mask N) (R.eraseIdx a) (C.eraseIdx b) := by
    refine ⟨?_, ?_, ?_, ?_⟩
    · rw [avail_set_false _ _ hi, hm.col]; exact ndR.erase_getElem a ha
    · rw [avail_set_false _ _ hj, hm.row]; exact ndC.erase_getElem b hb
    · rw [List.length_eraseIdx_of_lt ha]; simp [hm.deg]
    · rw [List.length_eraseIdx_of_lt ha, List.length_eraseIdx_of_lt hb, hm.len]
  have key : Impl ⟨m.col.set R[a] false, m.row.set C[b] false, m.deg - 1⟩
      (det >>= fun a => if (ra + rb) % 2 ≠ 0 then onEnv (o.neg a) else Pure.pure a) (d >>= sgnE o (ra + rb)) := by
    refine (hdet _ hm').bind fun x => ?_
    unfold sgnE
    split
    · exact Impl.onEnv _ _
    · exact Impl.pure _ _
  have e : ∀ s, (cofactorWithE o det (R[a], ra) (C[b], rb)).exec (m, s) =
      ((det >>= fun a => if (ra + rb) % 2 ≠ 0 then onEnv (o.neg a) else Pure.pure a) >>= fun y => do
        onMask (include_ R[a] C[b]); Pure.pure y).exec (⟨m.col.set R[a] false, m.row.set C[b] false, m.deg - 1⟩, s) := by
    intro s
    unfold cofactorWithE
    rw [exec_bind, exec_onMask, exec_exclude m _ _ hi hj hd, bind_assoc]
    by_cases h : (ra + rb) % 2 = 0 <;> simp [h]
  intro s
  rw [e]
  constructor
  · intro x s' h
    rw [exec_bind, (key s).1 x s' h]
    simp only
    rw [exec_bind, exec_onMask, exec_include _ _ _ hi hj]
    simp only [exec_pure]
    rw [set_restore _ _ hi hti, set_restore _ _ hj htj]
    have : m.deg - 1 + 1 = m.deg := by omega
    rw [this]
  · intro x s' h
    obtain ⟨m', h'⟩ := (key s).2 x s' h
    rw [exec_bind, h']
    exact ⟨m', rfl⟩

/-- The loop over the free columns. -/
theorem impl_loop (o : ScalarE σ T) {A : Mat T N N} {f : Nat → Nat → T} (hf : ∀ i (hi : i < N) j (hj : j < N), f i j = A[i][j])
    {m : Mask N} {R C : List Nat} (hm : MaskOk m R C) (i : Nat) (hi : i < N)
    (body : Nat → Nat → Eff (Mask N × σ) T) (v : Nat → Eff σ T)
    (hbody : ∀ k (hk : k < C.length), Impl m (body C[k] k) (v k))
    (n k j : Nat) (hn : k + n = C.length) (hj : ∀ l (hl : l < C.length), C[l] < j ↔ l < k) (acc : T) :
    Impl m (do
        let r ← forRange n k (j, acc) fun rj (s : Nat × T) => do
          let m ← onMask get
          let j ← liftRes (maskFind m.row s.1)
          let x ← liftRes (A.index (i, j))
          let c ← body j rj
          let p ← onEnv (o.mul x c)
          let a ← onEnv (o.add s.2 p)
          Pure.pure (j + 1, a)
        Pure.pure r.2 : Eff (Mask N × σ) T)
      ((List.range' k n).foldlM (fun a k => do
        let c ← v k
        let p ← o.mul (f i (C[k]?.getD 0)) c
        o.add a p) acc) := by
  induction n generalizing k j acc with
  | zero => simpa [forRange] using Impl.pure (σ := σ) m acc
  | succ n ih =>
    have hk : k < C.length := by omega
    have hmem : C[k] ∈ avail m.row := by rw [hm.row]; exact List.getElem_mem _
    rw [mem_avail] at hmem
    obtain ⟨hx, htx⟩ := hmem
    have hsorted : C.Pairwise (· < ·) := hm.row ▸ pairwise_avail _
    have hmono : ∀ a b (ha : a < C.length) (hb : b < C.length), a < b → C[a] < C[b] := by
      intro a b ha hb hab; exact List.pairwise_iff_getElem.mp hsorted a b ha hb hab
    have hjk : j ≤ C[k] := by
      have := (hj k hk).not.mpr (by omega); omega
    have hfind : maskFind m.row j = .ok C[k] := by
      apply maskFind_eq _ _ _ hjk hx htx
      intro y hy h1 h2
      by_contra hne
      have hy2 : m.row[y] = true := by simpa using hne
      have hyC : y ∈ C := by rw [← hm.row, mem_avail]; exact ⟨hy, hy2⟩
      obtain ⟨l, hl, rfl⟩ := List.mem_iff_getElem.mp hyC
      have hlk : ¬ l < k := fun h => by have := (hj l hl).mpr h; omega
      rcases Nat.lt_or_eq_of_le (Nat.le_of_not_lt hlk) with h | h
      · have := hmono k l hk hl h; omega
      · subst h; omega
    have hj' : ∀ l (hl : l < C.length), C[l] < C[k] + 1 ↔ l < k + 1 := by
      intro l hl
      constructor
      · intro h
        by_contra hlk
        have := hmono k l hk hl (by omega); omega
      · intro h
        rcases Nat.lt_or_eq_of_le (Nat.le_of_lt_succ h) with h | h
        · have := hmono l k hl hk h; omega
        · subst h; omega
    rw [forRange, bind_assoc, bind_assoc, List.range'_succ, List.foldlM_cons]
    refine Impl.left m (fun s => by simp [exec_onMask]) ?_
    rw [bind_assoc]
    refine Impl.left C[k] (fun s => by simp [hfind]) ?_
    rw [bind_assoc]
    refine Impl.left A[i][C[k]] (fun s => by simp [index_lt A i C[k] hi hx]) ?_
    rw [bind_assoc, bind_assoc]
    refine (hbody k hk).bind fun c => ?_
    rw [bind_assoc, bind_assoc]
    have hfe : f i (C[k]?.getD 0) = A[i][C[k]] := by
      rw [List.getElem?_eq_getElem hk, Option.getD_some, hf i hi C[k] hx]
    rw [hfe]
    refine (Impl.onEnv m _).bind fun p => ?_
    rw [bind_assoc]
    refine (Impl.onEnv m _).bind fun a => ?_
    simp only [pure_bind]
    exact ih (k + 1) (C[k] + 1) (by omega) hj' a

theorem eval_foldl_add (o : ScalarE σ T) (g : Nat → Expr T) (l : List Nat) (e : Expr T) :
    (l.foldl (fun e k => Expr.add e (g k)) e).eval o = (e.eval o >>= fun x => l.foldlM (fun a k => do
      let y ← (g k).eval o
      o.add a y) x) := by
  induction l generalizing e with
  | nil => simp
  | cons k l ih =>
    rw [List.foldl_cons, ih]
    simp [Expr.eval]

theorem eval_laplaceN_cons (o : ScalarE σ T) (f : Nat → Nat → T) (i : Nat) (R C : List Nat) :
    (laplaceN f (i :: R) C).eval o = (o.zero >>= fun z => (List.range C.length).foldlM (fun a k => do
      let c ← (laplaceN f R (C.eraseIdx k)).eval o >>= sgnE o k
      let p ← o.mul (f i (C[k]?.getD 0)) c
      o.add a p) z) := by
  rw [laplaceN, eval_foldl_add]
  show (o.zero >>= _) = _
  congr 1
  funext z
  congr 1
  funext a k
  rcases Nat.mod_two_eq_zero_or_one k with h | h <;> simp [Expr.eval, sgnE, h]

theorem impl_detAuxE (o : ScalarE σ T) {A : Mat T N N} {f : Nat → Nat → T} (hf : ∀ i (hi : i < N) j (hj : j < N), f i j = A[i][j])
    (fuel : Nat) {m : Mask N} {R C : List Nat} (hm : MaskOk m R C)
    (hl : R.length < fuel) : Impl m (detAuxE o A fuel) ((laplaceN f R C).eval o) := by
  induction fuel generalizing m R C with
  | zero => omega
  | succ n ih =>
    rw [detAuxE]
    refine Impl.left m (fun s => by simp [exec_onMask]) ?_
    cases R with
    | nil =>
      rw [if_pos (by simpa using hm.deg)]
      simp only [laplaceN, Expr.eval]
      exact Impl.onEnv _ _
    | cons i R =>
      have hd : m.deg ≠ 0 := by rw [hm.deg]; simp
      rw [if_neg hd]
      have hmem : i ∈ avail m.col := by rw [hm.col]; simp
      rw [mem_avail] at hmem
      obtain ⟨hi, hti⟩ := hmem
      have hfind : maskFind m.col 0 = .ok i := by
        apply maskFind_eq _ _ _ (Nat.zero_le _) hi hti
        intro y hy _ h2
        by_contra hne
        have hy2 : m.col[y] = true := by simpa using hne
        have hyR : y ∈ i :: R := by rw [← hm.col, mem_avail]; exact ⟨hy, hy2⟩
        have hs : (i :: R).Pairwise (· < ·) := hm.col ▸ pairwise_avail _
        rcases List.mem_cons.mp hyR with rfl | hyR
        · omega
        · have := List.rel_of_pairwise_cons hs hyR; omega
      refine Impl.left i (fun s => by simp [hfind]) ?_
      rw [eval_laplaceN_cons]
      refine (Impl.onEnv m _).bind fun z => ?_
      have := impl_loop o hf hm i hi (fun j rj => cofactorWithE o (detAuxE o A n) (i, 0) (j, rj))
        (fun k => (laplaceN f R (C.eraseIdx k)).eval o >>= sgnE o k) (by
          intro k hk
          have := impl_cofactorWithE o hm 0 k (by simp) hk 0 k (d := (laplaceN f R (C.eraseIdx k)).eval o) (det := detAuxE o A n) (by
            intro m' hm'
            simp only [List.eraseIdx_cons_zero] at hm'
            exact ih hm' (by simpa using hl))
          simpa using this) m.deg 0 0 (by rw [hm.deg, hm.len]; simp) (by simp) z
      rw [List.range_eq_range', ← hm.len, ← hm.deg]
      exact this

theorem eff_ext {c d : Eff σ α} (h : ∀ s, c.exec s = d.exec s) : c = d := funext h

theorem withMask_eq {c : Eff (Mask N × σ) α} {d : Eff σ α} (h : Impl Mask.new c d) : withMask c = d := by
  apply eff_ext
  intro s
  show (((c.exec (Mask.new, s)).1, (c.exec (Mask.new, s)).2.2) : Res α × σ) = _
  rcases hd : d.exec s with ⟨e | x, s'⟩
  · obtain ⟨m', hm⟩ := (h s).2 e s' hd
    rw [hm]
  · rw [(h s).1 x s' hd]

theorem zipIdx_eq_map (C : List Nat) : C.zipIdx = (List.range C.length).map fun k => (C[k]?.getD 0, k) := by
  apply List.ext_getElem (by simp)
  intro i h1 h2
  have : i < C.length := by simpa using h1
  simp [this]
theorem laplace_eq {f : Nat → Nat → T} {ι κ : Type} {a : ι → κ → T} (r : ι → Nat) (c : κ → Nat)
    (hf : ∀ i j, f (r i) (c j) = a i j) (R : List ι) (C : List κ) : laplace a R C = laplaceN f (R.map r) (C.map c) := by
  induction R generalizing C with
  | nil => rfl
  | cons i R ih =>
    rw [laplace, List.map_cons, laplaceN]
    have := List.foldl_map (f := fun k => ((C.map c)[k]?.getD 0, k)) (g := fun (e : Expr T) (jk : Nat × Nat) =>
      Expr.add e (.mul (.lit (f (r i) jk.1)) (if jk.2 % 2 = 1 then .neg (laplaceN f (R.map r) ((C.map c).eraseIdx jk.2))
        else laplaceN f (R.map r) ((C.map c).eraseIdx jk.2)))) (l := List.range (C.map c).length) (init := Expr.zero)
    rw [← zipIdx_eq_map] at this
    rw [← this, List.zipIdx_map, List.foldl_map]
    congr 1
    funext e jk
    simp only [Prod.map_fst, Prod.map_snd, id, hf, ih, List.eraseIdx_map]

theorem detE_zero (o : ScalarE σ T) (A : Mat T 0 0) : A.detE o = o.one := by
  refine withMask_eq ?_
  rw [detAuxE]
  refine Impl.left Mask.new (fun s => by simp [exec_onMask]) ?_
  rw [if_pos (show (Mask.new : Mask 0).deg = 0 from rfl)]
  exact Impl.onEnv _ _

/-- entries, extended to all pairs of numbers when there is at least one -/
def entN (A : Mat T N N) (h : 0 < N) (i j : Nat) : T := if h : i < N ∧ j < N then (A[i]'h.1)[j]'h.2 else A[0][0]
theorem entN_lt (A : Mat T N N) (h : 0 < N) (i : Nat) (hi : i < N) (j : Nat) (hj : j < N) : entN A h i j = A[i][j] := by
  simp [entN, hi, hj]

theorem detE_eqN (o : ScalarE σ T) {A : Mat T N N} {f : Nat → Nat → T} (hf : ∀ i (hi : i < N) j (hj : j < N), f i j = A[i][j]) :
    A.detE o = (laplaceN f (List.range N) (List.range N)).eval o :=
  withMask_eq (impl_detAuxE o hf (N + 1) MaskOk.new (by simp))
theorem detE_eq (o : ScalarE σ T) (A : Mat T N N) :
    A.detE o = (laplace (fun i j : Fin N => A[i.1][j.1]) (List.finRange N) (List.finRange N)).eval o := by
  rcases Nat.eq_zero_or_pos N with rfl | h
  · rw [detE_zero]; rfl
  · rw [detE_eqN o (fun i hi j hj => entN_lt A h i hi j hj),
      laplace_eq (f := entN A h) (fun i : Fin N => i.1) (fun j : Fin N => j.1) (fun i j => entN_lt A h _ i.2 _ j.2)]
    simp

theorem cofactorE_eqN (o : ScalarE σ T) {A : Mat T N N} {f : Nat → Nat → T} (hf : ∀ i (hi : i < N) j (hj : j < N), f i j = A[i][j])
    (i j : Nat) (hi : i < N) (hj : j < N) : A.cofactorE o i j =
      ((laplaceN f ((List.range N).eraseIdx i) ((List.range N).eraseIdx j)).eval o >>= sgnE o (i + j)) := by
  unfold cofactorE
  rw [if_pos ⟨hi, hj⟩]
  have := impl_cofactorWithE o (MaskOk.new (N := N)) i j (by simpa using hi) (by simpa using hj) i j (det := detAuxE o A (N + 1))
    (fun m' hm' => impl_detAuxE o hf (N + 1) hm' (by rw [List.length_eraseIdx]; simp; split <;> omega))
  simp only [List.getElem_range] at this
  exact withMask_eq this
theorem cofactorE_eq (o : ScalarE σ T) (A : Mat T N N) (i j : Nat) (hi : i < N) (hj : j < N) : A.cofactorE o i j =
    ((laplace (fun i j : Fin N => A[i.1][j.1]) ((List.finRange N).eraseIdx i) ((List.finRange N).eraseIdx j)).eval o >>=
      sgnE o (i + j)) := by
  have h : 0 < N := by omega
  rw [cofactorE_eqN o (fun i hi j hj => entN_lt A h i hi j hj) i j hi hj,
    laplace_eq (f := entN A h) (fun i : Fin N => i.1) (fun j : Fin N => j.1) (fun i j => entN_lt A h _ i.2 _ j.2)]
  simp [← List.eraseIdx_map]
end Mat
end Vecmat

namespace Vecmat
open Spec
variable {T U α β ι S σ : Type} {L M N : Nat}

/-! ## call logs -/
theorem Spec.Makes.pure (x : α) : Makes (σ := σ) (Pure.pure x) [] := fun s log => ⟨.ok x, s, [], by simp, by simp, by simp⟩
theorem Spec.Makes.note (n : Op) (c : Eff σ α) : Makes (note n c) [n] := fun s log =>
  ⟨(c.exec s).1, (c.exec s).2, [n], rfl, List.prefix_refl _, fun _ => rfl⟩
theorem Spec.Makes.bind {c : Eff (σ × List Op) α} {f : α → Eff (σ × List Op) β} {l k : List Op} (h : Makes c l)
    (h' : ∀ x, Makes (f x) k) : Makes (c >>= f) (l ++ k) := by
  intro s log
  obtain ⟨r, t, p, hr, hp, hok⟩ := h s log
  rw [exec_bind, hr]
  rcases r with e | x
  · exact ⟨_, _, p, rfl, hp.trans (List.prefix_append _ _), by simp⟩
  · obtain rfl := hok ⟨x, rfl⟩
    obtain ⟨r', t', q, hr', hq, hok'⟩ := h' x t (log ++ p)
    refine ⟨r', t', p ++ q, by simp only [hr', List.append_assoc], (List.prefix_append_right_inj p).2 hq, fun hx => by rw [hok' hx]⟩
theorem Spec.Makes.map {c : Eff (σ × List Op) α} {f : α → β} {l : List Op} (h : Makes c l) : Makes (f <$> c) l := by
  have := h.bind (f := fun x => Pure.pure (f x)) fun x => Makes.pure (f x)
  rw [List.append_nil] at this
  rw [map_eq_pure_bind]
  exact this
theorem Spec.Makes.of_map {c : Eff (σ × List Op) α} {f : α → β} {l : List Op} (h : Makes (f <$> c) l) : Makes c l := by
  intro s log
  obtain ⟨r, t, p, hr, hp, hok⟩ := h s log
  rw [exec_map] at hr
  rcases hc : c.exec (s, log) with ⟨e | x, s'⟩
  · rw [hc] at hr
    simp only [Prod.mk.injEq] at hr
    exact ⟨_, t, p, by rw [hr.2], hp, by simp⟩
  · rw [hc] at hr
    simp only [Prod.mk.injEq] at hr
    exact ⟨_, t, p, by rw [hr.2], hp, fun _ => hok ⟨_, hr.1.symm⟩⟩

theorem Spec.Makes.inOrder {γ : Type} (cs : List γ) (c : γ → Eff (σ × List Op) α) (l : γ → List Op) (h : ∀ x ∈ cs, Makes (c x) (l x)) :
    Makes (inOrder (cs.map c)) (cs.flatMap l) := by
  induction cs with
  | nil => exact Makes.pure _
  | cons x cs ih =>
    simp only [List.map_cons, Spec.inOrder, List.flatMap_cons]
    refine (h x (by simp)).bind fun y => ?_
    have := (ih fun x hx => h x (by simp [hx])).bind (f := fun xs => Pure.pure (y :: xs)) (fun xs => Makes.pure _)
    simpa using this
theorem Spec.Makes.foldlM {γ : Type} (cs : List γ) (f : α → γ → Eff (σ × List Op) α) (l : γ → List Op)
    (h : ∀ a, ∀ x ∈ cs, Makes (f a x) (l x)) (a : α) : Makes (cs.foldlM f a) (cs.flatMap l) := by
  induction cs generalizing a with
  | nil => exact Makes.pure _
  | cons x cs ih =>
    rw [List.foldlM_cons, List.flatMap_cons]
    exact (h a x (by simp)).bind fun y => ih (fun a x hx => h a x (by simp [hx])) y

/-! ## compound assignment -/
theorem list_forM_cons (f : α → Eff σ Unit) (a : α) (l : List α) : (a :: l).forM f = (f a >>= fun _ => l.forM f) := rfl
theorem oneByOne_forM (look : S → ι → T) (upd : S → ι → T → S) (hself : ∀ A p x, look (upd A p x) p = x)
    (hne : ∀ A p q x, p ≠ q → look (upd A p x) q = look A q)
    (step : ι → Eff (S × σ) Unit) (g : ι → Eff (T × σ) Unit)
    (hstep : ∀ p A s, (step p).exec (A, s) =
      (((g p).exec (look A p, s)).1, (upd A p ((g p).exec (look A p, s)).2.1, ((g p).exec (look A p, s)).2.2)))
    (ps : List ι) (hnd : ps.Nodup) (A : S) (s : σ) :
    OneByOne g ps (look A) (look ((ps.forM step).exec (A, s)).2.1) s ((ps.forM step).exec (A, s)).2.2 ((ps.forM step).exec (A, s)).1 ∧
      ∀ q, q ∉ ps → look ((ps.forM step).exec (A, s)).2.1 q = look A q := by
  induction ps generalizing A s with
  | nil =>
    refine ⟨⟨0, fun _ => s, by simp, rfl, by simp, by simp, fun _ => ⟨rfl, rfl⟩, by simp⟩, fun q _ => rfl⟩
  | cons p ps ih =>
    rw [List.nodup_cons] at hnd
    rw [list_forM_cons, exec_bind, hstep]
    rcases hg : (g p).exec (look A p, s) with ⟨e | ⟨⟩, x, s1⟩
    · refine ⟨⟨0, fun _ => s, by simp, rfl, by simp, ?_, by simp, ?_⟩, ?_⟩
      · intro i h hi
        simp only
        apply hne
        intro hp
        obtain ⟨j, rfl⟩ : ∃ j, i = j + 1 := ⟨i - 1, by omega⟩
        rw [List.getElem_cons_succ] at hp
        exact hnd.1 (hp ▸ List.getElem_mem _)
      · intro h
        refine ⟨e, rfl, ?_⟩
        simp only [List.getElem_cons_zero, hself]
        exact hg
      · intro q hq
        exact hne _ _ _ _ (by rintro rfl; simp at hq)
    · simp only
      obtain ⟨⟨k, st, hk, h0, h1, h2, h3, h4⟩, hrest⟩ := ih hnd.2 (upd A p x) s1
      have hlook : ∀ i (h : i < ps.length), look (upd A p x) ps[i] = look A ps[i] := fun i h =>
        hne _ _ _ _ (fun hp => hnd.1 (hp ▸ List.getElem_mem _))
      refine ⟨⟨k + 1, fun n => if n = 0 then s else st (n - 1), by simpa using hk, rfl, ?_, ?_, ?_, ?_⟩, ?_⟩
      · intro i h hi
        cases i with
        | zero =>
          simp only [List.getElem_cons_zero, if_true]
          rw [hg, hrest p hnd.1, hself]
          simp [h0]
        | succ i =>
          simp only [List.getElem_cons_succ]
          have := h1 i (by simpa using h) (by omega)
          rw [hlook] at this
          simpa using this
      · intro i h hi
        cases i with
        | zero => omega
        | succ i =>
          simp only [List.getElem_cons_succ]
          rw [h2 i (by simpa using h) (by omega), hlook]
      · intro h
        obtain ⟨hr, hs⟩ := h3 (by simpa using h)
        exact ⟨hr, by simpa using hs⟩
      · intro h
        obtain ⟨e, he, hg'⟩ := h4 (by simpa using h)
        refine ⟨e, he, ?_⟩
        simp only [List.getElem_cons_succ]
        rw [hlook] at hg'
        simpa using hg'
      · intro q hq
        rw [List.mem_cons, not_or] at hq
        rw [hrest q hq.2, hne _ _ _ _ (Ne.symm hq.1)]

namespace Vec
theorem assignLoopE_eq (f : U → Eff (T × σ) Unit) (l : List U) (i : Nat) (h : i + l.length ≤ N) :
    assignLoopE (N := N) f l i = (l.zipIdx i).forM fun p => atIdx p.2 (f p.1) := by
  induction l generalizing i with
  | nil => rfl
  | cons x l ih =>
    simp only [List.length_cons] at h
    rw [assignLoopE, if_pos (by omega), ih (i + 1) (by omega), List.zipIdx_cons, list_forM_cons]
theorem forRange_forM (n i : Nat) (f : Nat → Eff σ Unit) : (forRange n i () fun i _ => f i) = (List.range' i n).forM f := by
  induction n generalizing i with
  | zero => rfl
  | succ n ih =>
    rw [forRange, List.range'_succ, list_forM_cons]
    congr 1
    funext u
    exact ih (i + 1)
end Vec
end Vecmat
