import Verif.Lemmas.VectorBase
/-! Helper lemmas: `indices`, `zip`, `unzip`, `map`, `scan`, `GroupIter`. -/
namespace Vecmat
variable {T U S σ : Type} {N : Nat} {m : Type → Type}
namespace Vec

theorem exec_tryFromIter_some {next : Eff σ (Option T)} {s s' : σ} {l : List T}
    (h : (Spec.takeN next N).exec s = (.ok l, s')) (hl : l.length = N) :
    (tryFromIter (N := N) next).exec s = (.ok (some (ofList l hl)), s') := by
  rw [tryFromIter_eq, exec_map, h]; simp [hl]
theorem exec_tryFromIter_none {next : Eff σ (Option T)} {s s' : σ} {l : List T}
    (h : (Spec.takeN next N).exec s = (.ok l, s')) (hl : l.length ≠ N) :
    (tryFromIter (N := N) next).exec s = (.ok none, s') := by
  rw [tryFromIter_eq, exec_map, h]; simp [hl]
theorem exec_tryFromIter_error {next : Eff σ (Option T)} {s s' : σ} {e : Fault}
    (h : (Spec.takeN next N).exec s = (.error e, s')) :
    (tryFromIter (N := N) next).exec s = (.error e, s') := by
  rw [tryFromIter_eq, exec_map, h]; simp

/-- Results of `n` consecutive calls of a non-panicking closure. -/
def stepResults (f : σ → T × σ) : Nat → σ → List T
  | 0, _ => []
  | n + 1, s => (f s).1 :: stepResults f n (f s).2
/-- Closure state after `n` calls. -/
def stepState (f : σ → T × σ) : Nat → σ → σ
  | 0, s => s
  | n + 1, s => stepState f n (f s).2

@[simp] theorem length_stepResults (f : σ → T × σ) (n : Nat) (s : σ) : (stepResults f n s).length = n := by
  induction n generalizing s with
  | zero => rfl
  | succ n ih => simp [stepResults, ih]

theorem callN_ofStep (f : σ → T × σ) (n : Nat) (s : σ) :
    (Spec.callN (Eff.ofStep f) n).exec s = (.ok (stepResults f n s), stepState f n s) := by
  induction n generalizing s with
  | zero => rfl
  | succ n ih => simp [Spec.callN, exec_bind, exec_map, ih, stepResults, stepState]

theorem exec_initM_of_ok {f : Eff σ T} {s s' : σ} {l : List T} (h : (Spec.callN f N).exec s = (.ok l, s')) :
    ∃ hl : l.length = N, (initM (N := N) f).exec s = (.ok (ofList l hl), s') := by
  rw [← toList_initM, exec_map] at h
  rcases hx : (initM (N := N) f).exec s with ⟨_ | v, s''⟩
  · rw [hx] at h; simp at h
  · rw [hx] at h; simp only [Res.map_ok, Prod.mk.injEq, Except.ok.injEq] at h
    obtain ⟨rfl, rfl⟩ := h
    exact ⟨by simp, by rw [ofList_toList]⟩

theorem exec_initM_of_error {f : Eff σ T} {s s' : σ} {e : Fault} (h : (Spec.callN f N).exec s = (.error e, s')) :
    (initM (N := N) f).exec s = (.error e, s') := by
  rw [← toList_initM, exec_map] at h
  rcases hx : (initM (N := N) f).exec s with ⟨_ | v, s''⟩
  · rw [hx] at h; simpa using h
  · rw [hx] at h; simp at h

theorem exec_initM_ofStep' (f : σ → T × σ) (s : σ) :
    (initM (N := N) (Eff.ofStep f)).exec s =
      (.ok (ofList (stepResults f N s) (by simp)), stepState f N s) := by
  obtain ⟨_, h⟩ := exec_initM_of_ok (callN_ofStep f N s)
  exact h
theorem exec_initM_ofStep (f : σ → T × σ) (s : σ) :
    ((initM (N := N) (Eff.ofStep f)).exec s).1 = .ok (ofList (stepResults f N s) (by simp)) := by
  rw [exec_initM_ofStep']

theorem indicesR_eq : (indicesR : Res (Vec Nat N)) = .ok (ofList (List.range N) (by simp)) := by
  unfold indicesR
  rw [exec_tryFromIter_some (takeN_listNext N (List.range N)) (by simp)]
  simp [List.take_of_length_le]

theorem zipR_eq (v : Vec T N) (w : Vec U N) :
    zipR v w = .ok (ofList (v.toList.zip w.toList) (by simp)) := by
  unfold zipR
  rw [exec_tryFromIter_some (takeN_zipNext N v.toList w.toList (by simp)) (by simp)]
  simp [List.take_of_length_le]

theorem index_lt (v : Vec T N) (i : Nat) (h : i < N) : v.index i = .ok v[i] := by
  simp [index, h]; rfl
theorem index_ge (v : Vec T N) (i : Nat) (h : N ≤ i) : v.index i = .error .indexOob := by
  simp [index, Nat.not_lt.mpr h]

theorem unzipR_loop (v : Vec (T × U) N) (n k : Nat) (h : k + n = N) :
    forRange (m := Res) n k (slots N ((v.toList.map Prod.fst).take k), slots N ((v.toList.map Prod.snd).take k))
      (fun i (a, b) => do
        let (x, y) ← v.index i
        pure (a.setIfInBounds i (some x), b.setIfInBounds i (some y)))
    = .ok (slots N (v.toList.map Prod.fst), slots N (v.toList.map Prod.snd)) := by
  induction n generalizing k with
  | zero =>
    simp only [forRange, Res.pure_eq]
    rw [List.take_of_length_le (by simp; omega), List.take_of_length_le (by simp; omega)]
  | succ n ih =>
    simp only [forRange]
    rw [index_lt v k (by omega)]
    simp only [Res.bind_ok, Res.pure_eq]
    rw [← ih (k+1) (by omega)]
    have e1 : ((v.toList.map Prod.fst).take k).length = k := by simp; omega
    have e2 : ((v.toList.map Prod.snd).take k).length = k := by simp; omega
    have s1 := set_slots (N := N) ((v.toList.map Prod.fst).take k) v[k].1
    have s2 := set_slots (N := N) ((v.toList.map Prod.snd).take k) v[k].2
    rw [e1] at s1; rw [e2] at s2
    rw [s1, s2]
    congr 3
    · rw [List.take_succ_eq_append_getElem (by simp; omega)]; simp
    · rw [List.take_succ_eq_append_getElem (by simp; omega)]; simp

theorem unzipR_eq (v : Vec (T × U) N) :
    unzipR v = .ok (ofList (v.toList.map Prod.fst) (by simp), ofList (v.toList.map Prod.snd) (by simp)) := by
  unfold unzipR
  have := unzipR_loop v N 0 (by omega)
  simp only [List.take_zero, ← uninit_eq] at this
  rw [this]
  simp only [Res.bind_ok]
  rw [assumeInit_slots _ (by simp), assumeInit_slots _ (by simp)]
  rfl

theorem val_listMapM [Monad m] [LawfulMonad m] (f : T → m U) (l : List T) :
    Subtype.val <$> listMapM f l = l.mapM f := by
  induction l with
  | nil => simp [listMapM]
  | cons x l ih => simp [listMapM, ← ih]

theorem toList_mapM [Monad m] [LawfulMonad m] (f : T → m U) (v : Vec T N) :
    Vec.toList <$> v.mapM f = v.toList.mapM f := by
  rw [← val_listMapM]
  unfold mapM intoArray toList fromArray
  simp only [bind_pure_comp, Functor.map_map]
  rfl

theorem toList_map (f : T → U) (v : Vec T N) : (v.map f).toList = v.toList.map f := by
  have := toList_mapM (m := Id) (fun x => pure (f x)) v
  simp only [List.mapM_pure] at this
  exact this

@[simp] theorem getElem_map (f : T → U) (v : Vec T N) (i : Nat) (h : i < N) : (v.map f)[i] = f v[i] := by
  have := toList_map f v
  have h2 : (v.map f).toList[i]'(by simpa) = (v.toList.map f)[i]'(by simpa) := by simp only [this]
  simpa using h2

theorem fold_eq (f : S → T → S) (s : S) (v : Vec T N) : v.fold f s = v.toList.foldl f s := by
  unfold fold foldM
  simp

theorem foldFirstR_eq (f : T → T → T) (v : Vec T N) :
    v.foldFirstR f = match v.toList with
      | [] => .error .unwrapNone
      | x :: l => .ok (l.foldl f x) := by
  unfold foldFirstR foldFirstM
  cases v.toList with
  | nil => simp
  | cons x l =>
    simp only [List.head?_cons, unwrap_some, List.tail_cons, Res.pure_eq, Res.bind_ok]
    induction l generalizing x with
    | nil => rfl
    | cons y l ih => simp [List.foldlM_cons, ih]

/-- State after `n` steps of a `Scan` iterator. -/
theorem takeN_scanNext (f : S → T → Eff σ (U × S)) (l : List T) (s : S) (t : σ) :
    ((Spec.takeN (scanNext f) l.length).exec (l, s, t)).1 = ((Spec.scanCalls f s l).exec t).1 ∧
    ((Spec.takeN (scanNext f) l.length).exec (l, s, t)).2.2.2 = ((Spec.scanCalls f s l).exec t).2 := by
  induction l generalizing s t with
  | nil => simp [Spec.takeN, Spec.scanCalls]
  | cons x l ih =>
    simp only [List.length_cons, Spec.takeN, Spec.scanCalls, exec_bind]
    rw [show (scanNext f).exec (x :: l, s, t) = (match (f s x).exec t with
      | (.ok (u, s'), t') => (.ok (some u), (l, s', t'))
      | (.error e, t') => (.error e, (l, s, t'))) from rfl]
    rcases hr : (f s x).exec t with ⟨_ | ⟨u, s'⟩, t'⟩
    · simp
    · have := ih s' t'
      simp only [exec_bind]
      revert this
      rcases (Spec.takeN (scanNext f) l.length).exec (l, s', t') with ⟨_ | us, a, b, c⟩ <;>
      rcases (Spec.scanCalls f s' l).exec t' with ⟨_ | us', c'⟩ <;> simp

theorem takeN_scanNext_len (f : S → T → Eff σ (U × S)) (l : List T) (s : S) (t : σ) (us : List U) (r)
    (h : (Spec.takeN (scanNext f) l.length).exec (l, s, t) = (.ok us, r)) : us.length = l.length := by
  induction l generalizing s t us r with
  | nil => simp [Spec.takeN] at h; simp [← h.1]
  | cons x l ih =>
    simp only [List.length_cons, Spec.takeN, exec_bind] at h
    rw [show (scanNext f).exec (x :: l, s, t) = (match (f s x).exec t with
      | (.ok (u, s'), t') => (.ok (some u), (l, s', t'))
      | (.error e, t') => (.error e, (l, s, t'))) from rfl] at h
    rcases hr : (f s x).exec t with ⟨_ | ⟨u, s'⟩, t'⟩
    · simp [hr] at h
    · simp only [hr, exec_bind] at h
      rcases h2 : (Spec.takeN (scanNext f) l.length).exec (l, s', t') with ⟨_ | us', r'⟩
      · simp [h2] at h
      · have := ih s' t' us' r' h2
        simp [h2] at h
        simp [← h.1, this]

theorem toList_scanE (f : S → T → Eff σ (U × S)) (v : Vec T N) (s : S) :
    Vec.toList <$> v.scanE s f = Spec.scanCalls f s v.toList := by
  apply Eff.ext; intro t
  rw [exec_map]
  unfold scanE
  simp only [exec_mk]
  have hN : v.toList.length = N := by simp
  have h := takeN_scanNext f v.toList s t
  have hl := takeN_scanNext_len f v.toList s t
  rw [hN] at h hl
  rcases h2 : (Spec.takeN (scanNext f) N).exec (v.toList, s, t) with ⟨_ | us, a, b, c⟩
  · rw [exec_tryFromIter_error h2]
    rw [h2] at h
    simp only [Res.map_error]
    exact Prod.ext h.1 h.2
  · rw [exec_tryFromIter_some h2 (hl us _ h2)]
    rw [h2] at h
    simp only [Res.map_ok, toList_ofList]
    exact Prod.ext h.1 h.2

end Vec
end Vecmat
