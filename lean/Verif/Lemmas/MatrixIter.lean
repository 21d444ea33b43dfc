import Verif.Lemmas.MatrixOps
/-! Helper lemmas: effectful `map`, `fold`, `scan`, `for_each` on matrices visit the elements in row-major order. -/
namespace Vecmat
open Spec
variable {T U S σ : Type} {M N : Nat} {m : Type → Type}
namespace Mat

theorem rowMajor_mk (d : Vec (Vec T N) M) : rowMajor (Mat.mk d) = d.toList.flatMap Vec.toList := rowMajor_eq _

theorem rowMajor_inj {A B : Mat T M N} (h : rowMajor A = rowMajor B) : A = B := by
  apply ext_getElem; intro i hi j hj
  have h1 : ∀ (X : Mat T M N), (i, j) ∈ positions M N →
      ((i, j), X[i][j]) ∈ (positions M N).zip (rowMajor X) := by
    intro X _
    rw [zip_positions]
    simp only [List.mem_flatMap, List.mem_map]
    exact ⟨⟨i, hi⟩, by simp, ⟨j, hj⟩, by simp, rfl⟩
  have hp : (i, j) ∈ positions M N := (mem_positions _).mpr ⟨hi, hj⟩
  have hA := h1 A hp
  rw [h, zip_positions] at hA
  simp only [List.mem_flatMap, List.mem_map] at hA
  obtain ⟨a, _, b, _, e⟩ := hA
  simp only [Prod.mk.injEq] at e
  obtain ⟨⟨e1, e2⟩, e3⟩ := e
  subst e1; subst e2
  exact e3.symm

theorem flatten_mapM [Monad m] [LawfulMonad m] {A : Type} (items : A → List T) {B : Type} (outs : B → List U)
    (f : T → m U) (g : A → m B) (hg : ∀ a, outs <$> g a = (items a).mapM f) (l : List A) :
    (fun k => k.flatMap outs) <$> l.mapM g = (l.flatMap items).mapM f := by
  induction l with
  | nil => simp
  | cons a l ih =>
    rw [List.mapM_cons, List.flatMap_cons, List.mapM_append, ← ih, ← hg]
    simp [List.flatMap_cons, map_bind]

theorem rowMajor_mapM [Monad m] [LawfulMonad m] (f : T → m U) (A : Mat T M N) :
    rowMajor <$> A.mapM f = (rowMajor A).mapM f := by
  have h := flatten_mapM Vec.toList Vec.toList f (fun a : Vec T N => a.mapM f) (fun a => Vec.toList_mapM f a) A.data.toList
  rw [rowMajor_eq, ← h, ← Vec.toList_mapM]
  unfold mapM
  simp [rowMajor_mk]

theorem foldM_rowMajor [Monad m] [LawfulMonad m] (f : S → T → m S) (s : S) (A : Mat T M N) :
    A.foldM f s = (rowMajor A).foldlM f s := by
  rw [rowMajor_eq]
  show A.data.toList.foldlM (fun t a => a.toList.foldlM f t) s = _
  generalize A.data.toList = l
  induction l generalizing s with
  | nil => simp
  | cons a l ih => rw [List.flatMap_cons, List.foldlM_append, List.foldlM_cons]; simp only [ih]

theorem forEachM_rowMajor [Monad m] [LawfulMonad m] (f : T → m Unit) (A : Mat T M N) :
    A.forEachM f = (rowMajor A).foldlM (fun _ x => f x) () := foldM_rowMajor (fun _ x => f x) () A

theorem scanCalls_unit [Monad m] [LawfulMonad m] (f : T → m U) (l : List T) :
    scanCalls (fun (_ : Unit) x => do let u ← f x; pure (u, ())) () l = l.mapM f := by
  induction l with
  | nil => simp [scanCalls]
  | cons x l ih => rw [scanCalls, List.mapM_cons]; simp only [bind_assoc, pure_bind, ih]

theorem rowMajor_scanE (f : S → T → Eff σ (U × S)) (A : Mat T M N) (s : S) :
    rowMajor <$> A.scanE s f = scanCalls f s (rowMajor A) := by
  apply Eff.ext; intro t
  rw [exec_map]
  unfold scanE
  simp only [exec_mk]
  have h1 : (fun k => k.flatMap Vec.toList) <$> (Vec.toList <$> A.data.scanE () fun _ a => do
      let r ← a.scanE () fun _ x => do
        let u ← scanBody f x
        pure (u, ())
      pure (r, ())) = (rowMajor A).mapM (scanBody f) := by
    rw [Vec.toList_scanE, scanCalls_unit, rowMajor_eq]
    apply flatten_mapM
    intro a
    rw [Vec.toList_scanE, scanCalls_unit]
  have h2 : ∀ (l : List T) (s : S) (t : σ),
      (match Eff.exec (l.mapM (scanBody f) : Eff (S × σ) (List U)) (s, t) with
      | (.ok us, (_, t')) => ((.ok us : Res (List U)), t')
      | (.error e, (_, t')) => (.error e, t')) = (scanCalls f s l).exec t := by
    intro l
    induction l with
    | nil => intro s t; simp [scanCalls]
    | cons x l ih =>
      intro s t
      rw [List.mapM_cons, scanCalls, exec_bind, exec_bind]
      have hx : Eff.exec (scanBody f x) (s, t) = match (f s x).exec t with
          | (.ok (u, s'), t') => (.ok u, (s', t'))
          | (.error e, t') => (.error e, (s, t')) := rfl
      rw [hx]
      rcases (f s x).exec t with ⟨e | ⟨u, s'⟩, t'⟩
      · simp
      · simp only [exec_bind]
        rw [← ih s' t']
        rcases Eff.exec (l.mapM (scanBody f) : Eff (S × σ) (List U)) (s', t') with ⟨e | us, ⟨s2, t2⟩⟩ <;> simp
  rw [← h2, ← h1]
  simp only [exec_map]
  rcases (A.data.scanE () fun _ a => do
      let r ← a.scanE () fun _ x => do
        let u ← scanBody f x
        pure (u, ())
      pure (r, ())).exec (s, t) with ⟨e | d, ⟨s2, t2⟩⟩
  · simp
  · simp [rowMajor_mk]

end Mat
end Vecmat
