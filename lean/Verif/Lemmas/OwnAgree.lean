import Verif.Lemmas.OwnMat
import Verif.Lemmas.MatrixIter
/-! Helper lemmas: the ownership model does what the models without ownership do. -/
namespace Vecmat
namespace Own
open Spec (callEach foldEach SameUpToPanic)
variable {σ A S T U W X α β : Type} {M N : Nat}

/-! ## rules -/
theorem _root_.Vecmat.Spec.SameUpToPanic.rfl' (x : Eff W α) : SameUpToPanic x x := by
  intro w
  match hx : x.exec w with
  | (.ok a, w') => rfl
  | (.error e, w') => rfl
theorem _root_.Vecmat.Spec.SameUpToPanic.trans {x y z : Eff W α} (h1 : SameUpToPanic x y) (h2 : SameUpToPanic y z) : SameUpToPanic x z := by
  intro w
  have a := h2 w
  have b := h1 w
  match hz : z.exec w with
  | (.ok c, w') => rw [hz] at a; simp only at a; rw [a] at b; exact b
  | (.error e, w') =>
    rw [hz] at a
    simp only at a ⊢
    match hy : y.exec w with
    | (.ok c, w') => rw [hy] at a; cases a
    | (.error e', w') => rw [hy] at a b; rw [b]; exact a
theorem _root_.Vecmat.Spec.SameUpToPanic.bind {x y : Eff W α} {f g : α → Eff W β} (h : SameUpToPanic x y) (hf : ∀ a, SameUpToPanic (f a) (g a)) :
    SameUpToPanic (x >>= f) (y >>= g) := by
  intro w
  have a := h w
  match hy : y.exec w with
  | (.ok c, w') =>
    rw [hy] at a; simp only at a
    rw [exec_bind_ok hy, exec_bind_ok a]
    exact hf c w'
  | (.error e, w') =>
    rw [hy] at a; simp only at a
    rw [exec_bind_error hy]
    match hx : x.exec w with
    | (.ok c, w') => rw [hx] at a; cases a
    | (.error e', w') => rw [hx] at a; rw [exec_bind_error hx]; simpa using a
theorem _root_.Vecmat.Spec.SameUpToPanic.foldlM {f g : S → T → Eff W S} (h : ∀ s x, SameUpToPanic (f s x) (g s x)) (l : List T) (s : S) :
    SameUpToPanic (l.foldlM f s) (l.foldlM g s) := by
  induction l generalizing s with
  | nil => exact SameUpToPanic.rfl' _
  | cons x l ih => rw [List.foldlM_cons, List.foldlM_cons]; exact (h s x).bind fun s => ih s
theorem _root_.Vecmat.Spec.SameUpToPanic.listMapM {f g : T → Eff W U} (h : ∀ x, SameUpToPanic (f x) (g x)) (l : List T) :
    SameUpToPanic (listMapM f l) (listMapM g l) := by
  induction l with
  | nil => exact SameUpToPanic.rfl' _
  | cons x l ih => unfold Vecmat.listMapM; exact (h x).bind fun y => ih.bind fun r => SameUpToPanic.rfl' _
theorem _root_.Vecmat.Spec.SameUpToPanic.mapM {f g : T → Eff W U} (h : ∀ x, SameUpToPanic (f x) (g x)) (v : Vec T N) : SameUpToPanic (v.mapM f) (v.mapM g) := by
  unfold Vec.mapM; exact (SameUpToPanic.listMapM h _).bind fun r => SameUpToPanic.rfl' _

/-! ## callEach and foldEach against the monadic folds -/
theorem exec_mapM_list (f : T → Eff W U) (l : List T) (w : W) :
    (l.mapM f).exec w = match callEach f l w with
      | (k, none, w') => (.ok k, w')
      | (_, some e, w') => (.error e, w') := by
  induction l generalizing w with
  | nil => rfl
  | cons x l ih =>
    rw [List.mapM_cons]
    simp only [callEach]
    match hx : (f x).exec w with
    | (.error e, w') => rw [exec_bind_error hx]
    | (.ok y, w') =>
      rw [exec_bind_ok hx]
      have := ih w'
      match hr : callEach f l w' with
      | (k, none, w2) => rw [hr] at this; rw [exec_bind_ok this]; simp [hr]
      | (k, some e, w2) => rw [hr] at this; rw [exec_bind_error this]; simp [hr]
theorem exec_mapM_vec (f : T → Eff W U) (v : Vec T N) (w : W) :
    match callEach f v.toList w with
      | (k, none, w') => ∃ h : k.length = N, (v.mapM f).exec w = (.ok (Vec.ofList k h), w')
      | (_, some e, w') => (v.mapM f).exec w = (.error e, w') := by
  have h1 := congrArg (fun x : Eff W (List U) => x.exec w) (Vec.toList_mapM (m := Eff W) f v)
  simp only [exec_map, exec_mapM_list] at h1
  match hr : callEach f v.toList w with
  | (k, none, w') =>
    have hk : k.length = N := (callEach_length_of_ok hr).trans (by simp)
    refine ⟨hk, ?_⟩
    rw [hr] at h1
    match hm : (v.mapM f).exec w with
    | (.ok u, w2) =>
      rw [hm] at h1
      simp only [Res.map_ok, Prod.mk.injEq, Except.ok.injEq] at h1
      obtain ⟨rfl, rfl⟩ := h1
      rw [Vec.ofList_toList]
    | (.error e, w2) => rw [hm] at h1; simp at h1
  | (k, some e, w') =>
    rw [hr] at h1
    match hm : (v.mapM f).exec w with
    | (.ok u, w2) => rw [hm] at h1; simp at h1
    | (.error e, w2) =>
      rw [hm] at h1
      simp only [Res.map_error, Prod.mk.injEq, Except.error.injEq] at h1
      rw [h1.1, h1.2]
theorem exec_foldlM (f : S → T → Eff W S) (l : List T) (s : S) (w : W) :
    (l.foldlM f s).exec w = ((foldEach f l s w).2.1, (foldEach f l s w).2.2) := by
  induction l generalizing s w with
  | nil => rfl
  | cons x l ih =>
    rw [List.foldlM_cons]
    simp only [foldEach]
    match hx : (f s x).exec w with
    | (.error e, w') => rw [exec_bind_error hx]
    | (.ok y, w') => rw [exec_bind_ok hx, ih]

/-! ## vectors -/
variable [Ledger W A]
theorem same_map (ownT : T → List A) (ownU : U → List A) (dropT : T → Eff W Unit) (dropU : U → Eff W Unit) (f : T → Eff W U) (v : Vec T N) :
    SameUpToPanic (map ownT ownU dropT dropU f v) (v.mapM f) := by
  intro w
  have h1 := map_run ownT ownU dropT dropU f v w
  have h2 := exec_mapM_vec f v w
  match hr : callEach f v.toList w with
  | (k, none, w') =>
    rw [hr] at h1 h2
    obtain ⟨h, h1⟩ := h1
    obtain ⟨h', h2⟩ := h2
    rw [h2]; exact h1
  | (k, some e, w') =>
    rw [hr] at h1 h2
    simp only at h1 h2
    rw [h2, h1]
theorem same_scanRef (ownT : T → List A) (ownU : U → List A) (dropT : T → Eff W Unit) (dropU : U → Eff W Unit) (f : T → Eff W U) (v : Vec T N) :
    SameUpToPanic (scanRef ownT ownU dropT dropU f v) (v.mapM f) := by
  intro w
  have h1 := scanRef_run ownT ownU dropT dropU f v w
  have h2 := exec_mapM_vec f v w
  match hr : callEach f v.toList w with
  | (k, none, w') =>
    rw [hr] at h1 h2
    obtain ⟨h, h1⟩ := h1
    obtain ⟨h', h2⟩ := h2
    rw [h2]; exact h1
  | (k, some e, w') =>
    rw [hr] at h1 h2
    simp only at h1 h2
    rw [h2, h1]
theorem same_of_fold {f : S → T → Eff W S} {l : List T} {s : S} {drop : T → Eff W Unit} {x : Eff W S}
    (hx : ∀ w, x.exec w = ((foldEach f l s w).2.1, ((dropAll drop (foldEach f l s w).1).exec (foldEach f l s w).2.2).2)) :
    SameUpToPanic x (l.foldlM f s) := by
  intro w
  rw [exec_foldlM, hx]
  match hr : foldEach f l s w with
  | (r, .ok a, w') => obtain rfl := foldEach_ok hr; rfl
  | (r, .error e, w') => rfl
theorem same_fold (own : T → List A) (ownS : S → List A) (drop : T → Eff W Unit) (f : S → T → Eff W S) (s : S) (v : Vec T N) :
    SameUpToPanic (fold own ownS drop f s v) (v.foldM f s) := same_of_fold (fold_run own ownS drop f s v)
theorem same_forEach (own : T → List A) (drop : T → Eff W Unit) (f : T → Eff W Unit) (v : Vec T N) :
    SameUpToPanic (forEach own drop f v) (v.forEachM f) := same_fold own (fun _ => []) drop (fun _ x => f x) () v
theorem same_foldFirst (own : T → List A) (drop : T → Eff W Unit) (f : T → T → Eff W T) (v : Vec T N) :
    SameUpToPanic (foldFirst own drop f v) (v.foldFirstM f) := by
  have h := foldFirst_run own drop f v
  unfold Vec.foldFirstM
  match hv : v.toList with
  | [] => intro w; rw [h w, hv]; rfl
  | x :: l =>
    simp only [List.head?_cons, unwrap_some, pure_bind, List.tail_cons]
    exact same_of_fold (drop := drop) fun w => by rw [h w, hv]

/-! ## matrices -/
theorem same_matForEach (own : T → List A) (drop : T → Eff W Unit) (f : T → Eff W Unit) (C : Mat T M N) :
    SameUpToPanic (matForEach own drop f C) (C.forEachM f) :=
  (same_forEach (ownVec own) (dropVec drop) _ C.data).trans (SameUpToPanic.foldlM (fun _ a => same_forEach own drop f a) _ _)
theorem same_matMap (ownT : T → List A) (ownU : U → List A) (dropT : T → Eff W Unit) (dropU : U → Eff W Unit) (f : T → Eff W U) (C : Mat T M N) :
    SameUpToPanic (matMap ownT ownU dropT dropU f C) (C.mapM f) :=
  ((same_map (ownVec ownT) (ownVec ownU) (dropVec dropT) (dropVec dropU) _ C.data).trans
    (SameUpToPanic.mapM (fun a => same_map ownT ownU dropT dropU f a) C.data)).bind fun _ => SameUpToPanic.rfl' _
theorem same_matFold (own : T → List A) (ownS : S → List A) (drop : T → Eff W Unit) (f : S → T → Eff W S) (s : S) (C : Mat T M N) :
    SameUpToPanic (matFold own ownS drop f s C) (C.foldM f s) :=
  (same_fold (ownVec own) ownS (dropVec drop) _ s C.data).trans (SameUpToPanic.foldlM (fun s a => same_fold own ownS drop f s a) _ _)
theorem same_matFoldFirst (own : T → List A) (drop : T → Eff W Unit) (f : T → T → Eff W T) (C : Mat T M N) :
    SameUpToPanic (matFoldFirst own drop f C) (C.foldFirstM f) := by
  intro w
  unfold matFoldFirst scope Mat.foldFirstM
  rw [exec_mk]
  match hv : C.data.toList with
  | [] => rfl
  | a :: l =>
    have e : (nextItem (W := W) (own := ownVec (N := N) own)).exec ⟨w, a :: l⟩ = (.ok (some a), ⟨w, l⟩) := rfl
    have hl : l.length < M + 1 := by
      have h2 : (a :: l).length = M := by rw [← hv]; simp
      simp at h2; omega
    simp only [List.head?_cons, List.tail_cons, unwrap_some, pure_bind]
    rw [exec_bind_ok e, unwrap_some, pure_bind]
    have h1 := same_foldFirst own drop f a w
    match hf : (a.foldFirstM f).exec w with
    | (.error e, w1) =>
      rw [hf] at h1
      simp only at h1
      rw [exec_bind_error hf]
      match hg : (foldFirst own drop f a).exec w with
      | (.ok x, w1) => rw [hg] at h1; cases h1
      | (.error e', w1) =>
        rw [hg] at h1
        have e2 : (inner (own := ownList (ownVec (N := N) own)) (foldFirst own drop f a)).exec ⟨w, l⟩ = (.error e', ⟨w1, l⟩) := by simp [inner, hg]
        rw [exec_bind_error e2]; exact h1
    | (.ok s, w1) =>
      rw [hf] at h1
      simp only at h1
      have e2 : (inner (own := ownList (ownVec (N := N) own)) (foldFirst own drop f a)).exec ⟨w, l⟩ = (.ok s, ⟨w1, l⟩) := by simp [inner, h1]
      rw [exec_bind_ok hf, exec_bind_ok e2, foldLoop_run _ (M + 1) l hl s w1]
      have h2 := (SameUpToPanic.foldlM (fun s a => same_fold own own drop f s a) l s) w1
      rw [exec_foldlM (fun t a => fold own own drop f t a)] at h2
      match hm : (l.foldlM (fun t a => Vec.foldM f t a) s).exec w1 with
      | (.ok b, w2) =>
        rw [hm] at h2
        simp only [Prod.mk.injEq] at h2
        have h3 : (foldEach (fun t a => fold own own drop f t a) l s w1).1 = [] := by
          refine foldEach_ok (a := b) (w' := w2) (f := fun t a => fold own own drop f t a) (l := l) (s := s) (w := w1) ?_
          rw [← h2.1, ← h2.2]
        rw [h2.1, h2.2, h3]; rfl
      | (.error e, w2) =>
        rw [hm] at h2
        simp only at h2
        rw [h2]

/-! ## scan -/
omit [Ledger W A] in
theorem exec_scanCalls {own : S → List A} (f : S → T → Eff W (U × S)) (l : List T) (s : S) (w : W) :
    (Spec.scanCalls f s l).exec w = (((l.mapM (withState (own := own) f)).exec ⟨w, s⟩).1, ((l.mapM (withState (own := own) f)).exec ⟨w, s⟩).2.under) := by
  induction l generalizing s w with
  | nil => rfl
  | cons x l ih =>
    rw [List.mapM_cons]
    unfold Spec.scanCalls
    match hx : (f s x).exec w with
    | (.error e, w') =>
      have e2 : (withState (own := own) f x).exec ⟨w, s⟩ = (.error e, ⟨w', s⟩) := by simp [withState, hx]
      rw [exec_bind_error hx, exec_bind_error e2]
    | (.ok (u, t), w') =>
      have e2 : (withState (own := own) f x).exec ⟨w, s⟩ = (.ok u, ⟨w', t⟩) := by simp [withState, hx]
      rw [exec_bind_ok hx, exec_bind_ok e2]
      have h := ih t w'
      simp only
      match hr : (l.mapM (withState (own := own) f)).exec ⟨w', t⟩ with
      | (.ok k, g) => rw [hr] at h; rw [exec_bind_ok h, exec_bind_ok hr]; rfl
      | (.error e, g) => rw [hr] at h; rw [exec_bind_error h, exec_bind_error hr]
theorem scope_fst {own : X → List A} (res : α → List A) (drop : X → Eff W Unit) (hd : ∀ x w, ((drop x).exec w).1 = .ok ()) (x : X)
    (body : Eff (Local W own) α) (w : W) : ((scope res drop x body).exec w).1 = (body.exec ⟨w, x⟩).1 := by
  unfold scope
  rw [exec_mk]
  have h := hd (body.exec ⟨w, x⟩).2.val (body.exec ⟨w, x⟩).2.under
  match hb : body.exec ⟨w, x⟩ with
  | (.error e, g) => rfl
  | (.ok a, g) =>
    rw [hb] at h
    simp only at h ⊢
    rw [h]
theorem map_toList_inj {a b : Res (Vec T N)} (h : Vec.toList <$> a = Vec.toList <$> b) : a = b := by
  cases a with
  | error e => cases b with
    | error e' => simpa using h
    | ok y => simp at h
  | ok x => cases b with
    | error e' => simp at h
    | ok y => simp at h; rw [Vec.toList_inj h]
theorem scan_fst (ownT : T → List A) (ownU : U → List A) (ownS : S → List A) (dropT : T → Eff W Unit) (dropU : U → Eff W Unit)
    (dropS : S → Eff W Unit) (hS : ∀ x w, ((dropS x).exec w).1 = .ok ()) (s : S) (f : S → T → Eff W (U × S)) (v : Vec T N) (w : W) :
    ((scan ownT ownU ownS dropT dropU dropS s (withState f) v).exec w).1 = ((v.scanE s f).exec w).1 := by
  unfold scan
  rw [scope_fst _ _ hS]
  have h1 := same_scanRef (W := Local W ownS) ownT ownU (fun x => inner (dropT x)) (fun y => inner (dropU y)) (withState f) v ⟨w, s⟩
  have h2 := congrArg (fun x : Eff W (List U) => (x.exec w).1) (Vec.toList_scanE f v s)
  have h3 := congrArg (fun x : Eff (Local W ownS) (List U) => (x.exec ⟨w, s⟩).1) (Vec.toList_mapM (m := Eff (Local W ownS)) (withState f) v)
  simp only [exec_map, exec_scanCalls (own := ownS)] at h2 h3
  have h4 := map_toList_inj (h2.trans h3.symm)
  rw [h4]
  match hm : (v.mapM (withState (own := ownS) f)).exec ⟨w, s⟩ with
  | (.ok a, g) => rw [hm] at h1; simp only at h1; rw [h1]
  | (.error e, g) => rw [hm] at h1; simp only at h1; rw [h1]
theorem map_rowMajor_inj {a b : Res (Mat T M N)} (h : Spec.rowMajor <$> a = Spec.rowMajor <$> b) : a = b := by
  cases a with
  | error e => cases b with
    | error e' => simpa using h
    | ok y => simp at h
  | ok x => cases b with
    | error e' => simp at h
    | ok y => simp at h; rw [Mat.rowMajor_inj h]
theorem matScan_fst (ownT : T → List A) (ownU : U → List A) (ownS : S → List A) (dropT : T → Eff W Unit) (dropU : U → Eff W Unit)
    (dropS : S → Eff W Unit) (hS : ∀ x w, ((dropS x).exec w).1 = .ok ()) (s : S) (f : S → T → Eff W (U × S)) (C : Mat T M N) (w : W) :
    ((matScan ownT ownU ownS dropT dropU dropS s (withState f) C).exec w).1 = ((C.scanE s f).exec w).1 := by
  unfold matScan
  rw [scope_fst _ _ hS]
  have h1 : SameUpToPanic (do
      let d ← scanRef (W := Local W ownS) (ownVec ownT) (ownVec ownU) (dropVec fun x => inner (dropT x)) (dropVec fun y => inner (dropU y))
        (fun a => scanRef ownT ownU (fun x => inner (dropT x)) (fun y => inner (dropU y)) (withState f) a) C.data
      pure (⟨d⟩ : Mat U M N)) (C.mapM (withState f)) :=
    ((same_scanRef (W := Local W ownS) _ _ _ _ _ C.data).trans
      (SameUpToPanic.mapM (fun a => same_scanRef (W := Local W ownS) ownT ownU _ _ (withState f) a) C.data)).bind fun _ => SameUpToPanic.rfl' _
  have h1 := h1 ⟨w, s⟩
  have h2 := congrArg (fun x : Eff W (List U) => (x.exec w).1) (Mat.rowMajor_scanE f C s)
  have h3 := congrArg (fun x : Eff (Local W ownS) (List U) => (x.exec ⟨w, s⟩).1) (Mat.rowMajor_mapM (m := Eff (Local W ownS)) (withState f) C)
  simp only [exec_map, exec_scanCalls (own := ownS)] at h2 h3
  have h4 := map_rowMajor_inj (h2.trans h3.symm)
  rw [h4]
  match hm : (C.mapM (withState (own := ownS) f)).exec ⟨w, s⟩ with
  | (.ok a, g) => rw [hm] at h1; simp only at h1; rw [h1]
  | (.error e, g) => rw [hm] at h1; simp only at h1; rw [h1]
/-! ## operators -/
theorem same_binOp (own : T → List A) (drop : T → Eff W Unit) (f : T → T → Eff W T) (v u : Vec T N) :
    SameUpToPanic (binOp own drop f v u) ((v.zip u).mapM fun p => f p.1 p.2) := by
  have h := same_map (ownPair own own) own (dropPair drop drop) drop (fun p => f p.1 p.2) (v.zip u)
  intro w
  unfold binOp
  rw [exec_bind_ok (zip_exec _ _ _ _ v u w)]
  exact h w
theorem same_matBinOp (own : T → List A) (drop : T → Eff W Unit) (f : T → T → Eff W T) (C D : Mat T M N) :
    SameUpToPanic (matBinOp own drop f C D) ((C.zip D).mapM fun p => f p.1 p.2) := by
  have h := same_matMap (ownPair own own) own (dropPair drop drop) drop (fun p => f p.1 p.2) (C.zip D)
  intro w
  unfold matBinOp
  rw [exec_bind_ok (matZip_exec _ _ _ _ C D w)]
  exact h w

/-! ## the caller -/
instance : LawfulLedger (Client σ A) := ⟨fun _ _ => rfl, fun _ _ => rfl⟩
theorem dropAll_client (d : A → Eff σ Unit) (l : List A) (w : Client σ A) :
    ((dropAll (dropC d) l).exec w).2.given = w.given ∧ ((dropAll (dropC d) l).exec w).2.log = (l.map .dropped).reverse ++ w.log := by
  induction l generalizing w with
  | nil => exact ⟨rfl, rfl⟩
  | cons a l ih =>
    rw [dropAll, exec_mk]
    have h := ih ⟨((d a).exec w.user).2, w.given, .dropped a :: w.log⟩
    match hx : (d a).exec w.user with
    | (.ok (), s) =>
      rw [hx] at h
      have e : (dropC d a).exec w = (.ok (), ⟨s, w.given, .dropped a :: w.log⟩) := by simp [dropC, hx]
      rw [e]; simpa using h
    | (.error e, s) =>
      rw [hx] at h
      have e : (dropC d a).exec w = (.error e, ⟨s, w.given, .dropped a :: w.log⟩) := by simp [dropC, hx]
      rw [e]; simpa using h
theorem callEach_hand (res : β → List A) (f : A → Eff σ β) (l : List A) (w : Client σ A) :
    callEach (fun a => hand [a] res (f a)) l w = match callEach f l w.user with
      | (k, none, s) => (k, none, ⟨s, w.given ++ l, ((k.flatMap res).map .got).reverse ++ w.log⟩)
      | (k, some e, s) => (k, some e, ⟨s, w.given ++ l.take (k.length + 1), ((k.flatMap res).map .got).reverse ++ w.log⟩) := by
  induction l generalizing w with
  | nil => simp [callEach]
  | cons a l ih =>
    simp only [callEach]
    match hx : (f a).exec w.user with
    | (.error e, s) =>
      have e : (hand [a] res (f a)).exec w = (.error e, ⟨s, w.given ++ [a], w.log⟩) := by simp [hand, hx]
      rw [e]; simp
    | (.ok b, s) =>
      have e : (hand [a] res (f a)).exec w = (.ok b, ⟨s, w.given ++ [a], ((res b).map .got).reverse ++ w.log⟩) := by simp [hand, hx]
      rw [e]
      simp only
      rw [ih]
      match hr : callEach f l s with
      | (k, none, s') => simp
      | (k, some e, s') => simp
theorem callEach_handScan {own : S → List A} (f : S → A → Eff σ (A × S)) (l : List A) (w : Client σ A) (t : S) :
    callEach (withState (own := own) fun t a => hand [a] (fun p => [p.1]) (f t a)) l ⟨w, t⟩ = match callEach (Spec.inPlace f) l (t, w.user) with
      | (k, none, s) => (k, none, ⟨⟨s.2, w.given ++ l, (k.map .got).reverse ++ w.log⟩, s.1⟩)
      | (k, some e, s) => (k, some e, ⟨⟨s.2, w.given ++ l.take (k.length + 1), (k.map .got).reverse ++ w.log⟩, s.1⟩) := by
  induction l generalizing w t with
  | nil => simp [callEach]
  | cons a l ih =>
    simp only [callEach]
    match hx : (f t a).exec w.user with
    | (.error e, s) =>
      have e1 : (withState (own := own) (fun t a => hand [a] (fun p => [p.1]) (f t a)) a).exec ⟨w, t⟩ =
        (.error e, ⟨⟨s, w.given ++ [a], w.log⟩, t⟩) := by simp [withState, hand, hx]
      have e2 : (Spec.inPlace f a).exec (t, w.user) = (.error e, (t, s)) := by simp [Spec.inPlace, hx]
      rw [e1, e2]; simp
    | (.ok (b, t'), s) =>
      have e1 : (withState (own := own) (fun t a => hand [a] (fun p => [p.1]) (f t a)) a).exec ⟨w, t⟩ =
        (.ok b, ⟨⟨s, w.given ++ [a], .got b :: w.log⟩, t'⟩) := by simp [withState, hand, hx]
      have e2 : (Spec.inPlace f a).exec (t, w.user) = (.ok b, (t', s)) := by simp [Spec.inPlace, hx]
      rw [e1, e2]
      simp only
      rw [ih]
      match hr : callEach (Spec.inPlace f) l (t', s) with
      | (k, none, s') => simp
      | (k, some e, s') => simp
theorem foldEach_hand (f : S → A → Eff σ S) (l : List A) (t : S) (w : Client σ A) :
    foldEach (fun t a => hand [a] (fun _ => []) (f t a)) l t w =
      ((foldEach f l t w.user).1, (foldEach f l t w.user).2.1,
        ⟨(foldEach f l t w.user).2.2, w.given ++ l.take (l.length - (foldEach f l t w.user).1.length), w.log⟩) ∧
      (foldEach f l t w.user).1 <:+ l := by
  induction l generalizing t w with
  | nil => simp [foldEach]
  | cons a l ih =>
    simp only [foldEach]
    match hx : (f t a).exec w.user with
    | (.error e, s) =>
      have e : (hand [a] (fun _ => []) (f t a)).exec w = (.error e, ⟨s, w.given ++ [a], w.log⟩) := by simp [hand, hx]
      rw [e]
      refine ⟨by simp, List.suffix_cons a l⟩
    | (.ok b, s) =>
      have e : (hand [a] (fun _ => []) (f t a)).exec w = (.ok b, ⟨s, w.given ++ [a], w.log⟩) := by simp [hand, hx]
      rw [e]
      simp only
      obtain ⟨h1, h2⟩ := ih b ⟨s, w.given ++ [a], w.log⟩
      rw [h1]
      refine ⟨?_, h2.trans (List.suffix_cons a l)⟩
      have hl : (foldEach f l b s).1.length ≤ l.length := h2.length_le
      simp only [List.length_cons]
      rw [show l.length + 1 - (foldEach f l b s).1.length = (l.length - (foldEach f l b s).1.length) + 1 by omega, List.take_succ_cons]
      simp
theorem leakAll_client (l : List A) (w : Client σ A) : leakAll l w = ⟨w.user, w.given, (l.map .leaked).reverse ++ w.log⟩ := by
  induction l generalizing w with
  | nil => rfl
  | cons a l ih =>
    have e : leakAll (a :: l) w = leakAll l (Ledger.tell (.leaked a) w) := rfl
    rw [e, ih]
    simp [Ledger.tell]

/-! ## assignment -/
omit [Ledger W A] in
theorem assignLoop_run {own : T → List A} (f : Nat → T → Eff W Unit) (n i : Nat) (l : List T) (hn : l.length ≤ n) (w : W) :
    (assignLoop f n i).exec (⟨w, l⟩ : Local W (ownList own)) = match callEach (fun p => f p.2 p.1) (l.zipIdx i) w with
      | (_, none, w') => (.ok (), ⟨w', []⟩)
      | (k, some e, w') => (.error e, ⟨w', l.drop (k.length + 1)⟩) := by
  induction n generalizing l i w with
  | zero =>
    have : l = [] := by simpa using hn
    subst this; rfl
  | succ n ih =>
    unfold assignLoop
    cases l with
    | nil => rfl
    | cons x l =>
      have e : (nextItem (W := W) (own := own)).exec ⟨w, x :: l⟩ = (.ok (some x), ⟨w, l⟩) := rfl
      rw [exec_bind_ok e]
      simp only [List.zipIdx_cons, callEach]
      match hf : (f i x).exec w with
      | (.error e, w') =>
        have e : (inner (own := ownList own) (f i x)).exec ⟨w, l⟩ = (.error e, ⟨w', l⟩) := by simp [inner, hf]
        rw [exec_bind_error e]; simp
      | (.ok b, w') =>
        have e : (inner (own := ownList own) (f i x)).exec ⟨w, l⟩ = (.ok b, ⟨w', l⟩) := by simp [inner, hf]
        rw [exec_bind_ok e, ih (i + 1) l (by simpa using hn) w']
        dsimp only
        generalize callEach (fun p => f p.2 p.1) (l.zipIdx (i + 1)) w' = r
        obtain ⟨k, _ | e, w2⟩ := r <;> simp
theorem opAssign_run (own : T → List A) (drop : T → Eff W Unit) (f : Nat → T → Eff W Unit) (v : Vec T N) (w : W) :
    (opAssign own drop f v).exec w = match callEach (fun p => f p.2 p.1) v.toList.zipIdx w with
      | (_, none, w') => (.ok (), w')
      | (k, some e, w') => (.error e, ((dropAll drop (v.toList.drop (k.length + 1))).exec w').2) := by
  unfold opAssign scope
  rw [exec_mk, assignLoop_run f N 0 v.toList (by simp) w]
  generalize callEach (fun p => f p.2 p.1) v.toList.zipIdx w = r
  obtain ⟨k, _ | e, w2⟩ := r <;> rfl
theorem matAssignLoop_run {own : T → List A} (drop : T → Eff W Unit) (f : Nat → T → Eff W Unit) (n i : Nat) (s : List (Vec T N) × List T)
    (hn : (restFlat s).length ≤ n) (w : W) :
    ∃ s', (matAssignLoop drop f n i).exec (⟨w, s⟩ : Local W (ownFlat own)) = (match callEach (fun p => f p.2 p.1) ((restFlat s).zipIdx i) w with
      | (_, none, w') => (.ok (), ⟨w', s'⟩)
      | (_, some e, w') => (.error e, ⟨w', s'⟩)) ∧
      restFlat s' = match callEach (fun p => f p.2 p.1) ((restFlat s).zipIdx i) w with
      | (_, none, _) => []
      | (k, some _, _) => (restFlat s).drop (k.length + 1) := by
  induction n generalizing s i w with
  | zero =>
    have : restFlat s = [] := by simpa using hn
    rw [this]
    exact ⟨s, rfl, this⟩
  | succ n ih =>
    unfold matAssignLoop
    obtain ⟨s1, h1, h2⟩ := flatNext_exec (own := own) drop w s
    rw [exec_bind_ok h1]
    match hr : restFlat s with
    | [] => rw [hr] at h2; exact ⟨s1, rfl, h2⟩
    | x :: l =>
      rw [hr] at h2 hn
      simp only [List.head?_cons, List.tail_cons, List.zipIdx_cons, callEach] at h2 ⊢
      match hf : (f i x).exec w with
      | (.error e, w') =>
        have e : (inner (own := ownFlat own) (f i x)).exec ⟨w, s1⟩ = (.error e, ⟨w', s1⟩) := by simp [inner, hf]
        rw [exec_bind_error e]
        exact ⟨s1, rfl, by simpa using h2⟩
      | (.ok b, w') =>
        have e : (inner (own := ownFlat own) (f i x)).exec ⟨w, s1⟩ = (.ok b, ⟨w', s1⟩) := by simp [inner, hf]
        rw [exec_bind_ok e]
        obtain ⟨s2, h3, h4⟩ := ih (i + 1) s1 (by rw [h2]; simpa using hn) w'
        rw [h2] at h3 h4
        refine ⟨s2, ?_, ?_⟩
        · rw [h3]
          dsimp only
          generalize callEach (fun p => f p.2 p.1) (l.zipIdx (i + 1)) w' = r
          obtain ⟨k, _ | e, w2⟩ := r <;> simp
        · rw [h4]
          dsimp only
          generalize callEach (fun p => f p.2 p.1) (l.zipIdx (i + 1)) w' = r
          obtain ⟨k, _ | e, w2⟩ := r <;> simp
theorem same_matOpAssign (own : T → List A) (drop : T → Eff W Unit) (f : Nat → T → Eff W Unit) (C : Mat T (M + 1) N) (w : W) :
    match callEach (fun p => f p.2 p.1) (C.data.toList.flatMap Vec.toList).zipIdx w with
      | (_, none, w') => (matOpAssign own drop f C).exec w = (.ok (), w')
      | (k, some e, w') => ∃ it, restFlat it = (C.data.toList.flatMap Vec.toList).drop (k.length + 1) ∧
        (matOpAssign own drop f C).exec w = (.error e, ((dropFlat (N := N) drop it).exec w').2) := by
  obtain ⟨s, h1, h2⟩ := flatNew_eq C
  obtain ⟨s', h3, h4⟩ := matAssignLoop_run (own := own) drop f ((M + 1) * N) 0 s (by rw [h2, length_rowMajor]) w
  rw [h2] at h3 h4
  unfold matOpAssign
  rw [if_neg (by omega), h1, liftRes_ok, pure_bind]
  unfold scope
  rw [exec_mk]
  generalize callEach (fun p => f p.2 p.1) (C.data.toList.flatMap Vec.toList).zipIdx w = r at h3 h4 ⊢
  obtain ⟨k, _ | e, w2⟩ := r
  · simp only at h3 h4 ⊢
    rw [h3]
    simp only
    rw [dropFlat_nil drop s' h4]
  · simp only at h3 h4 ⊢
    rw [h3]
    exact ⟨s', h4, rfl⟩
/-- Dropping a `FlatIter` drops all remaining items. -/
theorem dropFlat_client (d : A → Eff σ Unit) (it : List (Vec A N) × List A) (w : Client σ A) :
    ((dropFlat (dropC d) it).exec w).2.given = w.given ∧
      ((dropFlat (dropC d) it).exec w).2.log = ((it.1.flatMap Vec.toList ++ it.2).map .dropped).reverse ++ w.log := by
  unfold dropFlat dropPair
  rw [exec_mk, dropAll_rows]
  have h1 := dropAll_client d (it.1.flatMap Vec.toList) w
  match hx : (dropAll (dropC d) (it.1.flatMap Vec.toList)).exec w with
  | (.ok (), w1) =>
    rw [hx] at h1
    have h2 := dropAll_client d it.2 w1
    simp only at h1 ⊢
    rw [h2.1, h2.2, h1.1, h1.2]; simp
  | (.error e, w1) =>
    rw [hx] at h1
    have h2 := dropAll_client d it.2 w1
    simp only at h1 ⊢
    rw [h2.1, h2.2, h1.1, h1.2]; simp

/-! ## closures of the caller keep the books -/
theorem clean_hand (args : List A) (res : β → List A) (x : Eff σ β) (hx : ∀ s, (x.exec s).1 ≠ .error .ub) :
    Clean (hand args res x) args (fun b => res b) := by
  intro w B hB
  have h := hx w.user
  simp only [hand, exec_mk]
  match hr : x.exec w.user with
  | (.error e, s) =>
    rw [hr] at h
    refine ⟨?_, fun he => h (by rw [he]), rfl⟩
    simp only [Balanced, Ledger.log, Ledger.held] at hB ⊢
    rw [hB, ← Multiset.coe_add]; ac_rfl
  | (.ok b, s) =>
    have g1 : ∀ (l : List A) (log : List (Ev A)), gots ((l.map Ev.got).reverse ++ log) = gots log + (l : Multiset A) ∧
        drops ((l.map Ev.got).reverse ++ log) = drops log ∧ leaks ((l.map Ev.got).reverse ++ log) = leaks log := by
      intro l
      induction l with
      | nil => intro log; simp
      | cons x l ih =>
        intro log
        obtain ⟨h1, h2, h3⟩ := ih (.got x :: log)
        rw [List.map_cons, List.reverse_cons, List.append_assoc, List.singleton_append, h1, h2, h3]
        refine ⟨?_, rfl, rfl⟩
        show (x ::ₘ gots log) + _ = _
        rw [← Multiset.cons_coe, Multiset.cons_add, Multiset.add_cons]
    obtain ⟨e1, e2, e3⟩ := g1 (res b) w.log
    refine ⟨?_, e3⟩
    simp only [Balanced, Ledger.log, Ledger.held] at hB ⊢
    rw [e1, e2, e3, hB, ← Multiset.coe_add]; ac_rfl
theorem clean_dropC (d : A → Eff σ Unit) (hd : ∀ a s, ((d a).exec s).1 ≠ .error .ub) (a : A) : Clean (dropC d a) [a] (fun _ => 0) := by
  intro w B hB
  have h := hd a w.user
  simp only [dropC, exec_mk]
  have key : Balanced (⟨((d a).exec w.user).2, w.given, .dropped a :: w.log⟩ : Client σ A) B := by
    simp only [Balanced, Ledger.log, Ledger.held] at hB ⊢
    show gots w.log = (a ::ₘ drops w.log) + leaks w.log + _ + B
    rw [hB, ← Multiset.singleton_add]
    show _ + (B + {a}) = _
    ac_rfl
  match hx : ((d a).exec w.user).1 with
  | .error e => exact ⟨key, fun he => h (by rw [hx, he]), rfl⟩
  | .ok () => exact ⟨by simpa using key, rfl⟩
end Own
end Vecmat
