import Verif.Lemmas.OwnRun
import Verif.Lemmas.MatrixOps
/-! Helper lemmas: ownership, matrices and operators. -/
namespace Vecmat
namespace Own
open Spec (callEach foldEach)
variable {σ A S T U W X α β : Type} {M N : Nat}

variable [Ledger W A]
theorem ownVec_zip (ownT : T → List A) (ownU : U → List A) (v : Vec T N) (u : Vec U N) :
    (ownVec (ownPair ownT ownU) (v.zip u) : Multiset A) = (ownVec ownT v : Multiset A) + (ownVec ownU u : Multiset A) := by
  have h3 : (Vec.zip v u).toList = v.toList.zip u.toList := by
    have : Vec.zip v u = Vec.ofList (v.toList.zip u.toList) (by simp) := Res.get_eq (Vec.zipR_eq v u) _
    rw [this]; simp
  unfold ownVec
  rw [h3]
  have hl : v.toList.length = u.toList.length := by simp
  generalize v.toList = l at hl
  generalize u.toList = k at hl
  induction l generalizing k with
  | nil => cases k with
    | nil => rfl
    | cons y k => simp at hl
  | cons x l ih => cases k with
    | nil => simp at hl
    | cons y k =>
      simp only [List.zip_cons_cons, List.flatMap_cons, ← Multiset.coe_add, ih k (by simpa using hl), ownPair]
      ac_rfl
variable {c : Prop}
theorem GoodIf.zip (ownT : T → List A) (ownU : U → List A) (dropT : T → Eff W Unit) (dropU : U → Eff W Unit) (v : Vec T N) (u : Vec U N) :
    GoodIf c (Own.zip ownT ownU dropT dropU v u) ((ownVec ownT v : Multiset A) + (ownVec ownU u : Multiset A)) (fun p => ownVec (ownPair ownT ownU) p) := by
  intro w B hB
  rw [zip_exec]
  exact ⟨by show Balanced w (B + (ownVec (ownPair ownT ownU) (v.zip u) : Multiset A)); rw [ownVec_zip]; exact hB, rfl⟩
theorem GoodIf.conseq {x : Eff W α} {pre pre' : Multiset A} {post : α → Multiset A} (h : GoodIf c x pre post) (e : pre' = pre) :
    GoodIf c x pre' post := e ▸ h
variable [LawfulLedger W]
theorem goodIf_binOp (own : T → List A) (drop : T → Eff W Unit) (f : T → T → Eff W T)
    (hd : ∀ x, GoodIf c (drop x) (own x) (fun _ => 0))
    (hf : ∀ x y, GoodIf c (f x y) ((own x : Multiset A) + (own y : Multiset A)) (fun z => own z)) (v u : Vec T N) :
    GoodIf c (binOp own drop f v u) ((ownVec own v : Multiset A) + (ownVec own u : Multiset A)) (fun r => ownVec own r) := by
  unfold binOp
  refine (GoodIf.zip own own drop drop v u).bind fun p => ?_
  exact goodIf_map (ownPair own own) own (dropPair drop drop) drop _ (goodIf_dropPair own own drop drop hd hd) hd
    (fun p => (hf p.1 p.2).conseq (by simp [ownPair])) p

/-! ## matrices -/
omit [LawfulLedger W] in
theorem ownMat_eq (own : T → List A) (C : Mat T M N) : ownMat own C = ownVec (ownVec own) C.data := rfl
theorem goodIf_matForEach (own : T → List A) (drop : T → Eff W Unit) (f : T → Eff W Unit)
    (hd : ∀ x, GoodIf c (drop x) (own x) (fun _ => 0)) (hf : ∀ x, GoodIf c (f x) (own x) (fun _ => 0)) (C : Mat T M N) :
    GoodIf c (matForEach own drop f C) (ownMat own C) (fun _ => 0) :=
  goodIf_forEach (ownVec own) (dropVec drop) _ (goodIf_dropVec own drop hd) (fun a => goodIf_forEach own drop f hd hf a) C.data
theorem goodIf_matMap (ownT : T → List A) (ownU : U → List A) (dropT : T → Eff W Unit) (dropU : U → Eff W Unit) (f : T → Eff W U)
    (hT : ∀ x, GoodIf c (dropT x) (ownT x) (fun _ => 0)) (hU : ∀ x, GoodIf c (dropU x) (ownU x) (fun _ => 0))
    (hf : ∀ x, GoodIf c (f x) (ownT x) (fun y => ownU y)) (C : Mat T M N) :
    GoodIf c (matMap ownT ownU dropT dropU f C) (ownMat ownT C) (fun D => ownMat ownU D) :=
  (goodIf_map (ownVec ownT) (ownVec ownU) (dropVec dropT) (dropVec dropU) _ (goodIf_dropVec ownT dropT hT) (goodIf_dropVec ownU dropU hU)
    (fun a => goodIf_map ownT ownU dropT dropU f hT hU hf a) C.data).bind fun _ => GoodIf.pure _ rfl
theorem goodIf_matFold (own : T → List A) (ownS : S → List A) (drop : T → Eff W Unit) (f : S → T → Eff W S)
    (hd : ∀ x, GoodIf c (drop x) (own x) (fun _ => 0))
    (hf : ∀ s x, GoodIf c (f s x) ((ownS s : Multiset A) + (own x : Multiset A)) (fun s => ownS s)) (s : S) (C : Mat T M N) :
    GoodIf c (matFold own ownS drop f s C) ((ownS s : Multiset A) + (ownMat own C : Multiset A)) (fun s => ownS s) :=
  goodIf_fold (ownVec own) ownS (dropVec drop) _ (goodIf_dropVec own drop hd) (fun s a => goodIf_fold own ownS drop f hd hf s a) s C.data
theorem goodIf_matFoldFirst (own : T → List A) (drop : T → Eff W Unit) (f : T → T → Eff W T)
    (hd : ∀ x, GoodIf c (drop x) (own x) (fun _ => 0))
    (hf : ∀ s x, GoodIf c (f s x) ((own s : Multiset A) + (own x : Multiset A)) (fun s => own s)) (C : Mat T M N) :
    GoodIf c (matFoldFirst own drop f C) (ownMat own C) (fun s => own s) := by
  have := GoodIf.scope (c := c) (W := W) (own := ownList (ownVec own)) (res := own) (drop := dropAll (dropVec drop)) (x := C.data.toList)
      (pre := 0) (body := do
      let o ← nextItem
      let a ← unwrap o
      let s ← inner (foldFirst own drop f a)
      foldLoop (fun t a => fold own own drop f t a) (M + 1) s) (by
    refine (GoodIf.nextItem 0).bind fun o => ?_
    rw [zero_add]
    refine (GoodIf.unwrap o (ownVec (N := N) own)).bind fun a => ?_
    refine (goodIf_foldFirst own drop f hd hf a).inner.bind fun s => ?_
    exact goodIf_foldLoop own _ (fun s a => goodIf_fold own own drop f hd hf s a) _ _) (goodIf_dropAll (ownVec own) (dropVec drop) (goodIf_dropVec own drop hd)) (by
    intro _ w a g hx w'
    have : g.val = [] := by
      match hv : C.data.toList with
      | [] =>
        rw [hv] at hx
        have e : (nextItem (W := W) (own := ownVec (N := N) own)).exec ⟨w, []⟩ = (.ok none, ⟨w, []⟩) := rfl
        rw [exec_bind_ok e] at hx; cases hx
      | x :: l =>
        rw [hv] at hx
        have e : (nextItem (W := W) (own := ownVec (N := N) own)).exec ⟨w, x :: l⟩ = (.ok (some x), ⟨w, l⟩) := rfl
        rw [exec_bind_ok e, unwrap_some, pure_bind] at hx
        have hl : l.length < M + 1 := by
          have h2 : (x :: l).length = M := by rw [← hv]; simp
          simp at h2; omega
        match hq : (foldFirst own drop f x).exec w with
        | (.error e, w1) =>
          have e : (inner (own := ownList (ownVec (N := N) own)) (foldFirst own drop f x)).exec ⟨w, l⟩ = (.error e, ⟨w1, l⟩) := by simp [inner, hq]
          rw [exec_bind_error e] at hx; cases hx
        | (.ok s, w1) =>
          have e : (inner (own := ownList (ownVec (N := N) own)) (foldFirst own drop f x)).exec ⟨w, l⟩ = (.ok s, ⟨w1, l⟩) := by simp [inner, hq]
          rw [exec_bind_ok e] at hx
          exact foldLoop_rest _ _ s w1 l hl a g hx
    rw [this]; rfl)
  rw [zero_add] at this
  exact this
theorem good_matScan (ownT : T → List A) (ownU : U → List A) (ownS : S → List A) (dropT : T → Eff W Unit) (dropU : U → Eff W Unit)
    (dropS : S → Eff W Unit) (s : S) (f : T → Eff (Local W ownS) U)
    (hT : ∀ x, GoodIf False (dropT x) (ownT x) (fun _ => 0)) (hU : ∀ x, GoodIf False (dropU x) (ownU x) (fun _ => 0))
    (hS : ∀ x, GoodIf False (dropS x) (ownS x) (fun _ => 0))
    (hf : ∀ x, GoodIf False (f x) (ownT x) (fun y => ownU y)) (C : Mat T M N) :
    GoodIf False (matScan ownT ownU ownS dropT dropU dropS s f C) ((ownMat ownT C : Multiset A) + (ownS s : Multiset A)) (fun D => ownMat ownU D) := by
  refine GoodIf.scope ?_ hS (fun h => h.elim)
  refine (good_scanRef (W := Local W ownS) (ownVec ownT) (ownVec ownU) _ _ _ (goodIf_dropVec ownT _ fun x => (hT x).inner)
    (goodIf_dropVec ownU _ fun x => (hU x).inner) (fun a => ?_) C.data).bind fun _ => GoodIf.pure _ rfl
  exact good_scanRef ownT ownU _ _ f (fun x => (hT x).inner) (fun x => (hU x).inner) hf a

/-! ## zip and unzip of matrices -/
omit [Ledger W A] [LawfulLedger W] in
theorem callEach_pure (g : T → U) (f : T → Eff W U) (l : List T) (w : W) (h : ∀ x w, (f x).exec w = (.ok (g x), w)) :
    callEach f l w = (l.map g, none, w) := by
  induction l generalizing w with
  | nil => rfl
  | cons x l ih => simp only [callEach, h, ih]; rfl
omit [LawfulLedger W] in
/-- `map` with a closure that has no effect. -/
theorem map_pure (ownT : T → List A) (ownU : U → List A) (dropT : T → Eff W Unit) (dropU : U → Eff W Unit) (f : T → Eff W U) (g : T → U)
    (h : ∀ x w, (f x).exec w = (.ok (g x), w)) (v : Vec T N) (w : W) : (map ownT ownU dropT dropU f v).exec w = (.ok (v.map g), w) := by
  have hr := map_run ownT ownU dropT dropU f v w
  rw [callEach_pure g f v.toList w h] at hr
  obtain ⟨hk, hr⟩ := hr
  rw [hr]
  congr 2
  apply Vec.toList_inj
  simp [Vec.toList_map]
omit [LawfulLedger W] in
theorem matZip_exec (ownT : T → List A) (ownU : U → List A) (dropT : T → Eff W Unit) (dropU : U → Eff W Unit) (C : Mat T M N) (D : Mat U M N) (w : W) :
    (matZip ownT ownU dropT dropU C D).exec w = (.ok (C.zip D), w) := by
  unfold matZip
  rw [exec_bind_ok (zip_exec _ _ _ _ _ _ w),
    exec_bind_ok (map_pure _ _ _ _ _ (fun p => p.1.zip p.2) (fun p w => zip_exec ownT ownU dropT dropU p.1 p.2 w) _ w)]
  rfl
omit [LawfulLedger W] in
theorem matUnzip_exec (ownT : T → List A) (ownU : U → List A) (dropT : T → Eff W Unit) (dropU : U → Eff W Unit) (C : Mat (T × U) M N) (w : W) :
    (matUnzip ownT ownU dropT dropU C).exec w = (.ok C.unzip, w) := by
  unfold matUnzip
  rw [exec_bind_ok (map_pure _ _ _ _ _ (fun a => a.unzip) (fun a w => unzip_exec ownT ownU (dropPair dropT dropU) a w) C.data w),
    exec_bind_ok (unzip_exec _ _ _ _ w)]
  rfl
omit [LawfulLedger W] in
theorem enumerate_exec (own : T → List A) (drop : T → Eff W Unit) (v : Vec T N) (w : W) :
    (enumerate own drop v).exec w = (.ok v.enumerate, w) := by
  unfold enumerate
  rw [Vec.indicesR_eq, liftRes_ok, pure_bind, zip_exec]
  unfold Vec.enumerate Vec.indices
  rw [Res.get_eq Vec.indicesR_eq]

/-! ## `into_iter` of a matrix -/
/-- The items a `FlatIter` still has, in the order in which it yields them. -/
def restFlat (s : List (Vec T N) × List T) : List T := s.2 ++ s.1.flatMap Vec.toList
omit [LawfulLedger W] in
theorem ownFlat_rest (own : T → List A) (s : List (Vec T N) × List T) : (ownFlat own s : Multiset A) = ((restFlat s).flatMap own : List A) := by
  unfold ownFlat restFlat
  rw [List.flatMap_append, ← Multiset.coe_add, ← Multiset.coe_add, add_comm]
  congr 2
  unfold ownList ownVec
  rw [List.flatMap_assoc]
omit [LawfulLedger W] in
/-- A step of the iterator takes the first remaining item; nothing else happens. -/
theorem flatNext_unif {own : T → List A} (drop : T → Eff W Unit) (s : List (Vec T N) × List T) :
    ∃ s', restFlat s' = (restFlat s).tail ∧ ∀ w : W, (flatNext (own := own) drop).exec ⟨w, s⟩ = (.ok (restFlat s).head?, ⟨w, s'⟩) := by
  obtain ⟨rows, l⟩ := s
  unfold flatNext
  simp only [exec_mk]
  cases l with
  | cons x l => exact ⟨(rows, l), rfl, fun _ => rfl⟩
  | nil =>
    cases rows with
    | nil => exact ⟨([], []), rfl, fun _ => rfl⟩
    | cons a rows =>
      simp only
      match ha : a.toList with
      | [] =>
        have hN : N = 0 := by
          have : a.toList.length = N := by simp
          rw [ha] at this; exact this.symm
        subst hN
        have : ∀ l : List (Vec T 0), l.flatMap Vec.toList = [] := by
          intro l; rw [List.flatMap_eq_nil_iff]; intro b _; exact Vec.toList_zero b
        refine ⟨(rows, []), ?_, fun w => ?_⟩
        · simp [restFlat, this]
        · simp [restFlat, this, dropAll]
      | x :: l =>
        refine ⟨(rows, l), ?_, fun w => ?_⟩
        · simp [restFlat, ha]
        · simp [restFlat, ha, dropAll]
omit [LawfulLedger W] in
theorem flatNext_exec {own : T → List A} (drop : T → Eff W Unit) (w : W) (s : List (Vec T N) × List T) :
    ∃ s', (flatNext (own := own) drop).exec ⟨w, s⟩ = (.ok (restFlat s).head?, ⟨w, s'⟩) ∧ restFlat s' = (restFlat s).tail := by
  obtain ⟨s', h, h'⟩ := flatNext_unif (own := own) drop s
  exact ⟨s', h' w, h⟩
omit [LawfulLedger W] in
/-- `k` steps take the first `k` remaining items. -/
theorem takeN_flat {own : T → List A} (drop : T → Eff W Unit) (k : Nat) (w : W) (s : List (Vec T N) × List T) :
    ∃ s', (Spec.takeN (flatNext (own := own) drop) k).exec ⟨w, s⟩ = (.ok ((restFlat s).take k), ⟨w, s'⟩) ∧ restFlat s' = (restFlat s).drop k := by
  induction k generalizing s with
  | zero => exact ⟨s, rfl, rfl⟩
  | succ k ih =>
    obtain ⟨s1, h1, h2⟩ := flatNext_exec (own := own) drop w s
    rw [Spec.takeN, exec_bind_ok h1]
    match hr : restFlat s with
    | [] =>
      rw [hr] at h2
      exact ⟨s1, rfl, by simpa using h2⟩
    | x :: l =>
      obtain ⟨s2, h3, h4⟩ := ih s1
      rw [hr, List.tail_cons] at h2
      rw [h2] at h3 h4
      refine ⟨s2, ?_, by simpa using h4⟩
      simp only [List.head?_cons]
      rw [exec_bind_ok h3]; rfl
omit [LawfulLedger W] in
/-- The same, with the final state of the iterator independent of the memory. -/
theorem takeN_flat_unif {own : T → List A} (drop : T → Eff W Unit) (k : Nat) (s : List (Vec T N) × List T) :
    ∃ s', restFlat s' = (restFlat s).drop k ∧ ∀ w : W,
      (Spec.takeN (flatNext (own := own) drop) k).exec ⟨w, s⟩ = (.ok ((restFlat s).take k), ⟨w, s'⟩) := by
  induction k generalizing s with
  | zero => exact ⟨s, rfl, fun _ => rfl⟩
  | succ k ih =>
    obtain ⟨s1, h2, h1⟩ := flatNext_unif (W := W) (own := own) drop s
    match hr : restFlat s with
    | [] =>
      rw [hr] at h2
      exact ⟨s1, by simpa using h2, fun w => by rw [Spec.takeN, exec_bind_ok (h1 w), hr]; rfl⟩
    | x :: l =>
      obtain ⟨s2, h4, h3⟩ := ih s1
      rw [hr, List.tail_cons] at h2
      rw [h2] at h3 h4
      refine ⟨s2, by simpa using h4, fun w => ?_⟩
      rw [Spec.takeN, exec_bind_ok (h1 w), hr]
      simp only [List.head?_cons]
      rw [exec_bind_ok (h3 w)]; rfl
theorem GoodIf.flatNext {own : T → List A} (drop : T → Eff W Unit) (R : Multiset A) :
    GoodIf (W := Local W (ownFlat (N := N) own)) c (Own.flatNext drop) R (fun o => R + (o.elim [] own : List A)) := by
  intro g B hB
  obtain ⟨w, s⟩ := g
  obtain ⟨s', h1, h2⟩ := flatNext_exec (own := own) drop w s
  rw [h1]
  refine ⟨?_, rfl⟩
  rw [balanced_local] at hB ⊢
  simp only [ownFlat_rest] at hB ⊢
  rw [h2]
  match hr : restFlat s with
  | [] => rw [hr] at hB; simpa using hB
  | x :: l =>
    rw [hr] at hB
    simp only [List.flatMap_cons, ← Multiset.coe_add, List.head?_cons, Option.elim, List.tail_cons] at hB ⊢
    rwa [show B + (R + (own x : Multiset A)) + ((l.flatMap own : List A) : Multiset A) =
      B + R + ((own x : Multiset A) + ((l.flatMap own : List A) : Multiset A)) by ac_rfl]
omit [LawfulLedger W] in
theorem dropAll_rows (drop : T → Eff W Unit) (l : List (Vec T N)) (w : W) :
    (dropAll (dropVec drop) l).exec w = (dropAll drop (l.flatMap Vec.toList)).exec w := by
  have app : ∀ (a b : List T) w, (dropAll drop (a ++ b)).exec w =
      match (dropAll drop a).exec w with
      | (.ok _, w) => (dropAll drop b).exec w
      | (.error e, w) => (.error e, ((dropAll drop b).exec w).2) := by
    intro a b
    induction a with
    | nil => intro w; rfl
    | cons x a ih =>
      intro w
      rw [List.cons_append, dropAll, dropAll, exec_mk, exec_mk]
      match hx : (drop x).exec w with
      | (.ok (), w1) => simp only; rw [ih]
      | (.error e, w1) =>
        simp only
        rw [ih]
        match hy : (dropAll drop a).exec w1 with
        | (.ok (), w2) => rfl
        | (.error e', w2) => rfl
  induction l generalizing w with
  | nil => rfl
  | cons a l ih =>
    rw [List.flatMap_cons, app, dropAll, exec_mk]
    unfold dropVec
    match hx : (dropAll drop a.toList).exec w with
    | (.ok (), w1) => exact ih w1
    | (.error e, w1) => simp only; exact congrArg _ (congrArg Prod.snd (ih w1))
omit [LawfulLedger W] in
theorem dropFlat_nil (drop : T → Eff W Unit) (s : List (Vec T N) × List T) (h : restFlat s = []) (w : W) :
    (dropFlat drop s).exec w = (.ok (), w) := by
  obtain ⟨rows, l⟩ := s
  obtain ⟨h1, h2⟩ := List.append_eq_nil_iff.mp h
  simp only at h1 h2
  unfold dropFlat dropPair
  rw [exec_mk]
  simp only
  rw [dropAll_rows, h1, h2]; rfl
theorem goodIf_dropFlat (own : T → List A) (drop : T → Eff W Unit) (hd : ∀ x, GoodIf c (drop x) (own x) (fun _ => 0))
    (s : List (Vec T N) × List T) : GoodIf c (dropFlat drop s) (ownFlat own s : List A) (fun _ => 0) :=
  goodIf_dropPair (ownList (ownVec own)) (ownList own) _ _ (goodIf_dropAll (ownVec own) (dropVec drop) (goodIf_dropVec own drop hd))
    (goodIf_dropAll own drop hd) s
omit [LawfulLedger W] in
theorem flatNew_eq (C : Mat T (M + 1) N) : ∃ s, flatNew C = .ok s ∧ restFlat s = C.data.toList.flatMap Vec.toList := by
  unfold flatNew
  match hC : C.data.toList with
  | [] =>
    have : C.data.toList.length = M + 1 := by simp
    rw [hC] at this; cases this
  | a :: l => exact ⟨(l, a.toList), rfl, rfl⟩
theorem goodIf_matAssignLoop {own : T → List A} (drop : T → Eff W Unit) (f : Nat → T → Eff W Unit)
    (hf : ∀ i x, GoodIf c (f i x) (own x) (fun _ => 0)) (n i : Nat) :
    GoodIf (W := Local W (ownFlat (N := N) own)) c (matAssignLoop drop f n i) 0 (fun _ => 0) := by
  induction n generalizing i with
  | zero => exact GoodIf.pure () rfl
  | succ n ih =>
    unfold matAssignLoop
    refine (GoodIf.flatNext drop 0).bind fun o => ?_
    cases o with
    | none => exact GoodIf.pure () rfl
    | some x => rw [zero_add]; exact (hf i x).inner.bind fun _ => ih (i + 1)
omit [LawfulLedger W] in
theorem matAssignLoop_rest {own : T → List A} (drop : T → Eff W Unit) (f : Nat → T → Eff W Unit) (n i : Nat) (w : W)
    (s : List (Vec T N) × List T) (h : (restFlat s).length ≤ n) (a : Unit)
    (g : Local W (ownFlat own)) (hx : (matAssignLoop drop f n i).exec ⟨w, s⟩ = (.ok a, g)) : restFlat g.val = [] := by
  induction n generalizing i w s with
  | zero =>
    cases hx
    simpa using h
  | succ n ih =>
    unfold matAssignLoop at hx
    obtain ⟨s1, h1, h2⟩ := flatNext_exec (own := own) drop w s
    rw [exec_bind_ok h1] at hx
    match hr : restFlat s with
    | [] => rw [hr] at hx h2; cases hx; exact h2
    | x :: l =>
      rw [hr] at hx h2 h
      simp only [List.head?_cons] at hx
      match hf : (f i x).exec w with
      | (.error e, w') =>
        have e : (inner (own := ownFlat own) (f i x)).exec ⟨w, s1⟩ = (.error e, ⟨w', s1⟩) := by simp [inner, hf]
        rw [exec_bind_error e] at hx; cases hx
      | (.ok b, w') =>
        have e : (inner (own := ownFlat own) (f i x)).exec ⟨w, s1⟩ = (.ok b, ⟨w', s1⟩) := by simp [inner, hf]
        rw [exec_bind_ok e] at hx
        exact ih (i + 1) w' s1 (by rw [h2]; simpa using h) hx
theorem length_rowMajor (C : Mat T M N) : (C.data.toList.flatMap Vec.toList).length = M * N := by
  simp [List.length_flatMap]
theorem goodIf_matOpAssign (own : T → List A) (drop : T → Eff W Unit) (f : Nat → T → Eff W Unit)
    (hd : ∀ x, GoodIf c (drop x) (own x) (fun _ => 0)) (hf : ∀ i x, GoodIf c (f i x) (own x) (fun _ => 0)) (C : Mat T M N) :
    GoodIf c (matOpAssign own drop f C) (ownMat own C) (fun _ => 0) := by
  unfold matOpAssign
  cases M with
  | zero =>
    rw [if_pos rfl]
    refine (GoodIf.throw _ (by decide)).conseq ?_
    simp [ownMat, Vec.toList_zero]
  | succ M =>
    rw [if_neg (by omega)]
    obtain ⟨s, h1, h2⟩ := flatNew_eq C
    rw [h1, liftRes_ok, pure_bind]
    have := GoodIf.scope (c := c) (W := W) (own := ownFlat own) (res := fun _ : Unit => []) (drop := dropFlat drop) (x := s) (pre := 0)
      (body := matAssignLoop drop f ((M + 1) * N) 0) (goodIf_matAssignLoop drop f hf _ 0) (goodIf_dropFlat own drop hd) (by
        intro _ w a g hx w'
        rw [dropFlat_nil drop _ (matAssignLoop_rest drop f _ 0 w s (by rw [h2, length_rowMajor]) a g hx)])
    refine this.conseq ?_
    rw [zero_add, ownFlat_rest, h2]
    unfold ownMat ownVec
    rw [List.flatMap_assoc]
theorem goodIf_matBinOp (own : T → List A) (drop : T → Eff W Unit) (f : T → T → Eff W T)
    (hd : ∀ x, GoodIf c (drop x) (own x) (fun _ => 0))
    (hf : ∀ x y, GoodIf c (f x y) ((own x : Multiset A) + (own y : Multiset A)) (fun z => own z)) (C D : Mat T M N) :
    GoodIf c (matBinOp own drop f C D) ((ownMat own C : Multiset A) + (ownMat own D : Multiset A)) (fun r => ownMat own r) := by
  unfold matBinOp matZip
  rw [bind_assoc]
  refine (GoodIf.zip (ownVec own) (ownVec own) _ _ C.data D.data).bind fun z => ?_
  rw [bind_assoc]
  refine (goodIf_map (ownPair (ownVec own) (ownVec own)) (ownVec (ownPair own own)) _ _ _
    (goodIf_dropPair _ _ _ _ (goodIf_dropVec own drop hd) (goodIf_dropVec own drop hd))
    (goodIf_dropVec _ _ (goodIf_dropPair own own drop drop hd hd)) (fun p => ?_) z).bind fun d => ?_
  · exact (GoodIf.zip own own drop drop p.1 p.2).conseq (by simp [ownPair])
  · rw [pure_bind]
    exact goodIf_matMap (ownPair own own) own (dropPair drop drop) drop _ (goodIf_dropPair own own drop drop hd hd) hd
      (fun p => (hf p.1 p.2).conseq (by simp [ownPair])) ⟨d⟩
end Own
end Vecmat
