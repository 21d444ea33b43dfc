import Verif.Lemmas.OwnRefine
import Verif.Model.OwnIter
/-! Helper lemmas: ownership of functions that take vectors by value. -/
namespace Vecmat
namespace Own
variable {σ A S T U W X α β : Type} {M N : Nat}

instance [Ledger W A] [LawfulLedger W] (own : X → List A) : LawfulLedger (Local W own) :=
  ⟨fun e f => LawfulLedger.log_tell e f.under, fun e f => by
    show Ledger.held (Ledger.tell e f.under) + _ = _
    rw [LawfulLedger.held_tell]; rfl⟩

variable [Ledger W A]

/-- `Good` (`c = False`) and `Clean` (`c = True`) in one. -/
def GoodIf (c : Prop) (x : Eff W α) (pre : Multiset A) (post : α → Multiset A) : Prop :=
  ∀ w B, Balanced w (B + pre) →
    match x.exec w with
    | (.ok a, w') => Balanced w' (B + post a) ∧ leaks (Ledger.log w') = leaks (Ledger.log w)
    | (.error e, w') => Balanced w' B ∧ e ≠ .ub ∧ (c → leaks (Ledger.log w') = leaks (Ledger.log w))

theorem goodIf_false {x : Eff W α} {pre : Multiset A} {post : α → Multiset A} : GoodIf False x pre post ↔ Good x pre post := by
  unfold GoodIf Good
  refine forall_congr' fun w => forall_congr' fun B => forall_congr' fun _ => ?_
  rcases x.exec w with ⟨e | a, w'⟩ <;> simp
theorem goodIf_true {x : Eff W α} {pre : Multiset A} {post : α → Multiset A} : GoodIf True x pre post ↔ Clean x pre post := by
  unfold GoodIf Clean
  refine forall_congr' fun w => forall_congr' fun B => forall_congr' fun _ => ?_
  rcases x.exec w with ⟨e | a, w'⟩ <;> simp

theorem balanced_local {own : X → List A} (f : Local W own) (B : Multiset A) :
    Balanced f B ↔ Balanced f.under (B + (own f.val : Multiset A)) := by
  unfold Balanced
  show _ = drops (Ledger.log f.under) + leaks (Ledger.log f.under) + (Ledger.held f.under + _) + B ↔ _
  rw [show drops (Ledger.log f.under) + leaks (Ledger.log f.under) + (Ledger.held f.under + (own f.val : Multiset A)) + B =
    drops (Ledger.log f.under) + leaks (Ledger.log f.under) + Ledger.held f.under + (B + (own f.val : Multiset A)) by ac_rfl]
  rfl

variable {c : Prop}
theorem GoodIf.pure (a : α) {pre : Multiset A} {post : α → Multiset A} (h : pre = post a) : GoodIf (W := W) c (Pure.pure a) pre post := by
  intro w B hB
  rw [exec_pure]
  exact ⟨h ▸ hB, rfl⟩
theorem GoodIf.throw (e : Fault) (he : e ≠ .ub) {post : α → Multiset A} : GoodIf (W := W) c (throw e) 0 post := by
  intro w B hB
  rw [exec_throw]
  exact ⟨by simpa using hB, he, fun _ => rfl⟩
theorem GoodIf.bind {x : Eff W α} {f : α → Eff W β} {pre : Multiset A} {mid : α → Multiset A} {post : β → Multiset A}
    (hx : GoodIf c x pre mid) (hf : ∀ a, GoodIf c (f a) (mid a) post) : GoodIf c (x >>= f) pre post := by
  intro w B hB
  have h := hx w B hB
  rw [exec_bind]
  match hx : x.exec w with
  | (.error e, w') => rw [hx] at h; exact h
  | (.ok a, w') =>
    rw [hx] at h
    have h2 := hf a w' B h.1
    simp only at h2 ⊢
    match hf : (f a).exec w' with
    | (.error e, w'') => rw [hf] at h2; exact ⟨h2.1, h2.2.1, fun hc => (h2.2.2 hc).trans h.2⟩
    | (.ok b, w'') => rw [hf] at h2; exact ⟨h2.1, h2.2.trans h.2⟩
theorem GoodIf.unwrap (o : Option α) (post : α → List A) : GoodIf (W := W) c (unwrap o) (o.elim [] post : List A) (fun a => post a) := by
  cases o with
  | none => exact GoodIf.throw _ (by decide)
  | some a => exact GoodIf.pure a rfl
theorem GoodIf.inner {own : X → List A} {x : Eff W α} {pre : Multiset A} {post : α → Multiset A} (h : GoodIf c x pre post) :
    GoodIf (W := Local W own) c (Own.inner x) pre post := by
  intro f B hB
  rw [balanced_local] at hB
  have h := h f.under (B + (own f.val : Multiset A)) (by rwa [add_right_comm] at hB)
  unfold Own.inner
  rw [exec_mk]
  match hx : x.exec f.under with
  | (.error e, w') =>
    rw [hx] at h
    exact ⟨by rw [balanced_local]; exact h.1, h.2⟩
  | (.ok a, w') =>
    rw [hx] at h
    exact ⟨by rw [balanced_local, add_right_comm]; exact h.1, h.2⟩
/-- Taking the next item never faults; the items `R` of the caller are untouched. -/
theorem GoodIf.nextItem {own : T → List A} (R : Multiset A) :
    GoodIf (W := Local W (ownList own)) c nextItem R (fun o => R + (o.elim [] own : List A)) := by
  intro f B hB
  unfold Own.nextItem
  rw [exec_mk]
  obtain ⟨w, l⟩ := f
  cases l with
  | nil => exact ⟨by simpa using hB, rfl⟩
  | cons x l =>
    refine ⟨?_, rfl⟩
    rw [balanced_local] at hB ⊢
    simp only [ownList, List.flatMap_cons, ← Multiset.coe_add] at hB ⊢
    show Balanced w (B + (R + (own x : Multiset A)) + _)
    rwa [show B + (R + (own x : Multiset A)) + ((l.flatMap own : List A) : Multiset A) =
      B + R + ((own x : Multiset A) + ((l.flatMap own : List A) : Multiset A)) by ac_rfl]
theorem GoodIf.scope [LawfulLedger W] {own : X → List A} {res : α → List A} {drop : X → Eff W Unit} {x : X} {body : Eff (Local W own) α}
    {pre : Multiset A} (hb : GoodIf c body pre (fun a => res a)) (hd : ∀ x, GoodIf c (drop x) (own x) (fun _ => 0))
    (hq : c → ∀ w a f, body.exec ⟨w, x⟩ = (.ok a, f) → ∀ w', ((drop f.val).exec w').1 = .ok ()) :
    GoodIf c (Own.scope (own := own) res drop x body) (pre + (own x : Multiset A)) (fun a => res a) := by
  intro w B hB
  have h := hb ⟨w, x⟩ B (by rw [balanced_local, add_assoc]; exact hB)
  unfold Own.scope
  rw [exec_mk]
  match hx : body.exec ⟨w, x⟩ with
  | (.ok a, f) =>
    rw [hx] at h
    have h1 := h.1
    rw [balanced_local] at h1
    have h2 := hd f.val f.under _ h1
    have hq := fun hc => hq hc w a f hx f.under
    simp only
    match hy : (drop f.val).exec f.under with
    | (.ok (), w') =>
      rw [hy] at h2
      exact ⟨by simpa using h2.1, h2.2.trans h.2⟩
    | (.error e, w') =>
      rw [hy] at h2 hq
      refine ⟨h2.1.leak, h2.2.1, fun hc => ?_⟩
      simp at hq
      exact absurd hc hq
  | (.error e, f) =>
    rw [hx] at h
    have h1 := h.1
    rw [balanced_local] at h1
    have h2 := hd f.val f.under _ h1
    simp only
    match hy : (drop f.val).exec f.under with
    | (.ok (), w') =>
      rw [hy] at h2
      exact ⟨by simpa using h2.1, h.2.1, fun hc => h2.2.trans (h.2.2 hc)⟩
    | (.error e', w') =>
      rw [hy] at h2
      exact ⟨h2.1, h.2.1, fun hc => (h2.2.2 hc).trans (h.2.2 hc)⟩

/-! ## drop glue -/
theorem goodIf_dropAll (own : T → List A) (drop : T → Eff W Unit) (hd : ∀ x, GoodIf c (drop x) (own x) (fun _ => 0)) (l : List T) :
    GoodIf c (dropAll drop l) (ownList own l : List A) (fun _ => 0) := by
  induction l with
  | nil => exact GoodIf.pure () rfl
  | cons x l ih =>
    intro w B hB
    rw [ownList, List.flatMap_cons, ← Multiset.coe_add, add_comm (own x : Multiset A), ← add_assoc] at hB
    have h := hd x w _ hB
    rw [dropAll, exec_mk]
    match hx : (drop x).exec w with
    | (.ok (), w') =>
      rw [hx] at h
      have h2 := ih w' B (by simpa [ownList] using h.1)
      simp only
      match hy : (dropAll drop l).exec w' with
      | (.ok (), w'') => rw [hy] at h2; exact ⟨h2.1, h2.2.trans h.2⟩
      | (.error e, w'') => rw [hy] at h2; exact ⟨h2.1, h2.2.1, fun hc => (h2.2.2 hc).trans h.2⟩
    | (.error e, w') =>
      rw [hx] at h
      have h2 := ih w' B h.1
      simp only
      match hy : (dropAll drop l).exec w' with
      | (.ok (), w'') => rw [hy] at h2; exact ⟨by simpa using h2.1, h.2.1, fun hc => h2.2.trans (h.2.2 hc)⟩
      | (.error e, w'') => rw [hy] at h2; exact ⟨h2.1, h.2.1, fun hc => (h2.2.2 hc).trans (h.2.2 hc)⟩
theorem goodIf_dropVec (own : T → List A) (drop : T → Eff W Unit) (hd : ∀ x, GoodIf c (drop x) (own x) (fun _ => 0)) (v : Vec T N) :
    GoodIf c (dropVec drop v) (ownVec own v : List A) (fun _ => 0) := goodIf_dropAll own drop hd v.toList
theorem goodIf_dropPair (ownT : T → List A) (ownU : U → List A) (dropT : T → Eff W Unit) (dropU : U → Eff W Unit)
    (hT : ∀ x, GoodIf c (dropT x) (ownT x) (fun _ => 0)) (hU : ∀ x, GoodIf c (dropU x) (ownU x) (fun _ => 0)) (p : T × U) :
    GoodIf c (dropPair dropT dropU p) (ownPair ownT ownU p : List A) (fun _ => 0) := by
  intro w B hB
  rw [ownPair, ← Multiset.coe_add, add_comm (ownT p.1 : Multiset A), ← add_assoc] at hB
  have h := hT p.1 w _ hB
  rw [dropPair, exec_mk]
  match hx : (dropT p.1).exec w with
  | (.ok (), w') =>
    rw [hx] at h
    have h2 := hU p.2 w' B (by simpa using h.1)
    simp only
    match hy : (dropU p.2).exec w' with
    | (.ok (), w'') => rw [hy] at h2; exact ⟨h2.1, h2.2.trans h.2⟩
    | (.error e, w'') => rw [hy] at h2; exact ⟨h2.1, h2.2.1, fun hc => (h2.2.2 hc).trans h.2⟩
  | (.error e, w') =>
    rw [hx] at h
    have h2 := hU p.2 w' B h.1
    simp only
    match hy : (dropU p.2).exec w' with
    | (.ok (), w'') => rw [hy] at h2; exact ⟨by simpa using h2.1, h.2.1, fun hc => h2.2.trans (h.2.2 hc)⟩
    | (.error e, w'') => rw [hy] at h2; exact ⟨h2.1, h.2.1, fun hc => (h2.2.2 hc).trans (h.2.2 hc)⟩

/-! ## folds -/
theorem goodIf_foldLoop {own : T → List A} (ownS : S → List A) (f : S → T → Eff W S)
    (hf : ∀ s x, GoodIf c (f s x) ((ownS s : Multiset A) + (own x : Multiset A)) (fun s => ownS s)) (n : Nat) (s : S) :
    GoodIf (W := Local W (ownList own)) c (foldLoop f n s) (ownS s) (fun s => ownS s) := by
  induction n generalizing s with
  | zero => exact GoodIf.pure s rfl
  | succ n ih =>
    unfold foldLoop
    refine (GoodIf.nextItem _).bind fun o => ?_
    cases o with
    | none => exact GoodIf.pure s (by simp)
    | some x => exact (hf s x).inner.bind fun s => ih s
/-- If the loop returns after enough rounds, the iterator is exhausted. -/
theorem foldLoop_rest {own : T → List A} (f : S → T → Eff W S) (n : Nat) (s : S) (w : W) (l : List T) (h : l.length < n) (a : S)
    (g : Local W (ownList own)) (hx : (foldLoop f n s).exec ⟨w, l⟩ = (.ok a, g)) : g.val = [] := by
  induction n generalizing s w l with
  | zero => omega
  | succ n ih =>
    unfold foldLoop at hx
    cases l with
    | nil =>
      have e : (nextItem (W := W) (own := own)).exec ⟨w, []⟩ = (.ok none, ⟨w, []⟩) := rfl
      rw [exec_bind_ok e] at hx
      cases hx; rfl
    | cons x l =>
      have e : (nextItem (W := W) (own := own)).exec ⟨w, x :: l⟩ = (.ok (some x), ⟨w, l⟩) := rfl
      rw [exec_bind_ok e] at hx
      simp only at hx
      match hf : (f s x).exec w with
      | (.error e, w') =>
        have e : (inner (own := ownList own) (f s x)).exec ⟨w, l⟩ = (.error e, ⟨w', l⟩) := by simp [inner, hf]
        rw [exec_bind_error e] at hx; cases hx
      | (.ok b, w') =>
        have e : (inner (own := ownList own) (f s x)).exec ⟨w, l⟩ = (.ok b, ⟨w', l⟩) := by simp [inner, hf]
        rw [exec_bind_ok e] at hx
        exact ih b w' l (by simpa using h) hx

variable [LawfulLedger W]
theorem goodIf_fold (own : T → List A) (ownS : S → List A) (drop : T → Eff W Unit) (f : S → T → Eff W S)
    (hd : ∀ x, GoodIf c (drop x) (own x) (fun _ => 0))
    (hf : ∀ s x, GoodIf c (f s x) ((ownS s : Multiset A) + (own x : Multiset A)) (fun s => ownS s)) (s : S) (v : Vec T N) :
    GoodIf c (fold own ownS drop f s v) ((ownS s : Multiset A) + (ownVec own v : Multiset A)) (fun s => ownS s) := by
  refine GoodIf.scope (goodIf_foldLoop ownS f hf _ _) (goodIf_dropAll own drop hd) fun _ w a g hx w' => ?_
  rw [foldLoop_rest f _ s w v.toList (by simp) a g hx]; rfl
theorem goodIf_forEach (own : T → List A) (drop : T → Eff W Unit) (f : T → Eff W Unit)
    (hd : ∀ x, GoodIf c (drop x) (own x) (fun _ => 0)) (hf : ∀ x, GoodIf c (f x) (own x) (fun _ => 0)) (v : Vec T N) :
    GoodIf c (forEach own drop f v) (ownVec own v) (fun _ => 0) := by
  have := goodIf_fold (N := N) (S := Unit) own (fun _ => []) drop (fun _ x => f x) hd (fun _ x => by simpa using hf x) () v
  simpa [fold, forEach] using this
theorem goodIf_foldFirst (own : T → List A) (drop : T → Eff W Unit) (f : T → T → Eff W T)
    (hd : ∀ x, GoodIf c (drop x) (own x) (fun _ => 0))
    (hf : ∀ s x, GoodIf c (f s x) ((own s : Multiset A) + (own x : Multiset A)) (fun s => own s)) (v : Vec T N) :
    GoodIf c (foldFirst own drop f v) (ownVec own v) (fun s => own s) := by
  have := GoodIf.scope (c := c) (W := W) (own := ownList own) (res := own) (drop := dropAll drop) (x := v.toList) (pre := 0) (body := do
      let o ← nextItem
      let x ← unwrap o
      foldLoop f (N + 1) x) (by
    refine (GoodIf.nextItem 0).bind fun o => ?_
    rw [zero_add]
    exact (GoodIf.unwrap o own).bind fun x => goodIf_foldLoop own f hf _ _) (goodIf_dropAll own drop hd) (by
    intro _ w a g hx w'
    have : g.val = [] := by
      match hv : v.toList with
      | [] =>
        rw [hv] at hx
        have e : (nextItem (W := W) (own := own)).exec ⟨w, []⟩ = (.ok none, ⟨w, []⟩) := rfl
        rw [exec_bind_ok e] at hx; cases hx
      | x :: l =>
        rw [hv] at hx
        have e : (nextItem (W := W) (own := own)).exec ⟨w, x :: l⟩ = (.ok (some x), ⟨w, l⟩) := rfl
        rw [exec_bind_ok e] at hx
        have hl : l.length < N + 1 := by
          have := v.data.toList.length
          have h2 : (x :: l).length = N := by rw [← hv]; simp
          simp at h2; omega
        exact foldLoop_rest f _ x w l hl a g hx
    rw [this]; rfl)
  rw [zero_add] at this
  exact this

/-! ## map -/
omit [LawfulLedger W] in
theorem map_body {ownT : T → List A} {ownU : U → List A} (f : T → Eff W U) (hf : ∀ x, GoodIf c (f x) (ownT x) (fun y => ownU y))
    (l : List T) (out : List U) (h : out.length + l.length = N) (w : W) (B : Multiset A)
    (hB : Balanced (⟨⟨w, l⟩, out⟩ : Local (Local W (ownList ownT)) (ownList ownU)) B) :
    match (do mapLoop f l.length; takeAll : Eff (Local (Local W (ownList ownT)) (ownList ownU)) (Vec U N)).exec ⟨⟨w, l⟩, out⟩ with
    | (.ok a, g) => Balanced g (B + (ownVec ownU a : Multiset A)) ∧ leaks (Ledger.log g) = leaks (Ledger.log w) ∧ g.val = [] ∧ g.under.val = []
    | (.error e, g) => Balanced g B ∧ e ≠ .ub ∧ (c → leaks (Ledger.log g) = leaks (Ledger.log w)) := by
  induction l generalizing out w with
  | nil =>
    have h : out.length = N := by simpa using h
    have e : (do mapLoop f ([] : List T).length; takeAll : Eff (Local (Local W (ownList ownT)) (ownList ownU)) (Vec U N)).exec ⟨⟨w, []⟩, out⟩ =
        (.ok ⟨⟨out.toArray, by simpa using h⟩⟩, ⟨⟨w, []⟩, []⟩) := by
      show (takeAll : Eff _ (Vec U N)).exec _ = _
      unfold takeAll
      rw [exec_mk, dif_pos h]
    rw [e]
    refine ⟨?_, rfl, rfl, rfl⟩
    rw [balanced_local] at hB ⊢
    simp only [ownList, List.flatMap_nil, Multiset.coe_nil, add_zero, ownVec, Vec.toList] at hB ⊢
    simpa using hB
  | cons x l ih =>
    have e1 : (inner (own := ownList ownU) (nextItem (W := W) (own := ownT))).exec ⟨⟨w, x :: l⟩, out⟩ = (.ok (some x), ⟨⟨w, l⟩, out⟩) := rfl
    have hb : Balanced w (B + (ownList ownU out : Multiset A) + (ownList ownT l : Multiset A) + (ownT x : Multiset A)) := by
      rw [balanced_local, balanced_local] at hB
      simp only [ownList, List.flatMap_cons, ← Multiset.coe_add] at hB ⊢
      rwa [show B + ((out.flatMap ownU : List A) : Multiset A) + ((l.flatMap ownT : List A) : Multiset A) + (ownT x : Multiset A) =
        B + ((out.flatMap ownU : List A) : Multiset A) + ((ownT x : Multiset A) + ((l.flatMap ownT : List A) : Multiset A)) by ac_rfl]
    have h1 := hf x w _ hb
    rw [List.length_cons, mapLoop, bind_assoc, exec_bind_ok e1]
    simp only
    match hx : (f x).exec w with
    | (.error e, w') =>
      rw [hx] at h1
      have e2 : (inner (own := ownList ownU) (inner (own := ownList ownT) (f x))).exec ⟨⟨w, l⟩, out⟩ = (.error e, ⟨⟨w', l⟩, out⟩) := by
        simp [inner, hx]
      rw [bind_assoc, exec_bind_error e2]
      refine ⟨?_, h1.2⟩
      rw [balanced_local, balanced_local]; exact h1.1
    | (.ok y, w') =>
      rw [hx] at h1
      have e2 : (inner (own := ownList ownU) (inner (own := ownList ownT) (f x))).exec ⟨⟨w, l⟩, out⟩ = (.ok y, ⟨⟨w', l⟩, out⟩) := by
        simp [inner, hx]
      have e3 : (push (own := ownU) y).exec (⟨⟨w', l⟩, out⟩ : Local (Local W (ownList ownT)) (ownList ownU)) = (.ok (), ⟨⟨w', l⟩, out ++ [y]⟩) := rfl
      rw [bind_assoc, exec_bind_ok e2, bind_assoc, exec_bind_ok e3]
      have := ih (out ++ [y]) (by simp at h ⊢; omega) w' (by
        rw [balanced_local, balanced_local]
        have h1 := h1.1
        simp only [ownList, List.flatMap_append, List.flatMap_cons, List.flatMap_nil, List.append_nil, ← Multiset.coe_add] at h1 ⊢
        rwa [show B + (((out.flatMap ownU : List A) : Multiset A) + (ownU y : Multiset A)) + ((l.flatMap ownT : List A) : Multiset A) =
          B + ((out.flatMap ownU : List A) : Multiset A) + ((l.flatMap ownT : List A) : Multiset A) + (ownU y : Multiset A) by ac_rfl])
      match hz : (do mapLoop f l.length; takeAll : Eff (Local (Local W (ownList ownT)) (ownList ownU)) (Vec U N)).exec ⟨⟨w', l⟩, out ++ [y]⟩ with
      | (.ok a, g) => rw [hz] at this; exact ⟨this.1, this.2.1.trans h1.2, this.2.2⟩
      | (.error e, g) => rw [hz] at this; exact ⟨this.1, this.2.1, fun hc => (this.2.2 hc).trans h1.2⟩
theorem goodIf_map (ownT : T → List A) (ownU : U → List A) (dropT : T → Eff W Unit) (dropU : U → Eff W Unit) (f : T → Eff W U)
    (hT : ∀ x, GoodIf c (dropT x) (ownT x) (fun _ => 0)) (hU : ∀ x, GoodIf c (dropU x) (ownU x) (fun _ => 0))
    (hf : ∀ x, GoodIf c (f x) (ownT x) (fun y => ownU y)) (v : Vec T N) :
    GoodIf c (map ownT ownU dropT dropU f v) (ownVec ownT v) (fun u => ownVec ownU u) := by
  intro w B hB
  have h := map_body (N := N) (ownU := ownU) f hf v.toList [] (by simp) w B (by
    rw [balanced_local, balanced_local]; simpa [ownList, ownVec] using hB)
  have hN : v.toList.length = N := by simp
  rw [hN] at h
  unfold map scope
  simp only [exec_mk]
  match hx : (do mapLoop f N; takeAll : Eff (Local (Local W (ownList ownT)) (ownList ownU)) (Vec U N)).exec ⟨⟨w, v.toList⟩, []⟩ with
  | (.ok a, g) =>
    rw [hx] at h
    obtain ⟨h1, h2, h3, h4⟩ := h
    obtain ⟨⟨w', r⟩, o⟩ := g
    simp only at h3 h4
    subst h3 h4
    rw [balanced_local, balanced_local] at h1
    refine ⟨(?_ : Balanced w' (B + (ownVec ownU a : Multiset A))), h2⟩
    simpa [ownList] using h1
  | (.error e, g) =>
    rw [hx] at h
    obtain ⟨h1, h2, h3⟩ := h
    obtain ⟨⟨w', r⟩, o⟩ := g
    have hg := goodIf_dropAll (W := Local W (ownList ownT)) ownU (fun y => inner (dropU y)) (fun y => (hU y).inner) o ⟨w', r⟩ B
      ((balanced_local _ _).mp h1)
    simp only
    have key : ∀ w2 : Local W (ownList ownT), Balanced w2 B → (c → leaks (Ledger.log w2) = leaks (Ledger.log w')) →
        Balanced ((dropAll dropT w2.val).exec w2.under).2 B ∧ e ≠ .ub ∧
          (c → leaks (Ledger.log ((dropAll dropT w2.val).exec w2.under).2) = leaks (Ledger.log w)) := by
      intro w2 hb hl
      have := goodIf_dropAll ownT dropT hT w2.val w2.under B ((balanced_local _ _).mp hb)
      match hy : (dropAll dropT w2.val).exec w2.under with
      | (.ok (), w3) => rw [hy] at this; exact ⟨by simpa using this.1, h2, fun hc => this.2.trans ((hl hc).trans (h3 hc))⟩
      | (.error e, w3) => rw [hy] at this; exact ⟨this.1, h2, fun hc => (this.2.2 hc).trans ((hl hc).trans (h3 hc))⟩
    match hy : (dropAll (fun y => inner (dropU y)) o).exec (⟨w', r⟩ : Local W (ownList ownT)) with
    | (.ok (), w2) => rw [hy] at hg; exact key w2 (by simpa using hg.1) fun _ => hg.2
    | (.error e', w2) => rw [hy] at hg; exact key w2 hg.1 hg.2.2

/-! ## scan -/
omit [LawfulLedger W] in
theorem good_scanItem {ownT : T → List A} (ownU : U → List A) (f : T → Eff W U) (hf : ∀ x, GoodIf False (f x) (ownT x) (fun y => ownU y)) :
    GoodIf False (scanItem (ownT := ownT) f) 0 (fun o => (o.elim [] ownU : List A)) := by
  unfold scanItem
  refine (GoodIf.nextItem 0).bind fun o => ?_
  cases o with
  | none => exact GoodIf.pure none rfl
  | some x => rw [zero_add]; exact (hf x).inner.bind fun y => GoodIf.pure (some y) rfl
theorem good_scanRef (ownT : T → List A) (ownU : U → List A) (dropT : T → Eff W Unit) (dropU : U → Eff W Unit) (f : T → Eff W U)
    (hT : ∀ x, GoodIf False (dropT x) (ownT x) (fun _ => 0)) (hU : ∀ x, GoodIf False (dropU x) (ownU x) (fun _ => 0))
    (hf : ∀ x, GoodIf False (f x) (ownT x) (fun y => ownU y)) (v : Vec T N) :
    GoodIf False (scanRef ownT ownU dropT dropU f v) (ownVec ownT v) (fun u => ownVec ownU u) := by
  have := GoodIf.scope (c := False) (W := W) (own := ownList ownT) (res := ownVec (N := N) ownU) (drop := dropAll dropT) (x := v.toList) (pre := 0)
    (body := do
      let o ← tryFromIter ownU (fun y => inner (dropU y)) (scanItem f)
      unwrap o) (by
    have h := good_tryFromIter (N := N) (W := Local W (ownList ownT)) ownU (fun y => inner (dropU y)) (scanItem f)
      (goodIf_false.mp (good_scanItem ownU f hf)) (fun y => goodIf_false.mp (hU y).inner)
    exact (goodIf_false.mpr h).bind fun o => GoodIf.unwrap o (ownVec ownU)) (goodIf_dropAll ownT dropT hT) (fun h => h.elim)
  rw [zero_add] at this
  exact this
theorem good_scan (ownT : T → List A) (ownU : U → List A) (ownS : S → List A) (dropT : T → Eff W Unit) (dropU : U → Eff W Unit)
    (dropS : S → Eff W Unit) (s : S) (f : T → Eff (Local W ownS) U)
    (hT : ∀ x, GoodIf False (dropT x) (ownT x) (fun _ => 0)) (hU : ∀ x, GoodIf False (dropU x) (ownU x) (fun _ => 0))
    (hS : ∀ x, GoodIf False (dropS x) (ownS x) (fun _ => 0))
    (hf : ∀ x, GoodIf False (f x) (ownT x) (fun y => ownU y)) (v : Vec T N) :
    GoodIf False (scan ownT ownU ownS dropT dropU dropS s f v) ((ownVec ownT v : Multiset A) + (ownS s : Multiset A)) (fun u => ownVec ownU u) :=
  GoodIf.scope (good_scanRef ownT ownU _ _ f (fun x => (hT x).inner) (fun x => (hU x).inner) hf v) hS (fun h => h.elim)

/-! ## assignment -/
omit [LawfulLedger W] in
theorem goodIf_assignLoop {own : T → List A} (f : Nat → T → Eff W Unit) (hf : ∀ i x, GoodIf c (f i x) (own x) (fun _ => 0)) (n i : Nat) :
    GoodIf (W := Local W (ownList own)) c (assignLoop f n i) 0 (fun _ => 0) := by
  induction n generalizing i with
  | zero => exact GoodIf.pure () rfl
  | succ n ih =>
    unfold assignLoop
    refine (GoodIf.nextItem 0).bind fun o => ?_
    cases o with
    | none => exact GoodIf.pure () rfl
    | some x => rw [zero_add]; exact (hf i x).inner.bind fun _ => ih (i + 1)
omit [Ledger W A] [LawfulLedger W] in
theorem assignLoop_rest {own : T → List A} (f : Nat → T → Eff W Unit) (n i : Nat) (w : W) (l : List T) (h : l.length ≤ n) (a : Unit)
    (g : Local W (ownList own)) (hx : (assignLoop f n i).exec ⟨w, l⟩ = (.ok a, g)) : g.val = [] := by
  induction n generalizing i w l with
  | zero =>
    have : l = [] := by simpa using h
    subst this
    cases hx; rfl
  | succ n ih =>
    unfold assignLoop at hx
    cases l with
    | nil =>
      have e : (nextItem (W := W) (own := own)).exec ⟨w, []⟩ = (.ok none, ⟨w, []⟩) := rfl
      rw [exec_bind_ok e] at hx
      cases hx; rfl
    | cons x l =>
      have e : (nextItem (W := W) (own := own)).exec ⟨w, x :: l⟩ = (.ok (some x), ⟨w, l⟩) := rfl
      rw [exec_bind_ok e] at hx
      simp only at hx
      match hf : (f i x).exec w with
      | (.error e, w') =>
        have e : (inner (own := ownList own) (f i x)).exec ⟨w, l⟩ = (.error e, ⟨w', l⟩) := by simp [inner, hf]
        rw [exec_bind_error e] at hx; cases hx
      | (.ok b, w') =>
        have e : (inner (own := ownList own) (f i x)).exec ⟨w, l⟩ = (.ok b, ⟨w', l⟩) := by simp [inner, hf]
        rw [exec_bind_ok e] at hx
        exact ih (i + 1) w' l (by simpa using h) hx
theorem goodIf_opAssign (own : T → List A) (drop : T → Eff W Unit) (f : Nat → T → Eff W Unit)
    (hd : ∀ x, GoodIf c (drop x) (own x) (fun _ => 0)) (hf : ∀ i x, GoodIf c (f i x) (own x) (fun _ => 0)) (v : Vec T N) :
    GoodIf c (opAssign own drop f v) (ownVec own v) (fun _ => 0) := by
  have := GoodIf.scope (c := c) (W := W) (own := ownList own) (res := fun _ : Unit => []) (drop := dropAll drop) (x := v.toList) (pre := 0)
    (body := assignLoop f N 0) (goodIf_assignLoop f hf N 0) (goodIf_dropAll own drop hd) (by
      intro _ w a g hx w'
      rw [assignLoop_rest f N 0 w v.toList (by simp) a g hx]; rfl)
  rw [zero_add] at this
  exact this

/-! ## zip -/
omit [Ledger W A] [LawfulLedger W] in
theorem takeN_zipItem {ownT : T → List A} {ownU : U → List A} (dropT : T → Eff W Unit) (l : List T) (k : List U) (h : l.length = k.length) (w : W) :
    (Spec.takeN (zipItem (ownT := ownT) (ownU := ownU) dropT) l.length).exec ⟨⟨w, k⟩, l⟩ = (.ok (l.zip k), ⟨⟨w, []⟩, []⟩) := by
  induction l generalizing k with
  | nil =>
    cases k with
    | nil => rfl
    | cons y k => simp at h
  | cons x l ih =>
    cases k with
    | nil => simp at h
    | cons y k =>
      have e : (zipItem (ownT := ownT) (ownU := ownU) dropT).exec ⟨⟨w, y :: k⟩, x :: l⟩ = (.ok (some (x, y)), ⟨⟨w, k⟩, l⟩) := rfl
      rw [List.length_cons, Spec.takeN, exec_bind_ok e]
      simp only
      rw [exec_bind_ok (ih k (by simpa using h))]
      rfl
omit [LawfulLedger W] in
/-- `zip` moves the items; nothing else happens. -/
theorem zip_exec (ownT : T → List A) (ownU : U → List A) (dropT : T → Eff W Unit) (dropU : U → Eff W Unit) (v : Vec T N) (u : Vec U N) (w : W) :
    (zip ownT ownU dropT dropU v u).exec w = (.ok (v.zip u), w) := by
  have hl : v.toList.length = N := by simp
  have hk := takeN_zipItem (ownT := ownT) (ownU := ownU) dropT v.toList u.toList (by simp) w
  rw [hl] at hk
  have h1 := Vec.exec_tryFromIter_some hk (by simp)
  have h2 := tryFromIter_refines (N := N) (W := Local (Local W (ownList ownU)) (ownList ownT)) (ownPair ownT ownU)
    (dropPair (fun x => inner (inner (dropT x))) (fun y => inner (inner (dropU y)))) (zipItem dropT) ⟨⟨w, u.toList⟩, v.toList⟩
  rw [h1] at h2
  have h3 : Vec.zip v u = Vec.ofList (v.toList.zip u.toList) (by simp) := Res.get_eq (Vec.zipR_eq v u) _
  unfold zip scope
  simp only [exec_mk]
  rw [exec_bind_ok h2, h3]
  rfl
end Own
end Vecmat
