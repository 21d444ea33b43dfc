import Verif.Lemmas.OwnIter
/-! Helper lemmas: the exact course of the functions that take vectors by value. -/
namespace Vecmat
namespace Own
open Spec (callEach foldEach)
variable {σ A S T U W X α β : Type} {M N : Nat}

theorem callEach_length_of_ok {f : T → Eff W U} {l : List T} {w w' : W} {outs : List U} (h : callEach f l w = (outs, none, w')) :
    outs.length = l.length := by
  induction l generalizing w outs with
  | nil => cases h; rfl
  | cons x l ih =>
    unfold callEach at h
    match hx : (f x).exec w with
    | (.ok y, w1) =>
      rw [hx] at h
      match hr : callEach f l w1 with
      | (k, o, w2) =>
        simp only [hr] at h
        cases h
        rw [List.length_cons, List.length_cons, ih hr]
    | (.error e, w1) => rw [hx] at h; cases h
theorem callEach_length_of_error {f : T → Eff W U} {l : List T} {w w' : W} {outs : List U} {e : Fault}
    (h : callEach f l w = (outs, some e, w')) : outs.length < l.length := by
  induction l generalizing w outs with
  | nil => cases h
  | cons x l ih =>
    unfold callEach at h
    match hx : (f x).exec w with
    | (.ok y, w1) =>
      rw [hx] at h
      match hr : callEach f l w1 with
      | (k, o, w2) =>
        simp only [hr] at h
        cases h
        have := ih hr
        simpa using this
    | (.error e, w1) => rw [hx] at h; cases h; simp

variable [Ledger W A]
/-! ## map -/
omit [Ledger W A] in
theorem mapLoop_run {ownT : T → List A} {ownU : U → List A} (f : T → Eff W U) (l : List T) (out : List U) (w : W) :
    (mapLoop (ownT := ownT) (ownU := ownU) f l.length).exec ⟨⟨w, l⟩, out⟩ =
      match callEach f l w with
      | (k, none, w') => (.ok (), ⟨⟨w', []⟩, out ++ k⟩)
      | (k, some e, w') => (.error e, ⟨⟨w', l.drop (k.length + 1)⟩, out ++ k⟩) := by
  induction l generalizing out w with
  | nil => simp [mapLoop, callEach]
  | cons x l ih =>
    have e1 : (inner (own := ownList ownU) (nextItem (W := W) (own := ownT))).exec ⟨⟨w, x :: l⟩, out⟩ = (.ok (some x), ⟨⟨w, l⟩, out⟩) := rfl
    rw [List.length_cons, mapLoop, exec_bind_ok e1]
    simp only [callEach]
    match hx : (f x).exec w with
    | (.error e, w') =>
      have e2 : (inner (own := ownList ownU) (inner (own := ownList ownT) (f x))).exec ⟨⟨w, l⟩, out⟩ = (.error e, ⟨⟨w', l⟩, out⟩) := by
        simp [inner, hx]
      rw [exec_bind_error e2]
      simp
    | (.ok y, w') =>
      have e2 : (inner (own := ownList ownU) (inner (own := ownList ownT) (f x))).exec ⟨⟨w, l⟩, out⟩ = (.ok y, ⟨⟨w', l⟩, out⟩) := by
        simp [inner, hx]
      have e3 : (push (own := ownU) y).exec (⟨⟨w', l⟩, out⟩ : Local (Local W (ownList ownT)) (ownList ownU)) = (.ok (), ⟨⟨w', l⟩, out ++ [y]⟩) := rfl
      rw [exec_bind_ok e2, exec_bind_ok e3, ih]
      match hr : callEach f l w' with
      | (k, none, w2) => simp [hr]
      | (k, some e, w2) => simp [hr]
omit [Ledger W A] in
theorem dropAll_inner {own : X → List A} (drop : T → Eff W Unit) (l : List T) (g : Local W own) :
    (dropAll (fun y => inner (own := own) (drop y)) l).exec g = (((dropAll drop l).exec g.under).1, ⟨((dropAll drop l).exec g.under).2, g.val⟩) := by
  induction l generalizing g with
  | nil => rfl
  | cons x l ih =>
    have e : (inner (own := own) (drop x)).exec g = (((drop x).exec g.under).1, ⟨((drop x).exec g.under).2, g.val⟩) := rfl
    rw [dropAll, dropAll, exec_mk, exec_mk, e]
    match hx : (drop x).exec g.under with
    | (.ok (), w) => simp only; rw [ih]
    | (.error e, w) => simp only; rw [ih]
/-- `map`: the closure is called on the items in order. If all calls return, their results are the result, and nothing else happens; if
one panics, the results so far are dropped, in order, then the remaining arguments. -/
theorem map_run (ownT : T → List A) (ownU : U → List A) (dropT : T → Eff W Unit) (dropU : U → Eff W Unit) (f : T → Eff W U) (v : Vec T N) (w : W) :
    match callEach f v.toList w with
    | (k, none, w') => ∃ h : k.length = N, (map ownT ownU dropT dropU f v).exec w = (.ok (Vec.ofList k h), w')
    | (k, some e, w') => (map ownT ownU dropT dropU f v).exec w =
        (.error e, ((dropAll dropT (v.toList.drop (k.length + 1))).exec ((dropAll dropU k).exec w').2).2) := by
  have h := mapLoop_run (ownT := ownT) (ownU := ownU) f v.toList [] w
  have hN : v.toList.length = N := by simp
  rw [hN] at h
  unfold map scope
  simp only [exec_mk]
  match hr : callEach f v.toList w with
  | (k, none, w') =>
    have hk : k.length = N := (callEach_length_of_ok hr).trans hN
    rw [hr] at h
    refine ⟨hk, ?_⟩
    rw [exec_bind_ok h]
    unfold takeAll
    rw [exec_mk]
    simp only [List.nil_append]
    rw [dif_pos hk]
    rfl
  | (k, some e, w') =>
    rw [hr] at h
    rw [exec_bind_error h]
    simp only [List.nil_append]
    rw [dropAll_inner]

/-! ## fold -/
omit [Ledger W A] in
theorem foldLoop_run {own : T → List A} (f : S → T → Eff W S) (n : Nat) (l : List T) (hn : l.length < n) (s : S) (w : W) :
    (foldLoop f n s).exec (⟨w, l⟩ : Local W (ownList own)) = ((foldEach f l s w).2.1, ⟨(foldEach f l s w).2.2, (foldEach f l s w).1⟩) := by
  induction n generalizing l s w with
  | zero => omega
  | succ n ih =>
    unfold foldLoop
    cases l with
    | nil => rfl
    | cons x l =>
      have e : (nextItem (W := W) (own := own)).exec ⟨w, x :: l⟩ = (.ok (some x), ⟨w, l⟩) := rfl
      rw [exec_bind_ok e]
      simp only [foldEach]
      match hf : (f s x).exec w with
      | (.error e, w') =>
        have e : (inner (own := ownList own) (f s x)).exec ⟨w, l⟩ = (.error e, ⟨w', l⟩) := by simp [inner, hf]
        rw [exec_bind_error e]
      | (.ok b, w') =>
        have e : (inner (own := ownList own) (f s x)).exec ⟨w, l⟩ = (.ok b, ⟨w', l⟩) := by simp [inner, hf]
        rw [exec_bind_ok e]
        exact ih l (by simpa using hn) b w'
omit [Ledger W A] in
theorem foldEach_ok {f : S → T → Eff W S} {l r : List T} {s a : S} {w w' : W} (h : foldEach f l s w = (r, .ok a, w')) : r = [] := by
  induction l generalizing s w with
  | nil => cases h; rfl
  | cons x l ih =>
    unfold foldEach at h
    match hf : (f s x).exec w with
    | (.error e, w') => rw [hf] at h; cases h
    | (.ok b, w') => rw [hf] at h; exact ih h
/-- `fold`: the closure is called on the items in order; if it panics, the items not reached are dropped, in order. -/
theorem fold_run (own : T → List A) (ownS : S → List A) (drop : T → Eff W Unit) (f : S → T → Eff W S) (s : S) (v : Vec T N) (w : W) :
    (fold own ownS drop f s v).exec w = ((foldEach f v.toList s w).2.1, ((dropAll drop (foldEach f v.toList s w).1).exec (foldEach f v.toList s w).2.2).2) := by
  unfold fold scope
  rw [exec_mk, foldLoop_run f (N + 1) v.toList (by simp) s w]
  match hr : foldEach f v.toList s w with
  | (r, .ok a, w') => obtain rfl := foldEach_ok hr; rfl
  | (r, .error e, w') => rfl
theorem forEach_run (own : T → List A) (drop : T → Eff W Unit) (f : T → Eff W Unit) (v : Vec T N) (w : W) :
    (forEach own drop f v).exec w =
      match callEach f v.toList w with
      | (_, none, w') => (.ok (), w')
      | (k, some e, w') => (.error e, ((dropAll drop (v.toList.drop (k.length + 1))).exec w').2) := by
  have key : ∀ l w, foldEach (fun (_ : Unit) x => f x) l () w =
      match callEach f l w with
      | (_, none, w') => ([], .ok (), w')
      | (k, some e, w') => (l.drop (k.length + 1), .error e, w') := by
    intro l
    induction l with
    | nil => intro w; rfl
    | cons x l ih =>
      intro w
      simp only [foldEach, callEach]
      match hx : (f x).exec w with
      | (.error e, w') => simp
      | (.ok (), w') =>
        simp only
        rw [ih w']
        match hr : callEach f l w' with
        | (k, none, w2) => simp
        | (k, some e, w2) => simp
  have e : (forEach own drop f v).exec w = (fold own (fun _ => []) drop (fun _ x => f x) () v).exec w := rfl
  rw [e, fold_run, key]
  match hr : callEach f v.toList w with
  | (k, none, w2) => rfl
  | (k, some e, w2) => rfl
theorem foldFirst_run (own : T → List A) (drop : T → Eff W Unit) (f : T → T → Eff W T) (v : Vec T N) (w : W) :
    (foldFirst own drop f v).exec w =
      match v.toList with
      | [] => (.error .unwrapNone, w)
      | x :: l => ((foldEach f l x w).2.1, ((dropAll drop (foldEach f l x w).1).exec (foldEach f l x w).2.2).2) := by
  unfold foldFirst scope
  rw [exec_mk]
  match hv : v.toList with
  | [] => rfl
  | x :: l =>
    have e : (nextItem (W := W) (own := own)).exec ⟨w, x :: l⟩ = (.ok (some x), ⟨w, l⟩) := rfl
    have hl : l.length < N + 1 := by
      have h2 : (x :: l).length = N := by rw [← hv]; simp
      simp at h2; omega
    simp only
    rw [exec_bind_ok e, unwrap_some, pure_bind, foldLoop_run f (N + 1) l hl x w]
    match hr : foldEach f l x w with
    | (r, .ok a, w') => obtain rfl := foldEach_ok hr; rfl
    | (r, .error e, w') => rfl

/-! ## scan -/
open Vec (slots)
omit [Ledger W A] in
theorem slotItems_slots (own : T → List A) (k : List T) (h : k.length ≤ N) : slotItems own (slots N k).toList = k.flatMap own := by
  have e : (slots N k).toList = k.map some ++ List.replicate (N - k.length) none := by
    apply List.ext_getElem
    · simp; omega
    · intro i h1 h2
      simp only [slots]
      rw [List.getElem_append]
      simp only [Vector.getElem_toList, Vector.getElem_ofFn, List.length_map, List.getElem_map, List.getElem_replicate]
      split
      · rw [List.getElem?_eq_getElem (by assumption)]
      · rw [List.getElem?_eq_none (by omega)]
  unfold slotItems
  rw [e, List.flatMap_append, List.flatMap_map]
  have : ∀ n, (List.replicate n (none : Option T)).flatMap (fun o => o.elim [] own) = [] := by
    intro n; induction n with
    | zero => rfl
    | succ n ih => rw [List.replicate_succ, List.flatMap_cons, ih]; rfl
  rw [this]; simp
theorem leakAll_local {own : X → List A} (l : List A) (w : W) (x : X) : leakAll l (⟨w, x⟩ : Local W own) = ⟨leakAll l w, x⟩ := by
  induction l generalizing w with
  | nil => rfl
  | cons a l ih => exact ih (Ledger.tell (.leaked a) w)
theorem fill_scan_run {ownT : T → List A} {ownU : U → List A} (f : T → Eff W U) (l : List T) (k0 : List U) (h : k0.length + l.length = N) (w : W) :
    (fill (own := ownU) (N := N) (scanItem (ownT := ownT) f) l.length k0.length).exec ⟨⟨w, l⟩, slots N k0⟩ =
      match callEach f l w with
      | (k, none, w') => (.ok N, ⟨⟨w', []⟩, slots N (k0 ++ k)⟩)
      | (k, some e, w') => (.error e, ⟨⟨w', l.drop (k.length + 1)⟩, slots N (k0 ++ k)⟩) := by
  induction l generalizing k0 w with
  | nil => simp at h; subst h; simp [fill, callEach]
  | cons x l ih =>
    have e1 : (scanItem (ownT := ownT) f).exec ⟨w, x :: l⟩ =
        match (f x).exec w with
        | (.ok y, w') => (.ok (some y), ⟨w', l⟩)
        | (.error e, w') => (.error e, ⟨w', l⟩) := by
      have e : (nextItem (W := W) (own := ownT)).exec ⟨w, x :: l⟩ = (.ok (some x), ⟨w, l⟩) := rfl
      unfold scanItem
      rw [exec_bind_ok e]
      simp only
      match hx : (f x).exec w with
      | (.error e, w') =>
        have e2 : (inner (own := ownList ownT) (f x)).exec ⟨w, l⟩ = (.error e, ⟨w', l⟩) := by simp [inner, hx]
        rw [exec_bind_error e2]
      | (.ok y, w') =>
        have e2 : (inner (own := ownList ownT) (f x)).exec ⟨w, l⟩ = (.ok y, ⟨w', l⟩) := by simp [inner, hx]
        rw [exec_bind_ok e2]; rfl
    rw [List.length_cons, fill]
    simp only [callEach]
    match hx : (f x).exec w with
    | (.error e, w') =>
      rw [hx] at e1
      have e2 : (lower (own := ownU) (N := N) (scanItem (ownT := ownT) f)).exec ⟨⟨w, x :: l⟩, slots N k0⟩ = (.error e, ⟨⟨w', l⟩, slots N k0⟩) := by
        simp [lower, e1]
      rw [exec_bind_error e2]; simp
    | (.ok y, w') =>
      rw [hx] at e1
      have e2 : (lower (own := ownU) (N := N) (scanItem (ownT := ownT) f)).exec ⟨⟨w, x :: l⟩, slots N k0⟩ = (.ok (some y), ⟨⟨w', l⟩, slots N k0⟩) := by
        simp [lower, e1]
      rw [exec_bind_ok e2]
      simp only
      rw [exec_bind_ok (write_slots (W := Local W (ownList ownT)) _ k0 (by simp at h; omega) y)]
      have := ih (k0 ++ [y]) (by simp at h ⊢; omega) w'
      rw [List.length_append, List.length_singleton] at this
      rw [this]
      match hr : callEach f l w' with
      | (k, none, w2) => simp
      | (k, some e, w2) => simp
/-- `try_from_iter` over a scan: as for `map`, but after a panic the results so far are leaked instead of dropped. -/
theorem scanRef_run (ownT : T → List A) (ownU : U → List A) (dropT : T → Eff W Unit) (dropU : U → Eff W Unit) (f : T → Eff W U) (v : Vec T N) (w : W) :
    match callEach f v.toList w with
    | (k, none, w') => ∃ h : k.length = N, (scanRef ownT ownU dropT dropU f v).exec w = (.ok (Vec.ofList k h), w')
    | (k, some e, w') => (scanRef ownT ownU dropT dropU f v).exec w =
        (.error e, ((dropAll dropT (v.toList.drop (k.length + 1))).exec (leakAll (k.flatMap ownU) w')).2) := by
  have hN : v.toList.length = N := by simp
  have h := fill_scan_run (N := N) (ownT := ownT) (ownU := ownU) f v.toList [] (by simp) w
  rw [hN] at h
  unfold scanRef scope tryFromIter frame
  simp only [exec_mk]
  match hr : callEach f v.toList w with
  | (k, none, w') =>
    have hk : k.length = N := (callEach_length_of_ok hr).trans hN
    refine ⟨hk, ?_⟩
    rw [hr] at h
    simp only [List.nil_append, List.length_nil] at h
    have e1 : (assumeInit (W := Local W (ownList ownT)) (own := ownU)).exec ⟨⟨w', []⟩, slots N k⟩ = (.ok (Vec.ofList k hk), ⟨⟨w', []⟩, Vec.uninit⟩) := by
      simp [assumeInit, Vec.assumeInit_slots k hk]
    have e2 : (do
        let pos ← fill (own := ownU) (N := N) (scanItem (ownT := ownT) f) N 0
        if pos > N then throw .unreachableCode
        else if pos = N then do
          let v ← assumeInit
          pure (some v)
        else do
          forRange pos 0 () fun i _ => do
            let x ← take i
            lower (inner (dropU x))
          pure none : Eff (Frame (Local W (ownList ownT)) ownU N) (Option (Vec U N))).exec ⟨⟨w, v.toList⟩, slots N []⟩ =
        (.ok (some (Vec.ofList k hk)), ⟨⟨w', []⟩, Vec.uninit⟩) := by
      rw [exec_bind_ok h, if_neg (by omega), if_pos rfl, exec_bind_ok e1]; rfl
    rw [Vec.uninit_eq, exec_bind, exec_mk, e2]
    simp only [slotItems_uninit]
    rfl
  | (k, some e, w') =>
    rw [hr] at h
    simp only [List.nil_append, List.length_nil] at h
    have hk := callEach_length_of_error hr
    have e2 : (do
        let pos ← fill (own := ownU) (N := N) (scanItem (ownT := ownT) f) N 0
        if pos > N then throw .unreachableCode
        else if pos = N then do
          let v ← assumeInit
          pure (some v)
        else do
          forRange pos 0 () fun i _ => do
            let x ← take i
            lower (inner (dropU x))
          pure none : Eff (Frame (Local W (ownList ownT)) ownU N) (Option (Vec U N))).exec ⟨⟨w, v.toList⟩, slots N []⟩ =
        (.error e, ⟨⟨w', v.toList.drop (k.length + 1)⟩, slots N k⟩) := by
      rw [exec_bind_error h]
    rw [Vec.uninit_eq, exec_bind, exec_mk, e2]
    simp only [leakAll_local]
    rw [slotItems_slots (N := N) ownU k (by omega)]
end Own
end Vecmat
