import Verif.Lemmas.Own
/-! Helper lemmas: the ownership model returns the same values as the models without ownership. -/
namespace Vecmat
namespace Own
open Vec (slots)
variable {σ A T U W α β : Type} {M N : Nat} [Ledger W A]

theorem write_slots {own : T → List A} (w : W) (l : List T) (h : l.length < N) (x : T) :
    (write (own := own) (N := N) l.length x).exec ⟨w, slots N l⟩ = (.ok (), ⟨w, slots N (l ++ [x])⟩) := by
  unfold write
  rw [exec_mk, dif_pos h]
  have e : (slots N l)[l.length] = none := by simp [slots]
  rw [e]
  have := Vec.set_slots (N := N) l x
  rw [← this]
  have : (slots N l).setIfInBounds l.length (some x) = (slots N l).set l.length (some x) h := by
    apply Vector.ext; intro i hi; simp [Vector.getElem_setIfInBounds, Vector.getElem_set]
  rw [this]
  rfl

theorem init_sim {own : T → List A} (f : Eff W T) (n : Nat) (l : List T) (hn : l.length + n = N) (w : W) :
    ∃ a', (forRange n l.length () (fun i _ => (do let x ← lower f; write i x : Eff (Frame W own N) Unit))).exec ⟨w, slots N l⟩ =
      ((fun _ => ()) <$> (Eff.exec (forRange n l.length (slots N l) fun i a => do
          let x ← f
          pure (a.setIfInBounds i (some x))) w).1,
        ⟨(Eff.exec (forRange n l.length (slots N l) fun i a => do
          let x ← f
          pure (a.setIfInBounds i (some x))) w).2, a'⟩) ∧
      ∀ b, (Eff.exec (forRange n l.length (slots N l) fun i a => do
          let x ← f
          pure (a.setIfInBounds i (some x))) w).1 = .ok b → a' = b := by
  induction n generalizing l w with
  | zero => exact ⟨slots N l, rfl, fun b h => by cases h; rfl⟩
  | succ n ih =>
    simp only [forRange, bind_assoc, pure_bind, Vec.set_slots]
    match hf : f.exec w with
    | (.error e, w') =>
      have h1 : (lower (own := own) (N := N) f).exec ⟨w, slots N l⟩ = (.error e, ⟨w', slots N l⟩) := by simp [lower, hf]
      refine ⟨slots N l, ?_, ?_⟩
      · rw [exec_bind_error h1, exec_bind_error hf]; rfl
      · rw [exec_bind_error hf]; intro b h; cases h
    | (.ok x, w') =>
      have h1 : (lower (own := own) (N := N) f).exec ⟨w, slots N l⟩ = (.ok x, ⟨w', slots N l⟩) := by simp [lower, hf]
      rw [exec_bind_ok h1, exec_bind_ok hf, exec_bind_ok (write_slots w' l (by omega) x)]
      have := ih (l ++ [x]) (by simp; omega) w'
      simpa using this

/-- `init` does what `Vec.initM` does; after a panic some more items are recorded as leaked. -/
theorem init_refines (own : T → List A) (f : Eff W T) (w : W) :
    ∃ l, (init (N := N) own f).exec w = (((Vec.initM f : Eff W (Vec T N)).exec w).1, leakAll l ((Vec.initM f : Eff W (Vec T N)).exec w).2) ∧
      ∀ v, ((Vec.initM f : Eff W (Vec T N)).exec w).1 = .ok v → l = [] := by
  obtain ⟨a', h1, h2⟩ := init_sim (own := own) (N := N) f N [] (by simp) w
  have hlen := congrArg (fun x : Eff W (List T) => x.exec w) (Vec.toList_initM (m := Eff W) (N := N) f)
  unfold init Vec.initM frame
  rw [Vec.uninit_eq, exec_mk]
  simp only [List.length_nil] at h1 h2
  generalize hr : Eff.exec (forRange N 0 (slots N []) fun i a => do
          let x ← f
          pure (a.setIfInBounds i (some x))) w = r at h1 h2
  obtain ⟨r, w'⟩ := r
  cases r with
  | error e =>
    rw [exec_bind_error h1, exec_bind_error hr]
    exact ⟨_, rfl, fun v h => by cases h⟩
  | ok b =>
    obtain rfl := h2 b rfl
    rw [exec_bind_ok h1, exec_bind_ok hr]
    refine ⟨[], ?_⟩
    match ha : Vec.assumeInit a' with
    | .ok v =>
      have e1 : (assumeInit (W := W) (own := own)).exec ⟨w', a'⟩ = (.ok v, ⟨w', Vec.uninit⟩) := by simp [assumeInit, ha]
      rw [e1]
      simp [slotItems_uninit, leakAll]
    | .error e =>
      exfalso
      have hi : (Vec.initM f : Eff W (Vec T N)).exec w = (.error e, w') := by
        unfold Vec.initM
        rw [Vec.uninit_eq, exec_bind_ok hr, ha]; rfl
      -- `initM` never faults by itself
      have hb := hr
      have key : ∀ n l (hn : l.length + n = N) w b w', Eff.exec (forRange n l.length (slots N l) fun i a => do
          let x ← f
          pure (a.setIfInBounds i (some x))) w = (.ok b, w') → ∃ k, k.length = N ∧ b = slots N k := by
        intro n
        induction n with
        | zero =>
          intro l hn w b w' h
          cases h
          exact ⟨l, by omega, rfl⟩
        | succ n ih =>
          intro l hn w b w' h
          simp only [forRange, bind_assoc, pure_bind, Vec.set_slots] at h
          match hf : f.exec w with
          | (.error e, w1) => rw [exec_bind_error hf] at h; cases h
          | (.ok x, w1) =>
            rw [exec_bind_ok hf] at h
            exact ih (l ++ [x]) (by simp; omega) w1 b w' (by simpa using h)
      obtain ⟨k, hk, rfl⟩ := key N [] (by simp) w a' w' hr
      rw [Vec.assumeInit_slots k hk] at ha
      cases ha

theorem fill_sim {own : T → List A} (next : Eff W (Option T)) (n : Nat) (l : List T) (hn : l.length + n = N) (w : W) :
    match (Vec.fillLoop next n (slots N l) l.length).exec w with
    | (.ok (b, p), w') => (fill (own := own) (N := N) next n l.length).exec ⟨w, slots N l⟩ = (.ok p, ⟨w', b⟩) ∧
        ∃ k, k.length = p ∧ p ≤ N ∧ b = slots N k
    | (.error e, w') => ∃ a', (fill (own := own) (N := N) next n l.length).exec ⟨w, slots N l⟩ = (.error e, ⟨w', a'⟩) := by
  induction n generalizing l w with
  | zero => exact ⟨rfl, l, rfl, by omega, rfl⟩
  | succ n ih =>
    unfold Vec.fillLoop fill
    match hf : next.exec w with
    | (.error e, w') =>
      have h1 : (lower (own := own) (N := N) next).exec ⟨w, slots N l⟩ = (.error e, ⟨w', slots N l⟩) := by simp [lower, hf]
      rw [exec_bind_error hf, exec_bind_error h1]
      exact ⟨_, rfl⟩
    | (.ok none, w') =>
      have h1 : (lower (own := own) (N := N) next).exec ⟨w, slots N l⟩ = (.ok none, ⟨w', slots N l⟩) := by simp [lower, hf]
      rw [exec_bind_ok hf, exec_bind_ok h1]
      exact ⟨rfl, l, rfl, by omega, rfl⟩
    | (.ok (some x), w') =>
      have h1 : (lower (own := own) (N := N) next).exec ⟨w, slots N l⟩ = (.ok (some x), ⟨w', slots N l⟩) := by simp [lower, hf]
      rw [exec_bind_ok hf, exec_bind_ok h1]
      simp only
      rw [exec_bind_ok (write_slots w' l (by omega) x), Vec.set_slots]
      have := ih (l ++ [x]) (by simp; omega) w'
      simpa using this

/-- `try_from_iter` does what `Vec.tryFromIter` does, except that it also runs destructors: if the plain model returns a vector, so
does this one, without any event of its own; if the iterator panics, the items stored so far are leaked; if the iterator was too
short, so is this one, unless a destructor panics. -/
theorem tryFromIter_refines (own : T → List A) (drop : T → Eff W Unit) (next : Eff W (Option T)) (w : W) :
    match (Vec.tryFromIter next : Eff W (Option (Vec T N))).exec w with
    | (.ok (some v), w') => (tryFromIter own drop next).exec w = (.ok (some v), w')
    | (.ok none, _) => (∀ x w, ∃ w', (drop x).exec w = (.ok (), w')) → ∃ w'', (tryFromIter (N := N) own drop next).exec w = (.ok none, w'')
    | (.error e, w') => ∃ l, (tryFromIter (N := N) own drop next).exec w = (.error e, leakAll l w') := by
  have h := fill_sim (own := own) (N := N) next N [] (by simp) w
  unfold tryFromIter Vec.tryFromIter frame
  rw [Vec.uninit_eq, exec_mk]
  simp only [List.length_nil] at h
  match hr : (Vec.fillLoop next N (slots N []) 0).exec w with
  | (.error e, w') =>
    rw [hr] at h
    obtain ⟨a', h⟩ := h
    rw [exec_bind_error hr, exec_bind_error h]
    exact ⟨_, rfl⟩
  | (.ok (b, p), w') =>
    rw [hr] at h
    obtain ⟨h, k, rfl, hk, rfl⟩ := h
    rw [exec_bind_ok hr, exec_bind_ok h]
    simp only
    have hgt : ¬ k.length > N := by omega
    simp only [if_neg hgt]
    by_cases hN : k.length = N
    · simp only [if_pos hN]
      rw [Vec.assumeInit_slots k hN, liftRes_ok, pure_bind]
      have e1 : (assumeInit (W := W) (own := own)).exec ⟨w', slots N k⟩ = (.ok (Vec.ofList k hN), ⟨w', Vec.uninit⟩) := by
        simp [assumeInit, Vec.assumeInit_slots k hN]
      rw [exec_bind_ok e1]
      simp [slotItems_uninit, leakAll]
    · simp only [if_neg hN]
      obtain ⟨c, hc⟩ := Vec.dropLoop_slots (N := N) k hk
      rw [hc, liftRes_ok, pure_bind, exec_pure]
      simp only
      intro hd
      have key : ∀ n i (f : Frame W own N), i + n ≤ N → FilledFrom f.slots i (i + n) → ∃ f', (forRange n i () (fun i _ => (do
            let x ← take i
            lower (drop x) : Eff (Frame W own N) Unit))).exec f = (.ok (), f') := by
        intro n
        induction n with
        | zero => intro i f _ _; exact ⟨f, rfl⟩
        | succ n ih =>
          intro i f hi hf
          obtain ⟨x, hx⟩ := Option.isSome_iff_exists.mp ((hf i (by omega)).mpr ⟨le_refl i, by omega⟩)
          have e1 : (take (own := own) i).exec f = (.ok x, ⟨f.under, f.slots.set i none⟩) := by
            simp only [take, exec_mk]
            rw [dif_pos (by omega)]
            simp only [hx]
          obtain ⟨w1, hw⟩ := hd x f.under
          have e2 : (lower (own := own) (N := N) (drop x)).exec ⟨f.under, f.slots.set i none⟩ = (.ok (), ⟨w1, f.slots.set i none⟩) := by
            simp [lower, hw]
          rw [forRange, bind_assoc, exec_bind_ok e1, exec_bind_ok e2]
          apply ih (i + 1) _ (by omega)
          intro j hj
          show (f.slots.set i none)[j].isSome = true ↔ _
          rw [Vector.getElem_set]
          by_cases e : i = j
          · subst e; simp
          · rw [if_neg e, hf j hj]; omega
      obtain ⟨f', hf'⟩ := key k.length 0 ⟨w', slots N k⟩ (by omega) (by
        intro j hj
        simp [slots])
      rw [exec_bind_ok hf', exec_pure]
      exact ⟨_, rfl⟩

theorem write_lower {ownT : T → List A} {ownU : U → List A} (w : W) (k : List T) (l : List U) (h : k.length < N) (x : T) :
    (lower (own := ownU) (N := N) (write (own := ownT) (N := N) k.length x)).exec ⟨⟨w, slots N k⟩, slots N l⟩ =
      (.ok (), ⟨⟨w, slots N (k ++ [x])⟩, slots N l⟩) := by
  simp only [lower, exec_mk, write_slots w k h x]

theorem unzipLoop_eq {ownT : T → List A} {ownU : U → List A} (drop : T × U → Eff W Unit) (l : List (T × U)) (k : List T) (k' : List U)
    (h : k.length + l.length = N) (h' : k'.length = k.length) (w : W) :
    (unzipLoop (ownT := ownT) (ownU := ownU) (N := N) drop l k.length).exec ⟨⟨w, slots N k⟩, slots N k'⟩ =
      (.ok (), ⟨⟨w, slots N (k ++ l.map Prod.fst)⟩, slots N (k' ++ l.map Prod.snd)⟩) := by
  induction l generalizing k k' with
  | nil => simp [unzipLoop]
  | cons p l ih =>
    obtain ⟨x, y⟩ := p
    simp only [List.length_cons] at h
    unfold unzipLoop
    rw [if_pos (by omega), exec_bind_ok (write_lower w k k' (by omega) x)]
    have hw := write_slots (own := ownU) (N := N) (⟨w, slots N (k ++ [x])⟩ : Frame W ownT N) k' (by omega) y
    rw [h'] at hw
    rw [exec_bind_ok hw]
    have := ih (k ++ [x]) (k' ++ [y]) (by simp; omega) (by simp; omega)
    simpa using this

theorem unzip_exec (ownT : T → List A) (ownU : U → List A) (drop : T × U → Eff W Unit) (v : Vec (T × U) N) (w : W) :
    (unzip ownT ownU drop v).exec w = (.ok v.unzip, w) := by
  unfold unzip
  simp only [frame, exec_mk]
  have h := unzipLoop_eq (ownT := ownT) (ownU := ownU) (N := N) drop v.toList [] [] (by simp) rfl w
  simp only [List.length_nil, List.nil_append, ← Vec.uninit_eq] at h
  rw [exec_bind_ok h]
  have e1 : (lower (own := ownU) (N := N) (assumeInit (W := W) (own := ownT) (N := N))).exec
      ⟨⟨w, slots N (v.toList.map Prod.fst)⟩, slots N (v.toList.map Prod.snd)⟩ =
      (.ok (Vec.ofList (v.toList.map Prod.fst) (by simp)), ⟨⟨w, Vec.uninit⟩, slots N (v.toList.map Prod.snd)⟩) := by
    simp only [lower, exec_mk, assumeInit, Vec.assumeInit_slots _ (show (v.toList.map Prod.fst).length = N by simp)]
  rw [exec_bind_ok e1]
  have e2 : (assumeInit (W := Frame W ownT N) (own := ownU) (N := N)).exec ⟨⟨w, Vec.uninit⟩, slots N (v.toList.map Prod.snd)⟩ =
      (.ok (Vec.ofList (v.toList.map Prod.snd) (by simp)), ⟨⟨w, Vec.uninit⟩, Vec.uninit⟩) := by
    simp only [exec_mk, assumeInit, Vec.assumeInit_slots _ (show (v.toList.map Prod.snd).length = N by simp)]
  rw [exec_bind_ok e2, exec_pure]
  simp only [slotItems_uninit, leakAll, List.foldl_nil]
  rw [Vec.unzip_eq]

theorem transpose_exec (own : T → List A) (drop : T → Eff W Unit) (C : Mat T M N) (w : W) :
    ∃ R, Mat.transposeR C = .ok R ∧ (transpose own drop C).exec w = (.ok R, w) := by
  obtain ⟨R, h, -⟩ := Mat.transposeR_ok C
  refine ⟨R, h, ?_⟩
  unfold Mat.transposeR at h
  rw [Mat.transposeLoop_eq, Res.bind_ok] at h
  unfold transpose
  simp only []
  rw [Mat.transposeLoop_eq, liftRes_ok, pure_bind]
  simp only [h, liftRes_ok, pure_bind, forget]
  have e : ((Mat.trSt C M 0).1.toList.flatMap fun r => slotItems own r.toList) = [] := by
    rw [List.flatMap_eq_nil_iff]
    intro r hr
    obtain ⟨i, hi, rfl⟩ := List.getElem_of_mem hr
    have hi' : i < M := by simpa using hi
    apply slotItems_eq_nil
    intro j hj
    simp only [Mat.trSt, Vector.getElem_toList, Vector.getElem_ofFn]
    rw [if_pos (by unfold Mat.movedBefore; omega)]
  rw [e]
  rfl
end Own
end Vecmat
