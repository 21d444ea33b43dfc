import Verif.Spec.Own
import Verif.Lemmas.Transpose
import Verif.Lemmas.VectorPure
/-! Helper lemmas: ownership. -/
namespace Vecmat
namespace Own
variable {σ A T U W α β : Type} {M N : Nat}

class LawfulLedger (W : Type) {A : outParam Type} [Ledger W A] : Prop where
  log_tell : ∀ (e : Ev A) (w : W), Ledger.log (Ledger.tell e w) = e :: Ledger.log w
  held_tell : ∀ (e : Ev A) (w : W), Ledger.held (Ledger.tell e w) = Ledger.held w

instance : LawfulLedger (World σ A) := ⟨fun _ _ => rfl, fun _ _ => rfl⟩
instance [Ledger W A] [LawfulLedger W] (own : T → List A) : LawfulLedger (Frame W own N) :=
  ⟨fun e f => LawfulLedger.log_tell e f.under, fun e f => by
    show Ledger.held (Ledger.tell e f.under) + _ = _
    rw [LawfulLedger.held_tell]; rfl⟩

theorem gots_cons_leaked (a : A) (l) : gots (.leaked a :: l) = gots l := rfl
theorem drops_cons_leaked (a : A) (l) : drops (.leaked a :: l) = drops l := rfl
theorem leaks_cons_leaked (a : A) (l) : leaks (.leaked a :: l) = a ::ₘ leaks l := rfl

variable [Ledger W A] [LawfulLedger W]

theorem leakAll_books (l : List A) (w : W) :
    gots (Ledger.log (leakAll l w)) = gots (Ledger.log w) ∧ drops (Ledger.log (leakAll l w)) = drops (Ledger.log w) ∧
    leaks (Ledger.log (leakAll l w)) = leaks (Ledger.log w) + (l : Multiset A) ∧ Ledger.held (leakAll l w) = Ledger.held w := by
  induction l generalizing w with
  | nil => simp [leakAll]
  | cons a l ih =>
    have h := ih (Ledger.tell (.leaked a) w)
    have e : leakAll (a :: l) w = leakAll l (Ledger.tell (.leaked a) w) := rfl
    rw [e, h.1, h.2.1, h.2.2.1, h.2.2.2, LawfulLedger.log_tell, LawfulLedger.held_tell]
    refine ⟨rfl, rfl, ?_, rfl⟩
    rw [leaks_cons_leaked, ← Multiset.cons_coe, Multiset.cons_add, Multiset.add_cons]

/-- Leaking `l` moves it from the caller's books to the leaked items. -/
theorem Balanced.leak {w : W} {B : Multiset A} {l : List A} (h : Balanced w (B + (l : Multiset A))) : Balanced (leakAll l w) B := by
  obtain ⟨h1, h2, h3, h4⟩ := leakAll_books l w
  unfold Balanced at *
  rw [h1, h2, h3, h4, h]
  ac_rfl

omit [LawfulLedger W] in
theorem balanced_frame {own : T → List A} (f : Frame W own N) (B : Multiset A) :
    Balanced f B ↔ Balanced f.under (B + (slotItems own f.slots.toList : Multiset A)) := by
  unfold Balanced
  show _ = drops (Ledger.log f.under) + leaks (Ledger.log f.under) + (Ledger.held f.under + _) + B ↔ _
  rw [show drops (Ledger.log f.under) + leaks (Ledger.log f.under) + (Ledger.held f.under + (slotItems own f.slots.toList : Multiset A)) + B =
    drops (Ledger.log f.under) + leaks (Ledger.log f.under) + Ledger.held f.under + (B + (slotItems own f.slots.toList : Multiset A)) by ac_rfl]
  rfl

/-! ## Rules -/
omit [LawfulLedger W] in
theorem Good.pure (a : α) {pre : Multiset A} {post : α → Multiset A} (h : pre = post a) : Good (W := W) (Pure.pure a) pre post := by
  intro w B hB
  rw [exec_pure]
  exact ⟨h ▸ hB, rfl⟩
omit [LawfulLedger W] in
theorem Good.throw (e : Fault) (he : e ≠ .ub) {post : α → Multiset A} : Good (W := W) (throw e) 0 post := by
  intro w B hB
  rw [exec_throw]
  exact ⟨by simpa using hB, he⟩
omit [LawfulLedger W] in
theorem Good.bind {x : Eff W α} {f : α → Eff W β} {pre : Multiset A} {mid : α → Multiset A} {post : β → Multiset A}
    (hx : Good x pre mid) (hf : ∀ a, Good (f a) (mid a) post) : Good (x >>= f) pre post := by
  intro w B hB
  have h := hx w B hB
  rw [exec_bind]
  match hx : x.exec w with
  | (.error e, w') => rw [hx] at h; exact h
  | (.ok a, w') =>
    rw [hx] at h
    have h2 := hf a w' B h.1
    simp only at h2 ⊢
    match hf : (f a).exec w' with
    | (.error e, w'') => rw [hf] at h2; exact h2
    | (.ok b, w'') => rw [hf] at h2; exact ⟨h2.1, h2.2.trans h.2⟩
omit [LawfulLedger W] in
theorem Good.frameRule {x : Eff W α} {pre : Multiset A} {post : α → Multiset A} (h : Good x pre post) (R : Multiset A)
    {pre' : Multiset A} {post' : α → Multiset A} (h1 : pre' = R + pre) (h2 : ∀ a, post' a = R + post a)
    (hno : ∀ w e w', x.exec w ≠ (.error e, w')) : Good x pre' post' := by
  intro w B hB
  subst h1
  have := h w (B + R) (by rwa [← add_assoc] at hB)
  match hx : x.exec w with
  | (.error e, w') => exact absurd hx (hno w e w')
  | (.ok a, w') =>
    rw [hx] at this
    simp only
    rw [h2, ← add_assoc]
    exact this

/-! ## Slots -/
theorem flatMap_set (g : T → List A) (l : List T) (i : Nat) (h : i < l.length) (y : T) :
    (((l.set i y).flatMap g : List A) : Multiset A) + (g l[i] : Multiset A) = (l.flatMap g : Multiset A) + (g y : Multiset A) := by
  induction l generalizing i with
  | nil => simp at h
  | cons a l ih =>
    cases i with
    | zero =>
      simp only [List.set_cons_zero, List.flatMap_cons, List.getElem_cons_zero, ← Multiset.coe_add]
      ac_rfl
    | succ i =>
      simp only [List.set_cons_succ, List.flatMap_cons, List.getElem_cons_succ, ← Multiset.coe_add]
      rw [add_assoc, ih i (by simpa using h)]
      ac_rfl

theorem slotItems_set (own : T → List A) (a : Vector (Option T) N) (i : Nat) (h : i < N) (o : Option T) :
    (slotItems own (a.set i o).toList : Multiset A) + (a[i].elim [] own : List A) =
      (slotItems own a.toList : Multiset A) + (o.elim [] own : List A) := by
  have := flatMap_set (fun o : Option T => o.elim [] own) a.toList i (by simpa using h) o
  have e : (a.set i o).toList = a.toList.set i o := Vector.toList_set ..
  unfold slotItems
  rw [e]
  simpa using this

theorem slotItems_uninit (own : T → List A) : slotItems own (Vec.uninit : Vector (Option T) N).toList = [] := by
  simp [slotItems, Vec.uninit, List.flatMap_eq_nil_iff]

/-- Slots `0..i` are initialised, the others are not. -/
def FilledTo (a : Vector (Option T) N) (i : Nat) : Prop := ∀ j (h : j < N), a[j].isSome = true ↔ j < i
/-- Slots `i..n` are initialised, the others are not. -/
def FilledFrom (a : Vector (Option T) N) (i n : Nat) : Prop := ∀ j (h : j < N), a[j].isSome = true ↔ i ≤ j ∧ j < n

theorem slotItems_eq_nil (own : T → List A) (a : Vector (Option T) N) (h : ∀ j (h : j < N), a[j] = none) : slotItems own a.toList = [] := by
  rw [show a = Vec.uninit from Vector.ext fun j hj => by simp [h j hj, Vec.uninit], slotItems_uninit]

theorem assumeInit_items (own : T → List A) (a : Vector (Option T) N) (v : Vec T N) (h : Vec.assumeInit a = .ok v) :
    ownVec own v = slotItems own a.toList := by
  unfold Vec.assumeInit at h
  split at h
  · rename_i hs
    cases h
    simp only [ownVec, slotItems, Vec.toList]
    have : a.toList = (Vector.ofFn fun i : Fin N => (a[i]).get (hs i)).toList.map some := by
      apply List.ext_getElem (by simp)
      intro i h1 h2
      simp
    rw [this, List.flatMap_map]
    rfl
  · cases h

theorem assumeInit_ok (a : Vector (Option T) N) (h : FilledTo a N) : ∃ v, Vec.assumeInit a = .ok v := by
  unfold Vec.assumeInit
  rw [dif_pos (show ∀ i : Fin N, a[i].isSome = true from fun i => (h i.1 i.2).mpr i.2)]
  exact ⟨_, rfl⟩

/-! ## Entering and leaving a frame -/
/-- The condition on the body of a function with slots. -/
def GoodBody {own : T → List A} (x : Eff (Frame W own N) α) (pre : Multiset A) (post : α → Multiset A)
    (P : Vector (Option T) N → Prop) (Q : α → Vector (Option T) N → Prop) : Prop :=
  ∀ f B, P f.slots → Balanced f (B + pre) →
    match x.exec f with
    | (.ok a, f') => Balanced f' (B + post a) ∧ leaks (Ledger.log f') = leaks (Ledger.log f) ∧ Q a f'.slots
    | (.error e, f') => Balanced f' B ∧ e ≠ .ub

theorem Good.frame {own : T → List A} {x : Eff (Frame W own N) α} {pre : Multiset A} {post : α → Multiset A}
    (h : GoodBody x pre post (fun a => ∀ j (h : j < N), a[j] = none) (fun _ a => ∀ j (h : j < N), a[j] = none)) :
    Good (Own.frame x) pre post := by
  intro w B hB
  have h := h ⟨w, Vec.uninit⟩ B (by simp [Vec.uninit]) (by
    rw [balanced_frame]; simpa [slotItems_uninit] using hB)
  unfold Own.frame
  rw [exec_mk]
  match hx : x.exec ⟨w, Vec.uninit⟩ with
  | (.ok a, f') =>
    rw [hx] at h
    obtain ⟨h1, h2, h3⟩ := h
    rw [balanced_frame] at h1
    refine ⟨h1.leak, ?_⟩
    rw [(leakAll_books _ _).2.2.1, slotItems_eq_nil own _ h3, Multiset.coe_nil, add_zero]
    exact h2
  | (.error e, f') =>
    rw [hx] at h
    obtain ⟨h1, h2⟩ := h
    rw [balanced_frame] at h1
    exact ⟨h1.leak, h2⟩

omit [LawfulLedger W] in
theorem GoodBody.bind {own : T → List A} {x : Eff (Frame W own N) α} {f : α → Eff (Frame W own N) β} {pre : Multiset A}
    {mid : α → Multiset A} {post : β → Multiset A} {P Q R}
    (hx : GoodBody x pre mid P Q) (hf : ∀ a, GoodBody (f a) (mid a) post (Q a) R) : GoodBody (x >>= f) pre post P R := by
  intro w B hP hB
  have h := hx w B hP hB
  rw [exec_bind]
  match hx : x.exec w with
  | (.error e, w') => rw [hx] at h; exact h
  | (.ok a, w') =>
    rw [hx] at h
    have h2 := hf a w' B h.2.2 h.1
    simp only at h2 ⊢
    match hf : (f a).exec w' with
    | (.error e, w'') => rw [hf] at h2; exact h2
    | (.ok b, w'') => rw [hf] at h2; exact ⟨h2.1, h2.2.1.trans h.2.1, h2.2.2⟩
omit [LawfulLedger W] in
theorem GoodBody.conseq {own : T → List A} {x : Eff (Frame W own N) α} {pre : Multiset A} {post : α → Multiset A} {P P' Q Q'}
    (h : GoodBody x pre post P Q) (hP : ∀ a, P' a → P a) (hQ : ∀ r a, Q r a → Q' r a) : GoodBody x pre post P' Q' := by
  intro w B h1 h2
  have := h w B (hP _ h1) h2
  match hx : x.exec w with
  | (.error e, w') => rw [hx] at this; exact this
  | (.ok a, w') => rw [hx] at this; exact ⟨this.1, this.2.1, hQ _ _ this.2.2⟩
omit [LawfulLedger W] in
theorem GoodBody.pure {own : T → List A} (a : α) {pre : Multiset A} {post : α → Multiset A} (h : pre = post a)
    {Q : α → Vector (Option T) N → Prop} : GoodBody (W := W) (own := own) (Pure.pure a) pre post (Q a) Q := by
  intro w B hP hB
  rw [exec_pure]
  exact ⟨h ▸ hB, rfl, hP⟩
omit [LawfulLedger W] in
theorem GoodBody.throw {own : T → List A} (e : Fault) (he : e ≠ .ub) {post : α → Multiset A} {P} {Q : α → Vector (Option T) N → Prop} :
    GoodBody (W := W) (own := own) (throw e) 0 post P Q := by
  intro w B _ hB
  rw [exec_throw]
  exact ⟨by simpa using hB, he⟩
omit [LawfulLedger W] in
theorem GoodBody.lower {own : T → List A} {x : Eff W α} {pre : Multiset A} {post : α → Multiset A} (h : Good x pre post)
    (P : Vector (Option T) N → Prop) : GoodBody (own := own) (Own.lower x) pre post P (fun _ => P) := by
  intro f B hP hB
  rw [balanced_frame] at hB
  have h := h f.under (B + (slotItems own f.slots.toList : Multiset A)) (by rwa [add_right_comm] at hB)
  unfold Own.lower
  rw [exec_mk]
  match hx : x.exec f.under with
  | (.error e, w') =>
    rw [hx] at h
    exact ⟨by rw [balanced_frame]; exact h.1, h.2⟩
  | (.ok a, w') =>
    rw [hx] at h
    refine ⟨by rw [balanced_frame, add_right_comm]; exact h.1, h.2, hP⟩

omit [LawfulLedger W] in
theorem GoodBody.write {own : T → List A} (i : Nat) (hi : i < N) (x : T) (P Q : Vector (Option T) N → Prop)
    (hP : ∀ a, P a → a[i] = none) (hQ : ∀ a, P a → Q (a.set i (some x))) :
    GoodBody (W := W) (own := own) (Own.write i x) (own x) (fun _ => 0) P (fun _ => Q) := by
  intro f B h hB
  unfold Own.write
  rw [exec_mk, dif_pos hi, hP _ h]
  refine ⟨?_, rfl, hQ _ h⟩
  rw [balanced_frame] at hB ⊢
  have := slotItems_set own f.slots i hi (some x)
  rw [hP _ h] at this
  simp only [Option.elim, Multiset.coe_nil, add_zero] at this
  show Balanced f.under _
  rw [this, add_zero]
  rwa [add_right_comm, add_assoc] at hB

omit [LawfulLedger W] in
theorem GoodBody.take {own : T → List A} (i : Nat) (hi : i < N) (P Q : Vector (Option T) N → Prop)
    (hP : ∀ a, P a → a[i].isSome = true) (hQ : ∀ a, P a → Q (a.set i none)) :
    GoodBody (W := W) (own := own) (Own.take i) 0 (fun x => own x) P (fun _ => Q) := by
  intro f B h hB
  unfold Own.take
  rw [exec_mk, dif_pos hi]
  obtain ⟨x, hx⟩ := Option.isSome_iff_exists.mp (hP _ h)
  simp only [hx]
  refine ⟨?_, rfl, hQ _ h⟩
  rw [balanced_frame] at hB ⊢
  have := slotItems_set own f.slots i hi none
  rw [hx] at this
  simp only [Option.elim, Multiset.coe_nil, add_zero] at this
  show Balanced f.under (B + (own x : Multiset A) + _)
  rw [add_assoc, add_comm (own x : Multiset A), this]
  simpa using hB

omit [LawfulLedger W] in
theorem GoodBody.assumeInit {own : T → List A} (P : Vector (Option T) N → Prop) (hP : ∀ a, P a → FilledTo a N) :
    GoodBody (W := W) (own := own) Own.assumeInit 0 (fun v => ownVec own v) P (fun _ a => ∀ j (h : j < N), a[j] = none) := by
  intro f B h hB
  obtain ⟨v, hv⟩ := assumeInit_ok f.slots (hP _ h)
  unfold Own.assumeInit
  rw [exec_mk]
  simp only [hv]
  refine ⟨?_, rfl, by simp [Vec.uninit]⟩
  rw [balanced_frame] at hB ⊢
  rw [assumeInit_items own _ _ hv]
  simpa [slotItems_uninit] using hB

omit [LawfulLedger W] in
theorem GoodBody.forRange {own : T → List A} (I : Nat → Vector (Option T) N → Prop) (body : Nat → Unit → Eff (Frame W own N) Unit)
    (n lo : Nat) (h : ∀ i, lo ≤ i → i < lo + n → GoodBody (body i ()) 0 (fun _ => 0) (I i) (fun _ => I (i + 1))) :
    GoodBody (Vecmat.forRange n lo () body) 0 (fun _ => 0) (I lo) (fun _ => I (lo + n)) := by
  induction n generalizing lo with
  | zero => exact GoodBody.pure (W := W) (own := own) (pre := 0) (post := fun _ => 0) (Q := fun _ => I lo) () rfl
  | succ n ih =>
    rw [Vecmat.forRange]
    refine (h lo (by omega) (by omega)).bind fun _ => ?_
    have := ih (lo + 1) fun i h1 h2 => h i (by omega) (by omega)
    rwa [show lo + 1 + n = lo + (n + 1) by omega] at this

theorem FilledTo.next {a : Vector (Option T) N} {i : Nat} (h : FilledTo a i) (hi : i < N) (x : T) : FilledTo (a.set i (some x)) (i + 1) := by
  intro j hj
  rw [Vector.getElem_set]
  by_cases e : i = j
  · subst e; simp
  · rw [if_neg e, h j hj]; omega
theorem FilledTo.none {a : Vector (Option T) N} {i : Nat} (h : FilledTo a i) (hi : i < N) : a[i] = none := by
  have := h i hi
  simpa using this
theorem filledTo_zero {a : Vector (Option T) N} (h : ∀ j (h : j < N), a[j] = none) : FilledTo a 0 := by
  intro j hj; simp [h j hj]

/-! ## The functions -/
theorem good_init (own : T → List A) (f : Eff W T) (hf : Good f 0 (fun x => own x)) :
    Good (init (N := N) own f) 0 (fun v => ownVec own v) := by
  refine Good.frame ?_
  refine GoodBody.bind (Q := fun _ a => FilledTo a N) (mid := fun _ => 0) ?_ fun _ => GoodBody.assumeInit _ fun a h => h
  have := GoodBody.forRange (W := W) (N := N) (own := own) (fun i a => FilledTo a i) (fun i _ => do
    let x ← lower f
    write i x) N 0 (by
      intro i _ hi
      refine (GoodBody.lower hf _).bind fun x => ?_
      exact GoodBody.write i (by omega) x _ _ (fun a h => h.none (by omega)) fun a h => h.next (by omega) x)
  rw [Nat.zero_add] at this
  exact this.conseq (fun a => filledTo_zero) fun _ _ h => h

omit [LawfulLedger W] in
theorem goodBody_fill (own : T → List A) (next : Eff W (Option T)) (hn : Good next 0 (fun o => (o.elim [] own : List A))) (n pos : Nat)
    (h : pos + n = N) : GoodBody (N := N) (own := own) (fill next n pos) 0 (fun _ => 0) (fun a => FilledTo a pos)
      (fun p a => p ≤ N ∧ FilledTo a p) := by
  induction n generalizing pos with
  | zero => exact (GoodBody.pure (W := W) (own := own) (N := N) (pre := 0) (post := fun _ => 0) (Q := fun p a => p ≤ N ∧ FilledTo a p) pos rfl).conseq (fun a ha => ⟨by omega, ha⟩) fun _ _ h => h
  | succ n ih =>
    unfold fill
    refine (GoodBody.lower hn _).bind fun o => ?_
    cases o with
    | none => exact (GoodBody.pure (W := W) (own := own) (N := N) (pre := 0) (post := fun _ => 0) (Q := fun p a => p ≤ N ∧ FilledTo a p) pos rfl).conseq (fun a ha => ⟨by omega, ha⟩) fun _ _ h => h
    | some y =>
      refine (GoodBody.write pos (by omega) y _ (fun a => FilledTo a (pos + 1)) (fun a h => h.none (by omega)) fun a h => h.next (by omega) y).bind fun _ => ?_
      exact ih (pos + 1) (by omega)

theorem good_tryFromIter (own : T → List A) (drop : T → Eff W Unit) (next : Eff W (Option T))
    (hn : Good next 0 (fun o => (o.elim [] own : List A))) (hd : ∀ x, Good (drop x) (own x) (fun _ => 0)) :
    Good (tryFromIter (N := N) own drop next) 0 (fun o => (o.elim [] (ownVec own) : List A)) := by
  refine Good.frame ?_
  refine GoodBody.bind ((goodBody_fill own next hn N 0 (by omega)).conseq (fun a => filledTo_zero) fun _ _ h => h) fun pos => ?_
  split
  · exact GoodBody.throw _ (by decide)
  · split
    · rename_i h1 h2
      refine (GoodBody.assumeInit _ fun a h => h2 ▸ h.2).bind fun v => ?_
      exact GoodBody.pure (W := W) (own := own) (post := fun o => (o.elim [] (ownVec own) : List A)) (Q := fun _ a => ∀ j (h : j < N), a[j] = none) (some v) rfl
    · rename_i h1 h2
      refine GoodBody.bind (mid := fun _ => 0) (Q := fun _ a => ∀ j (h : j < N), a[j] = none) ?_ fun _ =>
        GoodBody.pure (W := W) (own := own) (post := fun o => (o.elim [] (ownVec own) : List A)) (Q := fun _ a => ∀ j (h : j < N), a[j] = none) none rfl
      have := GoodBody.forRange (W := W) (N := N) (own := own) (fun i a => FilledFrom a i pos) (fun i _ => do
        let x ← take i
        lower (drop x)) pos 0 (by
          intro i _ hi
          refine GoodBody.bind (GoodBody.take i (by omega) _ (fun a => FilledFrom a (i + 1) pos) (fun a h => (h i (by omega)).mpr ⟨le_refl i, by omega⟩) ?_)
            fun x => GoodBody.lower (hd x) _
          intro a h j hj
          rw [Vector.getElem_set]
          by_cases e : i = j
          · subst e; simp
          · rw [if_neg e, h j hj]; omega)
      rw [Nat.zero_add] at this
      refine this.conseq (fun a ha j hj => ?_) fun _ a ha j hj => ?_
      · rw [ha.2 j hj]; omega
      · have := ha j hj
        rw [← Option.not_isSome_iff_eq_none, this]
        omega

omit [LawfulLedger W] in
/-- Drop glue of a list of values. -/
theorem good_dropAll (own : T → List A) (drop : T → Eff W Unit) (hd : ∀ x, Good (drop x) (own x) (fun _ => 0)) (l : List T) :
    Good (dropAll drop l) (l.flatMap own : List A) (fun _ => 0) := by
  induction l with
  | nil => exact Good.pure () rfl
  | cons x l ih =>
    intro w B hB
    rw [List.flatMap_cons, ← Multiset.coe_add, add_comm (own x : Multiset A), ← add_assoc] at hB
    have h := hd x w _ hB
    rw [dropAll, exec_mk]
    match hx : (drop x).exec w with
    | (.ok (), w') =>
      rw [hx] at h
      have h2 := ih w' B (by simpa using h.1)
      simp only
      match hy : (dropAll drop l).exec w' with
      | (.ok (), w'') => rw [hy] at h2; exact ⟨h2.1, h2.2.trans h.2⟩
      | (.error e, w'') => rw [hy] at h2; exact h2
    | (.error e, w') =>
      rw [hx] at h
      have h2 := ih w' B h.1
      simp only
      refine ⟨?_, h.2⟩
      match hy : (dropAll drop l).exec w' with
      | (.ok (), w'') => rw [hy] at h2; simpa using h2.1
      | (.error e, w'') => rw [hy] at h2; exact h2.1
end Own
end Vecmat
