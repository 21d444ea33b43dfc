import Verif.Lemmas.OwnRefine
import Mathlib.Data.Multiset.UnionInter
import Mathlib.Data.Multiset.Dedup
/-!
# C11, C12: ownership and panic safety of the unsafe constructors
-/
namespace Vecmat
open Own
variable {σ A T U W : Type} {M N : Nat}

/-! ## Compositional form: any item type, any memory -/
section
variable [Ledger W A] [LawfulLedger W]
/-- `Vector::init` treats ownership correctly whenever the closure does. -/
theorem C11_init_good (own : T → List A) (f : Eff W T) (hf : Good f 0 (fun x => own x)) :
    Good (Own.init (N := N) own f) 0 (fun v => ownVec own v) := good_init own f hf
theorem C11_try_from_iter_good (own : T → List A) (drop : T → Eff W Unit) (next : Eff W (Option T))
    (hn : Good next 0 (fun o => (o.elim [] own : List A))) (hd : ∀ x, Good (drop x) (own x) (fun _ => 0)) :
    Good (Own.tryFromIter (N := N) own drop next) 0 (fun o => (o.elim [] (ownVec own) : List A)) := good_tryFromIter own drop next hn hd
/-- Matrices: rows are themselves vectors that own items. -/
theorem C11_matrix_init_good (own : T → List A) (f : Eff W T) (hf : Good f 0 (fun x => own x)) :
    Good (matInit (M := M) (N := N) own f) 0 (fun C => ownMat own C) := by
  refine (good_init (N := M) (ownVec own) _ (good_init (N := N) own f hf)).bind fun d => ?_
  exact Good.pure _ rfl
theorem C11_matrix_try_from_iter_good (own : T → List A) (drop : T → Eff W Unit) (next : Eff W (Option T))
    (hn : Good next 0 (fun o => (o.elim [] own : List A))) (hd : ∀ x, Good (drop x) (own x) (fun _ => 0)) :
    Good (matTryFromIter (M := M) (N := N) own drop next) 0 (fun o => (o.elim [] (ownMat own) : List A)) := by
  refine (good_tryFromIter (N := M) (ownVec own) (dropVec drop) _ (good_tryFromIter (N := N) own drop next hn hd)
    fun v => good_dropAll own drop hd v.toList).bind fun o => ?_
  refine Good.pure _ ?_
  cases o <;> rfl
end

/-! ## Items straight from the caller -/
/-- A caller-supplied closure written in safe Rust has no undefined behaviour (it may panic). -/
def Spec.Safe {α : Type} (x : Eff σ α) : Prop := ∀ s, (x.exec s).1 ≠ .error .ub

theorem good_recv (f : Eff σ A) (hf : Spec.Safe f) : Good (recv f) 0 (fun a => [a]) := by
  intro w B hB
  have h := hf w.user
  simp only [recv, exec_mk]
  match hx : f.exec w.user with
  | (.error e, s) =>
    rw [hx] at h
    exact ⟨by simpa [Balanced, Ledger.log, Ledger.held] using hB, fun he => h (by rw [he])⟩
  | (.ok a, s) =>
    refine ⟨?_, rfl⟩
    simp only [Balanced, Ledger.log, Ledger.held, add_zero] at hB ⊢
    show a ::ₘ gots w.log = drops w.log + leaks w.log + (B + {a})
    rw [hB, ← add_assoc, ← Multiset.singleton_add, add_comm]
theorem good_recvOpt (f : Eff σ (Option A)) (hf : Spec.Safe f) : Good (recvOpt f) 0 (fun o => (o.elim [] (fun a => [a]) : List A)) := by
  intro w B hB
  have h := hf w.user
  simp only [recvOpt, exec_mk]
  match hx : f.exec w.user with
  | (.error e, s) =>
    rw [hx] at h
    exact ⟨by simpa [Balanced, Ledger.log, Ledger.held] using hB, fun he => h (by rw [he])⟩
  | (.ok none, s) => exact ⟨by simpa [Balanced, Ledger.log, Ledger.held] using hB, rfl⟩
  | (.ok (some a), s) =>
    refine ⟨?_, rfl⟩
    simp only [Balanced, Ledger.log, Ledger.held, add_zero] at hB ⊢
    show a ::ₘ gots w.log = drops w.log + leaks w.log + (B + {a})
    rw [hB, ← add_assoc, ← Multiset.singleton_add, add_comm]
theorem good_dropItem (d : A → Eff σ Unit) (hd : ∀ a, Spec.Safe (d a)) (a : A) : Good (dropItem d a) [a] (fun _ => 0) := by
  intro w B hB
  have h := hd a w.user
  simp only [dropItem, exec_mk]
  have key : Balanced (⟨((d a).exec w.user).2, .dropped a :: w.log⟩ : World σ A) B := by
    simp only [Balanced, Ledger.log, Ledger.held, add_zero] at hB ⊢
    show gots w.log = (a ::ₘ drops w.log) + leaks w.log + B
    rw [hB, ← Multiset.singleton_add]
    show _ + (B + {a}) = _
    ac_rfl
  match hx : ((d a).exec w.user).1 with
  | .error e =>
    exact ⟨key, fun he => h (by rw [hx, he])⟩
  | .ok () => exact ⟨by simpa using key, rfl⟩

theorem drops_callN (f : Eff σ A) (n : Nat) (w : World σ A) : drops ((Spec.callN (recv f) n).exec w).2.log = drops w.log := by
  induction n generalizing w with
  | zero => rfl
  | succ n ih =>
    unfold Spec.callN
    match hx : f.exec w.user with
    | (.error e, s) =>
      have e1 : (recv f).exec w = (.error e, ⟨s, w.log⟩) := by simp [recv, hx]
      rw [exec_bind_error e1]
    | (.ok a, s) =>
      have e1 : (recv f).exec w = (.ok a, ⟨s, .got a :: w.log⟩) := by simp [recv, hx]
      rw [exec_bind_ok e1, bind_pure_comp, exec_map]
      exact ih _
theorem drops_takeN (f : Eff σ (Option A)) (n : Nat) (w : World σ A) : drops ((Spec.takeN (recvOpt f) n).exec w).2.log = drops w.log := by
  induction n generalizing w with
  | zero => rfl
  | succ n ih =>
    unfold Spec.takeN
    match hx : f.exec w.user with
    | (.error e, s) =>
      have e1 : (recvOpt f).exec w = (.error e, ⟨s, w.log⟩) := by simp [recvOpt, hx]
      rw [exec_bind_error e1]
    | (.ok none, s) =>
      have e1 : (recvOpt f).exec w = (.ok none, ⟨s, w.log⟩) := by simp [recvOpt, hx]
      rw [exec_bind_ok e1]; rfl
    | (.ok (some a), s) =>
      have e1 : (recvOpt f).exec w = (.ok (some a), ⟨s, .got a :: w.log⟩) := by simp [recvOpt, hx]
      rw [exec_bind_ok e1]
      simp only
      rw [bind_pure_comp, exec_map]
      exact ih _
theorem drops_leakAll (l : List A) (w : World σ A) : drops (leakAll l w).log = drops w.log := (leakAll_books l w).2.1
theorem drops_initM (f : Eff σ A) (w : World σ A) : drops ((Vec.initM (recv f) : Eff _ (Vec A N)).exec w).2.log = drops w.log := by
  have h := congrArg (fun x : Eff (World σ A) (List A) => (x.exec w).2) (Vec.toList_initM (m := Eff (World σ A)) (N := N) (recv f))
  simp only [exec_map] at h
  rw [h, drops_callN]
theorem drops_tryFromIterM (f : Eff σ (Option A)) (w : World σ A) :
    drops ((Vec.tryFromIter (recvOpt f) : Eff _ (Option (Vec A N))).exec w).2.log = drops w.log := by
  rw [Vec.tryFromIter_eq, exec_map, drops_takeN]

/-- `Vector::init` that returns: the vector consists of exactly the items the closure produced, none of which was dropped or leaked. -/
theorem C11_init (f : Eff σ A) (hf : Spec.Safe f) (s : σ) (v : Vec A N) (w : World σ A)
    (h : (Own.init (fun a => [a]) (recv f)).exec ⟨s, []⟩ = (.ok v, w)) :
    gots w.log = v.toList ∧ drops w.log = 0 ∧ leaks w.log = 0 := by
  have hg := good_init (N := N) _ _ (good_recv f hf) ⟨s, []⟩ 0 rfl
  rw [h] at hg
  obtain ⟨l, h1, -⟩ := init_refines (N := N) (fun a => [a]) (recv f) ⟨s, []⟩
  have hd : drops w.log = 0 := by
    rw [h] at h1
    have h2 := congrArg Prod.snd h1
    simp only at h2
    rw [h2]
    rw [drops_leakAll]
    exact drops_initM f ⟨s, []⟩
  have hl : leaks w.log = 0 := hg.2
  refine ⟨?_, hd, hl⟩
  have hb := hg.1
  simp only [Balanced, Ledger.log, Ledger.held, hd, hl] at hb
  simpa [ownVec] using hb
/-- `Vector::init` whose closure panics: nothing is dropped (so nothing can be dropped twice), what had been produced is leaked. -/
theorem C12_init (f : Eff σ A) (hf : Spec.Safe f) (s : σ) (e : Fault) (w : World σ A)
    (h : (Own.init (N := N) (fun a => [a]) (recv f)).exec ⟨s, []⟩ = (.error e, w)) :
    e ≠ .ub ∧ drops w.log = 0 ∧ leaks w.log = gots w.log := by
  have hg := good_init (N := N) _ _ (good_recv f hf) ⟨s, []⟩ 0 rfl
  rw [h] at hg
  obtain ⟨l, h1, -⟩ := init_refines (N := N) (fun a => [a]) (recv f) ⟨s, []⟩
  have hd : drops w.log = 0 := by
    rw [h] at h1
    have h2 := congrArg Prod.snd h1
    simp only at h2
    rw [h2]
    rw [drops_leakAll]
    exact drops_initM f ⟨s, []⟩
  refine ⟨hg.2, hd, ?_⟩
  have hb := hg.1
  simp only [Balanced, Ledger.log, Ledger.held, hd] at hb
  simpa using hb.symm

/-- `Vector::try_from_iter` that returns a vector: it consists of exactly the items taken from the iterator, nothing was dropped or
leaked. -/
theorem C11_try_from_iter_some (next : Eff σ (Option A)) (d : A → Eff σ Unit) (hn : Spec.Safe next) (hd : ∀ a, Spec.Safe (d a)) (s : σ)
    (v : Vec A N) (w : World σ A) (h : (Own.tryFromIter (fun a => [a]) (dropItem d) (recvOpt next)).exec ⟨s, []⟩ = (.ok (some v), w)) :
    gots w.log = v.toList ∧ drops w.log = 0 ∧ leaks w.log = 0 := by
  have hg := good_tryFromIter (N := N) _ (dropItem d) _ (good_recvOpt next hn) (good_dropItem d hd) ⟨s, []⟩ 0 rfl
  rw [h] at hg
  have hr := tryFromIter_refines (N := N) (fun a => [a]) (dropItem d) (recvOpt next) ⟨s, []⟩
  have hds := drops_tryFromIterM (N := N) next ⟨s, []⟩
  have hdr : drops w.log = 0 := by
    match hx : (Vec.tryFromIter (recvOpt next) : Eff _ (Option (Vec A N))).exec ⟨s, []⟩ with
    | (.ok (some v'), w') =>
      rw [hx, h] at hr
      rw [hx] at hds
      have := congrArg Prod.snd hr
      simp only at this
      rw [this]; exact hds
    | (.error e, w') =>
      rw [hx, h] at hr
      obtain ⟨l, hr⟩ := hr
      cases hr
    | (.ok none, w') =>
      -- too short an iterator never yields a vector
      exfalso
      have hs := fill_sim (own := fun a : A => [a]) (N := N) (recvOpt next) N [] (by simp) (⟨s, []⟩ : World σ A)
      unfold Vec.tryFromIter at hx
      unfold Own.tryFromIter Own.frame at h
      rw [Vec.uninit_eq] at hx h
      rw [exec_mk] at h
      simp only [List.length_nil] at hs
      match hr : (Vec.fillLoop (recvOpt next) N (Vec.slots N []) 0).exec ⟨s, []⟩ with
      | (.error e, w') => rw [exec_bind_error hr] at hx; cases hx
      | (.ok (b, p), w1) =>
        rw [hr] at hs
        obtain ⟨h1, k, rfl, hk, rfl⟩ := hs
        rw [exec_bind_ok hr] at hx
        rw [exec_bind_ok h1] at h
        have hgt : ¬ k.length > N := by omega
        simp only [if_neg hgt] at hx h
        by_cases hN : k.length = N
        · simp only [if_pos hN] at hx
          rw [Vec.assumeInit_slots k hN, liftRes_ok, pure_bind] at hx
          cases hx
        · simp only [if_neg hN] at h
          rw [exec_bind] at h
          split at h <;> simp at h
  have hl : leaks w.log = 0 := hg.2
  refine ⟨?_, hdr, hl⟩
  have hb := hg.1
  simp only [Balanced, Ledger.log, Ledger.held, hdr, hl] at hb
  simpa [ownVec] using hb
/-- `Vector::try_from_iter` on too short an iterator: every item taken was dropped, exactly once; nothing is leaked. -/
theorem C11_try_from_iter_none (next : Eff σ (Option A)) (d : A → Eff σ Unit) (hn : Spec.Safe next) (hd : ∀ a, Spec.Safe (d a)) (s : σ)
    (w : World σ A) (h : (Own.tryFromIter (N := N) (fun a => [a]) (dropItem d) (recvOpt next)).exec ⟨s, []⟩ = (.ok none, w)) :
    drops w.log = gots w.log ∧ leaks w.log = 0 := by
  have hg := good_tryFromIter (N := N) _ (dropItem d) _ (good_recvOpt next hn) (good_dropItem d hd) ⟨s, []⟩ 0 rfl
  rw [h] at hg
  have hl : leaks w.log = 0 := hg.2
  refine ⟨?_, hl⟩
  have hb := hg.1
  simp only [Balanced, Ledger.log, Ledger.held, hl] at hb
  simpa using hb.symm
/-- `Vector::try_from_iter` when the iterator, or a destructor, panics: what was taken is dropped at most once, the rest is leaked. -/
theorem C12_try_from_iter (next : Eff σ (Option A)) (d : A → Eff σ Unit) (hn : Spec.Safe next) (hd : ∀ a, Spec.Safe (d a)) (s : σ)
    (e : Fault) (w : World σ A) (h : (Own.tryFromIter (N := N) (fun a => [a]) (dropItem d) (recvOpt next)).exec ⟨s, []⟩ = (.error e, w)) :
    e ≠ .ub ∧ gots w.log = drops w.log + leaks w.log := by
  have hg := good_tryFromIter (N := N) _ (dropItem d) _ (good_recvOpt next hn) (good_dropItem d hd) ⟨s, []⟩ 0 rfl
  rw [h] at hg
  refine ⟨hg.2, ?_⟩
  have hb := hg.1
  simpa only [Balanced, Ledger.log, Ledger.held, add_zero] using hb
/-- If only the iterator can panic, nothing is dropped in that case. -/
theorem C12_try_from_iter_iter_panics (next : Eff σ (Option A)) (d : A → Eff σ Unit) (hn : Spec.Safe next)
    (hd : ∀ a s, ((d a).exec s).1 = .ok ()) (s : σ)
    (e : Fault) (w : World σ A) (h : (Own.tryFromIter (N := N) (fun a => [a]) (dropItem d) (recvOpt next)).exec ⟨s, []⟩ = (.error e, w)) :
    e ≠ .ub ∧ drops w.log = 0 ∧ leaks w.log = gots w.log := by
  obtain ⟨he, hb⟩ := C12_try_from_iter next d hn (fun a s => by rw [hd a s]; simp) s e w h
  have hr := tryFromIter_refines (N := N) (fun a => [a]) (dropItem d) (recvOpt next) ⟨s, []⟩
  have hds := drops_tryFromIterM (N := N) next ⟨s, []⟩
  have hdr : drops w.log = 0 := by
    match hx : (Vec.tryFromIter (recvOpt next) : Eff _ (Option (Vec A N))).exec ⟨s, []⟩ with
    | (.ok (some v'), w') => rw [hx, h] at hr; cases hr
    | (.error e, w') =>
      rw [hx, h] at hr
      rw [hx] at hds
      obtain ⟨l, hr⟩ := hr
      have := congrArg Prod.snd hr
      simp only at this
      rw [this]
      rw [drops_leakAll]
      exact hds
    | (.ok none, w') =>
      rw [hx, h] at hr
      obtain ⟨w'', hr⟩ := hr fun x w => ⟨⟨((d x).exec w.user).2, .dropped x :: w.log⟩, by simp [dropItem, hd]⟩
      cases hr
  exact ⟨he, hdr, by rw [hb, hdr, zero_add]⟩

/-- Matrices: every item ends up exactly once in the result, or is dropped exactly once, or is leaked, and the latter only when
something panics; never undefined behaviour. -/
theorem C11_matrix_try_from_iter (next : Eff σ (Option A)) (d : A → Eff σ Unit) (hn : Spec.Safe next) (hd : ∀ a, Spec.Safe (d a)) (s : σ) :
    match (matTryFromIter (M := M) (N := N) (fun a => [a]) (dropItem d) (recvOpt next)).exec ⟨s, []⟩ with
    | (.ok (some C), w) => gots w.log = drops w.log + ↑(C.data.toList.flatMap Vec.toList) ∧ leaks w.log = 0
    | (.ok none, w) => gots w.log = drops w.log ∧ leaks w.log = 0
    | (.error e, w) => gots w.log = drops w.log + leaks w.log ∧ e ≠ .ub := by
  have hg := C11_matrix_try_from_iter_good (M := M) (N := N) _ (dropItem d) _ (good_recvOpt next hn) (good_dropItem d hd) ⟨s, []⟩ 0 rfl
  match hx : (matTryFromIter (M := M) (N := N) (fun a => [a]) (dropItem d) (recvOpt next)).exec ⟨s, []⟩ with
  | (.ok (some C), w) =>
    rw [hx] at hg
    have hl : leaks w.log = 0 := hg.2
    have hb := hg.1
    simp only [Balanced, Ledger.log, Ledger.held, hl, add_zero, zero_add, Option.elim] at hb
    refine ⟨?_, hl⟩
    rw [hb]
    congr 2
    unfold ownMat ownVec
    simp
  | (.ok none, w) =>
    rw [hx] at hg
    have hl : leaks w.log = 0 := hg.2
    have hb := hg.1
    simp only [Balanced, Ledger.log, Ledger.held, hl, add_zero, zero_add, Option.elim] at hb
    exact ⟨by simpa using hb, hl⟩
  | (.error e, w) =>
    rw [hx] at hg
    exact ⟨by simpa only [Balanced, Ledger.log, Ledger.held, add_zero] using hg.1, hg.2⟩
theorem C11_matrix_init (f : Eff σ A) (hf : Spec.Safe f) (s : σ) :
    match (matInit (M := M) (N := N) (fun a => [a]) (recv f)).exec ⟨s, []⟩ with
    | (.ok C, w) => gots w.log = drops w.log + ↑(C.data.toList.flatMap Vec.toList) ∧ leaks w.log = 0
    | (.error e, w) => gots w.log = drops w.log + leaks w.log ∧ e ≠ .ub := by
  have hg := C11_matrix_init_good (M := M) (N := N) _ _ (good_recv f hf) ⟨s, []⟩ 0 rfl
  match hx : (matInit (M := M) (N := N) (fun a => [a]) (recv f)).exec ⟨s, []⟩ with
  | (.ok C, w) =>
    rw [hx] at hg
    have hl : leaks w.log = 0 := hg.2
    have hb := hg.1
    simp only [Balanced, Ledger.log, Ledger.held, hl, add_zero, zero_add] at hb
    refine ⟨?_, hl⟩
    rw [hb]
    congr 2
    unfold ownMat ownVec
    simp
  | (.error e, w) =>
    rw [hx] at hg
    exact ⟨by simpa only [Balanced, Ledger.log, Ledger.held, add_zero] using hg.1, hg.2⟩

section
variable {W : Type} [Ledger W A] [LawfulLedger W]
theorem drops_callN_of (f : Eff W T) (hf : ∀ w, drops (Ledger.log (f.exec w).2) = drops (Ledger.log w)) (n : Nat) (w : W) :
    drops (Ledger.log ((Spec.callN f n).exec w).2) = drops (Ledger.log w) := by
  induction n generalizing w with
  | zero => rfl
  | succ n ih =>
    unfold Spec.callN
    have h := hf w
    match hx : f.exec w with
    | (.error e, s) => rw [exec_bind_error hx]; rw [hx] at h; exact h
    | (.ok a, s) =>
      rw [exec_bind_ok hx, bind_pure_comp, exec_map]
      rw [hx] at h
      exact (ih s).trans h
theorem drops_init_of (own : T → List A) (f : Eff W T) (hf : ∀ w, drops (Ledger.log (f.exec w).2) = drops (Ledger.log w)) (w : W) :
    drops (Ledger.log ((Own.init (N := N) own f).exec w).2) = drops (Ledger.log w) := by
  obtain ⟨l, h1, -⟩ := init_refines (N := N) own f w
  rw [h1, (leakAll_books l _).2.1]
  have h := congrArg (fun x : Eff W (List T) => (x.exec w).2) (Vec.toList_initM (m := Eff W) (N := N) f)
  simp only [exec_map] at h
  rw [h, drops_callN_of f hf]
theorem drops_takeN_of (f : Eff W (Option T)) (hf : ∀ w a w', f.exec w = (.ok (some a), w') → drops (Ledger.log w') = drops (Ledger.log w))
    (n : Nat) (w : W) (l : List T) (w' : W) (h : (Spec.takeN f n).exec w = (.ok l, w')) (hl : l.length = n) :
    drops (Ledger.log w') = drops (Ledger.log w) := by
  induction n generalizing w l with
  | zero => simp only [Spec.takeN] at h; cases h; rfl
  | succ n ih =>
    unfold Spec.takeN at h
    match hx : f.exec w with
    | (.error e, s) => rw [exec_bind_error hx] at h; cases h
    | (.ok none, s) => rw [exec_bind_ok hx] at h; cases h; cases hl
    | (.ok (some a), s) =>
      rw [exec_bind_ok hx] at h
      simp only [bind_pure_comp, exec_map] at h
      match hy : (Spec.takeN f n).exec s with
      | (.error e, s') => rw [hy] at h; cases h
      | (.ok k, s') =>
        rw [hy] at h
        cases h
        rw [ih s k hy (by simpa using hl), hf w a s hx]
/-- `try_from_iter` that yields a vector runs as the plain model does, whatever the destructors. -/
theorem tryFromIter_some (own : T → List A) (drop : T → Eff W Unit) (f : Eff W (Option T)) (w : W) (v : Vec T N) (w' : W)
    (h : (Own.tryFromIter own drop f).exec w = (.ok (some v), w')) :
    (Vec.tryFromIter f : Eff W (Option (Vec T N))).exec w = (.ok (some v), w') := by
  have hr := tryFromIter_refines (N := N) own drop f w
  match hx : (Vec.tryFromIter f : Eff W (Option (Vec T N))).exec w with
  | (.error e, s) => rw [hx] at hr; obtain ⟨l, hr⟩ := hr; rw [hr] at h; cases h
  | (.ok (some u), s) => rw [hx] at hr; rw [hr] at h; exact h
  | (.ok none, s) =>
    exfalso
    have hs := fill_sim (own := own) (N := N) f N [] (by simp) w
    unfold Vec.tryFromIter at hx
    unfold Own.tryFromIter Own.frame at h
    rw [Vec.uninit_eq] at hx h
    rw [exec_mk] at h
    simp only [List.length_nil] at hs
    match hr : (Vec.fillLoop f N (Vec.slots N []) 0).exec w with
    | (.error e, w') => rw [exec_bind_error hr] at hx; cases hx
    | (.ok (b, p), w1) =>
      rw [hr] at hs
      obtain ⟨h1, k, rfl, hk, rfl⟩ := hs
      rw [exec_bind_ok hr] at hx
      rw [exec_bind_ok h1] at h
      have hgt : ¬ k.length > N := by omega
      simp only [if_neg hgt] at hx h
      by_cases hN : k.length = N
      · simp only [if_pos hN] at hx
        rw [Vec.assumeInit_slots k hN, liftRes_ok, pure_bind] at hx
        cases hx
      · simp only [if_neg hN] at h
        rw [exec_bind] at h
        split at h <;> simp at h
theorem drops_tryFromIter_of (own : T → List A) (drop : T → Eff W Unit) (f : Eff W (Option T))
    (hf : ∀ w a w', f.exec w = (.ok (some a), w') → drops (Ledger.log w') = drops (Ledger.log w)) (w : W) (v : Vec T N) (w' : W)
    (h : (Own.tryFromIter own drop f).exec w = (.ok (some v), w')) : drops (Ledger.log w') = drops (Ledger.log w) := by
  have hx := tryFromIter_some own drop f w v w' h
  rw [Vec.tryFromIter_eq, exec_map] at hx
  match hy : (Spec.takeN f N).exec w with
  | (.error e, s) => rw [hy] at hx; cases hx
  | (.ok l, s) =>
    rw [hy] at hx
    have e1 := congrArg Prod.fst hx
    have e2 : s = w' := congrArg Prod.snd hx
    by_cases hl : l.length = N
    · rw [← e2]; exact drops_takeN_of f hf N w l s hy hl
    · have e1 : (if h : l.length = N then some (Vec.ofList l h) else none) = some v := by simpa using e1
      rw [dif_neg hl] at e1; cases e1
end
/-- `Matrix::init`, whether it returns or the closure panics, drops nothing. -/
theorem C11_matrix_init_no_drop (f : Eff σ A) (s : σ) :
    drops ((matInit (M := M) (N := N) (fun a => [a]) (recv f)).exec ⟨s, []⟩).2.log = 0 := by
  have h1 : ∀ w : World σ A, drops (Ledger.log ((recv f).exec w).2) = drops (Ledger.log w) := by
    intro w
    match hx : f.exec w.user with
    | (.error e, s) => simp [recv, hx, Ledger.log]
    | (.ok a, s) => simp [recv, hx, Ledger.log, drops]
  have h2 := drops_init_of (N := M) (W := World σ A) (ownVec fun a => [a]) _ (drops_init_of (N := N) (fun a => [a]) (recv f) h1) ⟨s, []⟩
  unfold matInit
  rw [bind_pure_comp, exec_map]
  exact h2
/-- `Matrix::try_from_iter` that yields a matrix: it consists of exactly the items taken from the iterator; none was dropped or leaked,
whatever the destructors do. -/
theorem C11_matrix_try_from_iter_some (next : Eff σ (Option A)) (d : A → Eff σ Unit) (hn : Spec.Safe next) (hd : ∀ a, Spec.Safe (d a)) (s : σ)
    (C : Mat A M N) (w : World σ A) (h : (matTryFromIter (fun a => [a]) (dropItem d) (recvOpt next)).exec ⟨s, []⟩ = (.ok (some C), w)) :
    gots w.log = C.data.toList.flatMap Vec.toList ∧ drops w.log = 0 ∧ leaks w.log = 0 := by
  have hg := C11_matrix_try_from_iter (M := M) (N := N) next d hn hd s
  rw [h] at hg
  have h1 : ∀ (w : World σ A) a w', (recvOpt next).exec w = (.ok (some a), w') → drops (Ledger.log w') = drops (Ledger.log w) := by
    intro w a w' hw
    match hx : next.exec w.user with
    | (.error e, s) => simp [recvOpt, hx] at hw
    | (.ok none, s) => simp [recvOpt, hx] at hw
    | (.ok (some a), s) => simp [recvOpt, hx] at hw; rw [← hw.2]; simp [Ledger.log, drops]
  have hdr : drops w.log = 0 := by
    unfold matTryFromIter at h
    rw [bind_pure_comp, exec_map] at h
    match hy : (Own.tryFromIter (N := M) (ownVec fun a => [a]) (dropVec (dropItem d))
        (Own.tryFromIter (N := N) (fun a => [a]) (dropItem d) (recvOpt next))).exec ⟨s, []⟩ with
    | (.error e, w') => rw [hy] at h; cases h
    | (.ok none, w') => rw [hy] at h; cases h
    | (.ok (some v), w') =>
      rw [hy] at h
      have e2 : w' = w := congrArg Prod.snd h
      have := drops_tryFromIter_of (N := M) (W := World σ A) _ _ _
        (fun w a w' hw => drops_tryFromIter_of (N := N) (W := World σ A) _ _ _ h1 w a w' hw) _ v w' hy
      rw [← e2]
      exact this
  exact ⟨by rw [hg.1, hdr, zero_add], hdr, hg.2⟩

/-- The books exclude double drops: if the items handed over are pairwise distinct, no item is dropped twice, nor dropped and returned. -/
theorem C11_no_double_drop (l : List (Ev A)) (R : Multiset A) (h : gots l = drops l + leaks l + R) (hd : (gots l).Nodup) :
    (drops l).Nodup ∧ R.Nodup ∧ Disjoint (drops l) R := by
  rw [h] at hd
  have h1 := Multiset.nodup_of_le (Multiset.le_add_right _ _) hd
  refine ⟨Multiset.nodup_of_le (Multiset.le_add_right _ _) h1, Multiset.nodup_of_le (Multiset.le_add_left _ _) hd, ?_⟩
  have h2 := (Multiset.nodup_add.mp hd).2.2
  exact h2.mono_left (Multiset.le_add_right _ _)

/-! ## `unzip` and `transpose` -/
/-- `unzip` moves every component; no item is dropped, leaked or duplicated, whatever the drop glue. -/
theorem C11_unzip [Ledger W A] (ownT : T → List A) (ownU : U → List A) (drop : T × U → Eff W Unit) (v : Vec (T × U) N) (w : W) :
    (Own.unzip ownT ownU drop v).exec w = (.ok v.unzip, w) := unzip_exec ownT ownU drop v w
/-- `transpose` moves every component: its result is the transposed matrix and no destructor runs, nothing is leaked, `self` is not
dropped a second time. -/
theorem C11_transpose [Ledger W A] (own : T → List A) (drop : T → Eff W Unit) (C : Mat T M N) (w : W) :
    ∃ R : Mat T N M, (Own.transpose own drop C).exec w = (.ok R, w) ∧ ∀ i (hi : i < M) j (hj : j < N), R[j][i] = C[i][j] := by
  obtain ⟨R, h1, h2⟩ := transpose_exec own drop C w
  obtain ⟨R', h3, h4⟩ := Mat.transposeR_ok C
  rw [h1] at h3
  cases h3
  exact ⟨R, h2, h4⟩

/-! ## Agreement with the models used for the other properties -/
theorem C11_init_refines [Ledger W A] (own : T → List A) (f : Eff W T) (w : W) :
    ((Own.init (N := N) own f).exec w).1 = ((Vec.initM f : Eff W (Vec T N)).exec w).1 := by
  obtain ⟨l, h, -⟩ := init_refines (N := N) own f w
  rw [h]
theorem C11_try_from_iter_refines [Ledger W A] (own : T → List A) (drop : T → Eff W Unit) (next : Eff W (Option T))
    (hd : ∀ x w, ∃ w', (drop x).exec w = (.ok (), w')) (w : W) :
    ((Own.tryFromIter (N := N) own drop next).exec w).1 = ((Vec.tryFromIter next : Eff W (Option (Vec T N))).exec w).1 := by
  have h := tryFromIter_refines (N := N) own drop next w
  match hx : (Vec.tryFromIter next : Eff W (Option (Vec T N))).exec w with
  | (.ok (some v), w') => rw [hx] at h; rw [h]
  | (.ok none, w') =>
    rw [hx] at h
    obtain ⟨w'', h⟩ := h hd
    rw [h]
  | (.error e, w') =>
    rw [hx] at h
    obtain ⟨l, h⟩ := h
    rw [h]

theorem callN_agree {W T : Type} (f g : Eff W T) (h : ∀ w, (f.exec w).1 = (g.exec w).1 ∧ ∀ x, (g.exec w).1 = .ok x → (f.exec w).2 = (g.exec w).2)
    (n : Nat) (w : W) : ((Spec.callN f n).exec w).1 = ((Spec.callN g n).exec w).1 ∧
      ∀ l, ((Spec.callN g n).exec w).1 = .ok l → ((Spec.callN f n).exec w).2 = ((Spec.callN g n).exec w).2 := by
  induction n generalizing w with
  | zero => exact ⟨rfl, fun _ _ => rfl⟩
  | succ n ih =>
    unfold Spec.callN
    obtain ⟨h1, h2⟩ := h w
    match hx : g.exec w, hy : f.exec w with
    | (.error e, s), (r, s') =>
      rw [hx, hy] at h1; cases h1
      rw [exec_bind_error hx, exec_bind_error hy]
      exact ⟨rfl, fun l hl => by cases hl⟩
    | (.ok x, s), (r, s') =>
      rw [hx, hy] at h1 h2; cases h1
      have e : s' = s := h2 x rfl
      subst e
      rw [exec_bind_ok hx, exec_bind_ok hy]
      obtain ⟨i1, i2⟩ := ih s'
      simp only [bind_pure_comp, exec_map]
      match hk : (Spec.callN g n).exec s', hk' : (Spec.callN f n).exec s' with
      | (.error e, t), (r, t') => rw [hk, hk'] at i1; cases i1; exact ⟨rfl, fun l hl => by cases hl⟩
      | (.ok k, t), (r, t') =>
        rw [hk, hk'] at i1 i2; cases i1
        exact ⟨rfl, fun l _ => i2 k rfl⟩
/-- `Matrix::init` with ownership returns, and panics, exactly as the model of C01 and C26 does. -/
theorem C11_matrix_init_refines [Ledger W A] (own : T → List A) (f : Eff W T) (w : W) :
    ((matInit (M := M) (N := N) own f).exec w).1 = ((Mat.initM f : Eff W (Mat T M N)).exec w).1 := by
  have hin : ∀ w, ((Own.init (N := N) own f).exec w).1 = ((Vec.initM f : Eff W (Vec T N)).exec w).1 ∧
      ∀ x, ((Vec.initM f : Eff W (Vec T N)).exec w).1 = .ok x →
        ((Own.init (N := N) own f).exec w).2 = ((Vec.initM f : Eff W (Vec T N)).exec w).2 := by
    intro w
    obtain ⟨l, h, hl⟩ := init_refines (N := N) own f w
    exact ⟨by rw [h], fun x hx => by rw [h, hl x hx]; rfl⟩
  have h1 := C11_init_refines (N := M) (ownVec own) (Own.init (N := N) own f) w
  have h2 := (callN_agree _ _ hin M w).1
  have e1 := congrArg (fun x : Eff W (List (Vec T N)) => (x.exec w).1) (Vec.toList_initM (m := Eff W) (N := M) (Own.init (N := N) own f))
  have e2 := congrArg (fun x : Eff W (List (Vec T N)) => (x.exec w).1) (Vec.toList_initM (m := Eff W) (N := M) (Vec.initM f : Eff W (Vec T N)))
  simp only [exec_map] at e1 e2
  rw [← e1, ← e2] at h2
  unfold matInit Mat.initM
  simp only [bind_pure_comp, exec_map]
  rw [h1]
  generalize ((Vec.initM (Own.init (N := N) own f) : Eff W (Vec (Vec T N) M)).exec w).1 = a at h2
  generalize ((Vec.initM (Vec.initM f : Eff W (Vec T N)) : Eff W (Vec (Vec T N) M)).exec w).1 = b at h2
  cases a <;> cases b
  · cases h2; rfl
  · cases h2
  · cases h2
  · injection h2 with h2
    have := Vec.toList_inj h2
    rw [this]
theorem takeN_agree {W T : Type} (f g : Eff W (Option T)) (h : ∀ w a w', f.exec w = (.ok (some a), w') → g.exec w = (.ok (some a), w'))
    (n : Nat) (w : W) (l : List T) (w' : W) (hf : (Spec.takeN f n).exec w = (.ok l, w')) (hl : l.length = n) :
    (Spec.takeN g n).exec w = (.ok l, w') := by
  induction n generalizing w l with
  | zero => exact hf
  | succ n ih =>
    unfold Spec.takeN at hf ⊢
    match hx : f.exec w with
    | (.error e, s) => rw [exec_bind_error hx] at hf; cases hf
    | (.ok none, s) => rw [exec_bind_ok hx] at hf; cases hf; cases hl
    | (.ok (some a), s) =>
      rw [exec_bind_ok hx] at hf
      rw [exec_bind_ok (h w a s hx)]
      simp only [bind_pure_comp, exec_map] at hf ⊢
      match hy : (Spec.takeN f n).exec s with
      | (.error e, s') => rw [hy] at hf; cases hf
      | (.ok k, s') =>
        rw [hy] at hf
        cases hf
        rw [ih s k hy (by simpa using hl)]
        rfl
/-- A matrix `Matrix::try_from_iter` yields, with whatever destructors, is the one of the model of C02 and C10, after the same calls of `next`. -/
theorem C11_matrix_try_from_iter_refines [Ledger W A] [LawfulLedger W] (own : T → List A) (drop : T → Eff W Unit) (next : Eff W (Option T))
    (w w' : W) (C : Mat T M N) (h : (matTryFromIter own drop next).exec w = (.ok (some C), w')) :
    (Mat.tryFromIter next : Eff W (Option (Mat T M N))).exec w = (.ok (some C), w') := by
  unfold matTryFromIter at h
  rw [bind_pure_comp, exec_map] at h
  unfold Mat.tryFromIter Mat.tryFromIterVec Vec.groupNext
  rw [bind_pure_comp, exec_map]
  match hy : (Own.tryFromIter (N := M) (ownVec own) (dropVec drop) (Own.tryFromIter (N := N) own drop next)).exec w with
  | (.error e, s) => rw [hy] at h; cases h
  | (.ok none, s) => rw [hy] at h; cases h
  | (.ok (some v), s) =>
    rw [hy] at h
    have e2 : s = w' := congrArg Prod.snd h
    have e1 : Mat.fromVecVec v = C := by have := congrArg Prod.fst h; simpa using this
    have hx := tryFromIter_some _ _ _ w v s hy
    have hz : (Vec.tryFromIter (Vec.tryFromIter next : Eff W (Option (Vec T N))) : Eff W (Option (Vec (Vec T N) M))).exec w = (.ok (some v), s) := by
      rw [Vec.tryFromIter_eq, exec_map] at hx ⊢
      match ht : (Spec.takeN (Own.tryFromIter (N := N) own drop next) M).exec w with
      | (.error e, s) => rw [ht] at hx; cases hx
      | (.ok l, t) =>
        rw [ht] at hx
        by_cases hl : l.length = M
        · rw [takeN_agree _ _ (fun w a w' hw => tryFromIter_some own drop next w a w' hw) M w l t ht hl]
          exact hx
        · exfalso
          have e1 : (if h : l.length = M then some (Vec.ofList l h) else none) = some v := by have := congrArg Prod.fst hx; simpa using this
          rw [dif_neg hl] at e1; cases e1
    rw [hz, ← e1, ← e2]
    rfl

/-! ## Examples -/
/-- An iterator over 1, 2, 3, … that panics at 4. -/
private def upTo3 : Eff Nat (Option Nat) := ExceptT.mk fun s => if s < 3 then (.ok (some (s + 1)), s + 1) else (.error (.user 7), s)
private theorem upTo3_safe : Spec.Safe upTo3 := by
  intro s h; unfold upTo3 at h; rw [exec_mk] at h; split at h <;> simp at h
example : ((Own.tryFromIter (N := 5) (fun a => [a]) (dropItem fun _ => pure ()) (recvOpt upTo3)).exec ⟨0, []⟩).2.log =
    [.leaked 3, .leaked 2, .leaked 1, .got 3, .got 2, .got 1] := by decide
/-- Too short an iterator. -/
example : ((Own.tryFromIter (N := 5) (fun a => [a]) (dropItem fun _ => pure ()) (recvOpt listNext)).exec ⟨[1, 2, 3], []⟩).2.log =
    [.dropped 3, .dropped 2, .dropped 1, .got 3, .got 2, .got 1] := by decide
/-- A destructor that panics: the items after it are leaked, none is dropped twice. -/
example : ((Own.tryFromIter (N := 5) (fun a => [a]) (dropItem fun a => if a = 2 then throw (.user 1) else pure ()) (recvOpt listNext)).exec
    ⟨[1, 2, 3], []⟩).2.log = [.leaked 3, .dropped 2, .dropped 1, .got 3, .got 2, .got 1] := by decide
/-- A matrix whose second row stays incomplete: everything is dropped. -/
example : ((matTryFromIter (M := 2) (N := 2) (fun a => [a]) (dropItem fun _ => pure ()) (recvOpt listNext)).exec ⟨[1, 2, 3], []⟩).2.log =
    [.dropped 2, .dropped 1, .dropped 3, .got 3, .got 2, .got 1] := by decide

/-! ## further cases: the hypotheses are satisfiable -/
namespace OwnEx
/-- A closure returning 1, 2, 3, … that panics at the fourth call. -/
def gen : Eff Nat Nat := ExceptT.mk fun s => if s < 3 then (.ok (s + 1), s + 1) else (.error (.user 7), s)
theorem gen_safe : Spec.Safe gen := by
  intro s h; unfold gen at h; rw [exec_mk] at h; split at h <;> simp at h
theorem list_safe : Spec.Safe (listNext : Eff (List Nat) (Option Nat)) := by
  intro s h; cases s <;> cases h
theorem drop_safe (_ : Nat) : Spec.Safe (pure () : Eff (List Nat) Unit) := by intro s h; cases h
end OwnEx
example := C11_init OwnEx.gen OwnEx.gen_safe 0 (⟨#v[1, 2, 3]⟩ : Vec Nat 3) _ rfl
example := C12_init (N := 5) OwnEx.gen OwnEx.gen_safe 0 (.user 7) _ rfl
example := C11_init_good (N := 3) (fun a => [a]) (recv OwnEx.gen) (good_recv _ OwnEx.gen_safe)
example := C11_matrix_init_good (M := 2) (N := 3) (fun a => [a]) (recv OwnEx.gen) (good_recv _ OwnEx.gen_safe)
example := C11_matrix_init (M := 2) (N := 3) OwnEx.gen OwnEx.gen_safe 0
example := C11_try_from_iter_good (N := 3) (fun a => [a]) (dropItem fun _ => pure ()) (recvOpt (listNext : Eff (List Nat) _))
  (good_recvOpt _ OwnEx.list_safe) (good_dropItem _ OwnEx.drop_safe)
example := C11_matrix_try_from_iter_good (M := 2) (N := 3) (fun a => [a]) (dropItem fun _ => pure ()) (recvOpt (listNext : Eff (List Nat) _))
  (good_recvOpt _ OwnEx.list_safe) (good_dropItem _ OwnEx.drop_safe)
example := C11_matrix_try_from_iter (M := 2) (N := 2) listNext (fun _ => pure ()) OwnEx.list_safe OwnEx.drop_safe [1, 2, 3]
example := C11_matrix_try_from_iter_some listNext (fun _ => pure ()) OwnEx.list_safe OwnEx.drop_safe [1, 2, 3, 4, 5]
  (⟨⟨#v[⟨#v[1, 2]⟩, ⟨#v[3, 4]⟩]⟩⟩ : Mat Nat 2 2) _ rfl
example := C11_matrix_try_from_iter_refines (fun a => [a]) (dropItem fun _ => pure ()) (recvOpt listNext) (⟨[1, 2, 3, 4, 5], []⟩ : World (List Nat) Nat) _
  (⟨⟨#v[⟨#v[1, 2]⟩, ⟨#v[3, 4]⟩]⟩⟩ : Mat Nat 2 2) rfl
example := C11_matrix_init_no_drop (M := 2) (N := 3) OwnEx.gen 0
example := C11_try_from_iter_some listNext (fun _ => pure ()) OwnEx.list_safe OwnEx.drop_safe [1, 2, 3, 4] (⟨#v[1, 2, 3]⟩ : Vec Nat 3) _ rfl
example := C11_try_from_iter_none (N := 3) listNext (fun _ => pure ()) OwnEx.list_safe OwnEx.drop_safe [1, 2]
  ⟨[], [.dropped 2, .dropped 1, .got 2, .got 1]⟩ (by rfl)
example := C12_try_from_iter (N := 5) upTo3 (fun _ => pure ()) upTo3_safe (fun _ s h => by cases h) 0 (.user 7) _ rfl
example := C12_try_from_iter_iter_panics (N := 5) upTo3 (fun _ => pure ()) upTo3_safe (fun _ _ => rfl) 0 (.user 7) _ rfl
example (w : World (List Nat) Nat) := C11_try_from_iter_refines (N := 3) (fun a => [a]) (dropItem fun _ => pure ())
  (recvOpt (listNext : Eff (List Nat) _)) (fun _ _ => ⟨_, rfl⟩) w
/-- The log of the run that ends too early: distinct items, each dropped once. -/
example := C11_no_double_drop (A := Nat) [.dropped 3, .dropped 2, .dropped 1, .got 3, .got 2, .got 1] 0 (by decide) (by decide)

end Vecmat
