import Verif.Props.Own
/-!
# C12 (matrix part): what a panic leaves behind in `Matrix::init` and `Matrix::try_from_iter`
-/
namespace Vecmat
open Own
variable {σ A T U : Type} {M N : Nat}

section
variable {W : Type} [Ledger W A] [LawfulLedger W]
theorem drops_takeN_error (f : Eff W (Option T)) (hf : ∀ w a w', f.exec w = (.ok (some a), w') → drops (Ledger.log w') = drops (Ledger.log w))
    (he : ∀ w e w', f.exec w = (.error e, w') → drops (Ledger.log w') = drops (Ledger.log w))
    (n : Nat) (w : W) (e : Fault) (w' : W) (h : (Spec.takeN f n).exec w = (.error e, w')) : drops (Ledger.log w') = drops (Ledger.log w) := by
  induction n generalizing w with
  | zero => simp only [Spec.takeN] at h; cases h
  | succ n ih =>
    unfold Spec.takeN at h
    match hx : f.exec w with
    | (.error e, s) => rw [exec_bind_error hx] at h; cases h; exact he _ _ _ hx
    | (.ok none, s) => rw [exec_bind_ok hx] at h; cases h
    | (.ok (some a), s) =>
      rw [exec_bind_ok hx] at h
      simp only [bind_pure_comp, exec_map] at h
      match hy : (Spec.takeN f n).exec s with
      | (.ok k, s') => rw [hy] at h; cases h
      | (.error e', s') =>
        rw [hy] at h
        cases h
        rw [ih s hy, hf w a s hx]
theorem drops_tryFromIter_error (own : T → List A) (drop : T → Eff W Unit) (f : Eff W (Option T))
    (hd : ∀ x w, ∃ w', (drop x).exec w = (.ok (), w'))
    (hf : ∀ w a w', f.exec w = (.ok (some a), w') → drops (Ledger.log w') = drops (Ledger.log w))
    (he : ∀ w e w', f.exec w = (.error e, w') → drops (Ledger.log w') = drops (Ledger.log w)) (w : W) (e : Fault) (w' : W)
    (h : (Own.tryFromIter (N := N) own drop f).exec w = (.error e, w')) : drops (Ledger.log w') = drops (Ledger.log w) := by
  have hr := tryFromIter_refines (N := N) own drop f w
  match hx : (Vec.tryFromIter f : Eff W (Option (Vec T N))).exec w with
  | (.ok (some v), s) => rw [hx, h] at hr; cases hr
  | (.ok none, s) =>
    rw [hx, h] at hr
    obtain ⟨w'', hr⟩ := hr hd
    cases hr
  | (.error e', s) =>
    rw [hx, h] at hr
    obtain ⟨l, hr⟩ := hr
    have : w' = leakAll l s := congrArg Prod.snd hr
    rw [this, (leakAll_books l s).2.1]
    rw [Vec.tryFromIter_eq, exec_map] at hx
    match hy : (Spec.takeN f N).exec w with
    | (.ok l, t) => rw [hy] at hx; cases hx
    | (.error e'', t) =>
      rw [hy] at hx
      have : t = s := congrArg Prod.snd hx
      rw [← this]
      exact drops_takeN_error f hf he N w e'' t hy
theorem dropAll_total (drop : T → Eff W Unit) (hd : ∀ x w, ∃ w', (drop x).exec w = (.ok (), w')) (l : List T) (w : W) :
    ∃ w', (dropAll drop l).exec w = (.ok (), w') := by
  induction l generalizing w with
  | nil => exact ⟨w, rfl⟩
  | cons x l ih =>
    obtain ⟨w1, h1⟩ := hd x w
    obtain ⟨w2, h2⟩ := ih w1
    refine ⟨w2, ?_⟩
    unfold dropAll
    rw [exec_mk]; simp only [h1, h2]
end

/-- `Matrix::init` whose closure panics: no undefined behaviour; nothing is dropped; everything the closure had returned is leaked. -/
theorem C12_matrix_init (f : Eff σ A) (hf : Spec.Safe f) (s : σ) (e : Fault) (w : World σ A)
    (h : (matInit (M := M) (N := N) (fun a => [a]) (recv f)).exec ⟨s, []⟩ = (.error e, w)) :
    e ≠ .ub ∧ drops w.log = 0 ∧ leaks w.log = gots w.log := by
  have h1 := C11_matrix_init (M := M) (N := N) f hf s
  have h2 := C11_matrix_init_no_drop (M := M) (N := N) f s
  rw [h] at h1 h2
  exact ⟨h1.2, h2, by rw [h1.1, h2, zero_add]⟩

/-- `Matrix::try_from_iter` whose iterator panics (destructors do not): nothing is dropped, every item taken so far is leaked — those of the
complete rows and those of the row being filled. -/
theorem C12_matrix_try_from_iter_iter_panics (next : Eff σ (Option A)) (d : A → Eff σ Unit) (hn : Spec.Safe next)
    (hd : ∀ a s, ((d a).exec s).1 = .ok ()) (s : σ) (e : Fault) (w : World σ A)
    (h : (matTryFromIter (M := M) (N := N) (fun a => [a]) (dropItem d) (recvOpt next)).exec ⟨s, []⟩ = (.error e, w)) :
    e ≠ .ub ∧ drops w.log = 0 ∧ leaks w.log = gots w.log := by
  have h1 := C11_matrix_try_from_iter (M := M) (N := N) next d hn (fun a s => by rw [hd a s]; simp) s
  rw [h] at h1
  have hi : ∀ x (w : World σ A), ∃ w', (dropItem d x).exec w = (.ok (), w') := fun x w =>
    ⟨⟨((d x).exec w.user).2, .dropped x :: w.log⟩, by simp [dropItem, hd]⟩
  have hs : ∀ (w : World σ A) a w', (recvOpt next).exec w = (.ok (some a), w') → drops (Ledger.log w') = drops (Ledger.log w) := by
    intro w a w' hw
    match hx : next.exec w.user with
    | (.error e, s) => simp [recvOpt, hx] at hw
    | (.ok none, s) => simp [recvOpt, hx] at hw
    | (.ok (some a), s) => simp [recvOpt, hx] at hw; rw [← hw.2]; simp [Ledger.log, drops]
  have he : ∀ (w : World σ A) e w', (recvOpt next).exec w = (.error e, w') → drops (Ledger.log w') = drops (Ledger.log w) := by
    intro w e w' hw
    match hx : next.exec w.user with
    | (.ok none, s) => simp [recvOpt, hx] at hw
    | (.ok (some a), s) => simp [recvOpt, hx] at hw
    | (.error e, s) => simp [recvOpt, hx] at hw; rw [← hw.2]; simp [Ledger.log]
  have hdr : drops w.log = 0 := by
    unfold matTryFromIter at h
    rw [bind_pure_comp, exec_map] at h
    match hy : (Own.tryFromIter (N := M) (ownVec fun a => [a]) (dropVec (dropItem d))
        (Own.tryFromIter (N := N) (fun a => [a]) (dropItem d) (recvOpt next))).exec ⟨s, []⟩ with
    | (.ok o, w') => rw [hy] at h; cases h
    | (.error e', w') =>
      rw [hy] at h
      have e2 : w' = w := congrArg Prod.snd h
      have k1 : ∀ (w : World σ A) (v : Vec A N) w', (Own.tryFromIter (N := N) (fun a => [a]) (dropItem d) (recvOpt next)).exec w = (.ok (some v), w') →
          drops (Ledger.log w') = drops (Ledger.log w) := fun w v w' hw =>
        drops_tryFromIter_of (N := N) (W := World σ A) (fun a => [a]) (dropItem d) (recvOpt next) hs w v w' hw
      have k2 : ∀ (w : World σ A) e w', (Own.tryFromIter (N := N) (fun a => [a]) (dropItem d) (recvOpt next)).exec w = (.error e, w') →
          drops (Ledger.log w') = drops (Ledger.log w) := fun w e w' hw =>
        drops_tryFromIter_error (N := N) (W := World σ A) (fun a => [a]) (dropItem d) (recvOpt next) hi hs he w e w' hw
      have k3 : ∀ (v : Vec A N) (w : World σ A), ∃ w', (dropVec (dropItem d) v).exec w = (.ok (), w') := fun v w => dropAll_total (dropItem d) hi v.toList w
      have := drops_tryFromIter_error (N := M) (W := World σ A) (ownVec fun a => [a]) (dropVec (dropItem d)) _ k3 k1 k2 ⟨s, []⟩ e' w' hy
      rw [← e2]
      exact this
  exact ⟨h1.2, hdr, by rw [h1.1, hdr, zero_add]⟩

/-! ## Cases that meet the hypotheses -/
namespace OwnPanicEx
/-- An iterator over 1, 2, 3, … that panics at 4. -/
def upTo3 : Eff Nat (Option Nat) := ExceptT.mk fun s => if s < 3 then (.ok (some (s + 1)), s + 1) else (.error (.user 7), s)
theorem upTo3_safe : Spec.Safe upTo3 := by
  intro s h; unfold upTo3 at h; rw [exec_mk] at h; split at h <;> simp at h
/-- The second row of a 2 × 2 matrix is incomplete when the iterator panics. -/
theorem run : (matTryFromIter (M := 2) (N := 2) (fun a => [a]) (dropItem fun _ => pure ()) (recvOpt upTo3)).exec ⟨0, []⟩ =
    (.error (.user 7), ⟨3, [.leaked 2, .leaked 1, .leaked 3, .got 3, .got 2, .got 1]⟩) := by rfl
def gen : Eff Nat Nat := ExceptT.mk fun s => if s < 3 then (.ok (s + 1), s + 1) else (.error (.user 7), s)
theorem gen_safe : Spec.Safe gen := by
  intro s h; unfold gen at h; rw [exec_mk] at h; split at h <;> simp at h
theorem run_init : (matInit (M := 2) (N := 2) (fun a => [a]) (recv gen)).exec ⟨0, []⟩ =
    (.error (.user 7), ⟨3, [.leaked 2, .leaked 1, .leaked 3, .got 3, .got 2, .got 1]⟩) := by rfl
end OwnPanicEx
open OwnPanicEx
example := C12_matrix_try_from_iter_iter_panics (M := 2) (N := 2) upTo3 (fun _ => pure ()) upTo3_safe (fun _ _ => rfl) 0 _ _ run
example := C12_matrix_init (M := 2) (N := 2) gen gen_safe 0 _ _ run_init
end Vecmat
