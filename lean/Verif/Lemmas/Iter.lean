import Verif.Model.Iter
import Verif.Lemmas.Exec
/-! Helper lemmas: what iterators yield. -/
namespace Vecmat
open Spec
variable {σ τ A B S T : Type}

theorem yields_listNext (l : List T) : Yields (listNext (T := T)) l l := by
  induction l with
  | nil => exact .done (s' := []) rfl
  | cons x l ih => exact .step rfl ih

theorem exec_flatNext (next : Eff σ (Option A)) (into : A → τ) (sub : Eff τ (Option T)) (s : σ) (t : τ) :
    (flatNext next into sub).exec (s, t) = match sub.exec t with
    | (.error e, t') => (.error e, (s, t'))
    | (.ok (some x), t') => (.ok (some x), (s, t'))
    | (.ok none, t') =>
      match next.exec s with
      | (.error e, s') => (.error e, (s', t'))
      | (.ok none, s') => (.ok none, (s', t'))
      | (.ok (some a), s') =>
        match sub.exec (into a) with
        | (r, t'') => (r, (s', t'')) := rfl

/-- Exactly what a `FlatIter` yields: the rest of the current sub-sequence, then the following sub-sequences up to (and not
including) the first empty one. -/
theorem yields_flat {next : Eff σ (Option A)} {into : A → τ} {sub : Eff τ (Option T)} {items : A → List T}
    (hitems : ∀ a, Yields sub (into a) (items a)) {s : σ} {t : τ} {as : List A} {l : List T}
    (hs : Yields next s as) (ht : Yields sub t l) :
    Yields (flatNext next into sub) (s, t) (l ++ (as.takeWhile fun a => !(items a).isEmpty).flatMap items) := by
  induction hs generalizing t l with
  | @done s s' h =>
    induction ht with
    | done h2 => exact .done (by rw [exec_flatNext, h2]; simp only [h]; rfl)
    | step h2 _ ih => exact .step (by rw [exec_flatNext, h2]) ih
  | @step s s' a as h hs ih =>
    induction ht with
    | @done t t' h2 =>
      have ha := hitems a
      cases hi : items a with
      | nil =>
        rw [hi] at ha
        cases ha with
        | done h3 => simp only [List.takeWhile_cons, hi]; exact .done (by rw [exec_flatNext, h2]; simp only [h, h3]; rfl)
      | cons x xs =>
        rw [hi] at ha
        cases ha with
        | step h3 h4 =>
          simp only [List.takeWhile_cons, hi, List.isEmpty_cons, Bool.not_false, if_true, List.flatMap_cons, List.nil_append,
            List.cons_append]
          exact .step (by rw [exec_flatNext, h2]; simp only [h, h3]) (ih h4)
    | step h2 _ ih2 => exact .step (by rw [exec_flatNext, h2]) ih2

theorem yields_zip {na : Eff σ (Option A)} {nb : Eff τ (Option B)} {s : σ} {t : τ} {l : List A} {k : List B}
    (ha : Yields na s l) (hb : Yields nb t k) : Yields (zipIterNext na nb) (s, t) (l.zip k) := by
  induction ha generalizing t k with
  | done h => exact .done (by simp only [zipIterNext, exec_mk, h]; rfl)
  | step h _ ih =>
    cases hb with
    | done h2 => exact .done (by simp only [zipIterNext, exec_mk, h, h2]; rfl)
    | step h2 h3 => exact .step (by simp only [zipIterNext, exec_mk, h, h2]) (ih h3)

theorem iterFold_yields {next : Eff σ (Option A)} (body : S → A → Res S) {s : σ} {l : List A} (h : Yields next s l)
    (fuel : Nat) (hf : l.length < fuel) (acc : S) : iterFold next body fuel s acc = l.foldlM body acc := by
  induction h generalizing fuel acc with
  | done h =>
    cases fuel with
    | zero => simp at hf
    | succ n => simp [iterFold, h]
  | step h _ ih =>
    cases fuel with
    | zero => simp at hf
    | succ n =>
      simp only [iterFold, h, List.foldlM_cons]
      congr 1; funext a
      exact ih n (by simpa using hf) a

theorem iterAll_yields {next : Eff σ (Option A)} (p : A → Bool) {s : σ} {l : List A} (h : Yields next s l)
    (fuel : Nat) (hf : l.length < fuel) : iterAll next p fuel s = .ok (l.all p) := by
  induction h generalizing fuel with
  | done h =>
    cases fuel with
    | zero => simp at hf
    | succ n => simp [iterAll, h]
  | step h _ ih =>
    cases fuel with
    | zero => simp at hf
    | succ n =>
      simp only [iterAll, h, List.all_cons]
      rw [ih n (by simpa using hf)]
      split <;> simp_all

theorem iterAny_yields {next : Eff σ (Option A)} (p : A → Bool) {s : σ} {l : List A} (h : Yields next s l)
    (fuel : Nat) (hf : l.length < fuel) : iterAny next p fuel s = .ok (l.any p) := by
  induction h generalizing fuel with
  | done h =>
    cases fuel with
    | zero => simp at hf
    | succ n => simp [iterAny, h]
  | step h _ ih =>
    cases fuel with
    | zero => simp at hf
    | succ n =>
      simp only [iterAny, h, List.any_cons]
      rw [ih n (by simpa using hf)]
      split <;> simp_all

theorem yields_unique {next : Eff σ (Option A)} {s : σ} {l k : List A} (h : Yields next s l) (h' : Yields next s k) :
    l = k := by
  induction h generalizing k with
  | done h =>
    cases h' with
    | done => rfl
    | step h2 _ => rw [h] at h2; simp at h2
  | step h _ ih =>
    cases h' with
    | done h2 => rw [h] at h2; simp at h2
    | step h2 t =>
      rw [h] at h2; simp at h2
      obtain ⟨rfl, rfl⟩ := h2
      rw [ih t]

end Vecmat
