import Verif.Model.Base
import Verif.Spec.Seq
/-! Helper lemmas: running `Eff` computations. -/
namespace Vecmat
variable {σ α β : Type}

theorem Eff.ext {x y : Eff σ α} (h : ∀ s, x.exec s = y.exec s) : x = y := funext h

@[simp] theorem exec_pure (a : α) (s : σ) : Eff.exec (pure a : Eff σ α) s = (.ok a, s) := rfl
@[simp] theorem exec_throw (e : Fault) (s : σ) : Eff.exec (throw e : Eff σ α) s = (.error e, s) := rfl
theorem exec_bind (x : Eff σ α) (f : α → Eff σ β) (s : σ) :
    Eff.exec (x >>= f) s =
      match x.exec s with
      | (.ok a, s') => (f a).exec s'
      | (.error e, s') => (.error e, s') := by
  show (do let r ← ExceptT.run x; ExceptT.bindCont f r : StateM σ _).run s = _
  simp only [StateT.run_bind]
  show ((ExceptT.bindCont f (x.exec s).1).run (x.exec s).2) = _
  generalize x.exec s = r
  obtain ⟨r, s'⟩ := r
  cases r <;> rfl
theorem exec_bind_ok {x : Eff σ α} {f : α → Eff σ β} {s s' : σ} {a : α} (h : x.exec s = (.ok a, s')) :
    Eff.exec (x >>= f) s = (f a).exec s' := by simp [exec_bind, h]
theorem exec_bind_error {x : Eff σ α} {f : α → Eff σ β} {s s' : σ} {e : Fault} (h : x.exec s = (.error e, s')) :
    Eff.exec (x >>= f) s = (.error e, s') := by simp [exec_bind, h]
theorem exec_map (f : α → β) (x : Eff σ α) (s : σ) :
    Eff.exec (f <$> x) s = (f <$> (x.exec s).1, (x.exec s).2) := by
  rw [← bind_pure_comp, exec_bind]
  generalize x.exec s = r
  obtain ⟨r, s'⟩ := r
  cases r <;> rfl
@[simp] theorem exec_mk (f : σ → Res α × σ) (s : σ) : Eff.exec (ExceptT.mk f) s = f s := rfl
@[simp] theorem exec_ofStep (f : σ → α × σ) (s : σ) : Eff.exec (Eff.ofStep f) s = (.ok (f s).1, (f s).2) := rfl

@[simp] theorem Res.pure_eq (a : α) : (pure a : Res α) = .ok a := rfl
@[simp] theorem Res.throw_eq (e : Fault) : (throw e : Res α) = .error e := rfl
@[simp] theorem Res.bind_ok (a : α) (f : α → Res β) : ((.ok a : Res α) >>= f) = f a := rfl
@[simp] theorem Res.bind_error (e : Fault) (f : α → Res β) : ((.error e : Res α) >>= f) = .error e := rfl
@[simp] theorem Res.map_ok (a : α) (f : α → β) : f <$> (.ok a : Res α) = .ok (f a) := rfl
@[simp] theorem Res.map_error (e : Fault) (f : α → β) : f <$> (.error e : Res α) = .error e := rfl
@[simp] theorem Res.get_ok (a : α) (h) : Res.get (.ok a) h = a := rfl
theorem Res.get_eq {r : Res α} {a : α} (h : r = .ok a) (h') : r.get h' = a := by subst h; rfl
theorem Res.ok_get (r : Res α) (h) : r = .ok (r.get h) := by
  obtain ⟨a, rfl⟩ := h; rfl

section
variable {m : Type → Type} [Monad m] [MonadExcept Fault m]
@[simp] theorem unwrap_some (a : α) : (unwrap (some a) : m α) = pure a := rfl
@[simp] theorem unwrap_none : (unwrap (none : Option α) : m α) = throw .unwrapNone := rfl
@[simp] theorem liftRes_ok (a : α) : (liftRes (.ok a) : m α) = pure a := rfl
@[simp] theorem liftRes_error (e : Fault) : (liftRes (.error e : Res α) : m α) = throw e := rfl
end

@[simp] theorem exec_listNext_nil {T : Type} : (listNext (T := T)).exec [] = (.ok none, []) := rfl
@[simp] theorem exec_listNext_cons {T : Type} (x : T) (l : List T) :
    (listNext (T := T)).exec (x :: l) = (.ok (some x), l) := rfl
@[simp] theorem exec_zipNext_nil {T U : Type} (b : List U) :
    (zipNext (T := T) (U := U)).exec ([], b) = (.ok none, ([], b)) := rfl
@[simp] theorem exec_zipNext_cons {T U : Type} (x : T) (y : U) (a : List T) (b : List U) :
    (zipNext (T := T) (U := U)).exec (x :: a, y :: b) = (.ok (some (x, y)), (a, b)) := rfl

theorem takeN_listNext {T : Type} (n : Nat) (l : List T) :
    (Spec.takeN listNext n).exec l = (.ok (l.take n), l.drop n) := by
  induction n generalizing l with
  | zero => simp [Spec.takeN]
  | succ n ih =>
    cases l with
    | nil => simp [Spec.takeN, exec_bind]
    | cons x l => simp [Spec.takeN, exec_bind, exec_map, ih]

theorem takeN_zipNext {T U : Type} (n : Nat) (l : List T) (k : List U) (h : l.length = k.length) :
    (Spec.takeN zipNext n).exec (l, k) = (.ok ((l.zip k).take n), (l.drop n, k.drop n)) := by
  induction n generalizing l k with
  | zero => simp [Spec.takeN]
  | succ n ih =>
    cases l with
    | nil =>
      cases k with
      | nil => simp [Spec.takeN, exec_bind]
      | cons => simp at h
    | cons x l =>
      cases k with
      | nil => simp at h
      | cons y k => simp [Spec.takeN, exec_bind, exec_map, ih l k (by simpa using h)]

end Vecmat
