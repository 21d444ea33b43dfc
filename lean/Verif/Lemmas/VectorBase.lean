import Verif.Model.Vector
import Verif.Lemmas.Exec
/-! Helper lemmas: the unsafe constructors refine the call-sequence specifications. -/
namespace Vecmat
variable {T U S : Type} {N : Nat} {m : Type → Type}

namespace Vec
@[ext] theorem ext_getElem {v w : Vec T N} (h : ∀ i (hi : i < N), v[i] = w[i]) : v = w := by
  cases v; cases w; congr 1; exact Vector.ext h

@[simp] theorem getElem_mk (a : Vector T N) (i : Nat) (h : i < N) : (Vec.mk a)[i] = a[i] := rfl
theorem data_getElem (v : Vec T N) (i : Nat) (h : i < N) : v.data[i] = v[i] := rfl
@[simp] theorem length_toList (v : Vec T N) : v.toList.length = N := by simp [toList]
@[simp] theorem getElem_toList (v : Vec T N) (i : Nat) (h : i < v.toList.length) :
    v.toList[i] = v[i]'(by simpa using h) := by simp [toList, data_getElem]
theorem toList_inj {v w : Vec T N} (h : v.toList = w.toList) : v = w := by
  cases v; cases w; congr 1; exact Vector.toList_inj.mp h

/-- The vector holding a list of the right length. -/
def ofList (l : List T) (h : l.length = N) : Vec T N := ⟨⟨l.toArray, by simpa using h⟩⟩
@[simp] theorem toList_ofList (l : List T) (h : l.length = N) : (ofList l h).toList = l := rfl
@[simp] theorem getElem_ofList (l : List T) (h : l.length = N) (i : Nat) (hi : i < N) :
    (ofList l h)[i] = l[i]'(h ▸ hi) := rfl
theorem ofList_toList (v : Vec T N) : ofList v.toList (by simp) = v := toList_inj rfl

/-- Slots of a partially filled array: the items of `l`, then uninitialised slots. -/
def slots (N : Nat) (l : List T) : Vector (Option T) N := Vector.ofFn fun i => l[i.1]?

theorem uninit_eq : (uninit : Vector (Option T) N) = slots N [] := by
  ext i hi; simp [uninit, slots]

theorem set_slots (l : List T) (x : T) :
    (slots N l).setIfInBounds l.length (some x) = slots N (l ++ [x]) := by
  apply Vector.ext
  intro i hi
  by_cases h : i = l.length
  · subst h; simp [slots]
  · simp only [slots, Vector.getElem_setIfInBounds, Vector.getElem_ofFn]
    rw [if_neg (by omega)]
    rcases Nat.lt_or_gt_of_ne h with h | h
    · simp [List.getElem?_append_left, h]
    · rw [List.getElem?_eq_none (by omega), List.getElem?_eq_none (by simp; omega)]

theorem assumeInit_slots (l : List T) (h : l.length = N) : assumeInit (slots N l) = .ok (ofList l h) := by
  have hs : ∀ i : Fin N, ((slots N l)[i]).isSome := by
    intro i; have := i.2; simp [slots, List.getElem?_eq_getElem (show i.1 < l.length by omega)]
  unfold assumeInit
  rw [dif_pos hs]
  congr 1
  apply ext_getElem; intro i hi
  simp [slots]

theorem dropLoop_slots_aux (n lo : Nat) (a : Vector (Option T) N) (hn : lo + n ≤ N)
    (ha : ∀ i, lo ≤ i → i < lo + n → ∃ x, a[i]? = some (some x)) :
    ∃ b, forRange n lo a (fun i a =>
    match a[i]? with
    | some (some _) => (.ok (a.setIfInBounds i none) : Res _)
    | _ => .error .ub) = .ok b := by
  induction n generalizing lo a with
  | zero => exact ⟨a, rfl⟩
  | succ n ih =>
    obtain ⟨x, hx⟩ := ha lo (by omega) (by omega)
    simp only [forRange, hx]
    apply ih (lo+1) _ (by omega)
    intro i h1 h2
    obtain ⟨y, hy⟩ := ha i (by omega) (by omega)
    refine ⟨y, ?_⟩
    have : i < N := by omega
    rw [Vector.getElem?_eq_getElem this] at hy ⊢
    rw [Vector.getElem_setIfInBounds, if_neg (by omega)]
    simpa using hy

theorem dropLoop_slots (l : List T) (h : l.length ≤ N) : ∃ b, dropLoop l.length (slots N l) = .ok b := by
  unfold dropLoop
  apply dropLoop_slots_aux _ _ _ (by omega)
  intro i _ h2
  have : i < l.length := by omega
  refine ⟨l[i], ?_⟩
  rw [Vector.getElem?_eq_getElem (by omega)]
  simp [slots, List.getElem?_eq_getElem this]

variable [Monad m] [LawfulMonad m] [MonadExcept Fault m]

theorem init_loop (f : m T) (n : Nat) (l : List T) (h : l.length + n = N) :
    (Vec.toList <$> (do
      let a ← forRange n l.length (slots N l) fun i a => do
        let x ← f
        pure (a.setIfInBounds i (some x))
      liftRes (assumeInit a) : m (Vec T N))) = (l ++ ·) <$> Spec.callN f n := by
  induction n generalizing l with
  | zero => simp [forRange, Spec.callN, assumeInit_slots l (by omega)]
  | succ n ih =>
    simp only [forRange, Spec.callN, bind_assoc, pure_bind, map_bind, map_pure, set_slots]
    congr 1; funext x
    have := ih (l ++ [x]) (by simp; omega)
    simp only [List.length_append, List.length_singleton, map_bind] at this
    rw [this]; simp

theorem toList_initM (f : m T) : Vec.toList <$> (initM f : m (Vec T N)) = Spec.callN f N := by
  have := init_loop (N := N) f N [] (by simp)
  simp only [List.length_nil, List.nil_append, id_map'] at this
  rw [← this, initM, uninit_eq]

omit [MonadExcept Fault m] in
theorem fillLoop_eq (next : m (Option T)) (n : Nat) (l : List T) :
    fillLoop next n (slots N l) l.length =
      (fun k => (slots N (l ++ k), l.length + k.length)) <$> Spec.takeN next n := by
  induction n generalizing l with
  | zero => simp [fillLoop, Spec.takeN]
  | succ n ih =>
    simp only [fillLoop, Spec.takeN, map_bind]
    congr 1; funext o
    cases o with
    | none => simp
    | some x =>
      have := ih (l ++ [x])
      simp only [List.length_append, List.length_singleton] at this
      simp [set_slots, this, Nat.add_assoc, Nat.add_comm 1]

/-- `takeN` with the length bound carried along. -/
def takeLe (next : m (Option T)) : (n : Nat) → m {l : List T // l.length ≤ n}
  | 0 => pure ⟨[], by simp⟩
  | n + 1 => do
    match ← next with
    | none => pure ⟨[], by simp⟩
    | some x => (fun l => ⟨x :: l.1, by simpa using l.2⟩) <$> takeLe next n

omit [MonadExcept Fault m] in
theorem takeN_length (next : m (Option T)) (n : Nat) :
    Spec.takeN next n = Subtype.val <$> takeLe next n := by
  induction n with
  | zero => simp [Spec.takeN, takeLe]
  | succ n ih =>
    simp only [Spec.takeN, takeLe, map_bind]
    congr 1; funext o
    cases o with
    | none => simp
    | some x => simp [ih]

theorem tryFromIter_eq (next : m (Option T)) :
    (tryFromIter next : m (Option (Vec T N))) =
      (fun l => if h : l.length = N then some (ofList l h) else none) <$> Spec.takeN next N := by
  unfold tryFromIter
  rw [uninit_eq, show (0:Nat) = ([] : List T).length from rfl, fillLoop_eq, takeN_length]
  simp only [← bind_pure_comp, bind_assoc, pure_bind]
  congr 1; funext ⟨l, hl⟩
  simp only [List.nil_append, List.length_nil, Nat.zero_add]
  rw [if_neg (by omega)]
  by_cases h : l.length = N
  · simp [h, assumeInit_slots l h]
  · rw [if_neg h, dif_neg h]
    obtain ⟨b, hb⟩ := dropLoop_slots (N := N) l hl
    simp [hb]

end Vec
end Vecmat
