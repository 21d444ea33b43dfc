import Verif.Lemmas.VectorPure
import Mathlib.Data.List.FinRange
/-!
# C01–C10 (vector part): construction, iteration, indexing and conversion of `Vector<T, N>`
-/
namespace Vecmat
open Spec
variable {T U S σ : Type} {N : Nat} {m : Type → Type}

/-! ## C01 `Vector::init` -/

/-- `Vector::init(f)` is: call `f` exactly `N` times one after another and put the results in call order.
Holds in every lawful monad with faults, hence for closures with any state that may panic at any call. -/
theorem C01_init_calls [Monad m] [LawfulMonad m] [MonadExcept Fault m] (f : m T) :
    Vec.toList <$> (Vec.initM f : m (Vec T N)) = callN f N := Vec.toList_initM f

/-- The element at index `k` is the result of the `k`-th call, made in the state left by the `k` previous calls. -/
theorem C01_init_at (f : Eff σ T) (s s' : σ) (v : Vec T N) (h : (Vec.initM f).exec s = (.ok v, s'))
    (k : Nat) (hk : k < N) :
    ∃ l sk sk', (callN f k).exec s = (.ok l, sk) ∧ f.exec sk = (.ok v[k], sk') := by
  have hc : (callN f N).exec s = (.ok v.toList, s') := by rw [← Vec.toList_initM, exec_map, h]; rfl
  have key : ∀ n (l : List T) s s', (callN f n).exec s = (.ok l, s') → ∀ k, k < n → ∀ x, l[k]? = some x →
      ∃ l sk sk', (callN f k).exec s = (.ok l, sk) ∧ f.exec sk = (.ok x, sk') := by
    intro n; induction n with
    | zero => intro l s s' h k hk; omega
    | succ n ih =>
      intro l s s' h k hk x hx
      simp only [callN, exec_bind] at h
      rcases hf : f.exec s with ⟨_ | y, t⟩
      · simp [hf] at h
      · rcases hr : (callN f n).exec t with ⟨_ | r, t'⟩
        · simp [hf, hr] at h
        · simp only [hf, hr, exec_pure, Prod.mk.injEq, Except.ok.injEq] at h
          obtain ⟨rfl, rfl⟩ := h
          cases k with
          | zero => simp at hx; subst hx; exact ⟨[], s, t, rfl, hf⟩
          | succ k =>
            obtain ⟨l', sk, sk', h1, h2⟩ := ih r t t' hr k (by omega) x (by simpa using hx)
            exact ⟨y :: l', sk, sk', by simp [callN, exec_bind, exec_map, hf, h1], h2⟩
  exact key N _ s s' hc k hk _ (by simp [hk])

/-- On success exactly `N` calls were made. -/
theorem C01_init_count_ok (f : Eff σ T) (s : σ) (v : Vec T N) (s' : σ) (c : Nat)
    (h : (Vec.initM (counted f)).exec (s, 0) = (.ok v, (s', c))) : c = N := by
  have hc : (callN (counted f) N).exec (s, 0) = (.ok v.toList, (s', c)) := by
    rw [← Vec.toList_initM, exec_map, h]; rfl
  have key : ∀ n (l : List T) s c0 s' c, (callN (counted f) n).exec (s, c0) = (.ok l, (s', c)) → c = c0 + n := by
    intro n; induction n with
    | zero => intro l s c0 s' c h; simp [callN] at h; omega
    | succ n ih =>
      intro l s c0 s' c h
      simp only [callN, exec_bind] at h
      rw [show (counted f).exec (s, c0) = ((f.exec s).1, ((f.exec s).2, c0 + 1)) from rfl] at h
      rcases hf : f.exec s with ⟨_ | y, t⟩
      · simp [hf] at h
      · rcases hr : (callN (counted f) n).exec (t, c0 + 1) with ⟨_ | r, t', c'⟩
        · simp [hf, hr] at h
        · simp only [hf, hr, exec_pure, Prod.mk.injEq, Except.ok.injEq] at h
          have := ih r t (c0 + 1) t' c' hr
          omega
  have := key N _ _ _ _ _ hc
  omega

/-- If `init` faults after `c` calls, then the first `c - 1` calls returned and the `c`-th call (at most the
`N`-th) raised exactly this fault: `init` itself never faults (in particular never reads an uninitialised slot)
and makes no further call after a panic. -/
theorem C01_init_fault (f : Eff σ T) (s : σ) (e : Fault) (s' : σ) (c : Nat)
    (h : (Vec.initM (N := N) (counted f)).exec (s, 0) = (.error e, (s', c))) :
    1 ≤ c ∧ c ≤ N ∧ ∃ l sk, (callN f (c - 1)).exec s = (.ok l, sk) ∧ f.exec sk = (.error e, s') := by
  have hc : (callN (counted f) N).exec (s, 0) = (.error e, (s', c)) := by
    rw [← Vec.toList_initM, exec_map, h]; rfl
  have key : ∀ n s c0 s' c, (callN (counted f) n).exec (s, c0) = (.error e, (s', c)) →
      c0 < c ∧ c ≤ c0 + n ∧ ∃ l sk, (callN f (c - c0 - 1)).exec s = (.ok l, sk) ∧ f.exec sk = (.error e, s') := by
    intro n; induction n with
    | zero => intro s c0 s' c h; simp [callN] at h
    | succ n ih =>
      intro s c0 s' c h
      simp only [callN, exec_bind] at h
      rw [show (counted f).exec (s, c0) = ((f.exec s).1, ((f.exec s).2, c0 + 1)) from rfl] at h
      rcases hf : f.exec s with ⟨e' | y, t⟩
      · simp only [hf, Prod.mk.injEq, Except.error.injEq] at h
        obtain ⟨rfl, rfl, rfl⟩ := h
        refine ⟨by omega, by omega, [], s, ?_, hf⟩
        simp [callN]
      · rcases hr : (callN (counted f) n).exec (t, c0 + 1) with ⟨e' | r, t', c'⟩
        · simp only [hf, hr, Prod.mk.injEq, Except.error.injEq] at h
          obtain ⟨rfl, rfl, rfl⟩ := h
          obtain ⟨h1, h2, l, sk, h3, h4⟩ := ih t (c0 + 1) t' c' hr
          refine ⟨by omega, by omega, y :: l, sk, ?_, h4⟩
          rw [show c' - c0 - 1 = (c' - (c0 + 1) - 1) + 1 by omega]
          simp [callN, exec_bind, exec_map, hf, h3]
        · simp [hf, hr] at h
  obtain ⟨h1, h2, h3⟩ := key N _ _ _ _ hc
  exact ⟨h1, by omega, by simpa using h3⟩

/-- A closure that panics in its third call (state = number of calls so far). -/
private def panicThird : Eff Nat Nat := ExceptT.mk fun s => (if s = 2 then .error (.user 7) else .ok (10 * s), s + 1)

example : (Vec.initM (N := 2) panicThird).exec 0 = (.ok ⟨#v[0, 10]⟩, 2) := by decide
example : (Vec.initM (N := 5) (counted panicThird)).exec (0, 0) = (.error (.user 7), (3, 3)) := by decide
example : (Vec.initM (N := 2) (counted panicThird)).exec (0, 0) = (.ok ⟨#v[0, 10]⟩, (2, 2)) := by decide

/-- `Vector::fill(x)` has `x` everywhere; `Vector::new()` / `default()` the default element. -/
theorem C01_fill (x : T) (i : Nat) (h : i < N) : (Vec.fill x : Vec T N)[i] = x := by simp
theorem C01_default [Inhabited T] (i : Nat) (h : i < N) : (Vec.default : Vec T N)[i] = default := by simp

/-! ## C02 `Vector::try_from_iter` -/

/-- `try_from_iter` pulls at most `N` items, stopping at the first `None`, and returns `Some` of exactly the pulled
items iff there are `N` of them.  No other effect and no fault of its own, for every iterator. -/
theorem C02_try_from_iter_refines [Monad m] [LawfulMonad m] [MonadExcept Fault m] (next : m (Option T)) :
    (Option.map Vec.toList) <$> (Vec.tryFromIter next : m (Option (Vec T N))) =
      (fun l => if l.length = N then some l else none) <$> takeN next N := by
  rw [Vec.tryFromIter_eq, Functor.map_map]
  congr 1; funext l
  by_cases h : l.length = N <;> simp [h]

/-- Success characterisation: `Some v` iff `N` consecutive `next` calls all return `Some` and these items are `v`. -/
theorem C02_some_iff (next : Eff σ (Option T)) (s s' : σ) (v : Vec T N) :
    (Vec.tryFromIter next).exec s = (.ok (some v), s') ↔
      (callN next N).exec s = (.ok (v.toList.map some), s') := by
  have key : ∀ n (l : List T) s s', l.length = n → ((takeN next n).exec s = (.ok l, s') ↔
      (callN next n).exec s = (.ok (l.map some), s')) := by
    intro n; induction n with
    | zero => intro l s s' h; cases l with
      | nil => simp [takeN, callN]
      | cons => simp at h
    | succ n ih =>
      intro l s s' h
      obtain ⟨x, l, rfl⟩ : ∃ x k, l = x :: k := by cases l with
        | nil => simp at h
        | cons x k => exact ⟨x, k, rfl⟩
      have ih' := fun t => ih l t s' (by simpa using h)
      simp only [takeN, callN, exec_bind]
      rcases hf : next.exec s with ⟨_ | _ | y, t⟩
      · simp
      · simp only [exec_pure]
        rcases (callN next n).exec t with ⟨_ | r, t'⟩ <;> simp
      · simp only [exec_bind]
        have := ih' t
        constructor
        · intro h
          rcases hr : (takeN next n).exec t with ⟨_ | r, t'⟩
          · simp [hr] at h
          · simp only [hr, exec_pure, Prod.mk.injEq, Except.ok.injEq, List.cons.injEq] at h
            obtain ⟨⟨rfl, rfl⟩, rfl⟩ := h
            rw [hr] at this
            simp [this.mp rfl]
        · intro h
          rcases hr : (callN next n).exec t with ⟨_ | r, t'⟩
          · simp [hr] at h
          · simp only [hr, exec_pure, Prod.mk.injEq, Except.ok.injEq, List.map_cons, List.cons.injEq,
              Option.some.injEq] at h
            obtain ⟨⟨rfl, rfl⟩, rfl⟩ := h
            rw [hr] at this
            simp [this.mpr rfl]
  rw [← key N v.toList s s' (by simp), Vec.tryFromIter_eq, exec_map]
  rcases hr : (takeN next N).exec s with ⟨_ | r, t'⟩
  · simp
  · simp only [Res.map_ok, Prod.mk.injEq, Except.ok.injEq]
    refine and_congr_left fun _ => ?_
    constructor
    · intro h
      by_cases hl : r.length = N
      · simp only [hl, dif_pos, Option.some.injEq] at h; rw [← h]; rfl
      · simp [hl] at h
    · rintro rfl
      simp [Vec.ofList_toList]

/-- Failure characterisation: `None` iff some call `k < N` returned `None` after `k` items (and it was the last call). -/
theorem C02_none_iff (next : Eff σ (Option T)) (s s' : σ) :
    (Vec.tryFromIter (N := N) next).exec s = (.ok none, s') ↔
      ∃ (k : Nat) (l : List T) (sk : σ), k < N ∧ (callN next k).exec s = (.ok (l.map some), sk) ∧ next.exec sk = (.ok none, s') := by
  have key : ∀ n s, (∃ l, l.length < n ∧ (takeN next n).exec s = (.ok l, s')) ↔
      ∃ (k : Nat) (l : List T) (sk : σ), k < n ∧ (callN next k).exec s = (.ok (l.map some), sk) ∧
        next.exec sk = (.ok none, s') := by
    intro n; induction n with
    | zero => intro s; simp
    | succ n ih =>
      intro s
      simp only [takeN, exec_bind]
      rcases hf : next.exec s with ⟨e | _ | y, t⟩
      · simp only [Prod.mk.injEq, reduceCtorEq, false_and, and_false, exists_false, false_iff, not_exists]
        rintro k l sk ⟨hk, h1, h2⟩
        cases k with
        | zero =>
          simp only [callN, exec_pure, Prod.mk.injEq] at h1
          rw [← h1.2, hf] at h2; simp at h2
        | succ k => simp [callN, exec_bind, hf] at h1
      · simp only [exec_pure, Prod.mk.injEq, Except.ok.injEq]
        constructor
        · rintro ⟨l, _, _, rfl⟩
          exact ⟨0, [], s, by omega, rfl, hf⟩
        · rintro ⟨k, l, sk, hk, h1, h2⟩
          cases k with
          | zero =>
            simp only [callN, exec_pure, Prod.mk.injEq] at h1
            rw [← h1.2, hf] at h2
            exact ⟨[], by simp, rfl, by simpa using h2⟩
          | succ k =>
            simp only [callN, exec_bind, hf] at h1
            rcases hr : (callN next k).exec t with ⟨_ | r, t'⟩
            · simp [hr] at h1
            · simp only [hr, exec_pure, Prod.mk.injEq, Except.ok.injEq] at h1
              have := h1.1
              cases l with
              | nil => simp at this
              | cons => simp at this
      · simp only [exec_bind]
        constructor
        · rintro ⟨l, hl, h⟩
          rcases hr : (takeN next n).exec t with ⟨_ | r, t'⟩
          · simp [hr] at h
          · simp only [hr, exec_pure, Prod.mk.injEq, Except.ok.injEq] at h
            obtain ⟨rfl, rfl⟩ := h
            obtain ⟨k, l, sk, hk, h1, h2⟩ := (ih t).mp ⟨r, by simpa using hl, hr⟩
            exact ⟨k + 1, y :: l, sk, by omega, by simp [callN, exec_bind, exec_map, hf, h1], h2⟩
        · rintro ⟨k, l, sk, hk, h1, h2⟩
          cases k with
          | zero =>
            simp only [callN, exec_pure, Prod.mk.injEq] at h1
            rw [← h1.2, hf] at h2; simp at h2
          | succ k =>
            simp only [callN, exec_bind, hf] at h1
            rcases hr : (callN next k).exec t with ⟨_ | r, t'⟩
            · simp [hr] at h1
            · simp only [hr, exec_pure, Prod.mk.injEq, Except.ok.injEq] at h1
              obtain ⟨h1, rfl⟩ := h1
              cases l with
              | nil => simp at h1
              | cons z l =>
                simp only [List.map_cons, List.cons.injEq] at h1
                obtain ⟨r', hr', hh⟩ := (ih t).mpr ⟨k, l, t', by omega, by rw [hr, h1.2], h2⟩
                exact ⟨y :: r', by simpa using hr', by simp [hh]⟩
  rw [← key, Vec.tryFromIter_eq, Vec.takeN_length, exec_map, exec_map]
  rcases hr : (Vec.takeLe next N).exec s with ⟨_ | ⟨r, hr'⟩, t'⟩
  · simp
  · simp only [Res.map_ok, Prod.mk.injEq, Except.ok.injEq]
    constructor
    · rintro ⟨h, rfl⟩
      refine ⟨r, ?_, rfl, rfl⟩
      by_cases hl : r.length = N
      · simp [hl] at h
      · omega
    · rintro ⟨l, hl, rfl, rfl⟩
      exact ⟨by simp [show ¬ r.length = N by omega], rfl⟩

/-- `try_from_iter` makes at most `N` calls of `next`, and exactly `N` when it returns `Some`. -/
theorem C02_count (next : Eff σ (Option T)) (s : σ) (r : Res (Option (Vec T N))) (s' : σ) (c : Nat)
    (h : (Vec.tryFromIter (counted next)).exec (s, 0) = (r, (s', c))) :
    c ≤ N ∧ (∀ v, r = .ok (some v) → c = N) := by
  have key : ∀ n s c0, ((takeN (counted next) n).exec (s, c0)).2.2 ≤ c0 + n ∧
      ∀ l, ((takeN (counted next) n).exec (s, c0)).1 = .ok l → l.length = n →
        ((takeN (counted next) n).exec (s, c0)).2.2 = c0 + n := by
    intro n; induction n with
    | zero => intro s c0; simp [takeN]
    | succ n ih =>
      intro s c0
      simp only [takeN, exec_bind]
      rw [show (counted next).exec (s, c0) = ((next.exec s).1, ((next.exec s).2, c0 + 1)) from rfl]
      rcases hf : next.exec s with ⟨e | _ | y, t⟩
      · simp
      · simp
      · simp only [exec_bind]
        have := ih t (c0 + 1)
        rcases hr : (takeN (counted next) n).exec (t, c0 + 1) with ⟨_ | r, t', c'⟩
        · rw [hr] at this; simp at this ⊢; omega
        · rw [hr] at this; simp at this ⊢; omega
  have h1 := key N s 0
  rw [Vec.tryFromIter_eq, exec_map] at h
  rcases hr : (takeN (counted next) N).exec (s, 0) with ⟨e | l, t', c'⟩
  · rw [hr] at h h1
    simp only [Res.map_error, Prod.mk.injEq] at h
    obtain ⟨rfl, rfl, rfl⟩ := h
    exact ⟨by simpa using h1.1, by simp⟩
  · rw [hr] at h h1
    simp only [Res.map_ok, Prod.mk.injEq] at h
    obtain ⟨rfl, rfl, rfl⟩ := h
    refine ⟨by simpa using h1.1, fun v hv => ?_⟩
    by_cases hl : l.length = N
    · simpa using h1.2 l rfl hl
    · simp [hl] at hv

/-- Every fault of `try_from_iter` is a fault of one of its `next` calls (it never panics by itself, never reaches
`unreachable!`, never touches an uninitialised slot). -/
theorem C02_fault (next : Eff σ (Option T)) (s s' : σ) (e : Fault)
    (h : (Vec.tryFromIter (N := N) next).exec s = (.error e, s')) : ∃ sk, next.exec sk = (.error e, s') := by
  have key : ∀ n s, (takeN next n).exec s = (.error e, s') → ∃ sk, next.exec sk = (.error e, s') := by
    intro n; induction n with
    | zero => intro s h; simp [takeN] at h
    | succ n ih =>
      intro s h
      simp only [takeN, exec_bind] at h
      rcases hf : next.exec s with ⟨e' | _ | y, t⟩
      · rw [hf] at h; simp only at h; exact ⟨s, by rw [hf]; simpa using h⟩
      · simp [hf] at h
      · simp only [hf, exec_bind] at h
        rcases hr : (takeN next n).exec t with ⟨e' | r, t'⟩
        · rw [hr] at h; simp only at h; exact ih t (by rw [hr]; simpa using h)
        · simp [hr] at h
  rw [Vec.tryFromIter_eq, exec_map] at h
  rcases hr : (takeN next N).exec s with ⟨e' | l, t'⟩
  · rw [hr] at h; simp only [Res.map_error] at h; exact key N s (by rw [hr]; simpa using h)
  · rw [hr] at h; simp at h

/-- Converting from a finite sequence: the first `N` items, exactly when there are that many; the rest stays in the
iterator. -/
theorem C02_list (l : List T) :
    (Vec.tryFromIter (N := N) listNext).exec l =
      (.ok (if h : N ≤ l.length then some (Vec.ofList (l.take N) (by simp [h])) else none), l.drop N) := by
  rw [Vec.tryFromIter_eq, exec_map, takeN_listNext]
  by_cases h : N ≤ l.length
  · simp [h]
  · simp [h]

example : (Vec.tryFromIter (N := 2) listNext).exec [1, 2, 3] = (.ok (some ⟨#v[1, 2]⟩), [3]) := by decide
example : (Vec.tryFromIter (N := 3) (counted listNext)).exec ([1, 2], 0) = (.ok none, ([], 3)) := by decide
example : (Vec.tryFromIter (N := 3) (Option.some <$> panicThird)).exec 0 = (.error (.user 7), 3) := by decide

/-! ## C03 `GroupIter` -/

theorem exec_groupNext (l : List T) :
    (Vec.groupNext N listNext).exec l =
      (.ok (if h : N ≤ l.length then some (Vec.ofList (l.take N) (by simp [h])) else none), l.drop N) :=
  C02_list l

/-- Draining `GroupIter::<_, N>` over a sequence of `L` items (N > 0) gives exactly `⌊L/N⌋` vectors; the `k`-th one
holds the items `k*N, …, k*N+N-1` in order; and it then returns `None`. -/
theorem C03_group_chunks (hN : 0 < N) (l : List T) (fuel : Nat) (hf : l.length / N < fuel) :
    ∃ vs, drain (Vec.groupNext N listNext) fuel l = .ok vs ∧
      vs.map Vec.toList = (List.range (l.length / N)).map fun k => (l.drop (k * N)).take N := by
  induction fuel generalizing l with
  | zero => exact absurd hf (Nat.not_lt_zero _)
  | succ fuel ih =>
    simp only [drain, exec_groupNext]
    by_cases h : N ≤ l.length
    · rw [dif_pos h]
      have e : l.length / N = (l.drop N).length / N + 1 := by
        rw [List.length_drop, Nat.div_eq_sub_div hN h]
      obtain ⟨vs, h1, h2⟩ := ih (l.drop N) (by omega)
      refine ⟨_ :: vs, by simp only [h1]; rfl, ?_⟩
      rw [e, List.range_succ_eq_map]
      simp only [List.map_cons, h2, List.map_map]
      simp only [Vec.toList_ofList, Nat.zero_mul, List.drop_zero, List.cons.injEq, true_and]
      apply List.map_congr_left
      intro k _
      simp [List.drop_drop, Nat.succ_mul, Nat.add_comm]
    · rw [dif_neg h]
      exact ⟨[], rfl, by simp [Nat.div_eq_of_lt (Nat.lt_of_not_le h)]⟩

/-- No item is lost, duplicated or reordered: the chunks concatenate to the first `N*⌊L/N⌋` items. -/
theorem C03_group_concat (hN : 0 < N) (l : List T) (fuel : Nat) (hf : l.length / N < fuel) :
    ∃ vs, drain (Vec.groupNext N listNext) fuel l = .ok vs ∧ vs.length = l.length / N ∧
      (vs.map Vec.toList).flatten = l.take (N * (l.length / N)) := by
  obtain ⟨vs, h1, h2⟩ := C03_group_chunks hN l fuel hf
  refine ⟨vs, h1, by simpa using congrArg List.length h2, ?_⟩
  rw [h2]
  generalize l.length / N = q
  clear h1 h2 hf
  induction q generalizing l with
  | zero => simp
  | succ q ih =>
    have h3 := ih (l.drop N)
    rw [List.range_succ_eq_map, List.map_cons, List.flatten_cons, List.map_map]
    rw [show ((fun k => (l.drop (k * N)).take N) ∘ Nat.succ) = fun k => ((l.drop N).drop (k * N)).take N by
      funext k; simp [List.drop_drop, Nat.succ_mul, Nat.add_comm]]
    rw [h3, Nat.zero_mul, List.drop_zero, Nat.mul_succ, Nat.add_comm (N * q) N, List.take_add]

/-- With `N = 0` the iterator never ends: every `next` returns the empty vector and consumes nothing. -/
theorem C03_group_zero (next : Eff σ (Option T)) (s : σ) :
    (Vec.groupNext 0 next).exec s = (.ok (some ⟨#v[]⟩), s) := by
  unfold Vec.groupNext
  rw [Vec.tryFromIter_eq, exec_map]
  simp [takeN]
  rfl

example : drain (Vec.groupNext 2 listNext) 3 [1, 2, 3, 4, 5] = .ok [⟨#v[1, 2]⟩, ⟨#v[3, 4]⟩] := by decide

/-! ## C04 `Vector::map`, `for_each` -/

/-- Closure instrumented with a log of its arguments. -/
def logged (f : T → U) (x : T) : Eff (List T) U := Eff.ofStep fun log => (f x, log ++ [x])

/-- `map(f)` calls `f` on element `0`, then `1`, …, `N-1`, once each, and collects the results in this order – for any
closure with effects. -/
theorem C04_map_calls [Monad m] [LawfulMonad m] (f : T → m U) (v : Vec T N) :
    Vec.toList <$> v.mapM f = (List.ofFn fun i : Fin N => v[i.1]).mapM f := by
  rw [Vec.toList_mapM, Vec.toList_eq_ofFn]

/-- With a closure without effects the result at index `i` is `f` of the element at index `i`. -/
theorem C04_map_get (f : T → U) (v : Vec T N) (i : Nat) (h : i < N) : (v.map f)[i] = f v[i] := by simp

theorem mapM_logged (f : T → U) (l : List T) (log : List T) :
    (l.mapM (logged f)).exec log = (.ok (l.map f), log ++ l) := by
  induction l generalizing log with
  | nil => simp
  | cons x l ih =>
    simp only [List.mapM_cons, exec_bind]
    rw [show (logged f x).exec log = (.ok (f x), log ++ [x]) from rfl]
    simp [ih]

/-- Call log of `map`: every element exactly once, in index order. -/
theorem C04_map_log (f : T → U) (v : Vec T N) :
    (v.mapM (logged f)).exec [] = (.ok (v.map f), List.ofFn fun i : Fin N => v[i.1]) := by
  have h := congrArg (fun x => Eff.exec x []) (Vec.toList_mapM (logged f) v)
  simp only [exec_map, mapM_logged, List.nil_append] at h
  rcases hr : (v.mapM (logged f)).exec [] with ⟨e | w, s⟩
  · rw [hr] at h; simp at h
  · rw [hr] at h
    simp only [Res.map_ok, Prod.mk.injEq, Except.ok.injEq] at h
    rw [← Vec.toList_eq_ofFn]
    have hw : w = v.map f := Vec.toList_inj (by rw [h.1, Vec.toList_map])
    rw [hw, h.2]

/-- Call log of `for_each`: every element exactly once, in index order. -/
theorem C04_for_each_log (v : Vec T N) :
    (v.forEachM (logged fun _ => ())).exec [] = (.ok (), List.ofFn fun i : Fin N => v[i.1]) := by
  rw [← Vec.toList_eq_ofFn]
  unfold Vec.forEachM
  have : ∀ (l log : List T), (l.foldlM (fun (_ : Unit) x => logged (fun _ => ()) x) ()).exec log = (.ok (), log ++ l) := by
    intro l; induction l with
    | nil => intro log; simp
    | cons x l ih =>
      intro log
      simp only [List.foldlM_cons, exec_bind]
      rw [show (logged (fun _ => ()) x).exec log = (.ok (), log ++ [x]) from rfl]
      simp [ih]
  simpa using this v.toList []

example : ((⟨#v[1, 2, 3]⟩ : Vec Nat 3).mapM (logged (· * 2))).exec [] = (.ok ⟨#v[2, 4, 6]⟩, [1, 2, 3]) := by decide

/-! ## C05 `zip`, `unzip` -/

theorem C05_zip_get (v : Vec T N) (w : Vec U N) (i : Nat) (h : i < N) : (v.zip w)[i] = (v[i], w[i]) := by simp
/-- The internal `unwrap` of `zip` never panics. -/
theorem C05_zip_ok (v : Vec T N) (w : Vec U N) : Vec.zipR v w = .ok (v.zip w) := Res.ok_get _ _
/-- `unzip` reads only initialised slots and returns. -/
theorem C05_unzip_ok (v : Vec (T × U) N) : Vec.unzipR v = .ok v.unzip := Res.ok_get _ _
theorem C05_unzip_zip (v : Vec T N) (w : Vec U N) : (v.zip w).unzip = (v, w) := by
  apply Prod.ext <;> apply Vec.ext_getElem <;> intro i hi <;> simp
theorem C05_zip_unzip (v : Vec (T × U) N) : v.unzip.1.zip v.unzip.2 = v := by
  apply Vec.ext_getElem; intro i hi; simp

example : (⟨#v[1, 2]⟩ : Vec Nat 2).zip (⟨#v[true, false]⟩ : Vec Bool 2) = ⟨#v[(1, true), (2, false)]⟩ := by decide

/-! ## C06 `fold`, `fold_first`, `scan` -/

/-- `fold(s, f)` is `f(…f(f(s, v[0]), v[1])…, v[N-1])`. -/
theorem C06_fold (f : S → T → S) (s : S) (v : Vec T N) :
    v.fold f s = Fin.foldl N (fun acc i => f acc v[i.1]) s := by
  rw [Vec.fold_eq, Vec.toList_eq_ofFn, Fin.foldl_eq_finRange_foldl, List.ofFn_eq_map, List.foldl_map]

/-- … and with an effectful closure the calls happen in this order. -/
theorem C06_fold_calls [Monad m] [LawfulMonad m] (f : S → T → m S) (s : S) (v : Vec T N) :
    v.foldM f s = (List.ofFn fun i : Fin N => v[i.1]).foldlM f s := by
  rw [← Vec.toList_eq_ofFn]; rfl

/-- `fold_first(f)` on a non-empty vector is `f(…f(v[0], v[1])…, v[N-1])`. -/
theorem C06_fold_first (f : T → T → T) (v : Vec T (N + 1)) :
    v.foldFirstR f = .ok (Fin.foldl N (fun acc i => f acc v[i.1 + 1]) v[0]) := by
  rw [Vec.foldFirstR_eq, Vec.toList_eq_ofFn, List.ofFn_succ]
  simp only [Fin.val_zero, Fin.val_succ]
  rw [Fin.foldl_eq_finRange_foldl, List.ofFn_eq_map, List.foldl_map]

/-- `fold_first` panics exactly when the vector is empty. -/
theorem C06_fold_first_panics (f : T → T → T) (v : Vec T N) :
    (∃ e, v.foldFirstR f = .error e) ↔ N = 0 := by
  cases N with
  | zero =>
    simp only [iff_true]
    rw [Vec.foldFirstR_eq, Vec.toList_eq_ofFn]
    exact ⟨_, rfl⟩
  | succ n => simp [C06_fold_first]

/-- `scan(s, f)`: the `k`-th result is at index `k`; calls are made in index order threading the scan state, and the
only faults are those of the closure. -/
theorem C06_scan (f : S → T → Eff σ (U × S)) (v : Vec T N) (s : S) :
    Vec.toList <$> v.scanE s f = scanCalls f s (List.ofFn fun i : Fin N => v[i.1]) := by
  rw [Vec.toList_scanE, Vec.toList_eq_ofFn]

/-- Scan state before the `k`-th call. -/
def scanState (f : S → T → U × S) (s : S) (x : Nat → T) : Nat → S
  | 0 => s
  | k + 1 => (f (scanState f s x k) (x k)).2

/-- `scan` with a closure without side effects never panics; index `k` holds the `k`-th result. -/
theorem C06_scan_pure (f : S → T → U × S) (v : Vec T N) (s : S) :
    ∃ w : Vec U N, v.scanR s f = .ok w ∧ ∀ (x : Nat → T), (∀ i (h : i < N), x i = v[i]) →
      ∀ k (hk : k < N), w[k] = (f (scanState f s x k) v[k]).1 := by
  have h := congrArg (fun x => (Eff.exec x ()).1) (Vec.toList_scanE (σ := Unit) (fun s x => pure (f s x)) v s)
  simp only [exec_map] at h
  have key : ∀ (l : List T) (s : S), ∃ us, ((scanCalls (m := Eff Unit) (fun s x => pure (f s x)) s l).exec ()).1 = .ok us ∧
      us.length = l.length ∧
      ∀ (x : Nat → T), (∀ i (h : i < l.length), x i = l[i]) → ∀ k (hk : k < l.length) (hk' : k < us.length),
        us[k] = (f (scanState f s x k) l[k]).1 := by
    intro l; induction l with
    | nil => intro s; exact ⟨[], by simp [scanCalls], rfl, by simp⟩
    | cons y l ih =>
      intro s
      obtain ⟨us, h1, h2, h3⟩ := ih (f s y).2
      refine ⟨(f s y).1 :: us, ?_, by simp [h2], ?_⟩
      · simp only [scanCalls, pure_bind, exec_bind]
        rcases hr : (scanCalls (m := Eff Unit) (fun s x => pure (f s x)) (f s y).2 l).exec () with ⟨_ | a, b⟩
        · rw [hr] at h1; simp at h1
        · rw [hr] at h1; simp at h1; simp [h1]
      · intro x hx k hk hk'
        cases k with
        | zero => simp [scanState]
        | succ k =>
          have := h3 (fun i => x (i + 1)) (fun i hi => hx (i + 1) (by simpa using hi)) k
            (by simpa using hk) (by simpa using hk')
          simp only [List.getElem_cons_succ]
          rw [this]
          congr 2
          have hx0 := hx 0 (by simp)
          simp at hx0
          clear this hk hk'
          induction k with
          | zero => simp [scanState, hx0]
          | succ k ih2 => simp only [scanState] at ih2 ⊢; rw [ih2]
  obtain ⟨us, h1, h2, h3⟩ := key v.toList s
  rw [h1] at h
  unfold Vec.scanR
  rcases hr : ((v.scanE (σ := Unit) s fun s x => pure (f s x)).exec ()).1 with e | w
  · rw [hr] at h; simp at h
  · rw [hr] at h; simp only [Res.map_ok, Except.ok.injEq] at h
    refine ⟨w, rfl, fun x hx k hk => ?_⟩
    have := h3 x (fun i hi => by rw [hx i (by simpa using hi)]; simp) k (by simpa) (by rw [h2]; simpa)
    subst h
    simpa using this

example : (⟨#v[1, 2, 3, 4]⟩ : Vec Nat 4).scanR 0 (fun s x => (s + x, s + x)) = .ok ⟨#v[1, 3, 6, 10]⟩ := by decide
example : (⟨#v[1, 2, 3]⟩ : Vec Nat 3).foldFirstR (fun a b => 10 * a + b) = .ok 123 := by decide

/-! ## C07 indexing -/

theorem C07_index_get (v : Vec T N) (i : Nat) (h : i < N) : v.index i = .ok v[i] := Vec.index_lt v i h
theorem C07_index_panics (v : Vec T N) (i : Nat) : (∃ e, v.index i = .error e) ↔ N ≤ i := by
  by_cases h : i < N
  · simp [Vec.index_lt v i h]; omega
  · simp [Vec.index_ge v i (by omega)]; omega
theorem C07_index_set_panics (v : Vec T N) (i : Nat) (x : T) : (∃ e, v.indexSet i x = .error e) ↔ N ≤ i := by
  by_cases h : i < N
  · simp [Vec.indexSet, h]
  · simp [Vec.indexSet, h]; omega
/-- Read-back and frame: after `v[i] = x`, index `i` reads `x`, every other index reads as before. -/
theorem C07_index_set (v w : Vec T N) (i : Nat) (x : T) (h : v.indexSet i x = .ok w) (j : Nat) :
    w.index j = if j = i then .ok x else v.index j := by
  by_cases hi : i < N
  · simp only [Vec.indexSet, hi, dite_true, Except.ok.injEq] at h
    subst h
    by_cases hj : j < N
    · rw [Vec.index_lt _ j hj, Vec.index_lt _ j hj]
      show Except.ok (v.data.set i x)[j] = _
      rw [Vector.getElem_set]
      by_cases e : j = i
      · subst e; simp
      · rw [if_neg (by omega), if_neg e]; rfl
    · rw [Vec.index_ge _ j (by omega), Vec.index_ge _ j (by omega)]
      rw [if_neg (by omega)]
  · simp [Vec.indexSet, hi] at h
/-- The unchecked access agrees with the checked one in bounds (out of bounds it is undefined behaviour). -/
theorem C07_get_unchecked (v : Vec T N) (i : Nat) :
    (i < N → v.getUnchecked i = v.index i) ∧ (N ≤ i → v.getUnchecked i = .error .ub) := by
  constructor
  · intro h; simp [Vec.getUnchecked, Vec.index, h]
  · intro h; simp [Vec.getUnchecked, Nat.not_lt.mpr h]

example : (⟨#v[1, 2, 3]⟩ : Vec Nat 3).indexSet 1 7 = .ok ⟨#v[1, 7, 3]⟩ := by decide

/-! ## C08 `indices`, `enumerate` -/

theorem C08_indices (i : Nat) (h : i < N) :
    (∃ v : Vec Nat N, Vec.indicesR = .ok v) ∧ (Vec.indices : Vec Nat N)[i] = i := ⟨⟨_, Vec.indicesR_eq⟩, by simp⟩
theorem C08_indices_ok : (Vec.indicesR : Res (Vec Nat N)) = .ok Vec.indices := Res.ok_get _ _
theorem C08_enumerate (v : Vec T N) (i : Nat) (h : i < N) : v.enumerate[i] = (i, v[i]) := by simp

/-! ## C09, C10 conversions -/

theorem C09_array_roundtrip (a : Vector T N) (v : Vec T N) :
    (Vec.fromArray a).intoArray = a ∧ Vec.fromArray v.intoArray = v ∧
    ∀ i (h : i < N), (Vec.fromArray a)[i] = a[i] ∧ v.intoArray[i] = v[i] :=
  ⟨rfl, rfl, fun _ _ => ⟨rfl, rfl⟩⟩

theorem C10_try_from_slice (l : List T) :
    ((∃ v : Vec T N, Vec.tryFromSlice l = some v) ↔ l.length = N) ∧
    ∀ v : Vec T N, Vec.tryFromSlice l = some v → ∀ i (h : i < N), l[i]? = some v[i] := by
  unfold Vec.tryFromSlice
  by_cases h : l.length = N
  · refine ⟨by simp [h], ?_⟩
    intro v hv i hi
    simp only [h, dite_true, Option.some.injEq] at hv
    subst hv
    rw [List.getElem?_eq_getElem (by omega)]
    rfl
  · simp [h]

example : (Vec.tryFromSlice [1, 2, 3] : Option (Vec Nat 3)) = some ⟨#v[1, 2, 3]⟩ := by decide
example : (Vec.tryFromSlice [1, 2, 3] : Option (Vec Nat 2)) = none := by decide

/-! ## further cases: the hypotheses are satisfiable -/
example := C01_init_at panicThird 0 2 (⟨#v[0, 10]⟩ : Vec Nat 2) (by decide) 1 (by decide)
example := C01_init_count_ok panicThird 0 (⟨#v[0, 10]⟩ : Vec Nat 2) 2 2 (by decide)
example := C01_init_fault (N := 5) panicThird 0 (.user 7) 3 3 (by decide)
example := C02_count (N := 3) listNext [1, 2] (.ok none) [] 3 (by decide)
example := C02_count (N := 2) listNext [1, 2, 3] (.ok (some ⟨#v[1, 2]⟩)) [3] 2 (by decide)
example := C02_fault (N := 3) (Option.some <$> panicThird) 0 3 (.user 7) (by decide)
example := C03_group_chunks (N := 2) (by decide) [1, 2, 3, 4, 5] 3 (by decide)
example := C03_group_concat (N := 2) (by decide) [1, 2, 3, 4, 5] 3 (by decide)
example := C07_index_set (⟨#v[1, 2, 3]⟩ : Vec Nat 3) ⟨#v[1, 7, 3]⟩ 1 7 (by decide)

end Vecmat
