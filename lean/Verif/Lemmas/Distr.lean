import Verif.Model.Distr
import Verif.Props.MatrixBase
import Verif.Lemmas.Exec
/-! Helper lemmas: rejection loops. -/
namespace Vecmat
open Spec
namespace Distr
variable {σ α T : Type} {K : Nat}

theorem loopUntil_iff (draw : Eff σ α) (accept : α → Res Bool) (fuel : Nat) (s s' : σ) (x : α) :
    (loopUntil draw accept fuel).exec s = (.ok x, s') ↔
      ∃ bad : List α, bad.length < fuel ∧ (callN draw (bad.length + 1)).exec s = (.ok (bad ++ [x]), s') ∧
        (∀ y ∈ bad, accept y = .ok false) ∧ accept x = .ok true := by
  induction fuel generalizing s with
  | zero => simp [loopUntil]
  | succ fuel ih =>
    simp only [loopUntil, exec_bind]
    constructor
    · intro h
      rcases hd : draw.exec s with ⟨_ | y, s1⟩
      · rw [hd] at h; simp at h
      · rw [hd] at h
        simp only at h
        rcases ha : accept y with e | b
        · rw [ha] at h; simp [exec_throw] at h
        · rw [ha] at h
          simp only [liftRes_ok, exec_pure] at h
          cases b with
          | true =>
            simp at h
            obtain ⟨rfl, rfl⟩ := h
            exact ⟨[], by simp, by simp [callN, exec_map, hd], by simp, ha⟩
          | false =>
            simp only [Bool.false_eq_true, if_false] at h
            obtain ⟨bad, h1, h2, h3, h4⟩ := (ih s1).mp h
            refine ⟨y :: bad, by simp; omega, ?_, by simpa using ⟨ha, h3⟩, h4⟩
            rw [List.length_cons, callN, exec_bind, hd]
            simp [exec_map, h2]
    · rintro ⟨bad, h1, h2, h3, h4⟩
      cases bad with
      | nil =>
        rcases hd : draw.exec s with ⟨_ | y, s1⟩
        · simp [callN, exec_map, hd] at h2
        · simp [callN, exec_map, hd] at h2
          obtain ⟨rfl, rfl⟩ := h2
          simp [h4]
      | cons y bad =>
        rw [List.length_cons, callN, exec_bind] at h2
        rcases hd : draw.exec s with ⟨_ | z, s1⟩
        · simp [hd] at h2
        · rw [hd] at h2
          simp only [exec_bind] at h2
          rcases hc : (callN draw (bad.length + 1)).exec s1 with ⟨_ | l, s2⟩
          · rw [hc] at h2; simp at h2
          · rw [hc] at h2
            simp only [exec_pure, List.cons_append, Prod.mk.injEq, Except.ok.injEq, List.cons.injEq] at h2
            obtain ⟨⟨rfl, rfl⟩, rfl⟩ := h2
            simp only [h3 z (by simp), liftRes_ok, exec_pure, Bool.false_eq_true, if_false]
            exact (ih s1).mpr ⟨bad, by simpa using h1, hc, fun y hy => h3 y (by simp [hy]), h4⟩

theorem exec_eq_of_map {β : Type} {x : Eff σ α} {f : α → β} {s s' : σ} {b : β} (h : (f <$> x).exec s = (.ok b, s')) :
    ∃ a, x.exec s = (.ok a, s') ∧ f a = b := by
  rw [exec_map] at h
  rcases hx : x.exec s with ⟨_ | a, s1⟩
  · rw [hx] at h; simp at h
  · rw [hx] at h; simp at h; exact ⟨a, by simp [h.2], h.1⟩

theorem length_callN (f : Eff σ α) (n : Nat) (s s' : σ) (l : List α) (h : (callN f n).exec s = (.ok l, s')) : l.length = n := by
  induction n generalizing s l with
  | zero => simp [callN] at h; simp [← h.1]
  | succ n ih =>
    rw [callN, exec_bind] at h
    rcases hf : f.exec s with ⟨_ | x, s1⟩
    · rw [hf] at h; simp at h
    · rw [hf] at h
      simp only [exec_bind] at h
      rcases hc : (callN f n).exec s1 with ⟨_ | k, s2⟩
      · rw [hc] at h; simp at h
      · rw [hc] at h; simp at h; rw [← h.1]; simp [ih s1 k (by rw [hc, h.2])]

theorem flatMap_inj {comp : α → List T} (hinj : Function.Injective comp) (hlen : ∀ x, (comp x).length = K) {a b : List α}
    (hab : a.length = b.length) (h : a.flatMap comp = b.flatMap comp) : a = b := by
  induction a generalizing b with
  | nil => simp at hab; exact (List.eq_nil_of_length_eq_zero hab.symm).symm
  | cons x a ih =>
    cases b with
    | nil => simp at hab
    | cons y b =>
      rw [List.flatMap_cons, List.flatMap_cons] at h
      obtain ⟨h1, h2⟩ := List.append_inj h (by rw [hlen, hlen])
      rw [hinj h1, ih (by simpa using hab) h2]

/-- A rejection loop over block draws returns the first accepted block. -/
theorem loop_blocks {draw : Eff σ α} {inner : Eff σ T} {comp : α → List T} (hdraw : comp <$> draw = callN inner K)
    (hinj : Function.Injective comp) (hlen : ∀ x, (comp x).length = K) (accept : α → Res Bool) (fuel : Nat) (s s' : σ) (x : α) :
    (loopUntil draw accept fuel).exec s = (.ok x, s') ↔
      ∃ bad : List α, bad.length < fuel ∧
        (callN inner ((bad.length + 1) * K)).exec s = (.ok (bad.flatMap comp ++ comp x), s') ∧
        (∀ y ∈ bad, accept y = .ok false) ∧ accept x = .ok true := by
  rw [loopUntil_iff]
  refine exists_congr fun bad => and_congr_right fun _ => and_congr_left fun _ => ?_
  rw [← flatMap_callN comp draw inner hdraw]
  constructor
  · intro h
    rw [exec_map, h]; simp [List.flatMap_append]
  · intro h
    obtain ⟨l, h1, h2⟩ := exec_eq_of_map h
    have : l = bad ++ [x] := by
      apply flatMap_inj hinj hlen
      · rw [length_callN _ _ _ _ _ h1]; simp
      · rw [h2]; simp [List.flatMap_append]
    rw [h1, this]

/-- A rejection loop only faults by running out of iterations, through its source, or through its test. -/
theorem loop_fault {draw : Eff σ α} {accept : α → Res Bool} (hacc : ∀ x, ∃ b, accept x = .ok b) {fuel : Nat} {s s' : σ} {e : Fault}
    (h : (loopUntil draw accept fuel).exec s = (.error e, s')) :
    e = .outOfFuel ∨ ∃ k, k ≤ fuel ∧ (callN draw k).exec s = (.error e, s') := by
  induction fuel generalizing s with
  | zero => simp [loopUntil] at h; exact .inl h.1.symm
  | succ fuel ih =>
    simp only [loopUntil, exec_bind] at h
    rcases hd : draw.exec s with ⟨e' | y, s1⟩
    · rw [hd] at h; simp at h
      obtain ⟨rfl, rfl⟩ := h
      exact .inr ⟨1, by omega, by simp [callN, exec_map, hd]⟩
    · rw [hd] at h
      obtain ⟨b, hb⟩ := hacc y
      simp only [hb, liftRes_ok, exec_pure] at h
      cases b with
      | true => simp at h
      | false =>
        simp only [Bool.false_eq_true, if_false] at h
        rcases ih h with h | ⟨k, hk, hk2⟩
        · exact .inl h
        · exact .inr ⟨k + 1, by omega, by rw [callN, exec_bind, hd]; simp [exec_map, hk2]⟩

theorem loop_mono {draw : Eff σ α} {accept : α → Res Bool} {fuel fuel' : Nat} (hf : fuel ≤ fuel') {s s' : σ} {x : α}
    (h : (loopUntil draw accept fuel).exec s = (.ok x, s')) : (loopUntil draw accept fuel').exec s = (.ok x, s') := by
  rw [loopUntil_iff] at h ⊢
  obtain ⟨bad, h1, h2⟩ := h
  exact ⟨bad, by omega, h2⟩

end Distr
end Vecmat
