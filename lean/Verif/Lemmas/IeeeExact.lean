import Verif.Lemmas.Ieee
import Verif.Lemmas.Rel
/-! Helper lemmas: operations whose exact result is representable. -/
namespace Vecmat
open Spec
namespace Ieee
variable {φ : Fmt} {a b : Ieee φ} {x y : ℝ}

/-- `a` is a finite float with value `x`. -/
def Val (a : Ieee φ) (x : ℝ) : Prop := a.toReal? = some x

theorem val_zero (s : Bool) : Val (zero s : Ieee φ) 0 := rfl
theorem val_num (h : x ≠ 0) : Val (num x h : Ieee φ) x := rfl
theorem val_one : Val (1 : Ieee φ) 1 := rfl
theorem val_zero' : Val (0 : Ieee φ) 0 := rfl
theorem Val.cases (h : Val a x) : (x = 0 ∧ ∃ s, a = zero s) ∨ ∃ hx : x ≠ 0, a = num x hx := by
  rcases a with _ | s | s | ⟨z, hz⟩ <;> simp only [Val, toReal?, Option.some.injEq, reduceCtorEq] at h
  · left; exact ⟨h.symm, s, rfl⟩
  · subst h; right; exact ⟨hz, rfl⟩
theorem Val.finite (h : Val a x) : Finite a := by
  rcases h.cases with ⟨-, s, rfl⟩ | ⟨hx, rfl⟩ <;> exact ⟨by simp, by simp⟩
theorem Val.unique (h : Val a x) (h' : Val a y) : x = y := by
  unfold Val at h h'; rw [h] at h'; exact Option.some.inj h'
theorem finite_val (h : Finite a) : ∃ x, Val a x := by
  rcases a with _ | s | s | ⟨z, hz⟩
  · exact absurd rfl h.1
  · exact absurd rfl (h.2 s)
  · exact ⟨0, rfl⟩
  · exact ⟨z, rfl⟩
theorem rep_zero (hφ : WF φ) : Representable φ 0 :=
  ⟨0, φ.emin - φ.p + 1, by simp, by simp, le_rfl, by have := hφ.2; omega⟩
theorem rep_one (hφ : WF φ) : Representable φ 1 := by
  simpa using rep_pow hφ (e := 0) (by have := hφ; obtain ⟨h1, h2, h3⟩ := this; omega) (by have := hφ.2; omega)
theorem val_rnd (h0 : x ≠ 0) (h : Representable φ x) : Val (rnd x : Ieee φ) x := by rw [rnd_rep h0 h]; rfl
theorem val_neg (h : Val a x) : Val (-a) (-x) := by
  rcases h.cases with ⟨rfl, s, rfl⟩ | ⟨hx, rfl⟩
  · rw [neg_zero]; rfl
  · rfl
theorem val_add (ha : Val a x) (hb : Val b y) (h : Representable φ (x + y)) : Val (a + b) (x + y) := by
  rw [add_def]
  rcases ha.cases with ⟨rfl, s, rfl⟩ | ⟨hx, rfl⟩ <;> rcases hb.cases with ⟨rfl, t, rfl⟩ | ⟨hy, rfl⟩ <;> simp only [Ieee.add]
  · rw [add_zero]; rfl
  · rw [zero_add] at h ⊢; exact val_rnd hy h
  · rw [add_zero] at h ⊢; exact val_rnd hx h
  · split_ifs with h0
    · rw [h0]; rfl
    · exact val_rnd h0 h
theorem val_sub (ha : Val a x) (hb : Val b y) (h : Representable φ (x - y)) : Val (a - b) (x - y) := by
  rw [sub_def, sub_eq_add_neg]; rw [sub_eq_add_neg] at h; exact val_add ha (val_neg hb) h
theorem val_mul (ha : Val a x) (hb : Val b y) (h : Representable φ (x * y)) : Val (a * b) (x * y) := by
  rw [mul_def]
  rcases ha.cases with ⟨rfl, s, rfl⟩ | ⟨hx, rfl⟩ <;> rcases hb.cases with ⟨rfl, t, rfl⟩ | ⟨hy, rfl⟩ <;> simp only [Ieee.mul]
  · rw [zero_mul]; rfl
  · rw [zero_mul]; rfl
  · rw [mul_zero]; rfl
  · exact val_rnd (mul_ne_zero hx hy) h
theorem val_div (ha : Val a x) (hb : Val b y) (hy : y ≠ 0) (h : Representable φ (x / y)) : Val (a / b) (x / y) := by
  rw [div_def]
  rcases ha.cases with ⟨rfl, s, rfl⟩ | ⟨hx, rfl⟩ <;> rcases hb.cases with ⟨rfl, t, rfl⟩ | ⟨hy, rfl⟩ <;> simp only [Ieee.div]
  · exact absurd rfl hy
  · rw [zero_div]; rfl
  · exact absurd rfl hy
  · exact val_rnd (div_ne_zero hx hy) h
theorem val_sqrt (ha : Val a x) (hx0 : 0 ≤ x) (h : Representable φ (Real.sqrt x)) : Val a.sqrt (Real.sqrt x) := by
  rcases ha.cases with ⟨rfl, s, rfl⟩ | ⟨hx, rfl⟩ <;> simp only [Ieee.sqrt]
  · rw [Real.sqrt_zero]; rfl
  · rw [if_neg (not_lt.mpr hx0)]
    exact val_rnd (Real.sqrt_ne_zero'.mpr (lt_of_le_of_ne hx0 (Ne.symm hx))) h
theorem Val.datum (h : Val a x) (hr : Representable φ x) : Datum a := by
  rcases h.cases with ⟨rfl, s, rfl⟩ | ⟨hx, rfl⟩
  · trivial
  · exact hr
theorem Datum.rep (hφ : WF φ) (h : Datum a) (hv : Val a x) : Representable φ x := by
  rcases hv.cases with ⟨rfl, s, rfl⟩ | ⟨hx, rfl⟩
  · exact rep_zero hφ
  · exact h

/-- A sum with at most one non-zero term is exact. -/
theorem val_foldl_single {l : List (Ieee φ)} {xs : List ℝ} (h : List.Forall₂ (fun a x => Val a x ∧ Representable φ x) l xs)
    (ha : Val a x) (hx : Representable φ x) (hp : (x :: xs).Pairwise fun x y => x = 0 ∨ y = 0) :
    Val (l.foldl (fun a b => a + b) a) (xs.foldl (fun a b => a + b) x) ∧ Representable φ (xs.foldl (fun a b => a + b) x) := by
  induction h generalizing a x with
  | nil => exact ⟨ha, hx⟩
  | @cons b y l ys hb _ ih =>
    rw [List.pairwise_cons, List.pairwise_cons] at hp
    obtain ⟨h1, h2, h3⟩ := hp
    simp only [List.foldl_cons]
    have hr : Representable φ (x + y) := by
      rcases h1 y (by simp) with h | h
      · rw [h, zero_add]; exact hb.2
      · rw [h, add_zero]; exact hx
    refine ih (val_add ha hb.1 hr) hr ?_
    rw [List.pairwise_cons]
    refine ⟨fun z hz => ?_, h3⟩
    rcases h1 y (by simp) with h | h
    · rw [h, zero_add]; exact h2 z hz
    · rw [h, add_zero]; exact h1 z (by simp [hz])
end Ieee
open Ieee

theorem Vec.val_sum_single {φ : Fmt} {N : Nat} [NeZero N] (v : Vec (Ieee φ) N) (x : Fin N → ℝ)
    (h : ∀ i : Fin N, Val v[i.1] (x i) ∧ Representable φ (x i)) (hp : ∀ i j : Fin N, i ≠ j → x i = 0 ∨ x j = 0) :
    Val v.sum (∑ i, x i) ∧ Representable φ (∑ i, x i) := by
  obtain ⟨n, rfl⟩ : ∃ n, N = n + 1 := ⟨N - 1, by have := NeZero.ne N; omega⟩
  rw [Vec.sum, foldFirst_congr (foldFirstR_succ _ v), Fin.sum_univ_succ, ← List.sum_ofFn, ← foldl_add_eq]
  refine val_foldl_single (ofFn_rel fun i => h i.succ) (h 0).1 (h 0).2 ?_
  rw [List.pairwise_cons]
  constructor
  · intro y hy
    obtain ⟨i, rfl⟩ := (List.mem_ofFn' _ _).mp hy
    exact hp _ _ (Fin.succ_ne_zero i).symm
  · rw [List.pairwise_ofFn]
    intro i j hij
    exact hp _ _ (fun e => by have := Fin.succ_injective _ e; omega)
end Vecmat
