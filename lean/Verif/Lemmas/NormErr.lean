import Verif.Lemmas.Rounding
import Verif.Spec.Compose
import Verif.Lemmas.Square
import Mathlib.Analysis.Normed.Ring.Basic
/-! Helper lemmas: rounding error analysis over a normed ring (reals, complex numbers, quaternions). -/
namespace Vecmat
open Spec

/-- Approximate ring arithmetic: `V a x` says that the datum `a` is the number `x`; results that are numbers have a relative error
of at most `ε` in norm, and come from operands that are numbers. -/
structure ApproxRing {T A : Type} [Add T] [Mul T] [NormedRing A] (ε : ℝ) (V : T → A → Prop) : Prop where
  nonneg : 0 ≤ ε
  fn : ∀ {a x y}, V a x → V a y → x = y
  add : ∀ {a b r}, V (a + b) r → ∃ x y, V a x ∧ V b y ∧ ‖r - (x + y)‖ ≤ ε * ‖x + y‖
  mul : ∀ {a b r}, V (a * b) r → ∃ x y, V a x ∧ V b y ∧ ‖r - x * y‖ ≤ ε * (‖x‖ * ‖y‖)

/-- `a`, if it is a number, approximates `x` with at most `k` roundings relative to the magnitude `m`. -/
def NErr {T A : Type} [NormedRing A] (ε : ℝ) (V : T → A → Prop) (k : ℕ) (m : ℝ) (a : T) (x : A) : Prop :=
  ‖x‖ ≤ m ∧ ∀ r, V a r → ‖r - x‖ ≤ gam ε k * m

namespace NErr
variable {T A : Type} [Add T] [Mul T] [NormedRing A] {ε : ℝ} {V : T → A → Prop} {k l : ℕ} {m n : ℝ} {x y : A} {a b : T}

theorem nonneg (h : NErr ε V k m a x) : 0 ≤ m := (norm_nonneg _).trans h.1
theorem mono (he : 0 ≤ ε) (h : NErr ε V k m a x) (hkl : k ≤ l) (hmn : m ≤ n) : NErr ε V l n a x :=
  ⟨h.1.trans hmn, fun r hr => (h.2 r hr).trans (mul_le_mul (gam_mono he hkl) hmn h.nonneg (gam_nonneg he l))⟩
theorem of_val (hV : ApproxRing ε V) (h : V a x) : NErr ε V 0 ‖x‖ a x :=
  ⟨le_rfl, fun r hr => by rw [hV.fn hr h]; simp [gam]⟩
theorem norm_le (h : NErr ε V k m a x) {r : A} (hr : V a r) : ‖r‖ ≤ (1 + ε) ^ k * m := by
  have h1 := h.2 r hr
  have h2 : ‖r‖ ≤ ‖r - x‖ + ‖x‖ := by simpa using norm_add_le (r - x) x
  have h3 := h.1
  unfold gam at h1; linarith

theorem add (hV : ApproxRing ε V) (h : NErr ε V k m a x) (h' : NErr ε V l n b y) : NErr ε V (max k l + 1) (m + n) (a + b) (x + y) := by
  have he := hV.nonneg
  refine ⟨(norm_add_le _ _).trans (add_le_add h.1 h'.1), fun r hr => ?_⟩
  obtain ⟨p, q, hp, hq, e1⟩ := hV.add hr
  have hk := h.mono he (le_max_left k l) le_rfl
  have hl := h'.mono he (le_max_right k l) le_rfl
  have e2 : ‖p + q - (x + y)‖ ≤ gam ε (max k l) * (m + n) := by
    have : ‖p + q - (x + y)‖ ≤ ‖p - x‖ + ‖q - y‖ := by
      rw [show p + q - (x + y) = (p - x) + (q - y) by abel]; exact norm_add_le _ _
    have := hk.2 p hp; have := hl.2 q hq
    linarith
  have e3 : ‖p + q‖ ≤ (1 + ε) ^ max k l * (m + n) := by
    have := hk.norm_le hp; have := hl.norm_le hq
    linarith [norm_add_le p q]
  have e4 : ‖r - (x + y)‖ ≤ ‖r - (p + q)‖ + ‖p + q - (x + y)‖ := norm_sub_le_norm_sub_add_norm_sub _ _ _
  have e5 := mul_le_mul_of_nonneg_left e3 he
  unfold gam at *
  rw [pow_succ]
  nlinarith

theorem mul (hV : ApproxRing ε V) (h : NErr ε V k m a x) (h' : NErr ε V l n b y) : NErr ε V (k + l + 1) (m * n) (a * b) (x * y) := by
  have he := hV.nonneg
  have hm := h.nonneg
  have hn := h'.nonneg
  refine ⟨(norm_mul_le _ _).trans (mul_le_mul h.1 h'.1 (norm_nonneg _) hm), fun r hr => ?_⟩
  obtain ⟨p, q, hp, hq, e1⟩ := hV.mul hr
  have ep := h.2 p hp
  have eq := h'.2 q hq
  have e3 : ‖p‖ * ‖q‖ ≤ (1 + ε) ^ (k + l) * (m * n) := by
    rw [pow_add]
    calc ‖p‖ * ‖q‖ ≤ ((1 + ε) ^ k * m) * ((1 + ε) ^ l * n) :=
          mul_le_mul (h.norm_le hp) (h'.norm_le hq) (norm_nonneg _) (by positivity)
      _ = _ := by ring
  have e2 : ‖p * q - x * y‖ ≤ gam ε (k + l) * (m * n) := by
    have : ‖p * q - x * y‖ ≤ ‖p - x‖ * ‖q‖ + ‖x‖ * ‖q - y‖ := by
      rw [show p * q - x * y = (p - x) * q + x * (q - y) by rw [sub_mul, mul_sub]; abel]
      exact (norm_add_le _ _).trans (add_le_add (norm_mul_le _ _) (norm_mul_le _ _))
    have t1 : ‖p - x‖ * ‖q‖ ≤ (gam ε k * m) * ((1 + ε) ^ l * n) :=
      mul_le_mul ep (h'.norm_le hq) (norm_nonneg _) (mul_nonneg (gam_nonneg he k) hm)
    have t2 : ‖x‖ * ‖q - y‖ ≤ m * (gam ε l * n) := mul_le_mul h.1 eq (norm_nonneg _) hm
    unfold gam at *
    rw [pow_add]; nlinarith
  have e4 : ‖r - x * y‖ ≤ ‖r - p * q‖ + ‖p * q - x * y‖ := norm_sub_le_norm_sub_add_norm_sub _ _ _
  have e5 := mul_le_mul_of_nonneg_left e3 he
  unfold gam at *
  rw [pow_succ]
  nlinarith

theorem foldl_add (hV : ApproxRing ε V) {ι : Type*} (s : List ι) (g : ι → T) (e : ι → A) (mg : ι → ℝ)
    (hg : ∀ i ∈ s, NErr ε V k (mg i) (g i) (e i)) (h : NErr ε V l m a x) (hkl : k ≤ l) :
    NErr ε V (l + s.length) (m + (s.map mg).sum) (s.foldl (fun a i => a + g i) a) (x + (s.map e).sum) := by
  induction s generalizing a x l m with
  | nil => simpa using h
  | cons i s ih =>
    have h1 := h.add hV (hg i (by simp))
    rw [max_eq_left hkl] at h1
    have := ih (fun j hj => hg j (by simp [hj])) h1 (by omega)
    simpa [add_assoc, add_comm, add_left_comm] using this
end NErr

variable {T A : Type} [Add T] [Mul T] [NormedRing A] {ε : ℝ} {V : T → A → Prop} {N : Nat}

theorem Vec.sum_nerr [NeZero N] (hV : ApproxRing ε V) (v : Vec T N) (x : Fin N → A) (m : Fin N → ℝ) {k : ℕ}
    (h : ∀ i : Fin N, NErr ε V k (m i) v[i.1] (x i)) : NErr ε V (k + (N - 1)) (∑ i, m i) v.sum (∑ i, x i) := by
  obtain ⟨n, rfl⟩ : ∃ n, N = n + 1 := ⟨N - 1, by have := NeZero.ne N; omega⟩
  rw [show v.sum = _ from foldFirst_congr (foldFirstR_succ (· + ·) v)]
  have h0 : NErr ε V k (m 0) v[0] (x 0) := by simpa using h 0
  have := NErr.foldl_add hV (List.ofFn fun i : Fin n => i) (fun i => v[i.1 + 1]) (fun i => x i.succ) (fun i => m i.succ)
    (fun i _ => by simpa using h i.succ) h0 le_rfl
  rw [Fin.sum_univ_succ, Fin.sum_univ_succ, ← List.sum_ofFn, ← List.sum_ofFn]
  simpa [List.map_ofFn, Function.comp_def, List.foldl_map, List.ofFn_eq_map, List.map_id] using this

theorem Vec.dot_nerr [NeZero N] (hV : ApproxRing ε V) (v w : Vec T N) (x y : Fin N → A) (m n : Fin N → ℝ) {k l : ℕ}
    (h : ∀ i : Fin N, NErr ε V k (m i) v[i.1] (x i)) (h' : ∀ i : Fin N, NErr ε V l (n i) w[i.1] (y i)) :
    NErr ε V (k + l + N) (∑ i, m i * n i) (v.dot w) (∑ i, x i * y i) := by
  have := Vec.sum_nerr hV (v * w) (fun i => x i * y i) (fun i => m i * n i) (k := k + l + 1)
    (fun i => by simpa using (h i).mul hV (h' i))
  have e : k + l + 1 + (N - 1) = k + l + N := by have := NeZero.ne N; omega
  rwa [e] at this

/-- Entry-wise approximation of a matrix. -/
def Mat.NErr (ε : ℝ) (V : T → A → Prop) (k : ℕ) (m : Matrix (Fin N) (Fin N) ℝ) (a : Mat T N N) (x : Matrix (Fin N) (Fin N) A) : Prop :=
  ∀ i j : Fin N, Vecmat.NErr ε V k (m i j) a[i.1][j.1] (x i j)

theorem Mat.NErr.dotM [NeZero N] (hV : ApproxRing ε V) {k l : ℕ} {m n : Matrix (Fin N) (Fin N) ℝ} {a b : Mat T N N} {x y : Matrix (Fin N) (Fin N) A}
    (h : Mat.NErr ε V k m a x) (h' : Mat.NErr ε V l n b y) : Mat.NErr ε V (k + l + N) (m * n) (a.dotM b) (x * y) := by
  intro i j
  rw [Mat.getElem_dotM]
  simpa [Matrix.mul_apply] using Vec.dot_nerr hV a[i.1] (b.colOf j.1 j.2) (x i) (fun k => y k j) (m i) (fun k => n k j) (h i)
    (fun k => by simpa using h' k j)

theorem Mat.NErr.dotV [NeZero N] (hV : ApproxRing ε V) {k l : ℕ} {m : Matrix (Fin N) (Fin N) ℝ} {n : Fin N → ℝ} {a : Mat T N N} {v : Vec T N}
    {x : Matrix (Fin N) (Fin N) A} {y : Fin N → A}
    (h : Mat.NErr ε V k m a x) (h' : ∀ i : Fin N, Vecmat.NErr ε V l (n i) v[i.1] (y i)) (i : Fin N) :
    Vecmat.NErr ε V (k + l + N) (m.mulVec n i) (a.dotV v)[i.1] (x.mulVec y i) := by
  rw [Mat.getElem_dotV]
  simpa [Matrix.mulVec, dotProduct] using Vec.dot_nerr hV a[i.1] v (x i) y (m i) n (h i) h'

/-! ### compositions -/

theorem forall₂_append_left {α β : Type} {R : α → β → Prop} {a b : List α} {l : List β} (h : List.Forall₂ R (a ++ b) l) :
    ∃ x y, List.Forall₂ R a x ∧ List.Forall₂ R b y ∧ l = x ++ y := by
  induction a generalizing l with
  | nil => exact ⟨[], l, .nil, h, rfl⟩
  | cons c a ih =>
    cases h with
    | cons h1 h2 =>
      obtain ⟨x, y, h3, h4, rfl⟩ := ih h2
      exact ⟨_ :: x, y, .cons h1 h3, h4, rfl⟩

/-- Products of `n` factors in any bracketing: `n - 1` roundings. -/
theorem NErr.prod (hV : ApproxRing ε V) (t : Bracketing T) (xs : List A) (h : List.Forall₂ V t.items xs) :
    NErr ε V (xs.length - 1) (xs.map norm).prod (t.eval (· * ·)) xs.prod ∧ 0 < xs.length := by
  induction t generalizing xs with
  | one a =>
    cases h with
    | cons h h' => cases h'; simpa [Bracketing.eval] using NErr.of_val hV h
  | two l r hl hr =>
    obtain ⟨x1, x2, h1, h2, rfl⟩ := forall₂_append_left h
    obtain ⟨a1, b1⟩ := hl x1 h1
    obtain ⟨a2, b2⟩ := hr x2 h2
    have := a1.mul hV a2
    simp only [List.map_append, List.prod_append, List.length_append]
    rw [show x1.length + x2.length - 1 = x1.length - 1 + (x2.length - 1) + 1 by omega]
    exact ⟨this, by omega⟩

/-- Sums of `n` terms in any bracketing. -/
theorem NErr.sum (hV : ApproxRing ε V) (t : Bracketing T) (xs : List A) (h : List.Forall₂ V t.items xs) :
    NErr ε V (xs.length - 1) (xs.map norm).sum (t.eval (· + ·)) xs.sum ∧ 0 < xs.length := by
  induction t generalizing xs with
  | one a =>
    cases h with
    | cons h h' => cases h'; simpa [Bracketing.eval] using NErr.of_val hV h
  | two l r hl hr =>
    obtain ⟨x1, x2, h1, h2, rfl⟩ := forall₂_append_left h
    obtain ⟨a1, b1⟩ := hl x1 h1
    obtain ⟨a2, b2⟩ := hr x2 h2
    have := (a1.add hV a2).mono hV.nonneg (l := x1.length - 1 + (x2.length - 1) + 1) (by omega) le_rfl
    simp only [List.map_append, List.sum_append, List.length_append]
    rw [show x1.length + x2.length - 1 = x1.length - 1 + (x2.length - 1) + 1 by omega]
    exact ⟨this, by omega⟩

/-- The entries of `a` are the numbers `x`. -/
def Mat.HasVal (V : T → A → Prop) (a : Mat T N N) (x : Matrix (Fin N) (Fin N) A) : Prop := ∀ i j : Fin N, V a[i.1][j.1] (x i j)

theorem Mat.NErr.prod [NeZero N] (hV : ApproxRing ε V) (t : Bracketing (Mat T N N)) (xs : List (Matrix (Fin N) (Fin N) A))
    (h : List.Forall₂ (Mat.HasVal V) t.items xs) :
    Mat.NErr ε V ((xs.length - 1) * N) (xs.map fun x => x.map norm).prod (t.eval Mat.dotM) xs.prod ∧ 0 < xs.length := by
  induction t generalizing xs with
  | one a =>
    cases h with
    | cons h h' => cases h'; simpa [Mat.NErr, Bracketing.eval] using fun i j => NErr.of_val hV (h i j)
  | two l r hl hr =>
    obtain ⟨x1, x2, h1, h2, rfl⟩ := forall₂_append_left h
    obtain ⟨a1, b1⟩ := hl x1 h1
    obtain ⟨a2, b2⟩ := hr x2 h2
    have := a1.dotM hV a2
    simp only [List.map_append, List.prod_append, List.length_append]
    rw [show (x1.length + x2.length - 1) * N = (x1.length - 1) * N + (x2.length - 1) * N + N by
      rw [← Nat.add_mul, ← Nat.succ_mul]; congr 1; omega]
    exact ⟨this, by omega⟩

end Vecmat
