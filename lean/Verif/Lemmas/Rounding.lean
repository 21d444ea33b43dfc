import Verif.Model.Float
import Verif.Spec.Float
import Verif.Lemmas.Quaternion
import Verif.Lemmas.Permanent
/-! Helper lemmas: compositional rounding error analysis. -/
namespace Vecmat
open Spec
variable {F : ℝ → Option ℝ} {u : ℝ} {L M N : Nat}

/-! ### mixed error: `|r - x| ≤ ((1+u)^k - 1) m` -/

/-- `a`, if it is a number, approximates `x` with at most `k` roundings relative to the magnitude `m`. -/
def Err (u : ℝ) (k : ℕ) (m : ℝ) (a : Fl F) (x : ℝ) : Prop := |x| ≤ m ∧ ∀ r, a.val = some r → |r - x| ≤ gam u k * m

theorem gam_nonneg (hu : 0 ≤ u) (k : ℕ) : 0 ≤ gam u k := by
  unfold gam; have := one_le_pow₀ (n := k) (show 1 ≤ 1 + u by linarith); linarith
theorem gam_mono (hu : 0 ≤ u) {k l : ℕ} (h : k ≤ l) : gam u k ≤ gam u l := by
  unfold gam; have := pow_le_pow_right₀ (show 1 ≤ 1 + u by linarith) h; linarith

namespace Err
variable {k l : ℕ} {m n x y : ℝ} {a b : Fl F}

theorem nonneg (h : Err u k m a x) : 0 ≤ m := (abs_nonneg _).trans h.1
theorem mono (hu : 0 ≤ u) (h : Err u k m a x) (hkl : k ≤ l) (hmn : m ≤ n) : Err u l n a x :=
  ⟨h.1.trans hmn, fun r hr => (h.2 r hr).trans
    (mul_le_mul (gam_mono hu hkl) hmn h.nonneg (gam_nonneg hu l))⟩
theorem of_eq (h : a.val = some x) : Err u 0 |x| a x :=
  ⟨le_rfl, fun r hr => by rw [h] at hr; cases hr; simp [gam]⟩
theorem zero : Err u 0 0 (0 : Fl F) 0 := ⟨by simp, fun r hr => by cases hr; simp⟩
theorem one : Err u 0 1 (1 : Fl F) 1 := ⟨by simp, fun r hr => by cases hr; simp [gam]⟩
theorem neg (h : Err u k m a x) : Err u k m (-a) (-x) := by
  refine ⟨by simpa using h.1, fun r hr => ?_⟩
  obtain ⟨s, hs, rfl⟩ : ∃ s, a.val = some s ∧ -s = r := by simpa [Neg.neg] using hr
  have := h.2 s hs
  rwa [show -s - -x = -(s - x) by ring, abs_neg]

theorem abs_le (h : Err u k m a x) {r : ℝ} (hr : a.val = some r) : |r| ≤ (1 + u) ^ k * m := by
  have h1 := h.2 r hr
  have h2 : |r| ≤ |r - x| + |x| := by simpa using abs_add_le (r - x) x
  have h3 := h.1
  unfold gam at h1; linarith

theorem add_lift (hF : Rounding u F) {f : ℝ → ℝ → ℝ} (hf : f = (· + ·) ∨ f = (· - ·)) (h : Err u k m a x) (h' : Err u l n b y) :
    Err u (max k l + 1) (m + n) (Fl.lift2 f a b) (f x y) := by
  have hu := hF.1
  have tri : ∀ p q : ℝ, |f p q| ≤ |p| + |q| := by
    intro p q; rcases hf with rfl | rfl
    · exact abs_add_le _ _
    · exact abs_sub _ _
  refine ⟨(tri x y).trans (add_le_add h.1 h'.1), fun r hr => ?_⟩
  obtain ⟨p, hp, q, hq, hr⟩ : ∃ p, a.val = some p ∧ ∃ q, b.val = some q ∧ F (f p q) = some r := by
    simpa [Fl.lift2, Option.bind_eq_some_iff] using hr
  have e1 := hF.2 _ _ hr
  have e2 : |f p q - f x y| ≤ gam u (max k l) * (m + n) := by
    have : |f p q - f x y| ≤ |p - x| + |q - y| := by
      rcases hf with rfl | rfl
      · rw [show p + q - (x + y) = (p - x) + (q - y) by ring]; exact abs_add_le _ _
      · rw [show p - q - (x - y) = (p - x) - (q - y) by ring]; exact abs_sub _ _
    have hk := (h.mono hu (le_max_left k l) le_rfl).2 p hp
    have hl := (h'.mono hu (le_max_right k l) le_rfl).2 q hq
    linarith
  have e3 : |f p q| ≤ (1 + u) ^ max k l * (m + n) := by
    have hk := (h.mono hu (le_max_left k l) le_rfl).abs_le hp
    have hl := (h'.mono hu (le_max_right k l) le_rfl).abs_le hq
    linarith [tri p q]
  have e4 : |r - f x y| ≤ |r - f p q| + |f p q - f x y| := abs_sub_le _ _ _
  have e5 : u * |f p q| ≤ u * ((1 + u) ^ max k l * (m + n)) := mul_le_mul_of_nonneg_left e3 hu
  unfold gam at *
  rw [pow_succ]
  nlinarith

theorem add (hF : Rounding u F) (h : Err u k m a x) (h' : Err u l n b y) : Err u (max k l + 1) (m + n) (a + b) (x + y) :=
  add_lift hF (.inl rfl) h h'
theorem sub (hF : Rounding u F) (h : Err u k m a x) (h' : Err u l n b y) : Err u (max k l + 1) (m + n) (a - b) (x - y) :=
  add_lift hF (.inr rfl) h h'

theorem mul (hF : Rounding u F) (h : Err u k m a x) (h' : Err u l n b y) : Err u (k + l + 1) (m * n) (a * b) (x * y) := by
  have hu := hF.1
  have hm := h.nonneg
  have hn := h'.nonneg
  refine ⟨by rw [abs_mul]; exact mul_le_mul h.1 h'.1 (abs_nonneg _) hm, fun r hr => ?_⟩
  obtain ⟨p, hp, q, hq, hr⟩ : ∃ p, a.val = some p ∧ ∃ q, b.val = some q ∧ F (p * q) = some r := by
    simpa [HMul.hMul, Mul.mul, Fl.lift2, Option.bind_eq_some_iff] using hr
  have e1 := hF.2 _ _ hr
  have ep := h.2 p hp
  have eq := h'.2 q hq
  have e3 : |p * q| ≤ (1 + u) ^ (k + l) * (m * n) := by
    rw [abs_mul, pow_add]
    calc |p| * |q| ≤ ((1 + u) ^ k * m) * ((1 + u) ^ l * n) :=
          mul_le_mul (h.abs_le hp) (h'.abs_le hq) (abs_nonneg _) (by positivity)
      _ = _ := by ring
  have e2 : |p * q - x * y| ≤ gam u (k + l) * (m * n) := by
    have : |p * q - x * y| ≤ |p - x| * |q| + |x| * |q - y| := by
      rw [show p * q - x * y = (p - x) * q + x * (q - y) by ring, ← abs_mul, ← abs_mul]; exact abs_add_le _ _
    have t1 : |p - x| * |q| ≤ (gam u k * m) * ((1 + u) ^ l * n) :=
      mul_le_mul ep (h'.abs_le hq) (abs_nonneg _) (mul_nonneg (gam_nonneg hu k) hm)
    have t2 : |x| * |q - y| ≤ m * (gam u l * n) := mul_le_mul h.1 eq (abs_nonneg _) hm
    unfold gam at *
    rw [pow_add]; nlinarith
  have e4 : |r - x * y| ≤ |r - p * q| + |p * q - x * y| := abs_sub_le _ _ _
  have e5 : u * |p * q| ≤ u * ((1 + u) ^ (k + l) * (m * n)) := mul_le_mul_of_nonneg_left e3 hu
  unfold gam at *
  rw [pow_succ]
  nlinarith

theorem foldl_add (hF : Rounding u F) {ι : Type*} (s : List ι) (g : ι → Fl F) (e mg : ι → ℝ)
    (hg : ∀ i ∈ s, Err u k (mg i) (g i) (e i)) (h : Err u l m a x) (hkl : k ≤ l) :
    Err u (l + s.length) (m + (s.map mg).sum) (s.foldl (fun a i => a + g i) a) (x + (s.map e).sum) := by
  induction s generalizing a x l m with
  | nil => simpa using h
  | cons i s ih =>
    have h1 := h.add hF (hg i (by simp))
    rw [max_eq_left hkl] at h1
    have := ih (fun j hj => hg j (by simp [hj])) h1 (by omega)
    simpa [add_assoc, add_comm, add_left_comm] using this

end Err

/-- `sum` of approximations: `k` roundings in the items give `k + (N - 1)`. -/
theorem Vec.sum_err [NeZero N] (hF : Rounding u F) (v : Vec (Fl F) N) (x m : Fin N → ℝ) {k : ℕ}
    (h : ∀ i : Fin N, Err u k (m i) v[i.1] (x i)) : Err u (k + (N - 1)) (∑ i, m i) v.sum (∑ i, x i) := by
  obtain ⟨n, rfl⟩ : ∃ n, N = n + 1 := ⟨N - 1, by have := NeZero.ne N; omega⟩
  rw [show v.sum = _ from foldFirst_congr (foldFirstR_succ (· + ·) v)]
  have h0 : Err u k (m 0) v[0] (x 0) := by simpa using h 0
  have := Err.foldl_add hF (List.ofFn fun i : Fin n => i) (fun i => v[i.1 + 1]) (fun i => x i.succ) (fun i => m i.succ)
    (fun i _ => by simpa using h i.succ) h0 le_rfl
  rw [Fin.sum_univ_succ, Fin.sum_univ_succ, ← List.sum_ofFn, ← List.sum_ofFn]
  simpa [List.map_ofFn, Function.comp_def, List.foldl_map, List.ofFn_eq_map, List.map_id] using this

theorem Vec.dot_err [NeZero N] (hF : Rounding u F) (v w : Vec (Fl F) N) (x y m n : Fin N → ℝ) {k l : ℕ}
    (h : ∀ i : Fin N, Err u k (m i) v[i.1] (x i)) (h' : ∀ i : Fin N, Err u l (n i) w[i.1] (y i)) :
    Err u (k + l + N) (∑ i, m i * n i) (v.dot w) (∑ i, x i * y i) := by
  have := Vec.sum_err hF (v * w) (fun i => x i * y i) (fun i => m i * n i) (k := k + l + 1)
    (fun i => by simpa using (h i).mul hF (h' i))
  have e : k + l + 1 + (N - 1) = k + l + N := by have := NeZero.ne N; omega
  rwa [e] at this

/-! ### determinant -/

/-- Laplace expansion without signs. -/
def plap (f : Nat → Nat → ℝ) : List Nat → List Nat → ℝ
  | [], _ => 1
  | i :: R, C => ∑ k : Fin C.length, f i C[k.1] * plap f R (C.eraseIdx k.1)

theorem plap_eq_permanent (f : Nat → Nat → ℝ) (n : Nat) (R C : List Nat) (hR : R.length = n) (hC : C.length = n) :
    plap f R C = (Matrix.of fun a b : Fin n => f (R[a.1]'(by omega)) (C[b.1]'(by omega))).permanent := by
  induction n generalizing R C with
  | zero =>
    have : R = [] := List.length_eq_zero_iff.mp hR
    subst this; simp [plap, Matrix.permanent]
  | succ n ih =>
    cases R with
    | nil => simp at hR
    | cons i R =>
      rw [plap, permanent_succ_row_zero]
      refine Fintype.sum_equiv (finCongr hC) _ _ fun k => ?_
      have hk : k.1 < C.length := by omega
      rw [ih R (C.eraseIdx k) (by simpa using hR) (by rw [List.length_eraseIdx_of_lt hk]; omega)]
      have e : (Matrix.of fun a b : Fin n => f (R[a.1]'(by simp at hR; omega))
            ((C.eraseIdx k.1)[b.1]'(by rw [List.length_eraseIdx_of_lt hk]; omega))) =
          ((Matrix.of fun a b : Fin (n + 1) => f ((i :: R)[a.1]'(by omega)) (C[b.1]'(by omega))).submatrix Fin.succ
            (finCongr hC k).succAbove) := by
        ext a b
        simp only [Matrix.of_apply, Matrix.submatrix_apply, Fin.val_succ, List.getElem_cons_succ]
        congr 1
        rw [List.getElem_eraseIdx]
        by_cases h : b.1 < k.1
        · rw [dif_pos h]
          simp [Fin.succAbove, Fin.lt_def, h]
        · rw [dif_neg h]
          simp [Fin.succAbove, Fin.lt_def, h]
      rw [e]
      simp

/-- Number of roundings on the longest path of the determinant of size `n`. -/
def detDepth (n : ℕ) : ℕ := n * (n + 3) / 2

theorem detDepth_succ (n : ℕ) : detDepth (n + 1) = detDepth n + 1 + (n + 1) := by
  unfold detDepth
  rw [show (n + 1) * (n + 1 + 3) = n * (n + 3) + 2 * (n + 2) by ring]
  omega

theorem Mat.sgn_err {k : ℕ} {m x : ℝ} {a : Fl F} (h : Err u k m a x) (r : ℕ) : Err u k m (Mat.sgn r a) (Mat.sgn r x) := by
  unfold Mat.sgn; split
  · exact h.neg
  · exact h

theorem Mat.lap_err (hF : Rounding u F) (f : Nat → Nat → Fl F) (g : Nat → Nat → ℝ) (h : ∀ i j, Err u 0 |g i j| (f i j) (g i j))
    (n : ℕ) (R C : List Nat) (hR : R.length = n) (hC : C.length = n) :
    Err u (detDepth n) (plap (fun i j => |g i j|) R C) (Mat.lap f R C) (Mat.lap g R C) := by
  induction n generalizing R C with
  | zero =>
    have : R = [] := List.length_eq_zero_iff.mp hR
    subst this; exact Err.one
  | succ n ih =>
    cases R with
    | nil => simp at hR
    | cons i R =>
      have hT : ∀ k ∈ List.range C.length, Err u (0 + detDepth n + 1)
          (|g i (C[k]?.getD 0)| * plap (fun i j => |g i j|) R (C.eraseIdx k))
          (f i (C[k]?.getD 0) * Mat.sgn k (Mat.lap f R (C.eraseIdx k)))
          (g i (C[k]?.getD 0) * Mat.sgn k (Mat.lap g R (C.eraseIdx k))) := fun k hk =>
        (h _ _).mul hF (Mat.sgn_err (ih R (C.eraseIdx k) (by simpa using hR)
          (by rw [List.length_eraseIdx_of_lt (by simpa using hk)]; omega)) k)
      have := Err.foldl_add hF (List.range C.length) _ _ _ hT
        (Err.zero.mono hF.1 (Nat.zero_le (0 + detDepth n + 1)) le_rfl) le_rfl
      rw [detDepth_succ]
      rw [Mat.lap, Mat.lap, Mat.foldl_range_add, plap]
      have e1 : ∀ (c : ℕ → ℝ) (n : ℕ), ((List.range n).map c).sum = ∑ k : Fin n, c k.1 := by
        intro c n
        induction n with
        | zero => simp
        | succ n ih => rw [List.range_succ, List.map_append, List.sum_append, ih, Fin.sum_univ_castSucc]; simp
      have e2 : (0 + detDepth n + 1 + (List.range C.length).length) = detDepth n + 1 + (n + 1) := by simp [hC]
      rw [e1, e1, e2, zero_add, zero_add] at this
      convert this using 2 with k
      rw [List.getElem?_eq_getElem k.2]; rfl

/-! ### relative error -/
namespace Spec.RelClose
variable {k l : ℕ} {r s x y : ℝ}

theorem refl (u x : ℝ) : RelClose u 0 x x := ⟨1, by simp, by simp, by simp⟩
theorem mono (hu : 0 ≤ u) (hu1 : u < 1) (h : RelClose u k r x) (hkl : k ≤ l) : RelClose u l r x := by
  obtain ⟨θ, e, h1, h2⟩ := h
  have : (1 - u) ^ l ≤ (1 - u) ^ k := pow_le_pow_of_le_one (by linarith) (by linarith) hkl
  refine ⟨θ, e, this.trans h1, h2.trans (inv_anti₀ (by have : 0 < 1 - u := by linarith
                                                       positivity) this)⟩
theorem of_round (hu : 0 ≤ u) (hu1 : u < 1) (h : |r - x| ≤ u * |x|) : RelClose u 1 r x := by
  by_cases hx : x = 0
  · subst hx
    have : r = 0 := by simpa using h
    subst this
    exact (refl u 0).mono hu hu1 (by omega)
  · have hp : 0 < 1 - u := by linarith
    have h' : |r / x - 1| ≤ u := by
      rw [div_sub_one hx, abs_div, div_le_iff₀ (abs_pos.2 hx)]; exact h
    rw [abs_le] at h'
    refine ⟨r / x, by field_simp, by rw [pow_one]; linarith, ?_⟩
    rw [pow_one, le_inv_comm₀ (by linarith) hp, inv_eq_one_div, le_div_iff₀ (by linarith)]
    nlinarith
theorem trans (hu1 : u < 1) (h : RelClose u k r x) (h' : RelClose u l s r) : RelClose u (k + l) s x := by
  have hp : 0 < 1 - u := by linarith
  obtain ⟨θ, rfl, h1, h2⟩ := h
  obtain ⟨η, rfl, h3, h4⟩ := h'
  have hk : 0 < (1 - u) ^ k := by positivity
  have hl : 0 < (1 - u) ^ l := by positivity
  refine ⟨θ * η, by ring, ?_, ?_⟩
  · rw [pow_add]; exact mul_le_mul h1 h3 hl.le (hk.le.trans h1)
  · rw [pow_add, mul_inv]; exact mul_le_mul h2 h4 (hl.le.trans h3) (by positivity)
theorem mul (hu1 : u < 1) (h : RelClose u k r x) (h' : RelClose u l s y) : RelClose u (k + l) (r * s) (x * y) := by
  have hp : 0 < 1 - u := by linarith
  obtain ⟨θ, rfl, h1, h2⟩ := h
  obtain ⟨η, rfl, h3, h4⟩ := h'
  have hk : 0 < (1 - u) ^ k := by positivity
  have hl : 0 < (1 - u) ^ l := by positivity
  refine ⟨θ * η, by ring, ?_, ?_⟩
  · rw [pow_add]; exact mul_le_mul h1 h3 hl.le (hk.le.trans h1)
  · rw [pow_add, mul_inv]; exact mul_le_mul h2 h4 (hl.le.trans h3) (by positivity)
theorem inv (hu1 : u < 1) (h : RelClose u k r x) : RelClose u k r⁻¹ x⁻¹ := by
  have hp : 0 < 1 - u := by linarith
  obtain ⟨θ, rfl, h1, h2⟩ := h
  have hk : 0 < (1 - u) ^ k := by positivity
  refine ⟨θ⁻¹, by rw [mul_inv], ?_, inv_anti₀ hk h1⟩
  rw [le_inv_comm₀ hk (hk.trans_le h1)]; exact h2
theorem div (hu1 : u < 1) (h : RelClose u k r x) (h' : RelClose u l s y) : RelClose u (k + l) (r / s) (x / y) := by
  rw [div_eq_mul_inv, div_eq_mul_inv]; exact h.mul hu1 (h'.inv hu1)
theorem neg (h : RelClose u k r x) : RelClose u k (-r) (-x) := by
  obtain ⟨θ, rfl, h1, h2⟩ := h
  exact ⟨θ, by ring, h1, h2⟩
theorem nonneg (hu1 : u < 1) (h : RelClose u k r x) (hx : 0 ≤ x) : 0 ≤ r := by
  have hp : 0 < 1 - u := by linarith
  obtain ⟨θ, rfl, h1, -⟩ := h
  exact mul_nonneg hx (le_trans (by positivity) h1)
theorem add (h : RelClose u k r x) (h' : RelClose u k s y) (hx : 0 ≤ x) (hy : 0 ≤ y) : RelClose u k (r + s) (x + y) := by
  obtain ⟨θ, rfl, h1, h2⟩ := h
  obtain ⟨η, rfl, h3, h4⟩ := h'
  by_cases h0 : x + y = 0
  · have hx0 : x = 0 := by linarith
    have hy0 : y = 0 := by linarith
    subst hx0; subst hy0
    exact ⟨θ, by simp, h1, h2⟩
  · have hpos : 0 < x + y := lt_of_le_of_ne (by linarith) (Ne.symm h0)
    refine ⟨(x * θ + y * η) / (x + y), by field_simp, ?_, ?_⟩
    · rw [le_div_iff₀ hpos]; nlinarith
    · rw [div_le_iff₀ hpos]; nlinarith
theorem sqrt (hu1 : u < 1) (h : RelClose u (2 * k) r x) (hx : 0 ≤ x) : RelClose u k (Real.sqrt r) (Real.sqrt x) := by
  have hp : 0 < 1 - u := by linarith
  obtain ⟨θ, rfl, h1, h2⟩ := h
  refine ⟨Real.sqrt θ, by rw [Real.sqrt_mul hx], ?_, ?_⟩
  · refine Real.le_sqrt_of_sq_le ?_
    rwa [← pow_mul, mul_comm]
  · rw [Real.sqrt_le_left (by positivity), inv_pow, ← pow_mul, mul_comm k 2]; exact h2
end Spec.RelClose

/-- `a`, if it is a number, is `x` up to `k` relative roundings. -/
def RErr (u : ℝ) (k : ℕ) (a : Fl F) (x : ℝ) : Prop := ∀ r, a.val = some r → RelClose u k r x

namespace RErr
variable {k l : ℕ} {x y : ℝ} {a b : Fl F}
theorem of_eq (h : a.val = some x) : RErr u 0 a x := fun r hr => by rw [h] at hr; cases hr; exact .refl u x
theorem mono (hu : 0 ≤ u) (hu1 : u < 1) (h : RErr u k a x) (hkl : k ≤ l) : RErr u l a x := fun r hr => (h r hr).mono hu hu1 hkl
theorem neg (h : RErr u k a x) : RErr u k (-a) (-x) := by
  intro r hr
  obtain ⟨s, hs, rfl⟩ : ∃ s, a.val = some s ∧ -s = r := by simpa [Neg.neg] using hr
  exact (h s hs).neg
theorem mul (hF : Rounding u F) (hu1 : u < 1) (h : RErr u k a x) (h' : RErr u l b y) : RErr u (k + l + 1) (a * b) (x * y) := by
  intro r hr
  obtain ⟨p, hp, q, hq, hr⟩ : ∃ p, a.val = some p ∧ ∃ q, b.val = some q ∧ F (p * q) = some r := by
    simpa [HMul.hMul, Mul.mul, Fl.lift2, Option.bind_eq_some_iff] using hr
  exact ((h p hp).mul hu1 (h' q hq)).trans hu1 (.of_round hF.1 hu1 (hF.2 _ _ hr))
theorem div (hF : Rounding u F) (hu1 : u < 1) (h : RErr u k a x) (h' : RErr u l b y) : RErr u (k + l + 1) (a / b) (x / y) := by
  intro r hr
  obtain ⟨p, hp, q, hq, hq0, hr⟩ : ∃ p, a.val = some p ∧ ∃ q, b.val = some q ∧ q ≠ 0 ∧ F (p / q) = some r := by
    simpa [HDiv.hDiv, Div.div, Option.bind_eq_some_iff] using hr
  exact ((h p hp).div hu1 (h' q hq)).trans hu1 (.of_round hF.1 hu1 (hF.2 _ _ hr))
theorem add (hF : Rounding u F) (hu1 : u < 1) (h : RErr u k a x) (h' : RErr u k b y) (hx : 0 ≤ x) (hy : 0 ≤ y) :
    RErr u (k + 1) (a + b) (x + y) := by
  intro r hr
  obtain ⟨p, hp, q, hq, hr⟩ : ∃ p, a.val = some p ∧ ∃ q, b.val = some q ∧ F (p + q) = some r := by
    simpa [HAdd.hAdd, Add.add, Fl.lift2, Option.bind_eq_some_iff] using hr
  exact ((h p hp).add (h' q hq) hx hy).trans hu1 (.of_round hF.1 hu1 (hF.2 _ _ hr))
theorem sqrt (hF : Rounding u F) (hu1 : u < 1) (h : RErr u (2 * k) a x) (hx : 0 ≤ x) :
    RErr u (k + 1) (FloatOps.sqrt a) (Real.sqrt x) := by
  intro r hr
  obtain ⟨p, hp, hp0, hr⟩ : ∃ p, a.val = some p ∧ 0 ≤ p ∧ F (Real.sqrt p) = some r := by
    simpa [FloatOps.sqrt, Option.bind_eq_some_iff] using hr
  exact ((h p hp).sqrt hu1 hx).trans hu1 (.of_round hF.1 hu1 (hF.2 _ _ hr))
theorem foldl_add (hF : Rounding u F) (hu1 : u < 1) {ι : Type*} (s : List ι) (g : ι → Fl F) (e : ι → ℝ)
    (hg : ∀ i ∈ s, RErr u k (g i) (e i)) (he : ∀ i ∈ s, 0 ≤ e i) (h : RErr u l a x) (hx : 0 ≤ x) (hkl : k ≤ l) :
    RErr u (l + s.length) (s.foldl (fun a i => a + g i) a) (x + (s.map e).sum) := by
  induction s generalizing a x l with
  | nil => simpa using h
  | cons i s ih =>
    have h1 := h.add hF hu1 ((hg i (by simp)).mono hF.1 hu1 hkl) hx (he i (by simp))
    have := ih (fun j hj => hg j (by simp [hj])) (fun j hj => he j (by simp [hj])) h1
      (add_nonneg hx (he i (by simp))) (by omega)
    simpa [add_assoc, add_comm, add_left_comm] using this
end RErr

theorem Vec.sum_rerr [NeZero N] (hF : Rounding u F) (hu1 : u < 1) (v : Vec (Fl F) N) (x : Fin N → ℝ) {k : ℕ}
    (hx : ∀ i, 0 ≤ x i) (h : ∀ i : Fin N, RErr u k v[i.1] (x i)) : RErr u (k + (N - 1)) v.sum (∑ i, x i) := by
  obtain ⟨n, rfl⟩ : ∃ n, N = n + 1 := ⟨N - 1, by have := NeZero.ne N; omega⟩
  rw [show v.sum = _ from foldFirst_congr (foldFirstR_succ (· + ·) v)]
  have h0 : RErr u k v[0] (x 0) := by simpa using h 0
  have := RErr.foldl_add hF hu1 (List.ofFn fun i : Fin n => i) (fun i => v[i.1 + 1]) (fun i => x i.succ)
    (fun i _ => by simpa using h i.succ) (fun i _ => hx _) h0 (hx 0) le_rfl
  rw [Fin.sum_univ_succ, ← List.sum_ofFn]
  simpa [List.map_ofFn, Function.comp_def, List.foldl_map, List.ofFn_eq_map, List.map_id] using this

theorem Vec.squareLength_rerr [NeZero N] (hF : Rounding u F) (hu1 : u < 1) (v : Vec (Fl F) N) (x : Fin N → ℝ)
    (h : ∀ i : Fin N, v[i.1].val = some (x i)) : RErr u N v.squareLength (∑ i, x i ^ 2) := by
  have := Vec.sum_rerr hF hu1 (v.map fun x => x * x) (fun i => x i * x i) (k := 1) (fun i => mul_self_nonneg _)
    (fun i => by simpa using (RErr.of_eq (h i)).mul hF hu1 (RErr.of_eq (h i)))
  have e : 1 + (N - 1) = N := by have := NeZero.ne N; omega
  rw [e] at this
  simp only [sq]; exact this

theorem Vec.length_rerr [NeZero N] (hF : Rounding u F) (hu1 : u < 1) (v : Vec (Fl F) N) (x : Fin N → ℝ)
    (h : ∀ i : Fin N, v[i.1].val = some (x i)) : RErr u ((N + 1) / 2 + 1) v.length (Real.sqrt (∑ i, x i ^ 2)) :=
  ((Vec.squareLength_rerr hF hu1 v x h).mono hF.1 hu1 (by omega)).sqrt hF hu1 (Finset.sum_nonneg fun i _ => sq_nonneg _)

theorem Vec.normalize_rerr [NeZero N] (hF : Rounding u F) (hu1 : u < 1) (v : Vec (Fl F) N) (x : Fin N → ℝ)
    (h : ∀ i : Fin N, v[i.1].val = some (x i)) (i : Fin N) :
    RErr u ((N + 1) / 2 + 2) v.normalize[i.1] (x i / Real.sqrt (∑ i, x i ^ 2)) := by
  have := (RErr.of_eq (h i)).div hF hu1 (Vec.length_rerr hF hu1 v x h)
  rw [zero_add] at this
  simpa [Vec.normalize] using this

end Vecmat
