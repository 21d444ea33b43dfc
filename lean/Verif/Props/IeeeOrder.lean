import Verif.Lemmas.IeeeOrder
import Verif.Props.IeeeRange
import Verif.Lemmas.IeeeEx
import Verif.Lemmas.Transforms
import Verif.Lemmas.Flat
/-!
# C116: order survives rounding
Scalars are IEEE-754 floats (any binary format, in particular `f32`, `f64`); `rle a b`, `rgt a b` are the comparisons `a <= b`, `a > b` of
the program. There are no range conditions: overflow, underflow, infinities and signed zeros are included. Where a result may be NaN the
statement is "not above" (`rgt .. = false`, i.e. `!(a > b)`), otherwise `<=`.
-/
namespace Vecmat
open Spec Ieee
variable {φ : Fmt} {L M N : Nat}

private theorem one_le (hφ : WF φ) : 1 ≤ φ.p := by have := hφ.1; omega

/-! ## Addition, subtraction, scaling -/

/-- Moving two points by the same shift does not reverse the order of their coordinates; composing two shifts is monotone. -/
theorem C116_shift (hφ : WF φ) (t : Shift (Ieee φ) N) (x y : Vec (Ieee φ) N) (i : Nat) (hi : i < N) :
    (rgt x[i] y[i] = false → rgt (Transform.apply t x)[i] (Transform.apply t y)[i] = false) ∧
    (Spec.Finite t.intoVector[i] → rle x[i] y[i] = true → rle (Transform.apply t x)[i] (Transform.apply t y)[i] = true) := by
  have e : ∀ z : Vec (Ieee φ) N, (Transform.apply t z)[i] = z[i] + t.pos[i] := fun z => Vec.getElem_add z t.pos i hi
  rw [e, e]
  constructor
  · rw [not_gt_iff, not_gt_iff]
    intro h
    have ht : Wle t.pos[i] t.pos[i] := by
      by_cases hn : t.pos[i] = .nan
      · exact .inl hn
      · exact (Le.refl hn).w
    exact Wle.add (one_le hφ) h ht
  · rw [Le_iff, Le_iff]
    intro ht h
    obtain ⟨s, hs⟩ : ∃ s, (t.pos[i] : Ieee φ).toReal? = some s := by
      rcases cases_real t.pos[i] with e | e | e | e
      · exact absurd e ht.1
      · exact absurd e (ht.2 _)
      · exact absurd e (ht.2 _)
      · exact e
    exact add_le (one_le hφ) h (Le.refl ht.1) (add_ne_nan_of_real h.left hs) (add_ne_nan_of_real h.right hs)

/-- The difference of two vectors grows with the first and falls with the second. -/
theorem C116_add_sub (hφ : WF φ) (x x' y y' : Vec (Ieee φ) N) (i : Nat) (hi : i < N) (h : rgt x[i] x'[i] = false)
    (h' : rgt y[i] y'[i] = false) :
    rgt (x + y)[i] (x' + y')[i] = false ∧ rgt (x - y')[i] (x' - y)[i] = false ∧ rgt (-x')[i] (-x)[i] = false := by
  rw [not_gt_iff] at h h'
  simp only [Vec.getElem_add, Vec.getElem_sub, Vec.getElem_neg, not_gt_iff]
  exact ⟨Wle.add (one_le hφ) h h', Wle.add (one_le hφ) h (Wle.neg h'), Wle.neg h⟩

private theorem mulS_wle (hφ : WF φ) {s a b : Ieee φ} (hs : Le 0 s) (h : Wle a b) : Wle (a * s) (b * s) := by
  rw [imul_comm a, imul_comm b]; exact Wle.mul (one_le hφ) hs h

/-- Scaling by a factor `>= 0` keeps the order, by a factor `<= 0` reverses it; dividing by a number `> 0` keeps it. -/
theorem C116_scale [Inv (Ieee φ)] (hφ : WF φ) (t : Scale (Ieee φ)) (x y : Vec (Ieee φ) N) (i : Nat) (hi : i < N)
    (h : rgt x[i] y[i] = false) :
    (rle 0 t.intoMag = true → rgt (Transform.apply t x)[i] (Transform.apply t y)[i] = false) ∧
    (rle t.intoMag 0 = true → rgt (Transform.apply t y)[i] (Transform.apply t x)[i] = false) ∧
    (rlt 0 t.intoMag = true → rgt (x.divS t.intoMag)[i] (y.divS t.intoMag)[i] = false) := by
  have e : ∀ z : Vec (Ieee φ) N, (Transform.apply t z)[i] = z[i] * t.mag := fun z => Vec.getElem_mulS z t.mag i hi
  rw [e, e, Vec.getElem_divS, Vec.getElem_divS]
  rw [not_gt_iff] at h
  simp only [not_gt_iff, Le_iff]
  refine ⟨fun hs => mulS_wle hφ hs h, fun hs => ?_, fun hs => ?_⟩
  · have h0 : Le 0 (-t.mag) := by
      have := hs.neg
      obtain ⟨x, y, h1, h2, h3⟩ := this
      exact ⟨x, y, h1, h2, h3⟩
    have := (mulS_wle hφ h0 h).neg
    rwa [imul_neg, imul_neg, ineg_neg, ineg_neg] at this
  · have hs' : Le 0 t.mag ∧ ∀ s, t.mag ≠ .zero s := by
      unfold rlt at hs; rw [pcmp_def] at hs
      change (match (Ieee.zero false : Ieee φ).toEReal?, t.mag.toEReal? with | some a, some b => some (compare a b) | _, _ => none) == some .lt at hs
      rcases hm : t.mag.toEReal? with _ | m
      · rw [hm] at hs; simp [toEReal?] at hs
      · rw [hm] at hs
        simp [toEReal?, compare_lt_iff_lt] at hs
        refine ⟨⟨0, m, rfl, hm, hs.le⟩, fun s e => ?_⟩
        rw [e] at hm; cases hm; exact absurd hs (lt_irrefl _)
    exact Wle.div (one_le hφ) hs'.1 hs'.2 h

/-! ## Sums, dot products, matrices -/

/-- The sum grows with the components. -/
theorem C116_sum (hφ : WF φ) (hN : 0 < N) (v w : Vec (Ieee φ) N) (h : ∀ i (hi : i < N), rgt v[i] w[i] = false) :
    ∃ s t, v.sumR = .ok s ∧ w.sumR = .ok t ∧ rgt s t = false := by
  have : NeZero N := ⟨by omega⟩
  refine ⟨_, _, Vec.sum_ok v, Vec.sum_ok w, ?_⟩
  rw [not_gt_iff]
  exact sum_wle (one_le hφ) v w fun i hi => (not_gt_iff _ _).mp (h i hi)

private theorem dot_wle (hφ : WF φ) [NeZero N] (a v w : Vec (Ieee φ) N) (ha : ∀ i (hi : i < N), Le 0 a[i])
    (h : ∀ i (hi : i < N), Wle v[i] w[i]) : Wle (a.dot v) (a.dot w) := by
  rw [show a.dot v = ((a.zip v).map fun p => p.1 * p.2).sum from rfl, show a.dot w = ((a.zip w).map fun p => p.1 * p.2).sum from rfl]
  refine sum_wle (one_le hφ) _ _ fun i hi => ?_
  simpa using Wle.mul (one_le hφ) (ha i hi) (h i hi)

/-- The dot product with a vector without negative (and NaN) components grows with the other vector. -/
theorem C116_dot (hφ : WF φ) (hN : 0 < N) (a v w : Vec (Ieee φ) N) (ha : ∀ i (hi : i < N), rle 0 a[i] = true)
    (h : ∀ i (hi : i < N), rgt v[i] w[i] = false) :
    ∃ s t, a.dotR v = .ok s ∧ a.dotR w = .ok t ∧ rgt s t = false := by
  have : NeZero N := ⟨by omega⟩
  refine ⟨_, _, Vec.dot_ok a v, Vec.dot_ok a w, ?_⟩
  rw [not_gt_iff]
  exact dot_wle hφ a v w (fun i hi => (Le_iff _ _).mp (ha i hi)) fun i hi => (not_gt_iff _ _).mp (h i hi)

/-- A matrix without negative entries acts monotonically, from the left and from the right. -/
theorem C116_mat_vec (hφ : WF φ) (hN : 0 < N) (A : Mat (Ieee φ) M N) (v w : Vec (Ieee φ) N)
    (hA : ∀ i (hi : i < M) j (hj : j < N), rle 0 A[i][j] = true) (h : ∀ j (hj : j < N), rgt v[j] w[j] = false) :
    (∃ x y, A.dotVR v = .ok x ∧ A.dotVR w = .ok y ∧ ∀ i (hi : i < M), rgt x[i] y[i] = false) ∧
    ∃ x y, Mat.vDotR v A.transpose = .ok x ∧ Mat.vDotR w A.transpose = .ok y ∧ ∀ i (hi : i < M), rgt x[i] y[i] = false := by
  have : NeZero N := ⟨by omega⟩
  rw [← C80_transpose_vec, ← C80_transpose_vec]
  have key : ∃ x y, A.dotVR v = .ok x ∧ A.dotVR w = .ok y ∧ ∀ i (hi : i < M), rgt x[i] y[i] = false := by
    refine ⟨_, _, Mat.dotVR_get A v, Mat.dotVR_get A w, fun i hi => ?_⟩
    rw [not_gt_iff]
    simp only [Vec.getElem_mk, Vector.getElem_ofFn]
    exact dot_wle hφ _ v w (fun j hj => (Le_iff _ _).mp (hA i hi j hj)) fun j hj => (not_gt_iff _ _).mp (h j hj)
  exact ⟨key, key⟩

/-- The matrix product with a matrix without negative entries is monotone in the other factor. -/
theorem C116_mat_mat (hφ : WF φ) (hM : 0 < M) (A : Mat (Ieee φ) L M) (B C : Mat (Ieee φ) M N)
    (hA : ∀ i (hi : i < L) j (hj : j < M), rle 0 A[i][j] = true)
    (h : ∀ i (hi : i < M) j (hj : j < N), rgt B[i][j] C[i][j] = false) :
    (∃ X Y, A.dotMR B = .ok X ∧ A.dotMR C = .ok Y ∧ ∀ i (hi : i < L) j (hj : j < N), rgt X[i][j] Y[i][j] = false) ∧
    ∃ X Y, B.transpose.dotMR A.transpose = .ok X ∧ C.transpose.dotMR A.transpose = .ok Y ∧
      ∀ i (hi : i < N) j (hj : j < L), rgt X[i][j] Y[i][j] = false := by
  have : NeZero M := ⟨by omega⟩
  constructor
  · refine ⟨_, _, Mat.dotMR_get A B, Mat.dotMR_get A C, fun i hi j hj => ?_⟩
    rw [not_gt_iff]
    simp only [Mat.getElem_mk, Vec.getElem_mk, Vector.getElem_ofFn]
    refine dot_wle hφ _ _ _ (fun k hk => (Le_iff _ _).mp (hA i hi k hk)) fun k hk => ?_
    have := (not_gt_iff _ _).mp (h k hk j hj)
    simpa [Wle] using this
  · refine ⟨_, _, Mat.dotMR_get _ _, Mat.dotMR_get _ _, fun i hi j hj => ?_⟩
    rw [not_gt_iff]
    simp only [Mat.getElem_mk, Vec.getElem_mk, Vector.getElem_ofFn]
    rw [dot_comm_pure, dot_comm_pure (C.transpose[i])]
    refine dot_wle hφ _ _ _ (fun k hk => ?_) fun k hk => ?_
    · simpa using (Le_iff _ _).mp (hA j hj k hk)
    · have := (not_gt_iff _ _).mp (h k hk i hi)
      simpa [Wle] using this

/-- `Linear::apply` and `Affine::apply` with a matrix without negative entries are monotone. -/
theorem C116_affine (hφ : WF φ) [NeZero N] (t : Affine (Ieee φ) N) (x y : Vec (Ieee φ) N)
    (hA : ∀ i (hi : i < N) j (hj : j < N), rle 0 (t.linear.intoMatrix)[i][j] = true) (h : ∀ j (hj : j < N), rgt x[j] y[j] = false)
    (i : Nat) (hi : i < N) :
    rgt (Transform.apply t.linear x)[i] (Transform.apply t.linear y)[i] = false ∧
    rgt (Transform.apply t x)[i] (Transform.apply t y)[i] = false := by
  have h1 : ∀ (i : Nat) (hi : i < N), rgt (Transform.apply t.linear x)[i] (Transform.apply t.linear y)[i] = false := by
    intro i hi
    rw [not_gt_iff]
    have e : ∀ z, (Transform.apply t.linear z)[i] = (t.linear.lin[i]).dot z := fun z => Mat.getElem_dotV t.linear.lin z i hi
    rw [e, e]
    exact dot_wle hφ _ _ _ (fun k hk => (Le_iff _ _).mp (hA i hi k hk)) fun k hk => (not_gt_iff _ _).mp (h k hk)
  exact ⟨h1 i hi, (C116_shift hφ t.shift (Transform.apply t.linear x) (Transform.apply t.linear y) i hi).1 (h1 i hi)⟩

/-! ## Lengths and norms -/

private theorem sum_le (hφ : WF φ) [NeZero N] (v w : Vec (Ieee φ) N) (h0 : ∀ i (hi : i < N), Le 0 v[i])
    (h : ∀ i (hi : i < N), Le v[i] w[i]) : Le 0 v.sum ∧ Le v.sum w.sum := by
  obtain ⟨s, hs, hs'⟩ := sum_nonneg' v (NeZero.pos N) fun i hi => (nonneg_iff_Le _).mpr (h0 i hi)
  obtain ⟨t, ht, ht'⟩ := sum_nonneg' w (NeZero.pos N) fun i hi => (nonneg_iff_Le _).mpr ((h0 i hi).trans (h i hi))
  rw [Vec.sum_ok] at hs ht
  cases hs; cases ht
  rw [nonneg_iff_Le] at hs' ht'
  exact ⟨hs', (sum_wle (one_le hφ) v w fun i hi => (h i hi).w).le hs'.right ht'.right⟩

private theorem rlt_false {a b : Ieee φ} (ha : a ≠ .nan) (hb : b ≠ .nan) : (rlt a b = false → Le b a) ∧ (rlt a b = true → Le a b) := by
  obtain ⟨x, hx⟩ := toEReal_some ha
  obtain ⟨y, hy⟩ := toEReal_some hb
  unfold rlt; rw [pcmp_def, hx, hy]
  simp only [Le, hx, hy]
  constructor
  · intro h
    refine ⟨y, x, rfl, rfl, not_lt.mp fun hlt => ?_⟩
    rw [compare_lt_iff_lt.mpr hlt] at h; simp at h
  · intro h
    refine ⟨x, y, rfl, rfl, ?_⟩
    simp [compare_lt_iff_lt] at h; exact h.le

private theorem foldl_max (l : List (Ieee φ)) : ∀ {a : Ieee φ}, a ≠ .nan → (∀ b ∈ l, b ≠ .nan) →
    (l.foldl (fun x y => if rlt x y then y else x) a = a ∨ l.foldl (fun x y => if rlt x y then y else x) a ∈ l) ∧
    Le a (l.foldl (fun x y => if rlt x y then y else x) a) ∧ ∀ b ∈ l, Le b (l.foldl (fun x y => if rlt x y then y else x) a) := by
  induction l with
  | nil => exact fun ha _ => ⟨.inl rfl, Le.refl ha, by simp⟩
  | cons b l ih =>
    intro a ha hl
    have hb := hl b (by simp)
    have hl' : ∀ c ∈ l, c ≠ .nan := fun c hc => hl c (by simp [hc])
    rw [List.foldl_cons]
    by_cases h : rlt a b = true
    · rw [if_pos h]
      obtain ⟨h1, h2, h3⟩ := ih hb hl'
      have hab := (rlt_false ha hb).2 h
      refine ⟨.inr ?_, hab.trans h2, ?_⟩
      · rcases h1 with e | e
        · rw [e]; simp
        · simp [e]
      · intro c hc
        rcases List.mem_cons.mp hc with rfl | hc
        · exact h2
        · exact h3 c hc
    · rw [if_neg h]
      obtain ⟨h1, h2, h3⟩ := ih ha hl'
      have hba := (rlt_false ha hb).1 (by simpa using h)
      refine ⟨?_, h2, ?_⟩
      · rcases h1 with e | e
        · exact .inl e
        · exact .inr (by simp [e])
      · intro c hc
        rcases List.mem_cons.mp hc with rfl | hc
        · exact hba.trans h2
        · exact h3 c hc

private theorem foldl_min (l : List (Ieee φ)) : ∀ {a : Ieee φ}, a ≠ .nan → (∀ b ∈ l, b ≠ .nan) →
    (l.foldl (fun x y => if rlt x y then x else y) a = a ∨ l.foldl (fun x y => if rlt x y then x else y) a ∈ l) ∧
    Le (l.foldl (fun x y => if rlt x y then x else y) a) a ∧ ∀ b ∈ l, Le (l.foldl (fun x y => if rlt x y then x else y) a) b := by
  induction l with
  | nil => exact fun ha _ => ⟨.inl rfl, Le.refl ha, by simp⟩
  | cons b l ih =>
    intro a ha hl
    have hb := hl b (by simp)
    have hl' : ∀ c ∈ l, c ≠ .nan := fun c hc => hl c (by simp [hc])
    rw [List.foldl_cons]
    by_cases h : rlt a b = true
    · rw [if_pos h]
      obtain ⟨h1, h2, h3⟩ := ih ha hl'
      have hab := (rlt_false ha hb).2 h
      refine ⟨?_, h2, ?_⟩
      · rcases h1 with e | e
        · exact .inl e
        · exact .inr (by simp [e])
      · intro c hc
        rcases List.mem_cons.mp hc with rfl | hc
        · exact h2.trans hab
        · exact h3 c hc
    · rw [if_neg h]
      obtain ⟨h1, h2, h3⟩ := ih hb hl'
      have hba := (rlt_false ha hb).1 (by simpa using h)
      refine ⟨.inr ?_, h2.trans hba, ?_⟩
      · rcases h1 with e | e
        · rw [e]; simp
        · simp [e]
      · intro c hc
        rcases List.mem_cons.mp hc with rfl | hc
        · exact h2
        · exact h3 c hc

/-- On floats without NaN (infinities allowed) `max()` is a component not below any component, `min()` one not above any. -/
theorem C116_max_min (hN : 0 < N) (v : Vec (Ieee φ) N) (h : ∀ i (hi : i < N), v[i] ≠ .nan) :
    (∃ m, v.maxR = .ok m ∧ (∃ i, ∃ hi : i < N, m = v[i]) ∧ ∀ i (hi : i < N), rle v[i] m = true) ∧
    ∃ m, v.minR = .ok m ∧ (∃ i, ∃ hi : i < N, m = v[i]) ∧ ∀ i (hi : i < N), rle m v[i] = true := by
  obtain ⟨n, rfl⟩ : ∃ n, N = n + 1 := ⟨N - 1, by omega⟩
  have hl : ∀ b ∈ (List.ofFn fun i : Fin n => v[i.1 + 1]), b ≠ .nan := by
    intro b hb; obtain ⟨i, rfl⟩ := (List.mem_ofFn' _ _).mp hb; exact h _ _
  have pos : ∀ {m : Ieee φ}, (m = v[0] ∨ m ∈ (List.ofFn fun i : Fin n => v[i.1 + 1])) → ∃ i, ∃ hi : i < n + 1, m = v[i] := by
    rintro m (rfl | hm)
    · exact ⟨0, by omega, rfl⟩
    · obtain ⟨i, rfl⟩ := (List.mem_ofFn' _ _).mp hm; exact ⟨i.1 + 1, by omega, rfl⟩
  have all : ∀ {P : Ieee φ → Prop}, P v[0] → (∀ b ∈ (List.ofFn fun i : Fin n => v[i.1 + 1]), P b) → ∀ i (hi : i < n + 1), P v[i] := by
    intro P h0 h1 i hi
    match i, hi with
    | 0, _ => exact h0
    | i + 1, hi => exact h1 _ (by rw [List.mem_ofFn]; exact ⟨⟨i, by omega⟩, rfl⟩)
  constructor
  · obtain ⟨h1, h2, h3⟩ := foldl_max _ (h 0 (by omega)) hl
    exact ⟨_, Vec.foldFirstR_succ _ v, pos h1, all (P := fun b => rle b _ = true) ((Le_iff _ _).mpr h2) fun b hb => (Le_iff _ _).mpr (h3 b hb)⟩
  · obtain ⟨h1, h2, h3⟩ := foldl_min _ (h 0 (by omega)) hl
    exact ⟨_, Vec.foldFirstR_succ _ v, pos h1, all (P := fun b => rle _ b = true) ((Le_iff _ _).mpr h2) fun b hb => (Le_iff _ _).mpr (h3 b hb)⟩

/-- `max()` and `min()` grow with the components. -/
theorem C116_max_min_mono (hN : 0 < N) (v w : Vec (Ieee φ) N) (h : ∀ i (hi : i < N), rle v[i] w[i] = true) :
    (∃ s t, v.maxR = .ok s ∧ w.maxR = .ok t ∧ rle s t = true) ∧ ∃ s t, v.minR = .ok s ∧ w.minR = .ok t ∧ rle s t = true := by
  have hl : ∀ i (hi : i < N), v[i] ≠ .nan := fun i hi => ((Le_iff _ _).mp (h i hi)).left
  have hr : ∀ i (hi : i < N), w[i] ≠ .nan := fun i hi => ((Le_iff _ _).mp (h i hi)).right
  obtain ⟨⟨s, hs, ⟨i, hi, es⟩, -⟩, ⟨s', hs', -, hm'⟩⟩ := C116_max_min hN v hl
  obtain ⟨⟨t, ht, -, hm⟩, ⟨t', ht', ⟨j, hj, et⟩, -⟩⟩ := C116_max_min hN w hr
  simp only [Le_iff] at *
  exact ⟨⟨s, t, hs, ht, es ▸ (h i hi).trans (hm i hi)⟩, ⟨s', t', hs', ht', et ▸ (hm' j hj).trans (h j hj)⟩⟩

private theorem sum_abs (hφ : WF φ) [NeZero N] (v w : Vec (Ieee φ) N) (h : ∀ i (hi : i < N), rle (FloatOps.abs v[i]) (FloatOps.abs w[i]) = true) :
    Le 0 v.squareLength ∧ Le v.squareLength w.squareLength ∧ Le (v.map ScalarNorm.normL1).sum (w.map ScalarNorm.normL1).sum := by
  have hle : ∀ i (hi : i < N), Le v[i].abs w[i].abs := fun i hi => (Le_iff _ _).mp (h i hi)
  have hn : ∀ i (hi : i < N), v[i] ≠ .nan := fun i hi e => (hle i hi).left (by rw [e]; rfl)
  obtain ⟨h1, h2⟩ := sum_le hφ (v.map fun x => x * x) (w.map fun x => x * x)
    (fun i hi => by simpa using (nonneg_iff_Le _).mp (sq_nonneg' (hn i hi))) (fun i hi => by simpa using sq_le (one_le hφ) (hle i hi))
  have h3 := (sum_le hφ (v.map ScalarNorm.normL1) (w.map ScalarNorm.normL1)
    (fun i hi => by rw [Vec.getElem_map]; exact (nonneg_iff_Le _).mp (abs_nonneg' (hn i hi)))
    (fun i hi => by rw [Vec.getElem_map, Vec.getElem_map]; exact hle i hi)).2
  exact ⟨h1, h2, h3⟩

/-- Lengths and norms grow with the magnitudes of the components, also when squares overflow or underflow. -/
theorem C116_lengths (hφ : WF φ) (hN : 0 < N) (v w : Vec (Ieee φ) N)
    (h : ∀ i (hi : i < N), rle (FloatOps.abs v[i]) (FloatOps.abs w[i]) = true) :
    (∃ s t, v.squareLengthR = .ok s ∧ w.squareLengthR = .ok t ∧ rle s t = true) ∧
    (∃ s t, v.lengthR = .ok s ∧ w.lengthR = .ok t ∧ rle s t = true) ∧
    (∃ s t, v.normL1R = .ok s ∧ w.normL1R = .ok t ∧ rle s t = true) ∧
    (∃ s t, v.normL2SqrR = .ok s ∧ w.normL2SqrR = .ok t ∧ rle s t = true) ∧
    (∃ s t, v.normL2R = .ok s ∧ w.normL2R = .ok t ∧ rle s t = true) ∧
    (∃ s t, v.normLInfR = .ok s ∧ w.normLInfR = .ok t ∧ rle s t = true) := by
  have : NeZero N := ⟨by omega⟩
  obtain ⟨h0, h1, h2⟩ := sum_abs hφ v w h
  have h3 := sqrt_le (one_le hφ) h0 h1
  refine ⟨⟨_, _, Vec.squareLength_ok v, Vec.squareLength_ok w, (Le_iff _ _).mpr h1⟩,
    ⟨_, _, Vec.length_ok v, Vec.length_ok w, (Le_iff _ _).mpr h3⟩,
    ⟨_, _, Vec.sum_ok _, Vec.sum_ok _, (Le_iff _ _).mpr h2⟩, ⟨_, _, Vec.sum_ok _, Vec.sum_ok _, (Le_iff _ _).mpr h1⟩,
    ⟨_, _, Vec.length_ok v, Vec.length_ok w, (Le_iff _ _).mpr h3⟩, ?_⟩
  exact (C116_max_min_mono hN (v.map ScalarNorm.normLInf) (w.map ScalarNorm.normLInf)
    (fun i hi => by rw [Vec.getElem_map, Vec.getElem_map]; exact h i hi)).1

/-- The same for matrices. -/
theorem C116_mat_norms (hφ : WF φ) (hM : 0 < M) (hN : 0 < N) (A B : Mat (Ieee φ) M N)
    (h : ∀ i (hi : i < M) j (hj : j < N), rle (FloatOps.abs A[i][j]) (FloatOps.abs B[i][j]) = true) :
    (∃ s t, A.normL1R = .ok s ∧ B.normL1R = .ok t ∧ rle s t = true) ∧
    (∃ s t, A.normL2SqrR = .ok s ∧ B.normL2SqrR = .ok t ∧ rle s t = true) ∧
    (∃ s t, A.normL2R = .ok s ∧ B.normL2R = .ok t ∧ rle s t = true) ∧
    (∃ s t, A.normLInfR = .ok s ∧ B.normLInfR = .ok t ∧ rle s t = true) := by
  rw [Mat.normL1R_flat, Mat.normL1R_flat, Mat.normL2SqrR_flat, Mat.normL2SqrR_flat, Mat.normL2R_flat, Mat.normL2R_flat,
    Mat.normLInfR_flat, Mat.normLInfR_flat]
  obtain ⟨-, -, h1, h2, h3, h4⟩ := C116_lengths hφ (Nat.mul_pos hM hN) A.flat B.flat fun k hk => by
    obtain ⟨i, j, hi, hj, rfl⟩ := Mat.flat_idx hk
    rw [Mat.getElem_flat _ i j hi hj, Mat.getElem_flat _ i j hi hj]; exact h _ hi _ hj
  exact ⟨h1, h2, h3, h4⟩

/-- The norms of complex numbers and quaternions grow with the magnitudes of the components. -/
theorem C116_complex (hφ : WF φ) (z w : Cpx (Ieee φ)) (hre : rle (FloatOps.abs z.re) (FloatOps.abs w.re) = true)
    (him : rle (FloatOps.abs z.im) (FloatOps.abs w.im) = true) :
    rle z.normSqr w.normSqr = true ∧ rle z.norm w.norm = true ∧ rle z.normL1 w.normL1 = true := by
  obtain ⟨h0, h1, h2⟩ := sum_abs hφ z.vec w.vec fun i hi => by
    match i, hi with
    | 0, _ => exact hre
    | 1, _ => exact him
  exact ⟨(Le_iff _ _).mpr h1, (Le_iff _ _).mpr (sqrt_le (one_le hφ) h0 h1), (Le_iff _ _).mpr h2⟩
theorem C116_quaternion (hφ : WF φ) (p q : Quat (Ieee φ)) (hw : rle (FloatOps.abs p.w) (FloatOps.abs q.w) = true)
    (hx : rle (FloatOps.abs p.x) (FloatOps.abs q.x) = true) (hy : rle (FloatOps.abs p.y) (FloatOps.abs q.y) = true)
    (hz : rle (FloatOps.abs p.z) (FloatOps.abs q.z) = true) :
    rle p.normSqr q.normSqr = true ∧ rle p.norm q.norm = true ∧ rle p.normL1 q.normL1 = true := by
  obtain ⟨h0, h1, h2⟩ := sum_abs hφ p.vec q.vec fun i hi => by
    match i, hi with
    | 0, _ => exact hw
    | 1, _ => exact hx
    | 2, _ => exact hy
    | 3, _ => exact hz
  exact ⟨(Le_iff _ _).mpr h1, (Le_iff _ _).mpr (sqrt_le (one_le hφ) h0 h1), (Le_iff _ _).mpr h2⟩

/-! ## The maximum norm is at most the sum norm -/

private theorem le_add_nonneg (hφ : WF φ) {a b : Ieee φ} (ha : Datum a) (h0 : Le 0 a) (hb : Le 0 b) : Le a (a + b) := by
  have h1 : NonNeg (a + b) := add_nonneg' ((nonneg_iff_Le _).mpr h0) ((nonneg_iff_Le _).mpr hb)
  have hs : Same (a + 0) a := iadd_zero ha false
  have e : Le a (a + 0) := by
    rcases hs with e | ⟨s, t, e1, e2⟩
    · rw [e]; exact .refl h0.right
    · rw [e1, e2]; exact ⟨0, 0, rfl, rfl, le_rfl⟩
  exact e.trans (add_le (one_le hφ) (.refl h0.right) hb e.right ((nonneg_iff_Le _).mp h1).right)
private theorem datum_abs {a : Ieee φ} (h : Datum a) : Datum a.abs := by
  rcases a with _ | s | s | ⟨x, hx⟩
  · trivial
  · trivial
  · trivial
  · obtain ⟨m, e, h1, h2, h3⟩ := h
    rcases abs_cases x with ⟨hx', -⟩ | ⟨hx', -⟩
    · exact ⟨m, e, by rw [hx', h1], h2, h3⟩
    · exact ⟨-m, e, by rw [hx', h1]; push_cast; ring, by rwa [abs_neg], h3⟩
private theorem foldl_ge (hφ : WF φ) (l : List (Ieee φ)) : ∀ {a : Ieee φ}, Datum a → Le 0 a → (∀ b ∈ l, Le 0 b ∧ Datum b) →
    Le a (l.foldl (fun x y => x + y) a) ∧ ∀ b ∈ l, Le b (l.foldl (fun x y => x + y) a) := by
  induction l with
  | nil => exact fun _ h0 _ => ⟨.refl h0.right, by simp⟩
  | cons c l ih =>
    intro a ha h0 hl
    obtain ⟨hc, hcd⟩ := hl c (by simp)
    have h0' : Le 0 (a + c) := (nonneg_iff_Le _).mp (add_nonneg' ((nonneg_iff_Le _).mpr h0) ((nonneg_iff_Le _).mpr hc))
    obtain ⟨h1, h2⟩ := ih (datum_add hφ a c) h0' fun b hb => hl b (by simp [hb])
    refine ⟨(le_add_nonneg hφ ha h0 hc).trans h1, fun b hb => ?_⟩
    rcases List.mem_cons.mp hb with rfl | hb
    · refine Le.trans ?_ h1
      rw [iadd_comm]; exact le_add_nonneg hφ hcd hc h0
    · exact h2 b hb

/-- On floats that are not NaN: every magnitude is at most `norm_l_inf()`, which is one of them, and `norm_l_inf()` is at most
`norm_l1()`, without any rounding slack. -/
theorem C116_norm_order (hφ : WF φ) (hN : 0 < N) (v : Vec (Ieee φ) N) (hd : ∀ i (hi : i < N), Datum v[i] ∧ v[i] ≠ .nan) :
    ∃ m s, v.normLInfR = .ok m ∧ v.normL1R = .ok s ∧ (∃ i, ∃ hi : i < N, m = FloatOps.abs v[i]) ∧
      (∀ i (hi : i < N), rle (FloatOps.abs v[i]) m = true) ∧ rle m s = true := by
  obtain ⟨⟨m, hm, ⟨i, hi, e⟩, h1⟩, -⟩ := C116_max_min hN (v.map ScalarNorm.normLInf) fun i hi => by
    rw [Vec.getElem_map]; exact ((nonneg_iff_Le _).mp (abs_nonneg' (hd i hi).2)).right
  have hge : ∀ i (hi : i < N), ∃ s, v.normL1R = .ok s ∧ Le v[i].abs s := by
    obtain ⟨n, rfl⟩ : ∃ n, N = n + 1 := ⟨N - 1, by omega⟩
    have hall : ∀ i (hi : i < n + 1), Le 0 (v.map ScalarNorm.normL1)[i] ∧ Datum (v.map ScalarNorm.normL1)[i] := fun i hi => by
      rw [Vec.getElem_map]; exact ⟨(nonneg_iff_Le _).mp (abs_nonneg' (hd i hi).2), datum_abs (hd i hi).1⟩
    obtain ⟨h2, h3⟩ := foldl_ge hφ (List.ofFn fun i : Fin n => (v.map ScalarNorm.normL1)[i.1 + 1]) (hall 0 (by omega)).2 (hall 0 (by omega)).1
      (fun b hb => by obtain ⟨i, rfl⟩ := (List.mem_ofFn' _ _).mp hb; exact hall _ _)
    intro i hi
    refine ⟨_, Vec.foldFirstR_succ _ (v.map ScalarNorm.normL1), ?_⟩
    match i, hi with
    | 0, _ => rw [Vec.getElem_map] at h2 ⊢; exact h2
    | i + 1, hi =>
      have := h3 (v.map ScalarNorm.normL1)[i + 1] (by rw [List.mem_ofFn]; exact ⟨⟨i, by omega⟩, rfl⟩)
      rw [Vec.getElem_map] at this; exact this
  obtain ⟨s, hs, hle⟩ := hge i hi
  rw [Vec.getElem_map] at e
  refine ⟨m, s, hm, hs, ⟨i, hi, e⟩, fun j hj => ?_, (Le_iff _ _).mpr (e ▸ hle)⟩
  have := h1 j hj
  rwa [Vec.getElem_map] at this

/-! ## What does not survive -/

private theorem near_absorb (hφ : WF φ) : φ.near (1 + 2 ^ (-(φ.p:ℤ))) = 1 := by
  have hp := hφ.1
  have hr := hφ.2
  have upos : (0:ℝ) < 2 ^ (-(φ.p:ℤ)) := by positivity
  have ulpos : (0:ℝ) < 2 ^ (1 - (φ.p:ℤ)) := by positivity
  have e2 : (2:ℝ) ^ (1 - (φ.p:ℤ)) = 2 * 2 ^ (-(φ.p:ℤ)) := by rw [sub_eq_add_neg, zpow_add₀ (by norm_num)]; simp
  have ep : (2:ℝ) ^ ((φ.p:ℤ) - 1) * 2 ^ (1 - (φ.p:ℤ)) = 1 := by rw [← zpow_add₀ (by norm_num)]; simp
  have le1 : (2:ℝ) ^ (1 - (φ.p:ℤ)) ≤ 1 / 2 := by
    have : (2:ℝ) ^ (1 - (φ.p:ℤ)) ≤ 2 ^ (-1 : ℤ) := zpow_le_zpow_right₀ (by norm_num) (by omega)
    simpa using this
  have ulp1 : φ.ulp (1 + 2 ^ (-(φ.p:ℤ))) = 2 ^ (1 - (φ.p:ℤ)) := by
    rw [Fmt.ulp_eq (e := 0), show (0 - (φ.p:ℤ) + 1) = 1 - φ.p by ring]
    · rw [abs_of_pos (by linarith)]; simp
    · rw [abs_of_pos (by linarith), show ((2:ℝ) ^ ((0:ℤ) + 1)) = 2 by norm_num]; linarith
    · omega
  unfold Fmt.near
  rw [ulp1]
  have hq : (1 + 2 ^ (-(φ.p:ℤ))) / (2:ℝ) ^ (1 - (φ.p:ℤ)) = ((2 ^ (φ.p - 1) : ℤ) : ℝ) + 1 / 2 := by
    rw [div_eq_iff ulpos.ne']
    have : ((2 ^ (φ.p - 1) : ℤ) : ℝ) = 2 ^ ((φ.p:ℤ) - 1) := by
      push_cast; rw [← zpow_natCast]; push_cast [show 1 ≤ φ.p by omega]; rfl
    rw [this, add_mul, ep, e2]; ring
  have hfl : ⌊((2 ^ (φ.p - 1) : ℤ) : ℝ) + 1 / 2⌋ = 2 ^ (φ.p - 1) := by
    rw [Int.floor_eq_iff]; constructor <;> linarith
  have hev : Even ((2:ℤ) ^ (φ.p - 1)) := (even_two).pow_of_ne_zero (by omega)
  rw [hq]
  unfold roundEven
  rw [hfl, if_neg (by linarith), if_neg (by linarith), if_pos hev]
  push_cast
  rw [← ep, ← zpow_natCast]; push_cast [show 1 ≤ φ.p by omega]; rfl

/-- Strict order does not survive: different points can be moved to the same point, by a finite shift. -/
theorem C116_strict_refuted (hφ : WF φ) : ∃ (t : Shift (Ieee φ) 1) (x y : Vec (Ieee φ) 1), Datum t.intoVector[0] ∧
    Spec.Finite t.intoVector[0] ∧ Datum x[0] ∧ Datum y[0] ∧ rlt x[0] y[0] = true ∧ Transform.apply t x = Transform.apply t y := by
  have hp := hφ.1
  have hr := hφ.2
  have u0 : (2:ℝ) ^ (-(φ.p:ℤ)) ≠ 0 := by positivity
  have upos : (0:ℝ) < 2 ^ (-(φ.p:ℤ)) := by positivity
  have hU : Representable φ (2 ^ (-(φ.p:ℤ))) := rep_pow hφ (by omega) (by omega)
  have r1 : Representable φ 1 := by simpa using rep_pow hφ (e := 0) (by omega) (by omega)
  refine ⟨⟨⟨#v[1]⟩⟩, ⟨#v[0]⟩, ⟨#v[.num _ u0]⟩, r1, (⟨(by intro h; cases h), fun s h => by cases h⟩ : Spec.Finite (Ieee.num 1 one_ne_zero)), trivial, hU, ?_, ?_⟩
  · show (some (compare (0:EReal) ((2 ^ (-(φ.p:ℤ)) : ℝ) : EReal)) == some .lt) = true
    rw [compare_lt_iff_lt.mpr (by exact_mod_cast upos)]; rfl
  · apply Vec.ext_getElem
    intro i hi
    obtain rfl : i = 0 := by omega
    have e : ∀ z : Vec (Ieee φ) 1, (Transform.apply (⟨⟨#v[1]⟩⟩ : Shift (Ieee φ) 1) z)[0] = z[0] + 1 := fun z => Vec.getElem_add z _ 0 hi
    rw [e, e]
    have l0 : (0 + 1 : Ieee φ) = 1 := by
      show (rnd 1 : Ieee φ) = _; exact rnd_rep _ r1
    have l1 : (.num _ u0 + 1 : Ieee φ) = 1 := by
      show (if (2:ℝ) ^ (-(φ.p:ℤ)) + 1 = 0 then zero false else rnd _) = _
      rw [if_neg (by positivity), add_comm]
      unfold rnd ofReal
      rw [near_absorb hφ, if_neg (not_le.mpr (rep_lt r1)), dif_neg one_ne_zero]; rfl
    exact l0.trans l1.symm

/-! ## Witnesses -/
namespace OrderEx
open IeeeEx

private theorem lit_rle {x y : ℝ} (h : x ≤ y) : rle (lit x) (lit y) = true := (Le_iff _ _).mpr ((Le.real (lit_val x) (lit_val y)).mpr h)
private theorem lit_rgt {x y : ℝ} (h : x ≤ y) : rgt (lit x) (lit y) = false := (not_gt_iff _ _).mpr (.inr (.inr ((Le.real (lit_val x) (lit_val y)).mpr h)))
private theorem vec_rle {x y : Fin N → ℝ} (h : ∀ i, x i ≤ y i) (i : Nat) (hi : i < N) : rle (vec x)[i] (vec y)[i] = true := by
  have e1 := vec_get x ⟨i, hi⟩
  have e2 := vec_get y ⟨i, hi⟩
  simp only at e1 e2
  rw [e1, e2]; exact lit_rle (h _)
private theorem vec_rgt {x y : Fin N → ℝ} (h : ∀ i, x i ≤ y i) (i : Nat) (hi : i < N) : rgt (vec x)[i] (vec y)[i] = false := by
  have e1 := vec_get x ⟨i, hi⟩
  have e2 := vec_get y ⟨i, hi⟩
  simp only at e1 e2
  rw [e1, e2]; exact lit_rgt (h _)
private theorem vec_abs {x y : Fin N → ℝ} (h : ∀ i, |x i| ≤ |y i|) (i : Nat) (hi : i < N) :
    rle (FloatOps.abs (vec x)[i]) (FloatOps.abs (vec y)[i]) = true := by
  have e1 := vec_get x ⟨i, hi⟩
  have e2 := vec_get y ⟨i, hi⟩
  simp only at e1 e2
  rw [e1, e2]; exact (Le_iff _ _).mpr ((Le.real (abs_E (lit_val _)) (abs_E (lit_val _))).mpr (h _))
private theorem f64 : WF Fmt.f64 := C80_formats.2

example := C116_shift f64 ⟨vec ![7, -2]⟩ (vec ![1, -3]) (vec ![1, 1e300]) 1 (by omega)
example : rle (Transform.apply (⟨vec ![7, -2]⟩ : Shift (Ieee Fmt.f64) 2) (vec ![1, -3]))[1]
    (Transform.apply (⟨vec ![7, -2]⟩ : Shift (Ieee Fmt.f64) 2) (vec ![1, 1e300]))[1] = true :=
  (C116_shift f64 _ _ _ 1 (by omega)).2 (by
    have e := vec_get ![7, -2] (1 : Fin 2)
    exact e ▸ lit_finite _) (vec_rle (fun i => by fin_cases i <;> norm_num) 1 (by omega))
example := C116_add_sub f64 (vec ![1, -3]) (vec ![2, 1e300]) (vec ![0, 0]) (vec ![0, 5]) 1 (by omega)
  (vec_rgt (fun i => by fin_cases i <;> norm_num) 1 (by omega)) (vec_rgt (fun i => by fin_cases i <;> norm_num) 1 (by omega))
/-- An infinite coordinate makes a NaN when the factor is zero; the order is not reversed. -/
noncomputable example [Inv (Ieee Fmt.f64)] := C116_scale f64 ⟨.zero true⟩ (Vec.fromArray #v[1, 1] : Vec (Ieee Fmt.f64) 2)
  (Vec.fromArray #v[1, .inf false]) 1 (by omega) ((not_gt_iff _ _).mpr (.inr (.inr (Le.top (a := (1 : Ieee Fmt.f64)) (by intro h; cases h)))))
example := C116_sum f64 (by omega) (vec ![1, -3, 1e308]) (vec ![1, -2, 1.5e308]) (vec_rgt (fun i => by fin_cases i <;> norm_num))
example := C116_dot f64 (by omega) (vec ![1, 0, 3]) (vec ![1, -3, 5]) (vec ![1, -2, 5])
  (fun i hi => by
    have e := vec_get ![1, 0, 3] ⟨i, hi⟩
    simp only at e
    rw [e]; exact (Le_iff _ _).mpr ((Le.real (a := 0) rfl (lit_val _)).mpr (by
      match i, hi with
      | 0, _ => norm_num
      | 1, _ => norm_num
      | 2, _ => norm_num)))
  (vec_rgt (fun i => by fin_cases i <;> norm_num))
private theorem mat_nonneg (i : Nat) (hi : i < 2) (j : Nat) (hj : j < 2) : rle 0 (mat !![1, 2; 0, 3])[i][j] = true :=
  (Le_iff _ _).mpr ((Le.real (a := 0) rfl (mat_val !![1, 2; 0, 3] ⟨i, hi⟩ ⟨j, hj⟩)).mpr (by
    match i, hi, j, hj with
    | 0, _, 0, _ => norm_num
    | 0, _, 1, _ => norm_num
    | 1, _, 0, _ => norm_num
    | 1, _, 1, _ => norm_num))
example := C116_mat_vec f64 (by omega) (mat !![1, 2; 0, 3]) (vec ![1, -3]) (vec ![2, -2]) mat_nonneg (vec_rgt (fun i => by fin_cases i <;> norm_num))
example := C116_mat_mat f64 (by omega) (mat !![1, 2; 0, 3]) (mat !![1, 2; -4, 3]) (mat !![1, 2; -4, 3]) mat_nonneg
  (fun i hi j hj => (not_gt_iff _ _).mpr (.inr (.inr (Le.refl (ne_nan_of_real (mat_val !![1, 2; -4, 3] ⟨i, hi⟩ ⟨j, hj⟩))))))
example := C116_affine f64 (Chain.new ⟨vec ![7, -2]⟩ ⟨mat !![1, 2; 0, 3]⟩) (vec ![1, -3]) (vec ![2, -2]) mat_nonneg
  (vec_rgt (fun i => by fin_cases i <;> norm_num)) 1 (by omega)
example := C116_max_min (by omega) (vec ![1, -3, 1e308]) (fun i hi => by
  have e := vec_get ![1, -3, 1e308] ⟨i, hi⟩
  simp only at e
  rw [e]; exact (lit_finite _).1)
example := C116_max_min_mono (by omega) (vec ![1, -3, 1e308]) (vec ![1, -2, 1.5e308]) (vec_rle (fun i => by fin_cases i <;> norm_num))
example := C116_lengths f64 (by omega) (vec ![1, -3, 1e308]) (vec ![-1, -4, -1.5e308]) (vec_abs (fun i => by fin_cases i <;> norm_num [abs_of_pos]))
example := C116_mat_norms f64 (by omega) (by omega) (mat !![1, 2; -4, 3]) (mat !![1, 2; -4, 3])
  (fun i hi j hj => (Le_iff _ _).mpr ((Le.real (abs_E (mat_val !![1, 2; -4, 3] ⟨i, hi⟩ ⟨j, hj⟩)) (abs_E (mat_val _ ⟨i, hi⟩ ⟨j, hj⟩))).mpr le_rfl))
private theorem lit_abs {x y : ℝ} (h : |x| ≤ |y|) : rle (FloatOps.abs (lit x)) (FloatOps.abs (lit y)) = true :=
  (Le_iff _ _).mpr ((Le.real (abs_E (lit_val x)) (abs_E (lit_val y))).mpr h)
example := C116_complex f64 (Cpx.new (lit 1) (lit (-2))) (Cpx.new (lit (-3)) (lit 2)) (lit_abs (by norm_num [abs_of_pos])) (lit_abs (by norm_num [abs_of_pos]))
example := C116_quaternion f64 (Quat.new (lit 1) (lit (-2)) (lit 0) (lit 1)) (Quat.new (lit (-3)) (lit 2) (lit 1) (lit 1))
  (lit_abs (by norm_num [abs_of_pos])) (lit_abs (by norm_num [abs_of_pos])) (lit_abs (by norm_num)) (lit_abs (by norm_num))
example := C116_norm_order f64 (by omega) (vec ![1, -3]) (fun i hi => by
  have e := vec_get ![1, -3] ⟨i, hi⟩
  simp only at e
  rw [e]
  refine ⟨?_, (lit_finite _).1⟩
  match i, hi with
  | 0, _ => exact by simpa using lit_int 1 (by norm_num)
  | 1, _ => exact by simpa using lit_int (-3) (by norm_num))
example := C116_strict_refuted f64
end OrderEx

end Vecmat
