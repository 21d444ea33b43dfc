import Verif.Props.F32Det
/-! # C109, continued: linear and affine transformations, and systems of linear equations, in single precision -/
namespace Vecmat
open Spec Ieee F32
open F64 (abs_det_le_per)
set_option exponentiation.threshold 3000

/-! ## linear and affine transformations -/
namespace F32
theorem close_f32 {k : ℕ} {m x : ℝ} {d : F} (hk : k ≤ 2 ^ 13) (h : Close k k m d x) (m0 : 0 ≤ m) (hm : m ≤ 2 ^ 120) :
    ∃ r, d.toReal? = some r ∧ |r - x| ≤ 101 / 100 * k / 2 ^ 24 * m + k / 2 ^ 149 := by
  have hk' : (k : ℝ) ≤ 2 ^ 13 := by exact_mod_cast hk
  have k0 : (0:ℝ) ≤ k := Nat.cast_nonneg k
  have hku : (k : ℝ) * (1 / 2 ^ 24) ≤ 1 / 2 ^ 11 := by
    calc _ ≤ (2:ℝ) ^ 13 * (1 / 2 ^ 24) := by gcongr
      _ = _ := by norm_num
  have hg := C70_factor (u := roundoff Fmt.f32) (by rw [u_eq]; positivity) k (by rw [u_eq]; exact lt_of_le_of_lt hku (by norm_num))
  have hg' : gam (roundoff Fmt.f32) k ≤ 101 / 100 * (k * (1 / 2 ^ 24)) := by
    refine hg.trans ?_
    rw [u_eq, div_le_iff₀ (by norm_num at hku ⊢; linarith)]
    have : 0 ≤ (k : ℝ) * (1 / 2 ^ 24) := by positivity
    nlinarith
  have hp : (1 + roundoff Fmt.f32) ^ k ≤ 2 := by
    have : gam (roundoff Fmt.f32) k ≤ 1 := by refine hg'.trans ?_; norm_num at hku ⊢; linarith
    unfold gam at this; linarith
  have hb : errBound Fmt.f32 k k m ≤ 101 / 100 * k / 2 ^ 24 * m + k / 2 ^ 149 := by
    unfold errBound
    rw [tiny_eq]
    refine add_le_add ((mul_le_mul_of_nonneg_right hg' m0).trans (le_of_eq (by ring))) ?_
    calc (k:ℝ) * (1 / 2 ^ 150) * (1 + roundoff Fmt.f32) ^ k ≤ k * (1 / 2 ^ 150) * 2 := by gcongr
      _ = _ := by ring
  have hw : m + errBound Fmt.f32 k k m < huge Fmt.f32 := by
    rw [huge_eq]
    have h1 : 101 / 100 * (k:ℝ) / 2 ^ 24 * m ≤ 1 * m := by
      refine mul_le_mul_of_nonneg_right ?_ m0
      rw [div_le_one (by positivity)]; norm_num at hk' ⊢; linarith
    have h2 : (k:ℝ) / 2 ^ 149 ≤ 1 := by
      rw [div_le_one (by positivity)]; exact hk'.trans (by norm_num)
    calc m + _ ≤ 2 ^ 120 + (1 * 2 ^ 120 + 1) := by linarith
      _ < _ := by norm_num
  obtain ⟨r, hr⟩ := h.2 hw
  exact ⟨r, hr, (h.1 r hr).trans hb⟩
theorem dot_f32 {N : ℕ} [NeZero N] (hN : N ≤ 2 ^ 13) {v w : Vec F N} {x y : Fin N → ℝ} (hv : ∀ i : Fin N, v[i.1].toReal? = some (x i))
    (hw : ∀ i : Fin N, w[i.1].toReal? = some (y i)) (hm : ∑ i, |x i| * |y i| ≤ 2 ^ 120) :
    ∃ r, (v.dot w).toReal? = some r ∧ |r - ∑ i, x i * y i| ≤ 101 / 100 * N / 2 ^ 24 * (∑ i, |x i| * |y i|) + N / 2 ^ 149 :=
  close_f32 hN (Vec.dot_ap C80_formats.1 v w x y hv hw).close (Finset.sum_nonneg fun i _ => by positivity) hm
end F32

/-- `Linear::apply` for any matrix and point: a coordinate whose terms do not reach `2^120` is finite and accurate. -/
theorem C109_linear_apply {N : ℕ} [NeZero N] (hN : N ≤ 2 ^ 13) (t : Linear F N) (v : Vec F N) (a : Matrix (Fin N) (Fin N) ℝ) (x : Fin N → ℝ)
    (ha : ∀ i j : Fin N, t.intoMatrix[i.1][j.1].toReal? = some (a i j)) (hv : ∀ j : Fin N, v[j.1].toReal? = some (x j)) (i : Fin N)
    (hm : ∑ j, |a i j| * |x j| ≤ 2 ^ 120) :
    ∃ r, (Transform.apply t v)[i.1].toReal? = some r ∧
      |r - a.mulVec x i| ≤ 101 / 100 * N / 2 ^ 24 * (∑ j, |a i j| * |x j|) + N / 2 ^ 149 := by
  have e : (Transform.apply t v)[i.1] = t.intoMatrix[i.1].dot v := Mat.getElem_dotV _ _ _ _
  rw [e]
  exact dot_f32 hN (ha i) hv hm
/-- `Linear::chain`: the entries of the product. -/
theorem C109_linear_chain {N : ℕ} [NeZero N] (hN : N ≤ 2 ^ 13) (s t : Linear F N) (a b : Matrix (Fin N) (Fin N) ℝ)
    (ha : ∀ i j : Fin N, s.intoMatrix[i.1][j.1].toReal? = some (a i j)) (hb : ∀ i j : Fin N, t.intoMatrix[i.1][j.1].toReal? = some (b i j)) (i j : Fin N)
    (hm : ∑ k, |a i k| * |b k j| ≤ 2 ^ 120) :
    ∃ r, (Transform.chain (Vec F N) s t).intoMatrix[i.1][j.1].toReal? = some r ∧
      |r - (a * b) i j| ≤ 101 / 100 * N / 2 ^ 24 * (∑ k, |a i k| * |b k j|) + N / 2 ^ 149 := by
  obtain ⟨X, hX, h⟩ := C84_mat_mat C80_formats.1 (Nat.pos_of_ne_zero (NeZero.ne N)) s.intoMatrix t.intoMatrix a b ha hb
  have e : (Transform.chain (Vec F N) s t).intoMatrix = X := by
    have h1 : (Transform.chain (Vec F N) s t).intoMatrix = s.intoMatrix.dotM t.intoMatrix := rfl
    rw [h1]
    exact Res.get_eq hX _
  rw [e]
  exact close_f32 hN (h i j) (Finset.sum_nonneg fun i _ => by positivity) hm
/-- `Affine::apply`. -/
theorem C109_affine_apply {N : ℕ} [NeZero N] (hN : N < 2 ^ 13) (t : Affine F N) (v : Vec F N) (a : Matrix (Fin N) (Fin N) ℝ) (b x : Fin N → ℝ)
    (ha : ∀ i j : Fin N, t.linear.intoMatrix[i.1][j.1].toReal? = some (a i j)) (hd : ∀ i : Fin N, Datum t.shift.intoVector[i.1])
    (hb : ∀ i : Fin N, t.shift.intoVector[i.1].toReal? = some (b i)) (hv : ∀ j : Fin N, v[j.1].toReal? = some (x j)) (i : Fin N)
    (hm : ∑ j, |a i j| * |x j| + |b i| ≤ 2 ^ 120) :
    ∃ r, (Transform.apply t v)[i.1].toReal? = some r ∧
      |r - (a.mulVec x i + b i)| ≤ 101 / 100 * (N + 1) / 2 ^ 24 * (∑ j, |a i j| * |x j| + |b i|) + (N + 1) / 2 ^ 149 := by
  have m0 : 0 ≤ ∑ j, |a i j| * |x j| + |b i| := add_nonneg (Finset.sum_nonneg fun i _ => by positivity) (abs_nonneg _)
  have h := C84_affine C80_formats.1 (Nat.pos_of_ne_zero (NeZero.ne N)) t v a b x ha hd hb hv i
  have h' : Close (N + 1) (N + 1) (∑ j, |a i j| * |x j| + |b i|) (Transform.apply t v)[i.1] (a.mulVec x i + b i) := by
    have hle := bnd_mono (φ := Fmt.f32) (le_refl (N + 1)) (Nat.le_succ N) m0 le_rfl
    exact ⟨fun r hr => (h.1 r hr).trans hle, fun hf => h.2 (lt_of_le_of_lt (by linarith) hf)⟩
  have := close_f32 (by omega) h' m0 hm
  push_cast at this
  exact this

/-- Solving a system of linear equations: `Linear::inv().apply(b)` is `a⁻¹ b`, up to an error governed by the condition number `κ` of
`C109_inverse`. -/
theorem C109_solve {n : ℕ} (t : Linear F (n + 1)) (a : Matrix (Fin (n + 1)) (Fin (n + 1)) ℝ) (ha : ∀ i j : Fin (n + 1), t.intoMatrix[i.1][j.1].toReal? = some (a i j))
    (c : ℝ) (hc : 1 ≤ c) (hb : ∀ i j, |a i j| ≤ c) (h : (n + 1).factorial * c ^ (n + 1) ≤ 2 ^ 40) (hd : 1 / 2 ^ 40 ≤ |a.det|)
    (κ : ℝ) (hκ : (a.map abs).permanent ≤ κ * |a.det|) (hs : (n + 1) * (n + 4) * κ ≤ 2 ^ 22)
    (v : Vec F (n + 1)) (b : Fin (n + 1) → ℝ) (hv : ∀ j : Fin (n + 1), v[j.1].toReal? = some (b j)) (i : Fin (n + 1))
    (hr : ∑ j, (|a⁻¹ i j| + ((a.map abs).submatrix j.succAbove i.succAbove).permanent / |a.det| + 1) * |b j| ≤ 2 ^ 119) :
    ∃ r, (Transform.apply (Transform.inv (Vec F (n + 1)) t) v)[i.1].toReal? = some r ∧
      |r - a⁻¹.mulVec b i| ≤ 7 / 5 * ((n + 1) * (n + 4)) / 2 ^ 24 *
          ∑ j, (κ * |a⁻¹ i j| + ((a.map abs).submatrix j.succAbove i.succAbove).permanent / |a.det|) * |b j| +
        1 / 2 ^ 59 * ∑ j, (1 + |a⁻¹ i j|) * |b j| + (n + 1) / 2 ^ 149 := by
  choose g hg eg using fun i j => C109_inverse t.intoMatrix a ha c hc hb h hd κ hκ hs i j
  have D0 : 0 < |a.det| := lt_of_lt_of_le (by positivity) hd
  have P0 : ∀ j : Fin (n + 1), 0 ≤ ((a.map abs).submatrix j.succAbove i.succAbove).permanent := fun j =>
    Finset.sum_nonneg fun σ _ => Finset.prod_nonneg fun k _ => abs_nonneg _
  have κ1 : 1 ≤ κ := by
    have := (abs_det_le_per a).trans hκ
    by_contra hk
    push Not at hk
    nlinarith
  set Q : Fin (n + 1) → ℝ := fun j => ((a.map abs).submatrix j.succAbove i.succAbove).permanent / |a.det| with hQ
  have Q0 : ∀ j, 0 ≤ Q j := fun j => div_nonneg (P0 j) D0.le
  have n0 : (0:ℝ) ≤ n := Nat.cast_nonneg n
  set s : ℝ := (n + 1) * (n + 4) with hsd
  have s0 : 0 ≤ s := by rw [hsd]; positivity
  have N4 : (n:ℝ) + 1 ≤ s / 4 := by rw [hsd]; nlinarith
  have sk : s / 2 ^ 24 * κ ≤ 1 / 4 := by
    calc s / 2 ^ 24 * κ = s * κ / 2 ^ 24 := by ring
      _ ≤ 2 ^ 22 / 2 ^ 24 := by gcongr
      _ = _ := by norm_num
  have su : s / 2 ^ 24 ≤ 1 / 4 := by
    calc s / 2 ^ 24 = s / 2 ^ 24 * 1 := by ring
      _ ≤ s / 2 ^ 24 * κ := by gcongr
      _ ≤ _ := sk
  -- one entry of the inverse
  have ge : ∀ j, |g i j - a⁻¹ i j| ≤ s / 2 ^ 24 * (κ * |a⁻¹ i j| + Q j) + (1 + |a⁻¹ i j|) / 2 ^ 60 := fun j => eg i j
  have gb : ∀ j, |g i j| ≤ 5 / 4 * (κ * |a⁻¹ i j| + Q j) + (1 + |a⁻¹ i j|) / 2 ^ 60 := fun j => by
    have h1 : |g i j| ≤ |g i j - a⁻¹ i j| + |a⁻¹ i j| := by
      calc |g i j| = |(g i j - a⁻¹ i j) + a⁻¹ i j| := by congr 1; ring
        _ ≤ _ := abs_add_le _ _
    have h2 : |a⁻¹ i j| ≤ κ * |a⁻¹ i j| + Q j := by nlinarith [abs_nonneg (a⁻¹ i j), Q0 j]
    have h3 : s / 2 ^ 24 * (κ * |a⁻¹ i j| + Q j) ≤ 1 / 4 * (κ * |a⁻¹ i j| + Q j) :=
      mul_le_mul_of_nonneg_right su ((abs_nonneg _).trans h2)
    linarith [ge j]
  have gr : ∀ j, |g i j| ≤ 2 * (|a⁻¹ i j| + Q j + 1) := fun j => by
    have h1 : |g i j| ≤ |g i j - a⁻¹ i j| + |a⁻¹ i j| := by
      calc |g i j| = |(g i j - a⁻¹ i j) + a⁻¹ i j| := by congr 1; ring
        _ ≤ _ := abs_add_le _ _
    have h2 : s / 2 ^ 24 * (κ * |a⁻¹ i j| + Q j) ≤ 1 / 4 * |a⁻¹ i j| + 1 / 4 * Q j := by
      rw [mul_add, ← mul_assoc]
      exact add_le_add (mul_le_mul_of_nonneg_right sk (abs_nonneg _)) (mul_le_mul_of_nonneg_right su (Q0 j))
    have h3 : (1 + |a⁻¹ i j|) / 2 ^ 60 ≤ 1 / 4 * (1 + |a⁻¹ i j|) := by
      rw [div_eq_mul_one_div, mul_comm]
      exact mul_le_mul_of_nonneg_right (by norm_num) (by positivity)
    linarith [ge j, abs_nonneg (a⁻¹ i j), Q0 j]
  have hN : n + 1 ≤ 2 ^ 13 := by
    have := size_le hc (h.trans (by norm_num)); omega
  have hm : ∑ j, |g i j| * |b j| ≤ 2 ^ 120 := by
    calc ∑ j, |g i j| * |b j| ≤ ∑ j, 2 * ((|a⁻¹ i j| + Q j + 1) * |b j|) :=
          Finset.sum_le_sum fun j _ => by rw [← mul_assoc]; exact mul_le_mul_of_nonneg_right (gr j) (abs_nonneg _)
      _ = 2 * ∑ j, (|a⁻¹ i j| + Q j + 1) * |b j| := by rw [Finset.mul_sum]
      _ ≤ 2 * 2 ^ 119 := by gcongr
      _ = _ := by norm_num
  obtain ⟨r, vr, er⟩ := C109_linear_apply hN (Transform.inv (Vec F (n + 1)) t) v (Matrix.of g) b (fun i j => hg i j) hv i hm
  refine ⟨r, vr, ?_⟩
  set X := ∑ j, (κ * |a⁻¹ i j| + Q j) * |b j| with hX
  set Z := ∑ j, (1 + |a⁻¹ i j|) * |b j| with hZ
  have X0 : 0 ≤ X := Finset.sum_nonneg fun j _ => mul_nonneg (add_nonneg (by positivity) (Q0 j)) (abs_nonneg _)
  have Z0 : 0 ≤ Z := Finset.sum_nonneg fun j _ => by positivity
  have m1 : ∑ j, |(Matrix.of g) i j| * |b j| ≤ 5 / 4 * X + Z / 2 ^ 60 := by
    calc _ ≤ ∑ j, (5 / 4 * (κ * |a⁻¹ i j| + Q j) + (1 + |a⁻¹ i j|) / 2 ^ 60) * |b j| :=
          Finset.sum_le_sum fun j _ => mul_le_mul_of_nonneg_right (gb j) (abs_nonneg _)
      _ = _ := by
        rw [hX, hZ, Finset.mul_sum, Finset.sum_div, ← Finset.sum_add_distrib]
        exact Finset.sum_congr rfl fun j _ => by ring
  have m2 : |(Matrix.of g).mulVec b i - a⁻¹.mulVec b i| ≤ s / 2 ^ 24 * X + Z / 2 ^ 60 := by
    have : (Matrix.of g).mulVec b i - a⁻¹.mulVec b i = ∑ j, (g i j - a⁻¹ i j) * b j := by
      rw [Matrix.mulVec, Matrix.mulVec, dotProduct, dotProduct, ← Finset.sum_sub_distrib]
      exact Finset.sum_congr rfl fun j _ => by rw [Matrix.of_apply]; ring
    rw [this]
    calc _ ≤ ∑ j, |(g i j - a⁻¹ i j) * b j| := Finset.abs_sum_le_sum_abs _ _
      _ ≤ ∑ j, (s / 2 ^ 24 * (κ * |a⁻¹ i j| + Q j) + (1 + |a⁻¹ i j|) / 2 ^ 60) * |b j| :=
          Finset.sum_le_sum fun j _ => by rw [abs_mul]; exact mul_le_mul_of_nonneg_right (ge j) (abs_nonneg _)
      _ = _ := by
        rw [hX, hZ, Finset.mul_sum, Finset.sum_div, ← Finset.sum_add_distrib]
        exact Finset.sum_congr rfl fun j _ => by ring
  have m3 : 101 / 100 * ((n + 1 : ℕ) : ℝ) / 2 ^ 24 * ∑ j, |(Matrix.of g) i j| * |b j| ≤ 2 / 5 * s / 2 ^ 24 * X + Z / 2 ^ 60 := by
    push_cast
    have k1 : 101 / 100 * ((n:ℝ) + 1) / 2 ^ 24 ≤ 101 / 400 * s / 2 ^ 24 := div_le_div_of_nonneg_right (by linarith) (by positivity)
    have k2 : 101 / 400 * s / 2 ^ 24 ≤ 1 := by linarith
    have k0 : 0 ≤ 101 / 400 * s / 2 ^ 24 := by positivity
    calc _ ≤ 101 / 400 * s / 2 ^ 24 * (5 / 4 * X + Z / 2 ^ 60) :=
          mul_le_mul k1 m1 (Finset.sum_nonneg fun j _ => by positivity) k0
      _ = 101 / 320 * s / 2 ^ 24 * X + 101 / 400 * s / 2 ^ 24 * (Z / 2 ^ 60) := by ring
      _ ≤ 2 / 5 * s / 2 ^ 24 * X + 1 * (Z / 2 ^ 60) := by
        refine add_le_add (mul_le_mul_of_nonneg_right ?_ X0) (mul_le_mul_of_nonneg_right k2 (by positivity))
        exact div_le_div_of_nonneg_right (by linarith) (by positivity)
      _ = _ := by ring
  calc |r - a⁻¹.mulVec b i| = |(r - (Matrix.of g).mulVec b i) + ((Matrix.of g).mulVec b i - a⁻¹.mulVec b i)| := by congr 1; ring
    _ ≤ _ := abs_add_le _ _
    _ ≤ ((2 / 5 * s / 2 ^ 24 * X + Z / 2 ^ 60) + ((n + 1 : ℕ) : ℝ) / 2 ^ 149) + (s / 2 ^ 24 * X + Z / 2 ^ 60) :=
      add_le_add (er.trans (add_le_add m3 le_rfl)) m2
    _ = _ := by push_cast; ring

/-! ## The hypotheses are met -/
namespace Ex109
noncomputable def two : F := num 2 (by norm_num)
theorem e : (1 : F).toReal? = some 1 := rfl
theorem t : two.toReal? = some 2 := rfl
/-- `[[2, 1], [1, 1]]`: determinant 1, inverse `[[1, -1], [-1, 2]]`, condition number 3. -/
noncomputable def M : Mat F 2 2 := ⟨Vec.fromTuple2 (Vec.fromTuple2 (two, 1), Vec.fromTuple2 (1, 1))⟩
def m : Matrix (Fin 2) (Fin 2) ℝ := !![2, 1; 1, 1]
theorem val : ∀ i j : Fin 2, M[i.1][j.1].toReal? = some (m i j) := fun i j => by
  fin_cases i <;> fin_cases j <;> first | exact t | exact e
theorem ent : ∀ i j, |m i j| ≤ 2 := fun i j => by
  fin_cases i <;> fin_cases j <;> simp [m]
theorem det : m.det = 1 := by simp [m, Matrix.det_fin_two]; norm_num
theorem per : (m.map abs).permanent = 3 := by
  rw [Matrix.permanent]
  rw [show (Finset.univ : Finset (Equiv.Perm (Fin 2))) = {1, Equiv.swap 0 1} by decide, Finset.sum_insert (by decide), Finset.sum_singleton]
  simp [m]; norm_num
theorem inv : m⁻¹ = !![1, -1; -1, 2] := by
  rw [Matrix.inv_def, det, Matrix.adjugate_fin_two]; simp [m]
noncomputable def v : Vec F 2 := Vec.fromTuple2 (1, two)
theorem vv : ∀ j : Fin 2, v[j.1].toReal? = some (![(1:ℝ), 2] j) := fun j => by
  fin_cases j <;> first | exact t | exact e
theorem dt : Datum two := ⟨1, 1, by norm_num, by norm_num [Fmt.f32], by norm_num [Fmt.f32], by norm_num [Fmt.f32]⟩
end Ex109
open Ex109
example := C109_det M m val 2 (by norm_num) ent (by norm_num [Nat.factorial])
example := C109_adj M m val 2 (by norm_num) ent (by norm_num [Nat.factorial]) 0 1
example := C109_inverse M m val 2 (by norm_num) ent (by norm_num [Nat.factorial]) (by rw [det]; norm_num) 3 (by rw [per, det]; norm_num) (by norm_num) 0 1
example := C109_linear_apply (by norm_num) ⟨M⟩ v m _ val vv 0 (by simp [m, Fin.sum_univ_two]; norm_num)
example := C109_linear_chain (by norm_num) ⟨M⟩ ⟨M⟩ m m val val 0 1 (by simp [m, Fin.sum_univ_two]; norm_num)
example := C109_affine_apply (by norm_num) (⟨⟨v⟩, ⟨M⟩⟩ : Affine F 2) v m _ _ val (fun i => by fin_cases i <;> first | exact dt | exact one_datum) vv vv 0
  (by simp [m, Fin.sum_univ_two]; norm_num)
example := C109_solve (⟨M⟩ : Linear F 2) m val 2 (by norm_num) ent (by norm_num [Nat.factorial]) (by rw [det]; norm_num) 3 (by rw [per, det]; norm_num)
  (by norm_num) v _ vv 0 (by rw [inv, det]; simp [Fin.sum_univ_two, Matrix.permanent, m]; norm_num)

end Vecmat
