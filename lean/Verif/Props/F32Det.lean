import Verif.Props.F32Angle
import Verif.Props.F64Solve
/-!
# C109: determinants, inverses and linear transformations in single precision
As C99; the lemmas that hold for every format are those of `F64Det`.
-/
namespace Vecmat
open Spec Ieee F32
open F64 (bndR Bd unitsR gam_nonneg' bndR_nonneg bndR_mono unitsR_nonneg unitsR_le plap_nonneg plap_le fact_pow_mono sgn_bd lap_bd two_pow_le_fact abs_det_le_per per_le)
set_option exponentiation.threshold 3000

namespace F32
theorem size_le {c : ℝ} (hc : 1 ≤ c) {n : ℕ} (h : n.factorial * c ^ n ≤ 2 ^ 120) : n ≤ 121 := by
  cases n with
  | zero => omega
  | succ n =>
    have h1 : ((2 ^ n : ℕ) : ℝ) ≤ (n + 1).factorial := by exact_mod_cast two_pow_le_fact n
    have h2 : ((n + 1).factorial : ℝ) * 1 ≤ (n + 1).factorial * c ^ (n + 1) := mul_le_mul_of_nonneg_left (one_le_pow₀ hc) (by positivity)
    have h3 : ((2:ℝ)) ^ n ≤ 2 ^ 120 := by push_cast at h1; linarith
    have := (pow_le_pow_iff_right₀ (by norm_num : (1:ℝ) < 2)).1 h3
    omega
theorem depth_le {n : ℕ} (hn : n ≤ 121) : (detDepth n : ℝ) ≤ n * (n + 3) / 2 ∧ (detDepth n : ℝ) ≤ 2 ^ 13 := by
  have h1 : (detDepth n : ℝ) ≤ n * (n + 3) / 2 := by
    have := Nat.cast_div_le (α := ℝ) (m := n * (n + 3)) (n := 2)
    unfold detDepth; push_cast at this ⊢; exact this
  refine ⟨h1, h1.trans ?_⟩
  have : (n : ℝ) ≤ 121 := by exact_mod_cast hn
  have : (0:ℝ) ≤ n := Nat.cast_nonneg n
  norm_num; nlinarith
theorem gam_det {n : ℕ} (hn : n ≤ 121) : gam (roundoff Fmt.f32) (detDepth n) ≤ 101 / 200 * (n * (n + 3)) / 2 ^ 24 ∧
    (1 + roundoff Fmt.f32) ^ detDepth n ≤ 1 + 1 / 2 ^ 10 := by
  obtain ⟨h1, h2⟩ := depth_le hn
  have hk : (detDepth n : ℝ) * (1 / 2 ^ 24) ≤ 1 / 2 ^ 11 := by
    calc _ ≤ (2:ℝ) ^ 13 * (1 / 2 ^ 24) := by gcongr
      _ = _ := by norm_num
  have hg := C70_factor (u := roundoff Fmt.f32) (by rw [u_eq]; positivity) (detDepth n) (by rw [u_eq]; exact lt_of_le_of_lt hk (by norm_num))
  have k0 : (0:ℝ) ≤ detDepth n := Nat.cast_nonneg _
  have hg' : gam (roundoff Fmt.f32) (detDepth n) ≤ 101 / 100 * (detDepth n * (1 / 2 ^ 24)) := by
    refine hg.trans ?_
    rw [u_eq, div_le_iff₀ (by norm_num at hk ⊢; linarith)]
    have : 0 ≤ (detDepth n : ℝ) * (1 / 2 ^ 24) := by positivity
    nlinarith
  constructor
  · refine hg'.trans ?_
    rw [mul_div_assoc]
    calc (101:ℝ) / 100 * (detDepth n * (1 / 2 ^ 24)) ≤ 101 / 100 * ((n:ℝ) * (n + 3) / 2 * (1 / 2 ^ 24)) := by gcongr
      _ = _ := by ring
  · have : gam (roundoff Fmt.f32) (detDepth n) ≤ 1 / 2 ^ 10 := by
      refine hg'.trans ?_
      norm_num at hk ⊢; linarith
    unfold gam at this; linarith
theorem bnd_det {n : ℕ} {c m : ℝ} (hc : 1 ≤ c) (h : n.factorial * c ^ n ≤ 2 ^ 120) (hm : 0 ≤ m) :
    bndR Fmt.f32 (detDepth n) (unitsR c n) m ≤ 101 / 200 * (n * (n + 3)) / 2 ^ 24 * m + n.factorial * c ^ n / 2 ^ 148 := by
  obtain ⟨g1, g2⟩ := gam_det (size_le hc h)
  have hu := unitsR_le hc n
  have u0 := unitsR_nonneg (zero_le_one.trans hc) n
  have f0 : 0 ≤ (n.factorial : ℝ) * c ^ n := by positivity
  have p0 : 0 ≤ (1 + roundoff Fmt.f32) ^ detDepth n := by have := u_pos (φ := Fmt.f32); positivity
  unfold bndR
  refine add_le_add (mul_le_mul_of_nonneg_right g1 hm) ?_
  rw [tiny_eq]
  calc unitsR c n * (1 / 2 ^ 150) * (1 + roundoff Fmt.f32) ^ detDepth n ≤ (3 * (n.factorial * c ^ n)) * (1 / 2 ^ 150) * (1 + 1 / 2 ^ 10) := by gcongr
    _ = (n.factorial * c ^ n) * (3 * (1 / 2 ^ 150) * (1 + 1 / 2 ^ 10)) := by ring
    _ ≤ (n.factorial * c ^ n) * (1 / 2 ^ 148) := by
      refine mul_le_mul_of_nonneg_left ?_ f0; norm_num
    _ = _ := by ring
theorem window_det {n : ℕ} {c : ℝ} (hc : 1 ≤ c) (h : n.factorial * c ^ n ≤ 2 ^ 120) :
    n.factorial * c ^ n + bndR Fmt.f32 (detDepth n) (unitsR c n) (n.factorial * c ^ n) < huge Fmt.f32 := by
  have f0 : 0 ≤ (n.factorial : ℝ) * c ^ n := by positivity
  have h1 := bnd_det hc h f0
  have hn : (n : ℝ) ≤ 121 := by exact_mod_cast size_le hc h
  have n0 : (0:ℝ) ≤ n := Nat.cast_nonneg n
  have h2 : 101 / 200 * ((n:ℝ) * (n + 3)) / 2 ^ 24 ≤ 1 := by
    rw [div_le_one (by positivity)]; norm_num; nlinarith
  rw [huge_eq]
  set X := (n.factorial : ℝ) * c ^ n
  have h3 : 101 / 200 * ((n:ℝ) * (n + 3)) / 2 ^ 24 * X ≤ 1 * X := mul_le_mul_of_nonneg_right h2 f0
  have h4 : X / 2 ^ 148 ≤ X := div_le_self f0 (by norm_num)
  calc X + _ ≤ 2 ^ 120 + (1 * 2 ^ 120 + 2 ^ 120) := by linarith
    _ < _ := by norm_num
theorem one_datum : Datum (1 : F) := ⟨1, 0, by norm_num, by norm_num [Fmt.f32], by norm_num [Fmt.f32], by norm_num [Fmt.f32]⟩

/-- The entry functions of a matrix of floats and of its values. -/
theorem ent_val {n : ℕ} {A : Mat F n n} {a : Matrix (Fin n) (Fin n) ℝ} (ha : ∀ i j : Fin n, A[i.1][j.1].toReal? = some (a i j)) {c : ℝ} (hc : 1 ≤ c)
    (hb : ∀ i j, |a i j| ≤ c) : ∃ B : Mat ℝ n n, B.toMatrix = a ∧ (∀ i j : Fin n, B[i.1][j.1] = a i j) ∧
      (∀ i j, Val (Mat.ent A i j) (Mat.ent B i j)) ∧ ∀ i j, |Mat.ent B i j| ≤ c := by
  refine ⟨⟨⟨Vector.ofFn fun i => ⟨Vector.ofFn fun j => a i j⟩⟩⟩, by ext i j; simp, by intro i j; simp, fun i j => ?_, fun i j => ?_⟩
  · unfold Mat.ent
    split
    · next h => simpa [Val] using ha ⟨i, h.1⟩ ⟨j, h.2⟩
    · rfl
  · unfold Mat.ent
    split
    · next h => simpa using hb ⟨i, h.1⟩ ⟨j, h.2⟩
    · simpa using zero_le_one.trans hc
end F32

/-- `det` of a matrix of floats whose entries are at most `c` in absolute value (`N! c^N` not near the overflow threshold): finite, with an
error of at most `0.505 N(N+3) u` times the permanent of the absolute values, plus a quantity that is negligible unless products underflow. -/
theorem C109_det {N : ℕ} (A : Mat F N N) (a : Matrix (Fin N) (Fin N) ℝ) (ha : ∀ i j : Fin N, A[i.1][j.1].toReal? = some (a i j)) (c : ℝ) (hc : 1 ≤ c)
    (hb : ∀ i j, |a i j| ≤ c) (h : N.factorial * c ^ N ≤ 2 ^ 120) :
    ∃ r, A.det.toReal? = some r ∧
      |r - a.det| ≤ 101 / 200 * (N * (N + 3)) / 2 ^ 24 * (a.map abs).permanent + N.factorial * c ^ N / 2 ^ 148 := by
  obtain ⟨B, e1, hB, hv, hb'⟩ := ent_val ha hc hb
  have := lap_bd C80_formats.1 _ _ hv hc hb' one_datum N (window_det hc h) N le_rfl (List.range N) (List.range N) (by simp) (by simp)
  rw [← show A.det = _ from Res.get_eq (Mat.detR_eq A) _, ← show B.det = _ from Res.get_eq (Mat.detR_eq B) _,
    plap_eq_permanent _ N _ _ (by simp) (by simp), Mat.det_eq, e1] at this
  have e2 : (Matrix.of fun i j : Fin N => |Mat.ent B ((List.range N)[i.1]'(by simp)) ((List.range N)[j.1]'(by simp))|) = a.map abs := by
    ext i j; simp [Mat.ent_lt, hB]
  rw [e2] at this
  obtain ⟨r, hr, er⟩ := this.val
  exact ⟨r, hr, er.trans (bnd_det hc h this.nonneg)⟩

/-- Entries of the adjugate, under the same conditions. -/
theorem C109_adj {n : ℕ} (A : Mat F (n + 1) (n + 1)) (a : Matrix (Fin (n + 1)) (Fin (n + 1)) ℝ) (ha : ∀ i j : Fin (n + 1), A[i.1][j.1].toReal? = some (a i j))
    (c : ℝ) (hc : 1 ≤ c) (hb : ∀ i j, |a i j| ≤ c) (h : n.factorial * c ^ n ≤ 2 ^ 120) (i j : Fin (n + 1)) :
    ∃ r, A.adj[i.1][j.1].toReal? = some r ∧
      |r - a.adjugate i j| ≤ 101 / 200 * (n * (n + 3)) / 2 ^ 24 * ((a.map abs).submatrix j.succAbove i.succAbove).permanent +
        n.factorial * c ^ n / 2 ^ 148 := by
  obtain ⟨B, e1, hB, hv, hb'⟩ := ent_val ha hc hb
  have len : ∀ i : Fin (n + 1), ((List.range (n + 1)).eraseIdx i.1).length = n := by
    intro i; rw [List.length_eraseIdx_of_lt (by simp; omega)]; simp
  have := sgn_bd (lap_bd C80_formats.1 _ _ hv hc hb' one_datum n (window_det hc h) n le_rfl ((List.range (n + 1)).eraseIdx j.1)
    ((List.range (n + 1)).eraseIdx i.1) (len j) (len i)) (j.1 + i.1)
  obtain ⟨C, h1, h2⟩ := Mat.adjR_ok A
  obtain ⟨r, hr, er⟩ := this.val
  refine ⟨r, ?_, ?_⟩
  · rw [Mat.getElem_congr_mat (show A.adj = C from Res.get_eq h1 _) i i.2 j j.2, h2]; exact hr
  have h3 := er.trans (bnd_det hc h this.nonneg)
  rw [plap_eq_permanent _ n _ _ (len j) (len i), Mat.lap_erase, Mat.sgn_eq, e1] at h3
  rw [Matrix.adjugate_fin_succ_eq_det_submatrix]
  have key : ∀ (i : Fin (n + 1)) (a : Fin n) h, ((List.range (n + 1)).eraseIdx i.1)[a.1]'h = (i.succAbove a).1 := by
    intro i a h
    rw [List.getElem_eraseIdx]
    by_cases h : a.1 < i.1
    · rw [dif_pos h]; simp [Fin.succAbove, Fin.lt_def, h]
    · rw [dif_neg h]; simp [Fin.succAbove, Fin.lt_def, h]
  have e2 : (Matrix.of fun p q : Fin n => |Mat.ent B (((List.range (n + 1)).eraseIdx j.1)[p.1]'(by rw [len]; exact p.2))
      (((List.range (n + 1)).eraseIdx i.1)[q.1]'(by rw [len]; exact q.2))|) = (a.map abs).submatrix j.succAbove i.succAbove := by
    ext p q
    simp only [Matrix.of_apply, Matrix.submatrix_apply, Matrix.map_apply, key]
    rw [Mat.ent_lt _ _ _ (Fin.is_lt _) (Fin.is_lt _), hB]
  rw [e2] at h3
  exact h3

namespace F32
theorem div_val_err {a b : F} {p q : ℝ} (ha : a.toReal? = some p) (hb : b.toReal? = some q) (hq : q ≠ 0) (h : |p / q| ≤ 2 ^ 120) :
    ∃ r, (a / b : F).toReal? = some r ∧ |r - p / q| ≤ 1 / 2 ^ 24 * |p / q| + 1 / 2 ^ 150 := by
  have e := near_err_add (φ := Fmt.f32) (p / q)
  rw [u_eq, tiny_eq] at e
  refine ⟨_, val_div_iff.2 (.inl ⟨p, q, ha, hb, hq, rfl, ?_⟩), e⟩
  rw [huge_eq]
  calc |Fmt.f32.near (p / q)| = |(Fmt.f32.near (p / q) - p / q) + p / q| := by congr 1; ring
    _ ≤ _ := abs_add_le _ _
    _ ≤ (1 / 2 ^ 24 * 2 ^ 120 + 1 / 2 ^ 150) + 2 ^ 120 := by refine add_le_add (e.trans ?_) h; gcongr
    _ < _ := by norm_num
theorem inv_arith {x Y s κ Q : ℝ} (Y0 : 0 ≤ Y) (s0 : 4 ≤ s) (κ1 : 1 ≤ κ) (Q0 : 0 ≤ Q) (eD : x ≤ 101 / 200 * s / 2 ^ 24 * Q + 1 / 2 ^ 68) :
    1.1501 * (x + (101 / 200 * s / 2 ^ 24 * κ + 1 / 2 ^ 68) * Y) + 1 / 2 ^ 24 * Y + 1 / 2 ^ 150 ≤ s / 2 ^ 24 * (κ * Y + Q) + (1 + Y) / 2 ^ 60 := by
  have f2 : 4 * Y ≤ s * (κ * Y) := by
    calc 4 * Y = 4 * (1 * Y) := by ring
      _ ≤ s * (κ * Y) := by gcongr
  have g2 : 0 ≤ s * Q := by positivity
  have e1 : s / 2 ^ 24 * (κ * Y + Q) + (1 + Y) / 2 ^ 60 = 1 / 2 ^ 24 * (s * (κ * Y)) + 1 / 2 ^ 24 * (s * Q) + 1 / 2 ^ 60 + 1 / 2 ^ 60 * Y := by ring
  have e2 : (101 / 200 * s / 2 ^ 24 * κ + 1 / 2 ^ 68) * Y = 101 / 200 / 2 ^ 24 * (s * (κ * Y)) + 1 / 2 ^ 68 * Y := by ring
  have e3 : 101 / 200 * s / 2 ^ 24 * Q = 101 / 200 / 2 ^ 24 * (s * Q) := by ring
  rw [e1, e2]; rw [e3] at eD
  generalize s * (κ * Y) = z at *
  generalize s * Q = w at *
  have g3 : (1.1501:ℝ) * (1 / 2 ^ 68) + 1 / 2 ^ 150 ≤ 1 / 2 ^ 60 := by norm_num
  have g4 : (1.1501:ℝ) * (1 / 2 ^ 68) * Y ≤ 1 / 2 ^ 60 * Y := by gcongr; norm_num
  have h5 : (1:ℝ) / 2 ^ 24 * Y ≤ 0.25 / 2 ^ 24 * z := by
    calc (1:ℝ) / 2 ^ 24 * Y = 0.25 / 2 ^ 24 * (4 * Y) := by ring
      _ ≤ _ := by gcongr
  have h6 : (1.1501:ℝ) * (101 / 200 / 2 ^ 24 * z) + 0.25 / 2 ^ 24 * z ≤ 1 / 2 ^ 24 * z := by
    have z0 : 0 ≤ z := le_trans (by positivity) f2
    rw [← mul_assoc, ← add_mul]; exact mul_le_mul_of_nonneg_right (by norm_num) z0
  have h7 : (1.1501:ℝ) * (101 / 200 / 2 ^ 24 * w) ≤ 1 / 2 ^ 24 * w := by
    rw [← mul_assoc]; exact mul_le_mul_of_nonneg_right (by norm_num) g2
  linarith
end F32

set_option maxHeartbeats 1000000 in
/-- Entries of the inverse of a matrix of floats.  `κ` is a condition number: the ratio of the permanent of the absolute values and the
determinant. -/
theorem C109_inverse {n : ℕ} (A : Mat F (n + 1) (n + 1)) (a : Matrix (Fin (n + 1)) (Fin (n + 1)) ℝ) (ha : ∀ i j : Fin (n + 1), A[i.1][j.1].toReal? = some (a i j))
    (c : ℝ) (hc : 1 ≤ c) (hb : ∀ i j, |a i j| ≤ c) (h : (n + 1).factorial * c ^ (n + 1) ≤ 2 ^ 40) (hd : 1 / 2 ^ 40 ≤ |a.det|)
    (κ : ℝ) (hκ : (a.map abs).permanent ≤ κ * |a.det|) (hs : (n + 1) * (n + 4) * κ ≤ 2 ^ 22) (i j : Fin (n + 1)) :
    ∃ r, A.inv[i.1][j.1].toReal? = some r ∧
      |r - a⁻¹ i j| ≤ (n + 1) * (n + 4) / 2 ^ 24 * (κ * |a⁻¹ i j| + ((a.map abs).submatrix j.succAbove i.succAbove).permanent / |a.det|) +
        (1 + |a⁻¹ i j|) / 2 ^ 60 := by
  have c0 : 0 ≤ c := zero_le_one.trans hc
  have D0 : 0 < |a.det| := lt_of_lt_of_le (by positivity) hd
  have hdet0 : a.det ≠ 0 := abs_pos.1 D0
  have h' : (n.factorial : ℝ) * c ^ n ≤ 2 ^ 40 := (fact_pow_mono hc (Nat.le_succ n)).trans h
  obtain ⟨q, hq, eq⟩ := C109_det A a ha c hc hb (h.trans (by norm_num))
  obtain ⟨p, hp, ep⟩ := C109_adj A a ha c hc hb (h'.trans (by norm_num)) i j
  set D := |a.det| with hD
  set P := ((a.map abs).submatrix j.succAbove i.succAbove).permanent with hP
  set Y := |a⁻¹ i j| with hY
  have Y0 : 0 ≤ Y := abs_nonneg _
  have n0 : (0:ℝ) ≤ n := Nat.cast_nonneg n
  have κ1 : 1 ≤ κ := by
    have := (abs_det_le_per a).trans hκ
    rw [← hD] at this
    by_contra hk
    push Not at hk
    nlinarith
  have einv : a⁻¹ i j = a.adjugate i j / a.det := by
    rw [Matrix.inv_def, Matrix.smul_apply, Ring.inverse_eq_inv', smul_eq_mul]; field_simp
  have P0 : 0 ≤ P := Finset.sum_nonneg fun σ _ => Finset.prod_nonneg fun k _ => abs_nonneg _
  have Pc : P ≤ n.factorial * c ^ n := per_le (a := a.submatrix j.succAbove i.succAbove) fun _ _ => hb _ _
  -- the relative error of the determinant
  set s : ℝ := (n + 1) * (n + 4) with hsd
  set ρ : ℝ := 101 / 200 * s / 2 ^ 24 * κ + 1 / 2 ^ 68 with hρd
  have hρ : |q - a.det| ≤ ρ * D := by
    refine eq.trans ?_
    rw [hρd, add_mul]
    refine add_le_add ?_ ?_
    · push_cast
      rw [show ((n:ℝ) + 1) * (n + 1 + 3) = s by rw [hsd]; ring]
      calc _ ≤ 101 / 200 * s / 2 ^ 24 * (κ * D) := by rw [hsd]; gcongr
        _ = _ := by ring
    · calc _ ≤ (2:ℝ) ^ 40 / 2 ^ 148 := by gcongr
        _ = 1 / 2 ^ 68 * (1 / 2 ^ 40) := by norm_num
        _ ≤ _ := by gcongr
  have s0 : 4 ≤ s := by rw [hsd]; nlinarith
  have hρs : ρ ≤ 0.13 := by
    have : 101 / 200 * s / 2 ^ 24 * κ = 101 / 200 / 2 ^ 24 * (s * κ) := by ring
    rw [hρd, this]
    calc _ ≤ (101:ℝ) / 200 / 2 ^ 24 * 2 ^ 22 + 1 / 2 ^ 68 := by gcongr
      _ ≤ _ := by norm_num
  have ρ0 : 0 ≤ ρ := by rw [hρd]; positivity
  -- the adjugate
  set e : ℝ := 101 / 200 * s / 2 ^ 24 * P + 1 / 2 ^ 108 with hed
  have he : |p - a.adjugate i j| ≤ e := by
    refine ep.trans (add_le_add ?_ ?_)
    · refine mul_le_mul_of_nonneg_right ?_ P0
      have : (n:ℝ) * (n + 3) ≤ s := by rw [hsd]; nlinarith
      gcongr
    · calc _ ≤ (2:ℝ) ^ 40 / 2 ^ 148 := by gcongr
        _ = _ := by norm_num
  have q0 : q ≠ 0 := by
    intro h0
    rw [h0, zero_sub, abs_neg] at hρ
    have : ρ * D ≤ 0.13 * D := by gcongr
    linarith
  have hx := quot_err (A := ℝ) (n := a.adjugate i j) (n' := p) (d := a.det) (d' := q) (r := p / q) (e := e) (ρ := ρ) (τ := 0) hdet0
    (by linarith) le_rfl he hρ (by simp)
  rw [← einv] at hx
  simp only [Real.norm_eq_abs, add_zero, one_mul, zero_mul] at hx
  rw [← hD, ← hY] at hx
  -- everything is in range
  have eD : e / D ≤ 101 / 200 * s / 2 ^ 24 * (P / D) + 1 / 2 ^ 68 := by
    rw [hed, add_div]
    refine add_le_add (le_of_eq (by ring)) ?_
    rw [div_le_iff₀ D0]
    calc (1:ℝ) / 2 ^ 108 = 1 / 2 ^ 68 * (1 / 2 ^ 40) := by norm_num
      _ ≤ _ := by gcongr
  have e0 : 0 ≤ e := by rw [hed]; positivity
  have hmain : |p / q - a⁻¹ i j| ≤ 1.15 * (e / D + ρ * Y) := by
    refine hx.trans ?_
    rw [div_le_iff₀ (by linarith)]
    have : 0 ≤ e / D + ρ * Y := by positivity
    nlinarith
  have Yb : Y ≤ 2 ^ 80 := by
    have h1 : |a.adjugate i j| ≤ 2 ^ 40 := by
      rw [Matrix.adjugate_fin_succ_eq_det_submatrix, abs_mul, abs_pow, abs_neg, abs_one, one_pow, one_mul]
      exact (abs_det_le_per _).trans (Pc.trans h')
    rw [hY, einv, abs_div, ← hD, div_le_iff₀ D0]
    calc |a.adjugate i j| ≤ 2 ^ 40 := h1
      _ = 2 ^ 80 * (1 / 2 ^ 40) := by norm_num
      _ ≤ _ := by gcongr
  have PDb : P / D ≤ 2 ^ 80 := by
    rw [div_le_iff₀ D0]
    calc P ≤ 2 ^ 40 := Pc.trans h'
      _ = 2 ^ 80 * (1 / 2 ^ 40) := by norm_num
      _ ≤ _ := by gcongr
  have sk : s ≤ 2 ^ 22 := by
    calc s = s * 1 := (mul_one s).symm
      _ ≤ s * κ := by gcongr
      _ ≤ _ := hs
  have PD0 : 0 ≤ P / D := by positivity
  have hb2 : e / D + ρ * Y ≤ 2 ^ 81 := by
    calc e / D + ρ * Y ≤ (101 / 200 * 2 ^ 22 / 2 ^ 24 * 2 ^ 80 + 1 / 2 ^ 68) + 0.13 * 2 ^ 80 := by
          refine add_le_add (eD.trans ?_) (by gcongr)
          gcongr
      _ ≤ _ := by norm_num
  have tri : |p / q| ≤ |p / q - a⁻¹ i j| + Y := by
    calc |p / q| = |(p / q - a⁻¹ i j) + a⁻¹ i j| := by congr 1; ring
      _ ≤ _ := abs_add_le _ _
  have big : |p / q| ≤ 2 ^ 120 := by
    calc |p / q| ≤ 1.15 * 2 ^ 81 + 2 ^ 80 := by linarith
      _ ≤ _ := by norm_num
  obtain ⟨r, hr, er⟩ := div_val_err hp hq q0 big
  refine ⟨r, ?_, ?_⟩
  · rw [Mat.getElem_congr_mat (Mat.inv_eq A) i i.2 j j.2, Mat.getElem_divS]; exact hr
  have tri2 : |r - a⁻¹ i j| ≤ |r - p / q| + |p / q - a⁻¹ i j| := by
    calc |r - a⁻¹ i j| = |(r - p / q) + (p / q - a⁻¹ i j)| := by congr 1; ring
      _ ≤ _ := abs_add_le _ _
  have f1 : |r - a⁻¹ i j| ≤ 1.1501 * (e / D + ρ * Y) + 1 / 2 ^ 24 * Y + 1 / 2 ^ 150 := by
    have h1 : 0 ≤ e / D + ρ * Y := by positivity
    have h2 : (1:ℝ) / 2 ^ 24 * |p / q| ≤ 1 / 2 ^ 24 * (1.15 * (e / D + ρ * Y) + Y) := by gcongr; linarith
    have h3 : (1:ℝ) / 2 ^ 24 * (1.15 * (e / D + ρ * Y) + Y) ≤ 0.0001 * (e / D + ρ * Y) + 1 / 2 ^ 24 * Y := by
      rw [mul_add]
      refine add_le_add ?_ le_rfl
      rw [← mul_assoc]
      exact mul_le_mul_of_nonneg_right (by norm_num) h1
    linarith
  refine f1.trans ?_
  exact inv_arith Y0 s0 κ1 PD0 eD

end Vecmat
