import Verif.Props.F64Direction
import Verif.Props.F32Affine
import Verif.Props.F32LookAt
/-!
# C114, continued: directions and normals in single precision
-/
namespace Vecmat
open Spec Ieee F32 Direction
open F64 (abs_det_le_per minor_nonneg mulVec_le toE toE_apply length_eq norm_toE toE_add toE_sub toE_mulS abs_le_norm ofFn ofFn_get length_nonneg unit_sub
  normalize_length length_close)
set_option exponentiation.threshold 3000

namespace Direction32
theorem size14 {c : ℝ} (hc : 1 ≤ c) {n : ℕ} (h : (n + 1).factorial * c ^ (n + 1) ≤ 2 ^ 40) : n + 1 ≤ 14 := by
  by_contra hlt
  push Not at hlt
  have h1 : Nat.factorial 15 ≤ (n + 1).factorial := Nat.factorial_le (by omega)
  have h2 : ((Nat.factorial 15 : ℕ) : ℝ) ≤ (n + 1).factorial := by exact_mod_cast h1
  have h3 : (1:ℝ) ≤ c ^ (n + 1) := one_le_pow₀ hc
  have h4 : (0:ℝ) ≤ (n + 1).factorial := Nat.cast_nonneg _
  have h5 : ((Nat.factorial 15 : ℕ) : ℝ) ≤ 2 ^ 40 := by nlinarith
  norm_num [Nat.factorial] at h5
variable {N : ℕ}
/-- The normalisation of a computed vector close to `Y`. -/
theorem near_dir32 [NeZero N] (hN : N ≤ 2 ^ 8) {v : Vec F N} {X Y : Vec ℝ N} (hv : ValV v X) {ε : ℝ} (he : (X - Y).length ≤ ε * Y.length)
    (hε : ε ≤ 1 / 4) (hl : 1 / 2 ^ 54 ≤ Y.length) (hr : Y.length ≤ 2 ^ 54) :
    ∃ W, ValV v.normalize W ∧ (W - Y.normalize).length ≤ (N + 9) / 2 ^ 25 + 2 * ε := by
  have Y0 : 0 < Y.length := lt_of_lt_of_le (by positivity) hl
  have hc := abs_le.1 ((length_close X Y).trans he)
  have h4 : ε * Y.length ≤ 1 / 4 * Y.length := mul_le_mul_of_nonneg_right hε Y0.le
  have hl' : 1 / 2 ^ 55 ≤ X.length := by
    have : (1:ℝ) / 2 ^ 54 = 2 * (1 / 2 ^ 55) := by norm_num
    linarith [hc.1]
  have hr' : X.length ≤ 2 ^ 55 := by
    have : (2:ℝ) ^ 55 = 2 * 2 ^ 54 := by norm_num
    linarith [hc.2]
  have X0 : 0 < X.length := lt_of_lt_of_le (by positivity) hl'
  obtain ⟨W, hW, eW⟩ := nrm_val hN hv hl' hr'
  refine ⟨W, hW, ?_⟩
  have e2 : (X.normalize - Y.normalize).length ≤ 2 * ε := by
    rw [← norm_toE, toE_sub, F64.normalize_eq, F64.normalize_eq]
    refine (unit_sub (fun h => ?_) (fun h => ?_)).trans ?_
    · rw [← norm_toE, h, norm_zero] at X0; exact lt_irrefl _ X0
    · rw [← norm_toE, h, norm_zero] at Y0; exact lt_irrefl _ Y0
    · rw [← toE_sub, norm_toE, norm_toE, div_le_iff₀ Y0]; linarith
  calc (W - Y.normalize).length = ‖(toE W - toE X.normalize) + (toE X.normalize - toE Y.normalize)‖ := by
        rw [← norm_toE, toE_sub]; congr 1; abel
    _ ≤ ‖toE W - toE X.normalize‖ + ‖toE X.normalize - toE Y.normalize‖ := norm_add_le _ _
    _ = (W - X.normalize).length + (X.normalize - Y.normalize).length := by rw [← toE_sub, ← toE_sub, norm_toE, norm_toE]
    _ ≤ _ := add_le_add eW e2
end Direction32
open Direction32

/-- `Linear::apply_dir`: within `(N + 9 + 5Nσ) u/2` of the exact unit vector, where `σ` bounds `‖A‖ |d| / |A d|` (so `σ` is at most the
condition number of the matrix). -/
theorem C114_direction_f32 {N : ℕ} [NeZero N] (hN : N ≤ 2 ^ 8) (l : Linear F N) (L : Linear ℝ N) (hL : ValM l.intoMatrix L.intoMatrix)
    (dir : Vec F N) (D : Vec ℝ N) (hD : ValV dir D) (pos : Vec F N) (P : Vec ℝ N)
    (hl : 1 / 2 ^ 54 ≤ (Transform.apply L D).length) (hr : frob L.intoMatrix.toMatrix * D.length ≤ 2 ^ 54)
    (σ : ℝ) (hσ : frob L.intoMatrix.toMatrix * D.length ≤ σ * (Transform.apply L D).length) (hs : N * σ ≤ 2 ^ 21) :
    ∃ W, ValV (Directional.applyDir l pos dir) W ∧
      (W - Directional.applyDir L P D).length ≤ (N + 9 + 5 * (N * σ)) / 2 ^ 25 ∧ |W.length - 1| ≤ (N + 9 + 5 * (N * σ)) / 2 ^ 25 := by
  set Y := Transform.apply L D with hY
  have Y0 : 0 < Y.length := lt_of_lt_of_le (by positivity) hl
  have fY := apply_length L D
  rw [← hY] at fY
  have σ1 : 1 ≤ σ := by
    by_contra h
    push Not at h
    nlinarith
  have n1 : (1:ℝ) ≤ N := by exact_mod_cast Nat.pos_of_ne_zero (NeZero.ne N)
  have nN : (N:ℝ) ≤ 2 ^ 8 := by exact_mod_cast hN
  have hc : ∀ i : Fin N, ∑ j, |L.intoMatrix.toMatrix i j| * |coords D j| ≤ 2 ^ 120 := fun i => by
    have h1 := abs_le_norm (toE (ofFn fun i => ∑ j, |L.intoMatrix.toMatrix i j| * |D[j.1]|)) i
    rw [norm_toE, toE_apply, ofFn_get] at h1
    exact (le_abs_self _).trans (h1.trans ((rows _ _).trans (hr.trans (by norm_num))))
  choose r vr er using fun i => C109_linear_apply (hN.trans (by norm_num)) l dir L.intoMatrix.toMatrix (coords D) (fun i j => hL i j) (fun j => hD j) i (hc i)
  have hX : ValV (Transform.deriv l pos dir) (ofFn r) := fun i => by rw [ofFn_get]; exact vr i
  have hE := err_length L.intoMatrix.toMatrix D (ofFn r - Y) (k := 101 / 100 * N / 2 ^ 24) (t := N / 2 ^ 149) (by positivity) (by positivity)
    (fun i => by rw [Vec.getElem_sub, ofFn_get, hY, apply_coord]; exact er i)
  have hE' : (ofFn r - Y).length ≤ (102 / 100 * (N * σ) / 2 ^ 24) * Y.length := by
    have t1 : (N:ℝ) * (N / 2 ^ 149) ≤ 1 / 100 * (N * σ) / 2 ^ 24 * Y.length := by
      have : (N:ℝ) * (1 / 2 ^ 141) ≤ N * σ * (1 / 100 / 2 ^ 24 * Y.length) := by
        rw [mul_assoc]
        refine mul_le_mul_of_nonneg_left ?_ (by positivity)
        calc (1:ℝ) / 2 ^ 141 ≤ 1 * (1 / 100 / 2 ^ 24 * (1 / 2 ^ 54)) := by norm_num
          _ ≤ σ * (1 / 100 / 2 ^ 24 * Y.length) := by
            refine mul_le_mul σ1 (mul_le_mul_of_nonneg_left hl (by norm_num)) (by norm_num) (by linarith)
      calc (N:ℝ) * (N / 2 ^ 149) ≤ N * (2 ^ 8 / 2 ^ 149) := by gcongr
        _ = (N:ℝ) * (1 / 2 ^ 141) := by norm_num
        _ ≤ _ := this.trans (le_of_eq (by ring))
    have t2 : 101 / 100 * N / 2 ^ 24 * (frob L.intoMatrix.toMatrix * D.length) ≤ 101 / 100 * N / 2 ^ 24 * (σ * Y.length) :=
      mul_le_mul_of_nonneg_left hσ (by positivity)
    calc _ ≤ _ := hE
      _ ≤ 101 / 100 * N / 2 ^ 24 * (σ * Y.length) + 1 / 100 * (N * σ) / 2 ^ 24 * Y.length := add_le_add t2 t1
      _ = _ := by ring
  have hk : 102 / 100 * (N * σ) / 2 ^ 24 ≤ 1 / 4 := by
    calc 102 / 100 * (N * σ) / 2 ^ 24 ≤ 102 / 100 * 2 ^ 21 / 2 ^ 24 := by gcongr
      _ ≤ _ := by norm_num
  obtain ⟨W, hW, eW⟩ := near_dir32 hN hX hE' hk hl (fY.trans hr)
  have e1 : (W - Y.normalize).length ≤ (N + 9 + 5 * (N * σ)) / 2 ^ 25 := by
    refine eW.trans ?_
    have : 0 ≤ (N:ℝ) * σ := by positivity
    rw [show (102 / 100 * ((N:ℝ) * σ) / 2 ^ 24) = (204 / 100 * (N * σ)) / 2 ^ 25 by ring]
    rw [← mul_div_assoc, ← add_div]
    exact div_le_div_of_nonneg_right (by linarith) (by positivity)
  refine ⟨W, hW, e1, ?_⟩
  have := (length_close W Y.normalize).trans e1
  rwa [normalize_length Y0] at this
set_option maxHeartbeats 1000000 in
/-- `Linear::apply_normal`: within `(N + 9 + 6N(N+3)σ) u/2` of the exact unit normal, where `σ` bounds the norm of the weights of the
inverse times `|n| / |A⁻ᵀ n|`. -/
theorem C114_normal_f32 {n : ℕ} (l : Linear F (n + 1)) (L : Linear ℝ (n + 1)) (hL : ValM l.intoMatrix L.intoMatrix)
    (c : ℝ) (hc : 1 ≤ c) (hc' : c ≤ 2 ^ 10) (hb : ∀ i j, |L.intoMatrix.toMatrix i j| ≤ c) (h : (n + 1).factorial * c ^ (n + 1) ≤ 2 ^ 40)
    (hd : 1 / 2 ^ 40 ≤ |L.intoMatrix.toMatrix.det|)
    (κ : ℝ) (hκ : (L.intoMatrix.toMatrix.map abs).permanent ≤ κ * |L.intoMatrix.toMatrix.det|) (hs : (n + 1) * (n + 4) * κ ≤ 2 ^ 22)
    (nrm : Vec F (n + 1)) (M : Vec ℝ (n + 1)) (hM : ValV nrm M) (pos : Vec F (n + 1)) (P : Vec ℝ (n + 1))
    (hl : 1 / 2 ^ 54 ≤ (Transform.apply L.normalTransform M).length) (hr : frob (invWeight κ L.intoMatrix.toMatrix) * M.length ≤ 2 ^ 54)
    (σ : ℝ) (hσ : frob (invWeight κ L.intoMatrix.toMatrix) * M.length ≤ σ * (Transform.apply L.normalTransform M).length)
    (hs' : (n + 1) * (n + 4) * σ ≤ 2 ^ 21) :
    ∃ W, ValV (Directional.applyNormal l pos nrm) W ∧
      (W - Directional.applyNormal L P M).length ≤ (n + 10 + 6 * ((n + 1) * (n + 4) * σ)) / 2 ^ 25 ∧
      |W.length - 1| ≤ (n + 10 + 6 * ((n + 1) * (n + 4) * σ)) / 2 ^ 25 := by
  generalize ha : L.intoMatrix.toMatrix = a at *
  set Y := Transform.apply L.normalTransform M with hY
  have Y0 : 0 < Y.length := lt_of_lt_of_le (by positivity) hl
  have D0 : 0 < |a.det| := lt_of_lt_of_le (by positivity) hd
  have κ1 := kappa_one hd hκ
  have Q0 := minor_nonneg a
  have n0 : (0:ℝ) ≤ n := Nat.cast_nonneg n
  have nb : n + 1 ≤ 14 := size14 hc h
  have nb' : (n:ℝ) + 1 ≤ 2 ^ 4 := by
    have : ((n + 1 : ℕ) : ℝ) ≤ 14 := by exact_mod_cast nb
    push_cast at this; linarith
  choose g hg eg using fun i j => C109_inverse l.intoMatrix a (fun i j => by rw [← ha]; exact hL i j) c hc hb h hd κ hκ hs i j
  -- the weights
  set w := (invWeight κ a).transpose with hw
  have wdef : ∀ i j, w i j = κ * |a⁻¹ j i| + ((a.map abs).submatrix i.succAbove j.succAbove).permanent / |a.det| := fun i j => rfl
  have w1 : ∀ i j, |a⁻¹ j i| ≤ w i j := fun i j => by
    rw [wdef]; nlinarith [abs_nonneg (a⁻¹ j i), Q0 j i]
  have w0 : ∀ i j, 0 ≤ w i j := fun i j => (abs_nonneg _).trans (w1 i j)
  have wabs : ∀ i j, |w i j| = w i j := fun i j => abs_of_nonneg (w0 i j)
  rw [← frob_transpose, ← hw] at hσ hr
  set S : ℝ := (n + 1) * (n + 4) with hS
  have S4 : 4 * ((n:ℝ) + 1) ≤ S := by rw [hS]; nlinarith
  have S0 : 0 ≤ S := by linarith
  have S1 : 4 ≤ S := by linarith
  have Su : S / 2 ^ 24 ≤ 1 / 4 := by
    have : S ≤ 2 ^ 22 := by nlinarith
    calc S / 2 ^ 24 ≤ 2 ^ 22 / 2 ^ 24 := by gcongr
      _ = _ := by norm_num
  have ge : ∀ i j, |g j i - a⁻¹ j i| ≤ (S / 2 ^ 24 + 1 / 2 ^ 60) * w i j + 1 / 2 ^ 60 := fun i j => by
    have h1 := eg j i
    rw [← wdef] at h1
    have h2 : (1 + |a⁻¹ j i|) / 2 ^ 60 ≤ (1 + w i j) / 2 ^ 60 := div_le_div_of_nonneg_right (by linarith [w1 i j]) (by positivity)
    calc _ ≤ _ := h1
      _ ≤ S / 2 ^ 24 * w i j + (1 + w i j) / 2 ^ 60 := by linarith
      _ = _ := by ring
  have gb : ∀ i j, |g j i| ≤ 13 / 10 * w i j + 1 / 2 ^ 60 := fun i j => by
    have h1 : |g j i| ≤ |g j i - a⁻¹ j i| + |a⁻¹ j i| := by
      calc |g j i| = |(g j i - a⁻¹ j i) + a⁻¹ j i| := by congr 1; ring
        _ ≤ _ := abs_add_le _ _
    have h2 : (S / 2 ^ 24 + 1 / 2 ^ 60) * w i j ≤ 3 / 10 * w i j := mul_le_mul_of_nonneg_right (by linarith [show (1:ℝ) / 2 ^ 60 ≤ 1 / 20 by norm_num]) (w0 i j)
    linarith [ge i j, w1 i j]
  -- the normal and its image
  have back : ∀ j : Fin (n + 1), |M[j.1]| ≤ 2 ^ 14 * Y.length := fun j => by
    rw [normal_back L (by rw [ha]; exact abs_pos.1 D0) M j, ha, ← hY]
    calc _ ≤ ∑ i : Fin (n + 1), |a i j * Y[i.1]| := Finset.abs_sum_le_sum_abs _ _
      _ ≤ ∑ i : Fin (n + 1), 2 ^ 10 * Y.length := Finset.sum_le_sum fun i _ => by
          rw [abs_mul]; exact mul_le_mul ((hb i j).trans hc') (coord_le Y i) (abs_nonneg _) (by positivity)
      _ = ((n:ℝ) + 1) * (2 ^ 10 * Y.length) := by simp
      _ ≤ 2 ^ 4 * (2 ^ 10 * Y.length) := by gcongr
      _ = _ := by ring
  have sumM : ∑ j : Fin (n + 1), |M[j.1]| ≤ 2 ^ 18 * Y.length := by
    calc _ ≤ ∑ j : Fin (n + 1), 2 ^ 14 * Y.length := Finset.sum_le_sum fun j _ => back j
      _ = ((n:ℝ) + 1) * (2 ^ 14 * Y.length) := by simp
      _ ≤ 2 ^ 4 * (2 ^ 14 * Y.length) := by gcongr
      _ = _ := by ring
  have yi : ∀ i : Fin (n + 1), |Y[i.1]| ≤ ∑ j : Fin (n + 1), |w i j| * |M[j.1]| := fun i => by
    rw [hY, normal_coord, ha]
    refine (mulVec_le _ _ _).trans (Finset.sum_le_sum fun j _ => ?_)
    rw [wabs]
    exact mul_le_mul_of_nonneg_right (w1 i j) (abs_nonneg _)
  have fY : Y.length ≤ frob w * M.length :=
    (norm_mono (y := ofFn fun i => ∑ j, |w i j| * |M[j.1]|) fun i => by rw [ofFn_get]; exact yi i).trans (rows _ _)
  have σ1 : 1 ≤ σ := by
    by_contra hlt
    push Not at hlt
    nlinarith
  have hr' : Y.length ≤ 2 ^ 54 := fY.trans hr
  have wsum0 : ∀ i : Fin (n + 1), 0 ≤ ∑ j : Fin (n + 1), |w i j| * |M[j.1]| := fun i => Finset.sum_nonneg fun j _ => by positivity
  have gsum : ∀ i : Fin (n + 1), ∑ j : Fin (n + 1), |g j i| * |M[j.1]| ≤ 13 / 10 * (∑ j : Fin (n + 1), |w i j| * |M[j.1]|) + 1 / 2 ^ 42 * Y.length := fun i => by
    calc _ ≤ ∑ j : Fin (n + 1), (13 / 10 * (|w i j| * |M[j.1]|) + 1 / 2 ^ 60 * |M[j.1]|) := Finset.sum_le_sum fun j _ => by
          rw [wabs]; exact (mul_le_mul_of_nonneg_right (gb i j) (abs_nonneg _)).trans (le_of_eq (by ring))
      _ = 13 / 10 * (∑ j : Fin (n + 1), |w i j| * |M[j.1]|) + 1 / 2 ^ 60 * ∑ j : Fin (n + 1), |M[j.1]| := by
          rw [Finset.sum_add_distrib, Finset.mul_sum, Finset.mul_sum]
      _ ≤ 13 / 10 * (∑ j : Fin (n + 1), |w i j| * |M[j.1]|) + 1 / 2 ^ 60 * (2 ^ 18 * Y.length) :=
          add_le_add le_rfl (mul_le_mul_of_nonneg_left sumM (by norm_num))
      _ = _ := by rw [← mul_assoc]; norm_num
  have hm : ∀ i : Fin (n + 1), ∑ j : Fin (n + 1), |(Matrix.of g).transpose i j| * |coords M j| ≤ 2 ^ 120 := fun i => by
    refine (gsum i).trans ?_
    have h1 := (row_le w M i).trans hr
    have h2 : 1 / 2 ^ 42 * Y.length ≤ 1 * 2 ^ 54 := mul_le_mul (by norm_num) hr' Y0.le (by norm_num)
    calc _ ≤ 13 / 10 * (2:ℝ) ^ 54 + 1 * 2 ^ 54 := by linarith
      _ ≤ _ := by norm_num
  have hN : n + 1 ≤ 2 ^ 8 := by omega
  choose r vr er using fun i => C109_linear_apply (hN.trans (by norm_num)) l.normalTransform nrm (Matrix.of g).transpose (coords M)
    (fun i j => by
      have e : l.normalTransform.intoMatrix[i.1][j.1] = l.intoMatrix.inv[j.1][i.1] := Mat.getElem_transpose _ _ _ _ _
      rw [e]; exact hg j i) (fun j => hM j) i (hm i)
  have hX : ValV (Transform.apply l.normalTransform nrm) (ofFn r) := fun i => by rw [ofFn_get]; exact vr i
  have hE : ∀ i : Fin (n + 1), |(ofFn r - Y)[i.1]| ≤ 133 / 100 * S / 2 ^ 24 * (∑ j : Fin (n + 1), |w i j| * |M[j.1]|) + 1 / 2 ^ 40 * Y.length := fun i => by
    rw [Vec.getElem_sub, ofFn_get, hY, normal_coord, ha]
    set X := ∑ j : Fin (n + 1), |w i j| * |M[j.1]| with hXX
    have X0 : 0 ≤ X := wsum0 i
    have m2 : |(Matrix.of g).transpose.mulVec (coords M) i - a⁻¹.transpose.mulVec (coords M) i| ≤ (S / 2 ^ 24 + 1 / 2 ^ 60) * X + 1 / 2 ^ 42 * Y.length := by
      have : (Matrix.of g).transpose.mulVec (coords M) i - a⁻¹.transpose.mulVec (coords M) i = ∑ j : Fin (n + 1), (g j i - a⁻¹ j i) * M[j.1] := by
        rw [Matrix.mulVec, Matrix.mulVec, dotProduct, dotProduct, ← Finset.sum_sub_distrib]
        exact Finset.sum_congr rfl fun j _ => by rw [Matrix.transpose_apply, Matrix.transpose_apply, Matrix.of_apply]; simp only [coords]; ring
      rw [this]
      calc _ ≤ ∑ j : Fin (n + 1), |(g j i - a⁻¹ j i) * M[j.1]| := Finset.abs_sum_le_sum_abs _ _
        _ ≤ ∑ j : Fin (n + 1), ((S / 2 ^ 24 + 1 / 2 ^ 60) * (|w i j| * |M[j.1]|) + 1 / 2 ^ 60 * |M[j.1]|) := Finset.sum_le_sum fun j _ => by
            rw [abs_mul, wabs]; exact (mul_le_mul_of_nonneg_right (ge i j) (abs_nonneg _)).trans (le_of_eq (by ring))
        _ = (S / 2 ^ 24 + 1 / 2 ^ 60) * X + 1 / 2 ^ 60 * ∑ j : Fin (n + 1), |M[j.1]| := by
            rw [Finset.sum_add_distrib, hXX, Finset.mul_sum, Finset.mul_sum]
        _ ≤ (S / 2 ^ 24 + 1 / 2 ^ 60) * X + 1 / 2 ^ 60 * (2 ^ 18 * Y.length) :=
            add_le_add le_rfl (mul_le_mul_of_nonneg_left sumM (by norm_num))
        _ = _ := by rw [← mul_assoc (1 / 2 ^ 60 : ℝ)]; norm_num
    have m3 : 101 / 100 * ((n + 1 : ℕ) : ℝ) / 2 ^ 24 * ∑ j, |(Matrix.of g).transpose i j| * |coords M j| ≤
        329 / 1000 * S / 2 ^ 24 * X + 1 / 2 ^ 42 * Y.length := by
      push_cast
      have k1 : 101 / 100 * ((n:ℝ) + 1) / 2 ^ 24 ≤ 101 / 400 * S / 2 ^ 24 := div_le_div_of_nonneg_right (by linarith) (by positivity)
      have k2 : 101 / 400 * S / 2 ^ 24 ≤ 1 := by linarith
      have k0 : 0 ≤ 101 / 400 * S / 2 ^ 24 := by positivity
      have y0 : 0 ≤ 1 / 2 ^ 42 * Y.length := mul_nonneg (by norm_num) Y0.le
      calc _ ≤ 101 / 400 * S / 2 ^ 24 * (13 / 10 * X + 1 / 2 ^ 42 * Y.length) :=
            mul_le_mul k1 (gsum i) (Finset.sum_nonneg fun j _ => by positivity) k0
        _ = 101 / 400 * (13 / 10) * S / 2 ^ 24 * X + 101 / 400 * S / 2 ^ 24 * (1 / 2 ^ 42 * Y.length) := by ring
        _ ≤ 329 / 1000 * S / 2 ^ 24 * X + 1 * (1 / 2 ^ 42 * Y.length) := by
          refine add_le_add (mul_le_mul_of_nonneg_right ?_ X0) (mul_le_mul_of_nonneg_right k2 y0)
          exact div_le_div_of_nonneg_right (by linarith) (by positivity)
        _ = _ := by ring
    have m4 : ((n + 1 : ℕ) : ℝ) / 2 ^ 149 ≤ 1 / 2 ^ 42 * Y.length := by
      push_cast
      calc ((n:ℝ) + 1) / 2 ^ 149 ≤ 2 ^ 4 / 2 ^ 149 := by gcongr
        _ ≤ 1 / 2 ^ 42 * (1 / 2 ^ 54) := by norm_num
        _ ≤ _ := mul_le_mul_of_nonneg_left hl (by norm_num)
    have m5 : 1 / 2 ^ 60 * X ≤ 1 / 1000 * S / 2 ^ 24 * X := by
      refine mul_le_mul_of_nonneg_right ?_ X0
      calc (1:ℝ) / 2 ^ 60 ≤ 1 / 1000 * 4 / 2 ^ 24 := by norm_num
        _ ≤ _ := by gcongr
    calc |r i - a⁻¹.transpose.mulVec (coords M) i| = |(r i - (Matrix.of g).transpose.mulVec (coords M) i) +
            ((Matrix.of g).transpose.mulVec (coords M) i - a⁻¹.transpose.mulVec (coords M) i)| := by congr 1; ring
      _ ≤ _ := abs_add_le _ _
      _ ≤ ((329 / 1000 * S / 2 ^ 24 * X + 1 / 2 ^ 42 * Y.length) + 1 / 2 ^ 42 * Y.length) + ((S / 2 ^ 24 + 1 / 2 ^ 60) * X + 1 / 2 ^ 42 * Y.length) :=
        add_le_add ((er i).trans (add_le_add m3 m4)) m2
      _ ≤ 133 / 100 * S / 2 ^ 24 * X + 3 / 2 ^ 42 * Y.length := by
        have e1 : 133 / 100 * S / 2 ^ 24 * X = 329 / 1000 * S / 2 ^ 24 * X + S / 2 ^ 24 * X + 1 / 1000 * S / 2 ^ 24 * X := by ring
        have e2 : (3:ℝ) / 2 ^ 42 * Y.length = 1 / 2 ^ 42 * Y.length + 1 / 2 ^ 42 * Y.length + 1 / 2 ^ 42 * Y.length := by ring
        rw [e1, e2, add_mul]; linarith
      _ ≤ _ := add_le_add le_rfl (mul_le_mul_of_nonneg_right (by norm_num) Y0.le)
  have hE2 := err_length w M (ofFn r - Y) (k := 133 / 100 * S / 2 ^ 24) (t := 1 / 2 ^ 40 * Y.length) (by positivity) (mul_nonneg (by norm_num) Y0.le) hE
  have hE' : (ofFn r - Y).length ≤ (134 / 100 * (S * σ) / 2 ^ 24) * Y.length := by
    have t1 : ((n + 1 : ℕ) : ℝ) * (1 / 2 ^ 40 * Y.length) ≤ 1 / 100 * (S * σ) / 2 ^ 24 * Y.length := by
      push_cast
      rw [← mul_assoc]
      refine mul_le_mul_of_nonneg_right ?_ Y0.le
      calc ((n:ℝ) + 1) * (1 / 2 ^ 40) ≤ 2 ^ 4 * (1 / 2 ^ 40) := by gcongr
        _ ≤ 1 / 100 * (4 * 1) / 2 ^ 24 := by norm_num
        _ ≤ _ := by gcongr
    have t2 : 133 / 100 * S / 2 ^ 24 * (frob w * M.length) ≤ 133 / 100 * S / 2 ^ 24 * (σ * Y.length) :=
      mul_le_mul_of_nonneg_left hσ (by positivity)
    calc _ ≤ _ := hE2
      _ ≤ 133 / 100 * S / 2 ^ 24 * (σ * Y.length) + 1 / 100 * (S * σ) / 2 ^ 24 * Y.length := add_le_add t2 t1
      _ = _ := by ring
  have hk : 134 / 100 * (S * σ) / 2 ^ 24 ≤ 1 / 4 := by
    calc 134 / 100 * (S * σ) / 2 ^ 24 ≤ 134 / 100 * 2 ^ 21 / 2 ^ 24 := by gcongr
      _ ≤ _ := by norm_num
  obtain ⟨W, hW, eW⟩ := near_dir32 hN hX hE' hk hl hr'
  have e1 : (W - Y.normalize).length ≤ (n + 10 + 6 * (S * σ)) / 2 ^ 25 := by
    refine eW.trans ?_
    have : 0 ≤ S * σ := by positivity
    push_cast
    rw [show (134 / 100 * (S * σ) / 2 ^ 24) = (268 / 100 * (S * σ)) / 2 ^ 25 by ring]
    rw [← mul_div_assoc, ← add_div]
    exact div_le_div_of_nonneg_right (by linarith) (by positivity)
  refine ⟨W, hW, e1, ?_⟩
  have := (length_close W Y.normalize).trans e1
  rwa [normalize_length Y0] at this
/-- Normals stay orthogonal to tangents up to rounding: the dot product of the computed images of a normal and of a tangent direction. -/
theorem C114_orthogonal_f32 {n : ℕ} (l : Linear F (n + 1)) (L : Linear ℝ (n + 1)) (hL : ValM l.intoMatrix L.intoMatrix)
    (c : ℝ) (hc : 1 ≤ c) (hc' : c ≤ 2 ^ 10) (hb : ∀ i j, |L.intoMatrix.toMatrix i j| ≤ c) (h : (n + 1).factorial * c ^ (n + 1) ≤ 2 ^ 40)
    (hd : 1 / 2 ^ 40 ≤ |L.intoMatrix.toMatrix.det|)
    (κ : ℝ) (hκ : (L.intoMatrix.toMatrix.map abs).permanent ≤ κ * |L.intoMatrix.toMatrix.det|) (hs : (n + 1) * (n + 4) * κ ≤ 2 ^ 22)
    (nrm : Vec F (n + 1)) (M : Vec ℝ (n + 1)) (hM : ValV nrm M) (dir : Vec F (n + 1)) (D : Vec ℝ (n + 1)) (hD : ValV dir D) (pos : Vec F (n + 1))
    (hl : 1 / 2 ^ 54 ≤ (Transform.apply L.normalTransform M).length) (hr : frob (invWeight κ L.intoMatrix.toMatrix) * M.length ≤ 2 ^ 54)
    (hl' : 1 / 2 ^ 54 ≤ (Transform.apply L D).length) (hr' : frob L.intoMatrix.toMatrix * D.length ≤ 2 ^ 54)
    (σ τ : ℝ) (hσ : frob (invWeight κ L.intoMatrix.toMatrix) * M.length ≤ σ * (Transform.apply L.normalTransform M).length)
    (hs' : (n + 1) * (n + 4) * σ ≤ 2 ^ 21)
    (hτ : frob L.intoMatrix.toMatrix * D.length ≤ τ * (Transform.apply L D).length) (ht' : (n + 1) * τ ≤ 2 ^ 21) (h0 : M.dot D = 0) :
    ∃ W V, ValV (Directional.applyNormal l pos nrm) W ∧ ValV (Directional.applyDir l pos dir) V ∧
      |W.dot V| ≤ (3 * (n + 10) + 9 * ((n + 1) * (n + 4) * σ) + 6 * ((n + 1) * τ)) / 2 ^ 25 := by
  have nb : n + 1 ≤ 14 := size14 hc h
  have nb' : (n:ℝ) + 1 ≤ 2 ^ 4 := by
    have : ((n + 1 : ℕ) : ℝ) ≤ 14 := by exact_mod_cast nb
    push_cast at this; linarith
  obtain ⟨W, hW, eW, -⟩ := C114_normal_f32 l L hL c hc hc' hb h hd κ hκ hs nrm M hM pos 0 hl hr σ hσ hs'
  obtain ⟨V, hV, eV, -⟩ := C114_direction_f32 (by omega) l L hL dir D hD pos 0 hl' hr' τ hτ (by push_cast; exact ht')
  refine ⟨W, V, hW, hV, ?_⟩
  have hM0 : M ≠ 0 := by
    rintro rfl
    have e : (Transform.apply L.normalTransform (0 : Vec ℝ (n + 1))).length = 0 := by
      rw [length_eq]
      simp [normal_coord, Vec.coords_zero]
    rw [e] at hl
    exact absurd hl (not_le.2 (by positivity))
  have hdet : L.intoMatrix.det ≠ 0 := by
    rw [Mat.det_eq]; exact abs_pos.1 (lt_of_lt_of_le (by positivity) hd)
  obtain ⟨-, -, ho⟩ := C60_linear L hdet 0 M hM0
  have hz : (Directional.applyNormal L 0 M).dot (Directional.applyDir L 0 D) = 0 := by
    have h1 : (Directional.applyNormal L 0 M).dot (Transform.deriv L 0 D) = 0 := ho D h0
    have h2 : (Directional.applyDir L 0 D).dot (Directional.applyNormal L 0 M) = (Transform.deriv L 0 D).dot (Directional.applyNormal L 0 M) / _ := Vec.normalize_dot _ _
    rw [(C19_dot_bilinear _ _ 0 0).1, h2, (C19_dot_bilinear _ _ 0 0).1, h1, zero_div]
  have l1 : (Directional.applyNormal L 0 M).length = 1 := normalize_length (lt_of_lt_of_le (by positivity) hl)
  have l2 : (Directional.applyDir L 0 D).length = 1 := normalize_length (lt_of_lt_of_le (by positivity) hl')
  have key := dot_close eW eV
  rw [hz, sub_zero, l1, l2, mul_one, one_mul] at key
  refine key.trans ?_
  push_cast at *
  set A : ℝ := (n + 1) * (n + 4) * σ
  set B : ℝ := (n + 1) * τ
  have e0 : 0 ≤ ((n:ℝ) + 10 + 6 * A) / 2 ^ 25 := (length_nonneg _).trans eW
  have e1 : ((n:ℝ) + 10 + 6 * A) / 2 ^ 25 ≤ 1 / 2 := by
    rw [div_le_iff₀ (by positivity)]
    calc _ ≤ (2:ℝ) ^ 5 + 6 * 2 ^ 21 := by gcongr; linarith
      _ ≤ _ := by norm_num
  have e2 : 0 ≤ ((n:ℝ) + 1 + 9 + 5 * B) / 2 ^ 25 := (length_nonneg _).trans eV
  have e3 : ((n:ℝ) + 10 + 6 * A) / 2 ^ 25 * (((n:ℝ) + 1 + 9 + 5 * B) / 2 ^ 25) ≤ 1 / 2 * (((n:ℝ) + 1 + 9 + 5 * B) / 2 ^ 25) := mul_le_mul_of_nonneg_right e1 e2
  have e4 : ((n:ℝ) + 10 + 6 * A) / 2 ^ 25 * (((n:ℝ) + 1 + 9 + 5 * B) / 2 ^ 25) ≤ 1 / 2 * (((n:ℝ) + 10 + 6 * A) / 2 ^ 25) := by
    rw [mul_comm]
    refine mul_le_mul_of_nonneg_right ?_ e0
    rw [div_le_iff₀ (by positivity)]
    calc _ ≤ (2:ℝ) ^ 5 + 5 * 2 ^ 21 := by gcongr; linarith
      _ ≤ _ := by norm_num
  have e5 : (3 * ((n:ℝ) + 10) + 9 * A + 6 * B) / 2 ^ 25 = 3 / 2 * (((n:ℝ) + 10 + 6 * A) / 2 ^ 25) + 6 / 5 * (((n:ℝ) + 1 + 9 + 5 * B) / 2 ^ 25) + 3 / 10 * (n + 10) / 2 ^ 25 := by ring
  have e6 : 0 ≤ 3 / 10 * ((n:ℝ) + 10) / 2 ^ 25 := by positivity
  have e7 : ((n:ℝ) + 10 + 6 * A) / 2 ^ 25 * (((n:ℝ) + 1 + 9 + 5 * B) / 2 ^ 25) ≤ 1 / 5 * (((n:ℝ) + 1 + 9 + 5 * B) / 2 ^ 25) + 1 / 2 * (((n:ℝ) + 10 + 6 * A) / 2 ^ 25) := by linarith
  rw [e5]
  linarith
/-- `Affine`: the shift plays no part, so the same results hold. -/
theorem C114_affine_f32 {N : ℕ} [NeZero N] (t : Affine F N) (pos v : Vec F N) :
    Directional.applyDir t pos v = Directional.applyDir t.linear pos v ∧ Directional.applyNormal t pos v = Directional.applyNormal t.linear pos v :=
  ⟨rfl, rfl⟩
/-- `Rotation3`: `apply_dir` and `apply_normal` keep the angle between directions and normals up to rounding and the defect of the rotation. -/
theorem C114_rotation3_f32 (r : Rotation3 F) (R : Rotation3 ℝ) (v w pos : Vec F 3) (X Y : Vec ℝ 3) (δ : ℝ)
    (hr : ValQ r.intoQuaternion R.intoQuaternion) (hu : NearUnit3 δ R) (hδ : δ ≤ 1 / 2 ^ 10) (hv : ValV v X) (hw : ValV w Y)
    (hX : X.length ≤ 2 ^ 100) (hY : Y.length ≤ 2 ^ 100) (hX' : 1 / 2 ^ 100 ≤ X.length) (hY' : 1 / 2 ^ 100 ≤ Y.length) :
    ∃ V W, ValV (Directional.applyNormal r pos v) V ∧ ValV (Directional.applyDir r pos w) W ∧
      |V.dot W - X.dot Y| ≤ (41 / 2 ^ 24 + 5 * δ) * (X.length * Y.length) := by
  have x0 : 0 < X.length := lt_of_lt_of_le (by positivity) hX'
  have y0 : 0 < Y.length := lt_of_lt_of_le (by positivity) hY'
  have hδ0 : 0 ≤ δ := (abs_nonneg _).trans hu
  obtain ⟨l, g⟩ := near_le hu
  have hp := norm_nonneg R.quat.toH
  have hn : R.intoQuaternion.normSqr = ‖R.quat.toH‖ ^ 2 := by
    rw [← norm_eq]; exact (Real.sq_sqrt (by rw [Quat.normSqr_eq]; nlinarith [mul_self_nonneg R.intoQuaternion.w, mul_self_nonneg R.intoQuaternion.x, mul_self_nonneg R.intoQuaternion.y, mul_self_nonneg R.intoQuaternion.z])).symm
  obtain ⟨V, hV, eV, -⟩ := C107_rotation3_apply r R v X δ hr hv hu hδ (hX.trans (by norm_num))
  obtain ⟨W, hW, eW, -⟩ := C107_rotation3_apply r R w Y δ hr hw hu hδ (hY.trans (by norm_num))
  refine ⟨V, W, hV, hW, ?_⟩
  have t : ∀ {Z : Vec ℝ 3}, 1 / 2 ^ 100 ≤ Z.length → 19 / 2 ^ 24 * Z.length + 1 / 2 ^ 144 ≤ 20 / 2 ^ 24 * Z.length := fun {Z} hz => by
    have : (1:ℝ) / 2 ^ 144 ≤ 1 / 2 ^ 24 * (1 / 2 ^ 100) := by norm_num
    have h2 := mul_le_mul_of_nonneg_left hz (show (0:ℝ) ≤ 1 / 2 ^ 24 by norm_num)
    have e : 20 / 2 ^ 24 * Z.length = 19 / 2 ^ 24 * Z.length + 1 / 2 ^ 24 * Z.length := by ring
    linarith
  have key := dot_close (eV.trans (t hX')) (eW.trans (t hY'))
  rw [rot3_dot, hn] at key
  rw [exact_length, exact_length] at key
  have q2 : ‖R.quat.toH‖ ^ 2 ≤ 1 + 1 / 2 ^ 8 := by nlinarith
  have q4 : |(‖R.quat.toH‖ ^ 2) ^ 2 - 1| ≤ 5 * δ := by
    have h1 : ‖R.quat.toH‖ ^ 2 - 1 ≤ (2 + δ) * δ := by nlinarith
    have h2 : -(2 * δ) ≤ ‖R.quat.toH‖ ^ 2 - 1 := by nlinarith
    have h3 : 0 ≤ ‖R.quat.toH‖ ^ 2 := by positivity
    rw [abs_le]
    constructor <;> nlinarith
  have hc := C19_cauchy_schwarz X Y
  have p0 : 0 < X.length * Y.length := mul_pos x0 y0
  have d1 : |(‖R.quat.toH‖ ^ 2) ^ 2 * X.dot Y - X.dot Y| ≤ 5 * δ * (X.length * Y.length) := by
    rw [show (‖R.quat.toH‖ ^ 2) ^ 2 * X.dot Y - X.dot Y = ((‖R.quat.toH‖ ^ 2) ^ 2 - 1) * X.dot Y by ring, abs_mul]
    exact mul_le_mul q4 hc (abs_nonneg _) (by linarith)
  calc |V.dot W - X.dot Y| = |(V.dot W - (‖R.quat.toH‖ ^ 2) ^ 2 * X.dot Y) + ((‖R.quat.toH‖ ^ 2) ^ 2 * X.dot Y - X.dot Y)| := by congr 1; ring
    _ ≤ _ := abs_add_le _ _
    _ ≤ 41 / 2 ^ 24 * (X.length * Y.length) + 5 * δ * (X.length * Y.length) := by
      refine add_le_add (key.trans ?_) d1
      have : 20 / 2 ^ 24 * X.length * (‖R.quat.toH‖ ^ 2 * Y.length) + ‖R.quat.toH‖ ^ 2 * X.length * (20 / 2 ^ 24 * Y.length) +
          20 / 2 ^ 24 * X.length * (20 / 2 ^ 24 * Y.length) = (40 / 2 ^ 24 * ‖R.quat.toH‖ ^ 2 + 400 / 2 ^ 48) * (X.length * Y.length) := by ring
      rw [this]
      refine mul_le_mul_of_nonneg_right ?_ p0.le
      linarith [mul_le_mul_of_nonneg_left q2 (show (0:ℝ) ≤ 40 / 2 ^ 24 by norm_num), show (40:ℝ) / 2 ^ 24 * (1 + 1 / 2 ^ 8) + 400 / 2 ^ 48 ≤ 41 / 2 ^ 24 by norm_num]
    _ = _ := by ring
/-- `Rotation2`. -/
theorem C114_rotation2_f32 (r : Rotation2 F) (R : Rotation2 ℝ) (v w pos : Vec F 2) (X Y : Vec ℝ 2) (δ : ℝ)
    (hr : ValC r.intoComplex R.intoComplex) (hu : NearUnit2 δ R) (hδ : δ ≤ 1 / 2 ^ 10) (hv : ValV v X) (hw : ValV w Y)
    (hX : X.length ≤ 2 ^ 100) (hY : Y.length ≤ 2 ^ 100) (hX' : 1 / 2 ^ 100 ≤ X.length) (hY' : 1 / 2 ^ 100 ≤ Y.length) :
    ∃ V W, ValV (Directional.applyNormal r pos v) V ∧ ValV (Directional.applyDir r pos w) W ∧
      |V.dot W - X.dot Y| ≤ (13 / 2 ^ 24 + 3 * δ) * (X.length * Y.length) := by
  have x0 : 0 < X.length := lt_of_lt_of_le (by positivity) hX'
  have y0 : 0 < Y.length := lt_of_lt_of_le (by positivity) hY'
  have hδ0 : 0 ≤ δ := (abs_nonneg _).trans hu
  obtain ⟨l, g⟩ := near2_le hu
  have hp := norm_nonneg R.comp.toC
  have hn : R.intoComplex.normSqr = ‖R.comp.toC‖ ^ 2 := by
    rw [← cnorm_eq]; exact (Real.sq_sqrt (by rw [Cpx.normSqr_eq]; nlinarith [mul_self_nonneg R.intoComplex.re, mul_self_nonneg R.intoComplex.im])).symm
  obtain ⟨V, hV, eV, -⟩ := C107_rotation2_apply r R v X δ hr hv hu hδ (hX.trans (by norm_num))
  obtain ⟨W, hW, eW, -⟩ := C107_rotation2_apply r R w Y δ hr hw hu hδ (hY.trans (by norm_num))
  refine ⟨V, W, hV, hW, ?_⟩
  have t : ∀ {Z : Vec ℝ 2}, 1 / 2 ^ 100 ≤ Z.length → 5 / 2 ^ 24 * Z.length + 1 / 2 ^ 147 ≤ 6 / 2 ^ 24 * Z.length := fun {Z} hz => by
    have : (1:ℝ) / 2 ^ 147 ≤ 1 / 2 ^ 24 * (1 / 2 ^ 100) := by norm_num
    have h2 := mul_le_mul_of_nonneg_left hz (show (0:ℝ) ≤ 1 / 2 ^ 24 by norm_num)
    have e : 6 / 2 ^ 24 * Z.length = 5 / 2 ^ 24 * Z.length + 1 / 2 ^ 24 * Z.length := by ring
    linarith
  have key := dot_close (eV.trans (t hX')) (eW.trans (t hY'))
  have el : ∀ Z : Vec ℝ 2, (Transform.apply R Z).length = Z.length * ‖R.comp.toC‖ := fun Z => by
    rw [← norm_planeC, planeC_apply, norm_mul, norm_planeC]
  rw [rot2_dot, hn, el, el] at key
  have q1 : ‖R.comp.toC‖ ≤ 1 + 1 / 2 ^ 8 := by linarith
  have q4 : |‖R.comp.toC‖ ^ 2 - 1| ≤ 3 * δ := by
    rw [abs_le]
    constructor <;> nlinarith
  have hc := C19_cauchy_schwarz X Y
  have p0 : 0 < X.length * Y.length := mul_pos x0 y0
  have d1 : |‖R.comp.toC‖ ^ 2 * X.dot Y - X.dot Y| ≤ 3 * δ * (X.length * Y.length) := by
    rw [show ‖R.comp.toC‖ ^ 2 * X.dot Y - X.dot Y = (‖R.comp.toC‖ ^ 2 - 1) * X.dot Y by ring, abs_mul]
    exact mul_le_mul q4 hc (abs_nonneg _) (by linarith)
  calc |V.dot W - X.dot Y| = |(V.dot W - ‖R.comp.toC‖ ^ 2 * X.dot Y) + (‖R.comp.toC‖ ^ 2 * X.dot Y - X.dot Y)| := by congr 1; ring
    _ ≤ _ := abs_add_le _ _
    _ ≤ 13 / 2 ^ 24 * (X.length * Y.length) + 3 * δ * (X.length * Y.length) := by
      refine add_le_add (key.trans ?_) d1
      have : 6 / 2 ^ 24 * X.length * (Y.length * ‖R.comp.toC‖) + X.length * ‖R.comp.toC‖ * (6 / 2 ^ 24 * Y.length) +
          6 / 2 ^ 24 * X.length * (6 / 2 ^ 24 * Y.length) = (12 / 2 ^ 24 * ‖R.comp.toC‖ + 36 / 2 ^ 48) * (X.length * Y.length) := by ring
      rw [this]
      refine mul_le_mul_of_nonneg_right ?_ p0.le
      linarith [mul_le_mul_of_nonneg_left q1 (show (0:ℝ) ≤ 12 / 2 ^ 24 by norm_num), show (12:ℝ) / 2 ^ 24 * (1 + 1 / 2 ^ 8) + 36 / 2 ^ 48 ≤ 13 / 2 ^ 24 by norm_num]
    _ = _ := by ring
/-! ## The hypotheses are met: `[[2, 1], [1, 1]]`, the tangent `(1, 2)` and the normal `(2, -1)` -/
namespace Ex114f
open Ex109
noncomputable def l : Linear F 2 := ⟨M⟩
def L : Linear ℝ 2 := ⟨⟨Vec.fromTuple2 (Vec.fromTuple2 (2, 1), Vec.fromTuple2 (1, 1))⟩⟩
theorem Lm : L.intoMatrix.toMatrix = m := by
  ext i j; fin_cases i <;> fin_cases j <;> rfl
theorem hL : ValM l.intoMatrix L.intoMatrix := fun i j => by
  have h := val i j
  rw [← Lm] at h; exact h
def D : Vec ℝ 2 := Vec.fromTuple2 (1, 2)
theorem D0 : D[0] = 1 := rfl
theorem D1 : D[1] = 2 := rfl
theorem hD : ValV v D := fun i => by fin_cases i <;> first | exact t | exact e
noncomputable def nv : Vec F 2 := Vec.fromTuple2 (two, -1)
def Nv : Vec ℝ 2 := Vec.fromTuple2 (2, -1)
theorem N0 : Nv[0] = 2 := rfl
theorem N1 : Nv[1] = -1 := rfl
theorem hN : ValV nv Nv := fun i => by
  fin_cases i
  · exact t
  · show (-1 : F).toReal? = some (-1); exact val_neg_iff.2 (by rw [neg_neg]; exact e)
theorem len2 (x : Vec ℝ 2) : x.length = Real.sqrt (x[0] ^ 2 + x[1] ^ 2) := by
  rw [length_eq, Fin.sum_univ_two]; rfl
theorem AD : (Transform.apply L D).length = 5 := by
  have h : ∀ i : Fin 2, (Transform.apply L D)[i.1] = ![4, 3] i := fun i => by
    rw [apply_coord, Lm]
    fin_cases i <;> simp [m, Matrix.mulVec, dotProduct, Fin.sum_univ_two, coords, D0, D1] <;> norm_num
  rw [len2, show (_ : Vec ℝ 2)[0] = _ from h 0, show (_ : Vec ℝ 2)[1] = _ from h 1]
  rw [show (![(4:ℝ), 3] 0) ^ 2 + (![(4:ℝ), 3] 1) ^ 2 = 5 ^ 2 by norm_num, Real.sqrt_sq (by norm_num)]
theorem BN : (Transform.apply L.normalTransform Nv).length = 5 := by
  have h : ∀ i : Fin 2, (Transform.apply L.normalTransform Nv)[i.1] = ![3, -4] i := fun i => by
    rw [normal_coord, Lm, inv]
    fin_cases i <;> simp [Matrix.mulVec, dotProduct, Fin.sum_univ_two, coords, N0, N1] <;> norm_num
  rw [len2, show (_ : Vec ℝ 2)[0] = _ from h 0, show (_ : Vec ℝ 2)[1] = _ from h 1]
  rw [show (![(3:ℝ), -4] 0) ^ 2 + (![(3:ℝ), -4] 1) ^ 2 = 5 ^ 2 by norm_num, Real.sqrt_sq (by norm_num)]
theorem lD : D.length = Real.sqrt 5 := by rw [len2, D0, D1]; congr 1; norm_num
theorem lN : Nv.length = Real.sqrt 5 := by rw [len2, N0, N1]; congr 1; norm_num
theorem fL : frob L.intoMatrix.toMatrix = Real.sqrt 7 := by
  rw [Lm]; show Real.sqrt _ = _; congr 1; simp [m, Fin.sum_univ_two]; norm_num
theorem fW : frob (invWeight 3 L.intoMatrix.toMatrix) = 4 * Real.sqrt 7 := by
  rw [Lm, show 4 * Real.sqrt 7 = Real.sqrt (4 ^ 2 * 7) by rw [Real.sqrt_mul (by norm_num), Real.sqrt_sq (by norm_num)]]
  have w : ∀ i j : Fin 2, invWeight 3 m i j = 4 * m⁻¹.map abs i j := fun i j => by
    show 3 * |m⁻¹ i j| + _ / |m.det| = _
    rw [det, inv, abs_one, div_one, Matrix.permanent, Fintype.sum_unique]
    fin_cases i <;> fin_cases j <;> simp [m, Fin.succAbove] <;> norm_num
  show Real.sqrt _ = _
  congr 1
  simp only [w, inv]
  simp; norm_num
theorem s35 : Real.sqrt 7 * Real.sqrt 5 ≤ 6 := by
  rw [← Real.sqrt_mul (by norm_num), Real.sqrt_le_left (by norm_num)]; norm_num
end Ex114f
open Ex114f in
example := C114_orthogonal_f32 l L hL 2 (by norm_num) (by norm_num) (by rw [Lm]; exact Ex109.ent) (by norm_num [Nat.factorial]) (by rw [Lm, Ex109.det]; norm_num)
  3 (by rw [Lm, Ex109.per, Ex109.det]; norm_num) (by norm_num) nv Nv hN Ex109.v D hD 0
  (by rw [BN]; norm_num) (by rw [fW, lN]; refine le_trans (b := 4 * 6) (by rw [mul_assoc]; exact mul_le_mul_of_nonneg_left s35 (by norm_num)) (by norm_num))
  (by rw [AD]; norm_num) (by rw [fL, lD]; exact s35.trans (by norm_num)) 5 2
  (by rw [fW, lN, BN]; rw [mul_assoc]; linarith [s35]) (by norm_num) (by rw [fL, lD, AD]; linarith [s35]) (by norm_num)
  (by rw [Vec.dot2, D0, D1, N0, N1]; norm_num)
open Ex114f in
example := C114_direction_f32 (by norm_num) l L hL Ex109.v D hD 0 0 (by rw [AD]; norm_num) (by rw [fL, lD]; exact s35.trans (by norm_num)) 2
  (by rw [fL, lD, AD]; linarith [s35]) (by norm_num)
open Ex114f in
example := C114_normal_f32 l L hL 2 (by norm_num) (by norm_num) (by rw [Lm]; exact Ex109.ent) (by norm_num [Nat.factorial]) (by rw [Lm, Ex109.det]; norm_num)
  3 (by rw [Lm, Ex109.per, Ex109.det]; norm_num) (by norm_num) nv Nv hN 0 0
  (by rw [BN]; norm_num) (by rw [fW, lN]; refine le_trans (b := 4 * 6) (by rw [mul_assoc]; exact mul_le_mul_of_nonneg_left s35 (by norm_num)) (by norm_num))
  5 (by rw [fW, lN, BN]; rw [mul_assoc]; linarith [s35]) (by norm_num)
open F32Ex in
theorem Ex114f.lo3 : 1 / 2 ^ 100 ≤ (Vec.fromArray (Vector.ofFn (![1, -2, 3] : Fin 3 → ℝ))).length := by
  have h : |(Vec.fromArray (Vector.ofFn (![1, -2, 3] : Fin 3 → ℝ)))[0]| ≤ _ := coord_le (Vec.fromArray (Vector.ofFn (![1, -2, 3] : Fin 3 → ℝ))) 0
  rw [show (Vec.fromArray (Vector.ofFn (![1, -2, 3] : Fin 3 → ℝ)))[0] = 1 from rfl, abs_one] at h
  exact le_trans (by norm_num) h
theorem Ex114f.lo2 : 1 / 2 ^ 100 ≤ (Vec.fromArray (Vector.ofFn (![1, -2] : Fin 2 → ℝ))).length := by
  have h : |(Vec.fromArray (Vector.ofFn (![1, -2] : Fin 2 → ℝ)))[0]| ≤ _ := coord_le (Vec.fromArray (Vector.ofFn (![1, -2] : Fin 2 → ℝ))) 0
  rw [show (Vec.fromArray (Vector.ofFn (![1, -2] : Fin 2 → ℝ)))[0] = 1 from rfl, abs_one] at h
  exact le_trans (by norm_num) h
open F32Ex Ex114f in
example := C114_rotation3_f32 r3 R3 _ _ 0 _ _ 0 r3_val (R3_unit le_rfl) (by norm_num) (valV ![1, -2, 3]) (valV ![1, -2, 3]) (len3.trans (by norm_num)) (len3.trans (by norm_num)) lo3 lo3
open F32Ex Ex114f in
example := C114_rotation2_f32 r2 R2 _ _ 0 _ _ (1 / 2 ^ 21) r2_val (R2_unit le_rfl) (by norm_num) (valV ![1, -2]) (valV ![1, -2]) (F32Ex.len2.trans (by norm_num)) (F32Ex.len2.trans (by norm_num)) lo2 lo2
end Vecmat
