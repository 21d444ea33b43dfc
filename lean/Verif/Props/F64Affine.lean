import Verif.Props.F64Solve
/-!
# C99, continued: affine transformations and round trips in double precision
`a` holds the entries of the matrix, `s` the shift. `∑ j, |a i j| * |x j|` is the size of the terms of coordinate `i`, and
`κ * |a⁻¹ i j| + permanent of the minor / |det|` is the weight with which an error of coordinate `j` enters coordinate `i` of a solution.
-/
namespace Vecmat
open Spec Ieee F64
set_option exponentiation.threshold 3000

/-- `Affine::chain`: the entries of the matrix and of the shift. -/
theorem C99_affine_chain {N : ℕ} [NeZero N] (hN : N < 2 ^ 19) (p q : Affine F N) (a b : Matrix (Fin N) (Fin N) ℝ) (s t : Fin N → ℝ)
    (ha : ∀ i j : Fin N, p.linear.intoMatrix[i.1][j.1].toReal? = some (a i j)) (hb : ∀ i j : Fin N, q.linear.intoMatrix[i.1][j.1].toReal? = some (b i j))
    (hd : ∀ i : Fin N, Datum p.shift.intoVector[i.1]) (hs : ∀ i : Fin N, p.shift.intoVector[i.1].toReal? = some (s i))
    (ht : ∀ i : Fin N, q.shift.intoVector[i.1].toReal? = some (t i)) (i : Fin N) :
    (∀ j, ∑ k, |a i k| * |b k j| ≤ 2 ^ 1000 → ∃ r, (Transform.chain (Vec F N) p q).linear.intoMatrix[i.1][j.1].toReal? = some r ∧
      |r - (a * b) i j| ≤ 101 / 100 * N / 2 ^ 53 * (∑ k, |a i k| * |b k j|) + N / 2 ^ 1074) ∧
    (∑ j, |a i j| * |t j| + |s i| ≤ 2 ^ 1000 → ∃ r, (Transform.chain (Vec F N) p q).shift.intoVector[i.1].toReal? = some r ∧
      |r - (a.mulVec t i + s i)| ≤ 101 / 100 * (N + 1) / 2 ^ 53 * (∑ j, |a i j| * |t j| + |s i|) + (N + 1) / 2 ^ 1074) := by
  refine ⟨fun j hm => C99_linear_chain hN.le p.linear q.linear a b ha hb i j hm, fun hm => ?_⟩
  obtain ⟨r, h1, h2⟩ := C99_affine_apply hN p q.shift.intoVector a s t ha hd hs ht i hm
  refine ⟨r, ?_, h2⟩
  have e1 : (Transform.apply p q.shift.intoVector)[i.1] = (Transform.apply p.linear q.shift.intoVector)[i.1] + p.shift.intoVector[i.1] := Vec.getElem_add _ _ _ _
  have e2 : (Transform.chain (Vec F N) p q).shift.intoVector[i.1] = p.shift.intoVector[i.1] + (Transform.apply p.linear q.shift.intoVector)[i.1] := Vec.getElem_add _ _ _ _
  rw [e1] at h1; rw [e2]
  obtain ⟨x, y, hx, hy, e, hh⟩ := val_add_iff.1 h1
  exact val_add_iff.2 ⟨y, x, hy, hx, by rw [add_comm]; exact e, by rw [add_comm]; exact hh⟩

namespace F64
theorem kappa_one {n : ℕ} {a : Matrix (Fin (n + 1)) (Fin (n + 1)) ℝ} {κ : ℝ} (hd : 1 / 2 ^ 400 ≤ |a.det|) (hκ : (a.map abs).permanent ≤ κ * |a.det|) : 1 ≤ κ := by
  have D0 : 0 < |a.det| := lt_of_lt_of_le (by positivity) hd
  have := (abs_det_le_per a).trans hκ
  by_contra hk
  push Not at hk
  nlinarith
theorem minor_nonneg {n : ℕ} (a : Matrix (Fin (n + 1)) (Fin (n + 1)) ℝ) (i j : Fin (n + 1)) :
    0 ≤ ((a.map abs).submatrix j.succAbove i.succAbove).permanent / |a.det| :=
  div_nonneg (Finset.sum_nonneg fun σ _ => Finset.prod_nonneg fun k _ => abs_nonneg _) (abs_nonneg _)
theorem mulVec_le {n : ℕ} (a : Matrix (Fin n) (Fin n) ℝ) (b : Fin n → ℝ) (i : Fin n) : |a.mulVec b i| ≤ ∑ j, |a i j| * |b j| := by
  rw [Matrix.mulVec, dotProduct]
  exact (Finset.abs_sum_le_sum_abs _ _).trans (Finset.sum_le_sum fun j _ => by rw [abs_mul])
end F64

/-- `Affine::inv`: the matrix is the inverse of the matrix (`C99_inverse`), the shift is `-a⁻¹ s`, and its application to a point is `a⁻¹(x - s)`. -/
theorem C99_affine_inv {n : ℕ} (t : Affine F (n + 1)) (a : Matrix (Fin (n + 1)) (Fin (n + 1)) ℝ)
    (ha : ∀ i j : Fin (n + 1), t.linear.intoMatrix[i.1][j.1].toReal? = some (a i j))
    (c : ℝ) (hc : 1 ≤ c) (hb : ∀ i j, |a i j| ≤ c) (h : (n + 1).factorial * c ^ (n + 1) ≤ 2 ^ 400) (hd : 1 / 2 ^ 400 ≤ |a.det|)
    (κ : ℝ) (hκ : (a.map abs).permanent ≤ κ * |a.det|) (hs : (n + 1) * (n + 4) * κ ≤ 2 ^ 51)
    (s : Fin (n + 1) → ℝ) (hs' : ∀ j : Fin (n + 1), t.shift.intoVector[j.1].toReal? = some (s j))
    (v : Vec F (n + 1)) (x : Fin (n + 1) → ℝ) (hv : ∀ j : Fin (n + 1), v[j.1].toReal? = some (x j)) (i : Fin (n + 1))
    (hr : ∑ j, (|a⁻¹ i j| + ((a.map abs).submatrix j.succAbove i.succAbove).permanent / |a.det| + 1) * (|x j| + |s j|) ≤ 2 ^ 999) :
    (Transform.inv (Vec F (n + 1)) t).linear = Transform.inv (Vec F (n + 1)) t.linear ∧
    (∃ r, (Transform.inv (Vec F (n + 1)) t).shift.intoVector[i.1].toReal? = some r ∧
      |r - -a⁻¹.mulVec s i| ≤ 7 / 5 * ((n + 1) * (n + 4)) / 2 ^ 53 *
          ∑ j, (κ * |a⁻¹ i j| + ((a.map abs).submatrix j.succAbove i.succAbove).permanent / |a.det|) * |s j| +
        1 / 2 ^ 249 * ∑ j, (1 + |a⁻¹ i j|) * |s j| + (n + 1) / 2 ^ 1074) ∧
    ∃ r, (Transform.apply (Transform.inv (Vec F (n + 1)) t) v)[i.1].toReal? = some r ∧
      |r - a⁻¹.mulVec (x - s) i| ≤ 7 / 4 * ((n + 1) * (n + 4)) / 2 ^ 53 *
          ∑ j, (κ * |a⁻¹ i j| + ((a.map abs).submatrix j.succAbove i.succAbove).permanent / |a.det|) * (|x j| + |s j|) +
        1 / 2 ^ 248 * ∑ j, (1 + |a⁻¹ i j|) * (|x j| + |s j|) + (n + 1) / 2 ^ 1072 := by
  have κ1 := kappa_one hd hκ
  have Q0 : ∀ j : Fin (n + 1), 0 ≤ ((a.map abs).submatrix j.succAbove i.succAbove).permanent / |a.det| := minor_nonneg a i
  generalize hQ : (fun j : Fin (n + 1) => ((a.map abs).submatrix j.succAbove i.succAbove).permanent / |a.det|) = Q at *
  have eQ : ∀ j : Fin (n + 1), ((a.map abs).submatrix j.succAbove i.succAbove).permanent / |a.det| = Q j := fun j => congrFun hQ j
  have hn : ∀ j : Fin (n + 1), (-t.shift.intoVector)[j.1].toReal? = some ((-s) j) := fun j => by
    rw [Vec.getElem_neg]; exact val_neg_iff.2 (by rw [Pi.neg_apply, neg_neg]; exact hs' j)
  have n0 : (0:ℝ) ≤ n := Nat.cast_nonneg n
  have w0 : ∀ j, 0 ≤ |a⁻¹ i j| + Q j + 1 := fun j => by have := Q0 j; rw [eQ] at this; positivity
  simp only [eQ] at hr Q0 ⊢
  have hrx : ∑ j, (|a⁻¹ i j| + Q j + 1) * |x j| ≤ 2 ^ 999 :=
    (Finset.sum_le_sum fun j _ => mul_le_mul_of_nonneg_left (le_add_of_nonneg_right (abs_nonneg _)) (w0 j)).trans hr
  have hrs : ∑ j, (|a⁻¹ i j| + Q j + 1) * |s j| ≤ 2 ^ 999 :=
    (Finset.sum_le_sum fun j _ => mul_le_mul_of_nonneg_left (le_add_of_nonneg_left (abs_nonneg _)) (w0 j)).trans hr
  obtain ⟨y, vy, ey⟩ := C99_solve t.linear a ha c hc hb h hd κ hκ hs v x hv i (by simp only [eQ]; exact hrx)
  obtain ⟨z, vz, ez⟩ := C99_solve t.linear a ha c hc hb h hd κ hκ hs (-t.shift.intoVector) (-s) hn i (by simp only [eQ, Pi.neg_apply, abs_neg]; exact hrs)
  simp only [eQ, Pi.neg_apply, abs_neg] at ey ez
  rw [Matrix.mulVec_neg, Pi.neg_apply] at ez
  refine ⟨rfl, ⟨z, vz, ez⟩, ?_⟩
  set K : ℝ := (n + 1) * (n + 4) with hK
  have K4 : 4 ≤ K := by rw [hK]; nlinarith
  have K0 : 0 ≤ K := by linarith
  have Kκ : K / 2 ^ 53 * κ ≤ 1 / 4 := by
    calc K / 2 ^ 53 * κ = K * κ / 2 ^ 53 := by ring
      _ ≤ 2 ^ 51 / 2 ^ 53 := by gcongr
      _ = _ := by norm_num
  have Ku : K / 2 ^ 53 ≤ 1 / 4 := by
    calc K / 2 ^ 53 = K / 2 ^ 53 * 1 := by ring
      _ ≤ K / 2 ^ 53 * κ := by gcongr
      _ ≤ _ := Kκ
  have i1 : ∀ b : Fin (n + 1) → ℝ, ∑ j, |a⁻¹ i j| * |b j| ≤ ∑ j, (κ * |a⁻¹ i j| + Q j) * |b j| := fun b =>
    Finset.sum_le_sum fun j _ => mul_le_mul_of_nonneg_right (by nlinarith [abs_nonneg (a⁻¹ i j), Q0 j]) (abs_nonneg _)
  have i2 : ∀ b : Fin (n + 1) → ℝ, ∑ j, |a⁻¹ i j| * |b j| ≤ ∑ j, (|a⁻¹ i j| + Q j + 1) * |b j| := fun b =>
    Finset.sum_le_sum fun j _ => mul_le_mul_of_nonneg_right (by linarith [abs_nonneg (a⁻¹ i j), Q0 j]) (abs_nonneg _)
  have i3 : ∀ b : Fin (n + 1) → ℝ, K / 2 ^ 53 * ∑ j, (κ * |a⁻¹ i j| + Q j) * |b j| ≤ 1 / 4 * ∑ j, (|a⁻¹ i j| + Q j + 1) * |b j| := fun b => by
    rw [Finset.mul_sum, Finset.mul_sum]
    refine Finset.sum_le_sum fun j _ => ?_
    rw [← mul_assoc, ← mul_assoc]
    refine mul_le_mul_of_nonneg_right ?_ (abs_nonneg _)
    have k1 := mul_le_mul_of_nonneg_right Kκ (abs_nonneg (a⁻¹ i j))
    have k2 := mul_le_mul_of_nonneg_right Ku (Q0 j)
    rw [mul_add, ← mul_assoc]; linarith
  have i4 : ∀ b : Fin (n + 1) → ℝ, ∑ j, (1 + |a⁻¹ i j|) * |b j| ≤ ∑ j, (|a⁻¹ i j| + Q j + 1) * |b j| := fun b =>
    Finset.sum_le_sum fun j _ => mul_le_mul_of_nonneg_right (by linarith [Q0 j]) (abs_nonneg _)
  have sW : ∑ j, (κ * |a⁻¹ i j| + Q j) * (|x j| + |s j|) = ∑ j, (κ * |a⁻¹ i j| + Q j) * |x j| + ∑ j, (κ * |a⁻¹ i j| + Q j) * |s j| := by
    rw [← Finset.sum_add_distrib]; exact Finset.sum_congr rfl fun j _ => by ring
  have sZ : ∑ j, (1 + |a⁻¹ i j|) * (|x j| + |s j|) = ∑ j, (1 + |a⁻¹ i j|) * |x j| + ∑ j, (1 + |a⁻¹ i j|) * |s j| := by
    rw [← Finset.sum_add_distrib]; exact Finset.sum_congr rfl fun j _ => by ring
  rw [sW, sZ]
  have my := (mulVec_le a⁻¹ x i)
  have mz := (mulVec_le a⁻¹ s i)
  have ix1 := my.trans (i1 x); have ix2 := my.trans (i2 x); have ix3 := i3 x; have ix4 := i4 x
  have is1 := mz.trans (i1 s); have is2 := mz.trans (i2 s); have is3 := i3 s; have is4 := i4 s
  have Wx0 : 0 ≤ ∑ j, (κ * |a⁻¹ i j| + Q j) * |x j| := (abs_nonneg _).trans ix1
  have Ws0 : 0 ≤ ∑ j, (κ * |a⁻¹ i j| + Q j) * |s j| := (abs_nonneg _).trans is1
  have Zx0 : 0 ≤ ∑ j, (1 + |a⁻¹ i j|) * |x j| := Finset.sum_nonneg fun j _ => by positivity
  have Zs0 : 0 ≤ ∑ j, (1 + |a⁻¹ i j|) * |s j| := Finset.sum_nonneg fun j _ => by positivity
  generalize ∑ j, (κ * |a⁻¹ i j| + Q j) * |x j| = Wx at *
  generalize ∑ j, (κ * |a⁻¹ i j| + Q j) * |s j| = Ws at *
  generalize ∑ j, (1 + |a⁻¹ i j|) * |x j| = Zx at *
  generalize ∑ j, (1 + |a⁻¹ i j|) * |s j| = Zs at *
  generalize ∑ j, (|a⁻¹ i j| + Q j + 1) * |x j| = Rx at *
  generalize ∑ j, (|a⁻¹ i j| + Q j + 1) * |s j| = Rs at *
  rw [Matrix.mulVec_sub, Pi.sub_apply]
  generalize a⁻¹.mulVec x i = X at *
  generalize a⁻¹.mulVec s i = S at *
  have ay : |y| ≤ |y - X| + |X| := by
    calc |y| = |(y - X) + X| := by congr 1; ring
      _ ≤ _ := abs_add_le _ _
  have az : |z| ≤ |z - -S| + |S| := by
    calc |z| = |(z - -S) + -S| := by congr 1; ring
      _ ≤ _ := abs_add_le _ _
      _ = _ := by rw [abs_neg]
  have ayz := abs_add_le y z
  have nb : ((n:ℝ) + 1) / 2 ^ 1074 ≤ 1 := by
    have hN : n + 1 ≤ 2 ^ 19 := by have := size_le hc (h.trans (by norm_num)); omega
    have : (n:ℝ) + 1 ≤ 2 ^ 19 := by exact_mod_cast hN
    rw [div_le_one (by positivity)]
    exact this.trans (by norm_num)
  have er := near_err_add (φ := Fmt.f64) (y + z)
  rw [u_eq, tiny_eq] at er
  have e1 : 7 / 5 * K / 2 ^ 53 * Wx = 7 / 5 * (K / 2 ^ 53 * Wx) := by ring
  have e2 : 7 / 5 * K / 2 ^ 53 * Ws = 7 / 5 * (K / 2 ^ 53 * Ws) := by ring
  have q1 : 1 / 2 ^ 249 * Zx ≤ 1 / 4 * Rx := mul_le_mul (by norm_num) ix4 Zx0 (by norm_num)
  have q2 : 1 / 2 ^ 249 * Zs ≤ 1 / 4 * Rs := mul_le_mul (by norm_num) is4 Zs0 (by norm_num)
  have rx0 : 0 ≤ Rx := Zx0.trans ix4
  have rs0 : 0 ≤ Rs := Zs0.trans is4
  have big : |y + z| ≤ 2 ^ 1002 := by
    have : |y + z| ≤ 2 * Rx + 2 * Rs + 2 := by
      rw [e1] at ey; rw [e2] at ez
      generalize K / 2 ^ 53 * Wx = A at *
      generalize K / 2 ^ 53 * Ws = B at *
      generalize 1 / 2 ^ 249 * Zx = C at *
      generalize 1 / 2 ^ 249 * Zs = D at *
      generalize ((n:ℝ) + 1) / 2 ^ 1074 = E at *
      linarith
    refine this.trans ((add_le_add (add_le_add (mul_le_mul_of_nonneg_left hrx (by norm_num)) (mul_le_mul_of_nonneg_left hrs (by norm_num))) le_rfl).trans (by norm_num))
  have eA : (Transform.apply (Transform.inv (Vec F (n + 1)) t) v)[i.1] =
      (Transform.apply (Transform.inv (Vec F (n + 1)) t.linear) v)[i.1] + (Transform.apply (Transform.inv (Vec F (n + 1)) t.linear) (-t.shift.intoVector))[i.1] :=
    Vec.getElem_add _ _ _ _
  rw [eA]
  refine ⟨_, val_add_iff.2 ⟨y, z, vy, vz, rfl, ?_⟩, ?_⟩
  · rw [huge_eq]
    calc |Fmt.f64.near (y + z)| = |(Fmt.f64.near (y + z) - (y + z)) + (y + z)| := by congr 1; ring
      _ ≤ _ := abs_add_le _ _
      _ ≤ (1 / 2 ^ 53 * 2 ^ 1002 + 1 / 2 ^ 1075) + 2 ^ 1002 := add_le_add (er.trans (by gcongr)) big
      _ < _ := by norm_num
  · have t1 : |Fmt.f64.near (y + z) - (X - S)| ≤ |Fmt.f64.near (y + z) - (y + z)| + (|y - X| + |z - -S|) := by
      calc _ = |(Fmt.f64.near (y + z) - (y + z)) + ((y - X) + (z - -S))| := by congr 1; ring
        _ ≤ _ := (abs_add_le _ _).trans (by gcongr; exact abs_add_le _ _)
    have t2 : 1 / 2 ^ 53 * |y + z| ≤ 1 / 2 ^ 53 * ((|y - X| + |z - -S|) + (Wx + Ws)) := by gcongr; linarith
    have t3 : 1 / 2 ^ 53 * (Wx + Ws) ≤ 1 / 4 * (K / 2 ^ 53 * (Wx + Ws)) := by
      rw [← mul_assoc]; refine mul_le_mul_of_nonneg_right ?_ (by linarith)
      rw [show 1 / 4 * (K / 2 ^ 53) = (K / 4) / 2 ^ 53 by ring]
      refine div_le_div_of_nonneg_right ?_ (by positivity); linarith
    have t4 : 1 / 2 ^ 53 * (|y - X| + |z - -S|) ≤ 1 / 100 * (|y - X| + |z - -S|) := by gcongr; norm_num
    have n1 : 1 / 2 ^ 1074 ≤ ((n:ℝ) + 1) / 2 ^ 1074 := by gcongr; linarith
    have n2 : (1:ℝ) / 2 ^ 1075 ≤ 1 / 2 ^ 1074 := by norm_num
    have n3 : ((n:ℝ) + 1) / 2 ^ 1072 = 4 * ((n + 1) / 2 ^ 1074) := by ring
    have z1 : 1 / 2 ^ 248 * (Zx + Zs) = 2 * (1 / 2 ^ 249 * Zx) + 2 * (1 / 2 ^ 249 * Zs) := by ring
    have z2 : 0 ≤ 1 / 2 ^ 249 * Zx := mul_nonneg (by norm_num) Zx0
    have z3 : 0 ≤ 1 / 2 ^ 249 * Zs := mul_nonneg (by norm_num) Zs0
    have w1 : 7 / 4 * K / 2 ^ 53 * (Wx + Ws) = 7 / 4 * (K / 2 ^ 53 * Wx) + 7 / 4 * (K / 2 ^ 53 * Ws) := by ring
    have w2 : K / 2 ^ 53 * (Wx + Ws) = K / 2 ^ 53 * Wx + K / 2 ^ 53 * Ws := by ring
    have w3 : 0 ≤ K / 2 ^ 53 * Wx := by positivity
    have w4 : 0 ≤ K / 2 ^ 53 * Ws := by positivity
    have s1 : 1 / 2 ^ 53 * ((|y - X| + |z - -S|) + (Wx + Ws)) = 1 / 2 ^ 53 * (|y - X| + |z - -S|) + 1 / 2 ^ 53 * (Wx + Ws) := by ring
    rw [z1, w1, n3]
    rw [w2] at t3; rw [s1] at t2; rw [e1] at ey; rw [e2] at ez
    generalize K / 2 ^ 53 * Wx = A at *
    generalize K / 2 ^ 53 * Ws = B at *
    generalize 1 / 2 ^ 249 * Zx = C at *
    generalize 1 / 2 ^ 249 * Zs = D at *
    generalize ((n:ℝ) + 1) / 2 ^ 1074 = E at *
    generalize 1 / 2 ^ 53 * |y + z| = G at *
    generalize 1 / 2 ^ 53 * (|y - X| + |z - -S|) = H at *
    generalize 1 / 2 ^ 53 * (Wx + Ws) = I at *
    generalize (1:ℝ) / 2 ^ 1074 = J at *
    generalize (1:ℝ) / 2 ^ 1075 = L at *
    linarith

namespace F64
/-- One coordinate of a round trip. -/
theorem rt_term {c θ k W w R P d e ε y r t : ℝ} (c0 : 0 ≤ c) (θ0 : 0 ≤ θ) (c2 : c ≤ 2) (k0 : 0 ≤ k) (w0 : 0 ≤ w) (wW : w ≤ W) (kW : k * W ≤ R / 4) (wR : w + 1 ≤ R) (P0 : 0 ≤ P)
    (hy : y ≤ (1 + d) * P + e) (hr : r ≤ d * P + e) (hd : d ≤ θ * k) (d1 : d ≤ 1 / 100) (e0 : 0 ≤ e) (ε0 : 0 ≤ ε) (ε1 : ε ≤ 1 / 4) (he : 3 * e ≤ ε) (ht : t ≤ e) :
    c * (k * W) * y + ε * (1 + w) * y + w * r + t ≤ (101 / 100 * c + θ) * (k * W * P) + 2 * ε * (R * (P + 1)) := by
  have W0 : 0 ≤ W := w0.trans wW
  have R0 : 0 ≤ R := by linarith
  have y1 : y ≤ 101 / 100 * P + e := by nlinarith
  have a1 : c * (k * W) * y ≤ c * (k * W) * (101 / 100 * P + e) := mul_le_mul_of_nonneg_left y1 (by positivity)
  have a2 : c * (k * W) * e ≤ R / 2 * e := mul_le_mul_of_nonneg_right (by
    calc c * (k * W) ≤ 2 * (R / 4) := mul_le_mul c2 kW (by positivity) (by norm_num)
      _ = _ := by ring) e0
  have b1 : ε * (1 + w) * y ≤ ε * R * (101 / 100 * P + e) := by
    refine (mul_le_mul_of_nonneg_left y1 (by positivity)).trans (mul_le_mul_of_nonneg_right (mul_le_mul_of_nonneg_left (by linarith) ε0) (by positivity))
  have b2 : ε * R * e ≤ 1 / 4 * R * e := by gcongr
  have g1 : w * r ≤ w * (θ * k * P + e) := mul_le_mul_of_nonneg_left (hr.trans (add_le_add (mul_le_mul_of_nonneg_right hd P0) le_rfl)) w0
  have g2 : w * e ≤ R * e - e := by nlinarith
  have R1 : 1 ≤ R := by linarith
  have f : 3 * (R * e) ≤ R * ε := by nlinarith
  have RP : 0 ≤ ε * R * P := by positivity
  have Rε : 0 ≤ R * ε := by positivity
  have g3 : w * (θ * k * P) ≤ W * (θ * k * P) := mul_le_mul_of_nonneg_right wW (by positivity)
  nlinarith
end F64

/-- The round trip through a linear transformation and its inverse. -/
theorem C99_linear_round_trip {n : ℕ} (t : Linear F (n + 1)) (a : Matrix (Fin (n + 1)) (Fin (n + 1)) ℝ)
    (ha : ∀ i j : Fin (n + 1), t.intoMatrix[i.1][j.1].toReal? = some (a i j))
    (c : ℝ) (hc : 1 ≤ c) (hb : ∀ i j, |a i j| ≤ c) (h : (n + 1).factorial * c ^ (n + 1) ≤ 2 ^ 400) (hd : 1 / 2 ^ 400 ≤ |a.det|)
    (κ : ℝ) (hκ : (a.map abs).permanent ≤ κ * |a.det|) (hs : (n + 1) * (n + 4) * κ ≤ 2 ^ 51)
    (v : Vec F (n + 1)) (x : Fin (n + 1) → ℝ) (hv : ∀ j : Fin (n + 1), v[j.1].toReal? = some (x j)) (i : Fin (n + 1))
    (hr : ∑ j, (|a⁻¹ i j| + ((a.map abs).submatrix j.succAbove i.succAbove).permanent / |a.det| + 1) * (∑ k, |a j k| * |x k| + 1) ≤ 2 ^ 998) :
    ∃ r, (Transform.apply (Transform.inv (Vec F (n + 1)) t) (Transform.apply t v))[i.1].toReal? = some r ∧
      |r - x i| ≤ 2 * ((n + 1) * (n + 4)) / 2 ^ 53 *
          ∑ j, (κ * |a⁻¹ i j| + ((a.map abs).submatrix j.succAbove i.succAbove).permanent / |a.det|) * ∑ k, |a j k| * |x k| +
        1 / 2 ^ 248 * ∑ j, (|a⁻¹ i j| + ((a.map abs).submatrix j.succAbove i.succAbove).permanent / |a.det| + 1) * (∑ k, |a j k| * |x k| + 1) := by
  have κ1 := kappa_one hd hκ
  have D0 : 0 < |a.det| := lt_of_lt_of_le (by positivity) hd
  have hU : IsUnit a.det := isUnit_iff_ne_zero.2 (abs_pos.1 D0)
  have Q0 : ∀ j : Fin (n + 1), 0 ≤ ((a.map abs).submatrix j.succAbove i.succAbove).permanent / |a.det| := minor_nonneg a i
  generalize hQ : (fun j : Fin (n + 1) => ((a.map abs).submatrix j.succAbove i.succAbove).permanent / |a.det|) = Q at *
  have eQ : ∀ j : Fin (n + 1), ((a.map abs).submatrix j.succAbove i.succAbove).permanent / |a.det| = Q j := fun j => congrFun hQ j
  simp only [eQ] at hr Q0 ⊢
  set Y : Fin (n + 1) → ℝ := fun j => ∑ k, |a j k| * |x k| with hY
  have Y0 : ∀ j, 0 ≤ Y j := fun j => Finset.sum_nonneg fun k _ => by positivity
  have n0 : (0:ℝ) ≤ n := Nat.cast_nonneg n
  set R : Fin (n + 1) → ℝ := fun j => |a⁻¹ i j| + Q j + 1 with hR
  have R1 : ∀ j, |a⁻¹ i j| + 1 ≤ R j := fun j => by have := Q0 j; simp only [hR]; linarith
  have R0 : ∀ j, 1 ≤ R j := fun j => by have := R1 j; have := abs_nonneg (a⁻¹ i j); linarith
  have hN : n + 1 ≤ 2 ^ 19 := by have := size_le hc (h.trans (by norm_num)); omega
  have hNr : (n:ℝ) + 1 ≤ 2 ^ 19 := by exact_mod_cast hN
  have Yb : ∀ j, Y j ≤ 2 ^ 1000 := fun j => by
    have t1 : R j * (Y j + 1) ≤ ∑ j, R j * (Y j + 1) :=
      Finset.single_le_sum (f := fun j => R j * (Y j + 1)) (fun k _ => mul_nonneg (by linarith [R0 k]) (by linarith [Y0 k])) (Finset.mem_univ j)
    have t2 : Y j ≤ R j * (Y j + 1) := by nlinarith [R0 j, Y0 j]
    exact (t2.trans (t1.trans hr)).trans (by norm_num)
  choose y vy ey using fun j => C99_linear_apply hN t v a x ha hv j (Yb j)
  push_cast at ey
  set d : ℝ := 101 / 100 * ((n:ℝ) + 1) / 2 ^ 53 with hdd
  have d0 : 0 ≤ d := by positivity
  have d1 : d ≤ 1 / 100 := by
    rw [hdd]; calc _ ≤ 101 / 100 * (2:ℝ) ^ 19 / 2 ^ 53 := by gcongr
      _ ≤ _ := by norm_num
  have ee : ((n:ℝ) + 1) / 2 ^ 1074 ≤ 1 / 2 ^ 1000 :=
    (div_le_div_of_nonneg_right hNr (by norm_num)).trans (by norm_num)
  have ey' : ∀ j, |y j - a.mulVec x j| ≤ d * Y j + 1 / 2 ^ 1000 := fun j => (ey j).trans (add_le_add le_rfl ee)
  have yb : ∀ j, |y j| ≤ (1 + d) * Y j + 1 / 2 ^ 1000 := fun j => by
    calc |y j| = |(y j - a.mulVec x j) + a.mulVec x j| := by congr 1; ring
      _ ≤ _ := abs_add_le _ _
      _ ≤ (d * Y j + 1 / 2 ^ 1000) + Y j := add_le_add (ey' j) (mulVec_le a x j)
      _ = _ := by ring
  have hr' : ∑ j, R j * |y j| ≤ 2 ^ 999 := by
    calc ∑ j, R j * |y j| ≤ ∑ j, 2 * (R j * (Y j + 1)) := Finset.sum_le_sum fun j _ => by
          have e1 : |y j| ≤ 2 * (Y j + 1) := by
            have h1 := yb j
            have h2 : (1:ℝ) / 2 ^ 1000 ≤ 1 := by norm_num
            have h3 := mul_le_mul_of_nonneg_right d1 (Y0 j)
            have h4 := Y0 j
            linarith
          calc R j * |y j| ≤ R j * (2 * (Y j + 1)) := mul_le_mul_of_nonneg_left e1 (by linarith [R0 j])
            _ = _ := by ring
      _ = 2 * ∑ j, R j * (Y j + 1) := by rw [Finset.mul_sum]
      _ ≤ 2 * 2 ^ 998 := by gcongr
      _ = _ := by norm_num
  obtain ⟨r, vr, er⟩ := C99_solve t a ha c hc hb h hd κ hκ hs (Transform.apply t v) y vy i (by simp only [eQ]; exact hr')
  refine ⟨r, vr, ?_⟩
  simp only [eQ] at er
  set K : ℝ := (n + 1) * (n + 4) with hK
  have K4 : 4 * ((n:ℝ) + 1) ≤ K := by rw [hK]; nlinarith
  have K0 : 0 ≤ K := by linarith
  have Kκ : K / 2 ^ 53 * κ ≤ 1 / 4 := by
    calc K / 2 ^ 53 * κ = K * κ / 2 ^ 53 := by ring
      _ ≤ 2 ^ 51 / 2 ^ 53 := by gcongr
      _ = _ := by norm_num
  have Ku : K / 2 ^ 53 ≤ 1 / 4 := by
    calc K / 2 ^ 53 = K / 2 ^ 53 * 1 := by ring
      _ ≤ K / 2 ^ 53 * κ := by gcongr
      _ ≤ _ := Kκ
  have ex : x i = a⁻¹.mulVec (a.mulVec x) i := by
    rw [Matrix.mulVec_mulVec, Matrix.nonsing_inv_mul a hU, Matrix.one_mulVec]
  have er2 : |a⁻¹.mulVec y i - x i| ≤ ∑ j, |a⁻¹ i j| * |y j - a.mulVec x j| := by
    rw [ex, ← Pi.sub_apply, ← Matrix.mulVec_sub]
    exact mulVec_le a⁻¹ (y - a.mulVec x) i
  have tot : |r - x i| ≤ ∑ j, (7 / 5 * (K / 2 ^ 53 * (κ * |a⁻¹ i j| + Q j)) * |y j| + 1 / 2 ^ 249 * (1 + |a⁻¹ i j|) * |y j| + |a⁻¹ i j| * |y j - a.mulVec x j| + 1 / 2 ^ 1074) := by
    calc |r - x i| = |(r - a⁻¹.mulVec y i) + (a⁻¹.mulVec y i - x i)| := by congr 1; ring
      _ ≤ _ := abs_add_le _ _
      _ ≤ _ := add_le_add er er2
      _ = _ := by
        simp only [Finset.sum_add_distrib, Finset.mul_sum, Finset.sum_const, Finset.card_univ, Fintype.card_fin, nsmul_eq_mul]
        have q1 : ∀ j, 7 / 5 * K / 2 ^ 53 * ((κ * |a⁻¹ i j| + Q j) * |y j|) = 7 / 5 * (K / 2 ^ 53 * (κ * |a⁻¹ i j| + Q j)) * |y j| := fun j => by ring
        have q2 : ∀ j, 1 / 2 ^ 249 * ((1 + |a⁻¹ i j|) * |y j|) = 1 / 2 ^ 249 * (1 + |a⁻¹ i j|) * |y j| := fun j => by ring
        simp only [q1, q2]
        push_cast; ring
  refine tot.trans ?_
  have fin : ∀ j, 7 / 5 * (K / 2 ^ 53 * (κ * |a⁻¹ i j| + Q j)) * |y j| + 1 / 2 ^ 249 * (1 + |a⁻¹ i j|) * |y j| + |a⁻¹ i j| * |y j - a.mulVec x j| + 1 / 2 ^ 1074 ≤
      (101 / 100 * (7 / 5) + 101 / 400) * (K / 2 ^ 53 * (κ * |a⁻¹ i j| + Q j) * Y j) + 2 * (1 / 2 ^ 249) * (R j * (Y j + 1)) := fun j => by
    have w0 := abs_nonneg (a⁻¹ i j)
    have q0 := Q0 j
    refine rt_term (d := d) (e := 1 / 2 ^ 1000) (by norm_num) (by norm_num) (by norm_num) (by positivity) w0 (by nlinarith) ?_ (R1 j) (Y0 j) (yb j) (ey' j) ?_ d1
      (by norm_num) (by norm_num) (by norm_num) (by norm_num) (by norm_num)
    · have k1 := mul_le_mul_of_nonneg_right Kκ w0
      have k2 := mul_le_mul_of_nonneg_right Ku q0
      have : R j = |a⁻¹ i j| + Q j + 1 := rfl
      rw [mul_add, ← mul_assoc, this]; linarith
    · rw [hdd, show 101 / 400 * (K / 2 ^ 53) = (101 / 400 * K) / 2 ^ 53 by ring]
      exact div_le_div_of_nonneg_right (by linarith) (by positivity)
  refine (Finset.sum_le_sum fun j _ => fin j).trans ?_
  rw [Finset.sum_add_distrib, ← Finset.mul_sum, ← Finset.mul_sum]
  refine add_le_add ?_ (le_of_eq ?_)
  · have q3 : ∀ j, K / 2 ^ 53 * (κ * |a⁻¹ i j| + Q j) * Y j = K / 2 ^ 53 * ((κ * |a⁻¹ i j| + Q j) * Y j) := fun j => by ring
    simp only [q3]
    rw [← Finset.mul_sum, ← mul_assoc]
    refine mul_le_mul_of_nonneg_right ?_ (Finset.sum_nonneg fun j _ => mul_nonneg (add_nonneg (by positivity) (Q0 j)) (Y0 j))
    rw [← mul_div_assoc]
    exact div_le_div_of_nonneg_right (by nlinarith) (by positivity)
  · congr 1; norm_num
/-- The round trip through an affine transformation and its inverse. -/
theorem C99_affine_round_trip {n : ℕ} (t : Affine F (n + 1)) (a : Matrix (Fin (n + 1)) (Fin (n + 1)) ℝ)
    (ha : ∀ i j : Fin (n + 1), t.linear.intoMatrix[i.1][j.1].toReal? = some (a i j))
    (c : ℝ) (hc : 1 ≤ c) (hb : ∀ i j, |a i j| ≤ c) (h : (n + 1).factorial * c ^ (n + 1) ≤ 2 ^ 400) (hd : 1 / 2 ^ 400 ≤ |a.det|)
    (κ : ℝ) (hκ : (a.map abs).permanent ≤ κ * |a.det|) (hs : (n + 1) * (n + 4) * κ ≤ 2 ^ 51)
    (s : Fin (n + 1) → ℝ) (hd' : ∀ j : Fin (n + 1), Datum t.shift.intoVector[j.1]) (hs' : ∀ j : Fin (n + 1), t.shift.intoVector[j.1].toReal? = some (s j))
    (v : Vec F (n + 1)) (x : Fin (n + 1) → ℝ) (hv : ∀ j : Fin (n + 1), v[j.1].toReal? = some (x j)) (i : Fin (n + 1))
    (hr : ∑ j, (|a⁻¹ i j| + ((a.map abs).submatrix j.succAbove i.succAbove).permanent / |a.det| + 1) * (∑ k, |a j k| * |x k| + 2 * |s j| + 1) ≤ 2 ^ 998) :
    ∃ r, (Transform.apply (Transform.inv (Vec F (n + 1)) t) (Transform.apply t v))[i.1].toReal? = some r ∧
      |r - x i| ≤ 5 / 2 * ((n + 1) * (n + 4)) / 2 ^ 53 *
          ∑ j, (κ * |a⁻¹ i j| + ((a.map abs).submatrix j.succAbove i.succAbove).permanent / |a.det|) * (∑ k, |a j k| * |x k| + 2 * |s j|) +
        1 / 2 ^ 247 * ∑ j, (|a⁻¹ i j| + ((a.map abs).submatrix j.succAbove i.succAbove).permanent / |a.det| + 1) * (∑ k, |a j k| * |x k| + 2 * |s j| + 1) := by
  have κ1 := kappa_one hd hκ
  have D0 : 0 < |a.det| := lt_of_lt_of_le (by positivity) hd
  have hU : IsUnit a.det := isUnit_iff_ne_zero.2 (abs_pos.1 D0)
  have Q0 : ∀ j : Fin (n + 1), 0 ≤ ((a.map abs).submatrix j.succAbove i.succAbove).permanent / |a.det| := minor_nonneg a i
  generalize hQ : (fun j : Fin (n + 1) => ((a.map abs).submatrix j.succAbove i.succAbove).permanent / |a.det|) = Q at *
  have eQ : ∀ j : Fin (n + 1), ((a.map abs).submatrix j.succAbove i.succAbove).permanent / |a.det| = Q j := fun j => congrFun hQ j
  simp only [eQ] at hr Q0 ⊢
  set Y : Fin (n + 1) → ℝ := fun j => ∑ k, |a j k| * |x k| + 2 * |s j| with hY
  have T0 : ∀ j, 0 ≤ ∑ k, |a j k| * |x k| := fun j => Finset.sum_nonneg fun k _ => by positivity
  have Y0 : ∀ j, 0 ≤ Y j := fun j => add_nonneg (T0 j) (by positivity)
  have n0 : (0:ℝ) ≤ n := Nat.cast_nonneg n
  set R : Fin (n + 1) → ℝ := fun j => |a⁻¹ i j| + Q j + 1 with hR
  have R1 : ∀ j, |a⁻¹ i j| + 1 ≤ R j := fun j => by have := Q0 j; simp only [hR]; linarith
  have R0 : ∀ j, 1 ≤ R j := fun j => by have := R1 j; have := abs_nonneg (a⁻¹ i j); linarith
  have hN : n + 1 < 2 ^ 19 := by
    have := size_le hc (h.trans (by norm_num)); omega
  have hNr : (n:ℝ) + 1 ≤ 2 ^ 19 := by exact_mod_cast hN.le
  have Yb : ∀ j, Y j ≤ 2 ^ 1000 := fun j => by
    have t1 : R j * (Y j + 1) ≤ ∑ j, R j * (Y j + 1) :=
      Finset.single_le_sum (f := fun j => R j * (Y j + 1)) (fun k _ => mul_nonneg (by linarith [R0 k]) (by linarith [Y0 k])) (Finset.mem_univ j)
    have t2 : Y j ≤ R j * (Y j + 1) := by nlinarith [R0 j, Y0 j]
    exact (t2.trans (t1.trans hr)).trans (by norm_num)
  choose y vy ey using fun j => C99_affine_apply hN t v a s x ha hd' hs' hv j ((by simp only [hY]; linarith [abs_nonneg (s j)] : _ ≤ Y j).trans (Yb j))
  push_cast at ey
  set d : ℝ := 101 / 100 * ((n:ℝ) + 1 + 1) / 2 ^ 53 with hdd
  have d0 : 0 ≤ d := by positivity
  have d1 : d ≤ 1 / 100 := by
    rw [hdd]; calc _ ≤ 101 / 100 * (2:ℝ) ^ 20 / 2 ^ 53 := by gcongr; linarith
      _ ≤ _ := by norm_num
  have ee : ((n:ℝ) + 1 + 1) / 2 ^ 1074 ≤ 1 / 2 ^ 1000 :=
    (div_le_div_of_nonneg_right (by linarith : (n:ℝ) + 1 + 1 ≤ 2 ^ 20) (by norm_num)).trans (by norm_num)
  have ey' : ∀ j, |y j - (a.mulVec x j + s j)| ≤ d * (∑ k, |a j k| * |x k| + |s j|) + 1 / 2 ^ 1000 := fun j => (ey j).trans (add_le_add le_rfl ee)
  have ey2 : ∀ j, |y j - (a.mulVec x j + s j)| ≤ d * Y j + 1 / 2 ^ 1000 := fun j =>
    (ey' j).trans (add_le_add (mul_le_mul_of_nonneg_left (by simp only [hY]; linarith [abs_nonneg (s j)]) d0) le_rfl)
  have yb : ∀ j, |y j| + |s j| ≤ (1 + d) * Y j + 1 / 2 ^ 1000 := fun j => by
    have h1 : |y j| ≤ |y j - (a.mulVec x j + s j)| + (|a.mulVec x j| + |s j|) := by
      calc |y j| = |(y j - (a.mulVec x j + s j)) + (a.mulVec x j + s j)| := by congr 1; ring
        _ ≤ _ := abs_add_le _ _
        _ ≤ _ := by gcongr; exact abs_add_le _ _
    have h2 := mulVec_le a x j
    have h3 := ey2 j
    have h4 : Y j = ∑ k, |a j k| * |x k| + 2 * |s j| := rfl
    linarith
  have hr' : ∑ j, R j * (|y j| + |s j|) ≤ 2 ^ 999 := by
    calc ∑ j, R j * (|y j| + |s j|) ≤ ∑ j, 2 * (R j * (Y j + 1)) := Finset.sum_le_sum fun j _ => by
          have e1 : |y j| + |s j| ≤ 2 * (Y j + 1) := by
            have h1 := yb j
            have h2 : (1:ℝ) / 2 ^ 1000 ≤ 1 := by norm_num
            have h3 := mul_le_mul_of_nonneg_right d1 (Y0 j)
            have h4 := Y0 j
            linarith
          calc R j * (|y j| + |s j|) ≤ R j * (2 * (Y j + 1)) := mul_le_mul_of_nonneg_left e1 (by linarith [R0 j])
            _ = _ := by ring
      _ = 2 * ∑ j, R j * (Y j + 1) := by rw [Finset.mul_sum]
      _ ≤ 2 * 2 ^ 998 := by gcongr
      _ = _ := by norm_num
  obtain ⟨-, -, r, vr, er⟩ := C99_affine_inv t a ha c hc hb h hd κ hκ hs s hs' (Transform.apply t v) y vy i (by simp only [eQ]; exact hr')
  refine ⟨r, vr, ?_⟩
  simp only [eQ] at er
  set K : ℝ := (n + 1) * (n + 4) with hK
  have K4 : 4 * ((n:ℝ) + 1) ≤ K := by rw [hK]; nlinarith
  have K0 : 0 ≤ K := by linarith
  have Kκ : K / 2 ^ 53 * κ ≤ 1 / 4 := by
    calc K / 2 ^ 53 * κ = K * κ / 2 ^ 53 := by ring
      _ ≤ 2 ^ 51 / 2 ^ 53 := by gcongr
      _ = _ := by norm_num
  have Ku : K / 2 ^ 53 ≤ 1 / 4 := by
    calc K / 2 ^ 53 = K / 2 ^ 53 * 1 := by ring
      _ ≤ K / 2 ^ 53 * κ := by gcongr
      _ ≤ _ := Kκ
  have ex : x i = a⁻¹.mulVec (a.mulVec x + s - s) i := by
    rw [add_sub_cancel_right, Matrix.mulVec_mulVec, Matrix.nonsing_inv_mul a hU, Matrix.one_mulVec]
  have er2 : |a⁻¹.mulVec (y - s) i - x i| ≤ ∑ j, |a⁻¹ i j| * |y j - (a.mulVec x j + s j)| := by
    rw [ex, ← Pi.sub_apply, ← Matrix.mulVec_sub, sub_sub_sub_cancel_right]
    exact mulVec_le a⁻¹ (y - (a.mulVec x + s)) i
  have tot : |r - x i| ≤ ∑ j, (7 / 4 * (K / 2 ^ 53 * (κ * |a⁻¹ i j| + Q j)) * (|y j| + |s j|) + 1 / 2 ^ 248 * (1 + |a⁻¹ i j|) * (|y j| + |s j|) + |a⁻¹ i j| * |y j - (a.mulVec x j + s j)| + 1 / 2 ^ 1072) := by
    calc |r - x i| = |(r - a⁻¹.mulVec (y - s) i) + (a⁻¹.mulVec (y - s) i - x i)| := by congr 1; ring
      _ ≤ _ := abs_add_le _ _
      _ ≤ _ := add_le_add er er2
      _ = _ := by
        simp only [Finset.sum_add_distrib, Finset.mul_sum, Finset.sum_const, Finset.card_univ, Fintype.card_fin, nsmul_eq_mul]
        have q1 : ∀ j, 7 / 4 * K / 2 ^ 53 * ((κ * |a⁻¹ i j| + Q j) * (|y j| + |s j|)) = 7 / 4 * (K / 2 ^ 53 * (κ * |a⁻¹ i j| + Q j)) * (|y j| + |s j|) := fun j => by ring
        have q2 : ∀ j, 1 / 2 ^ 248 * ((1 + |a⁻¹ i j|) * (|y j| + |s j|)) = 1 / 2 ^ 248 * (1 + |a⁻¹ i j|) * (|y j| + |s j|) := fun j => by ring
        simp only [q1, q2]
        push_cast; ring
  refine tot.trans ?_
  have fin : ∀ j, 7 / 4 * (K / 2 ^ 53 * (κ * |a⁻¹ i j| + Q j)) * (|y j| + |s j|) + 1 / 2 ^ 248 * (1 + |a⁻¹ i j|) * (|y j| + |s j|) + |a⁻¹ i j| * |y j - (a.mulVec x j + s j)| + 1 / 2 ^ 1072 ≤
      (101 / 100 * (7 / 4) + 101 / 200) * (K / 2 ^ 53 * (κ * |a⁻¹ i j| + Q j) * Y j) + 2 * (1 / 2 ^ 248) * (R j * (Y j + 1)) := fun j => by
    have w0 := abs_nonneg (a⁻¹ i j)
    have q0 := Q0 j
    refine rt_term (d := d) (e := 1 / 2 ^ 1000) (by norm_num) (by norm_num) (by norm_num) (by positivity) w0 (by nlinarith) ?_ (R1 j) (Y0 j) (yb j) (ey2 j) ?_ d1
      (by norm_num) (by norm_num) (by norm_num) (by norm_num) (by norm_num)
    · have k1 := mul_le_mul_of_nonneg_right Kκ w0
      have k2 := mul_le_mul_of_nonneg_right Ku q0
      have : R j = |a⁻¹ i j| + Q j + 1 := rfl
      rw [mul_add, ← mul_assoc, this]; linarith
    · rw [hdd, show 101 / 200 * (K / 2 ^ 53) = (101 / 200 * K) / 2 ^ 53 by ring]
      exact div_le_div_of_nonneg_right (by linarith) (by positivity)
  refine (Finset.sum_le_sum fun j _ => fin j).trans ?_
  rw [Finset.sum_add_distrib, ← Finset.mul_sum, ← Finset.mul_sum]
  refine add_le_add ?_ (le_of_eq ?_)
  · have q3 : ∀ j, K / 2 ^ 53 * (κ * |a⁻¹ i j| + Q j) * Y j = K / 2 ^ 53 * ((κ * |a⁻¹ i j| + Q j) * Y j) := fun j => by ring
    simp only [q3]
    rw [← Finset.mul_sum, ← mul_assoc]
    refine mul_le_mul_of_nonneg_right ?_ (Finset.sum_nonneg fun j _ => mul_nonneg (add_nonneg (by positivity) (Q0 j)) (Y0 j))
    rw [← mul_div_assoc]
    exact div_le_div_of_nonneg_right (by nlinarith) (by positivity)
  · congr 1; norm_num

/-! ## The hypotheses are met -/
open Ex99
namespace Ex99
noncomputable def A : Affine F 2 := ⟨⟨v⟩, ⟨M⟩⟩
theorem dv : ∀ i : Fin 2, Datum A.shift.intoVector[i.1] := fun i => by fin_cases i <;> first | exact dt | exact one_datum
end Ex99
example := C99_affine_chain (by norm_num) A A m m _ _ val val dv vv vv 0
example : ∑ k, |m 0 k| * |m k 1| ≤ 2 ^ 1000 ∧ ∑ j, |m 0 j| * |![(1:ℝ), 2] j| + |![(1:ℝ), 2] 0| ≤ 2 ^ 1000 := by simp [m, Fin.sum_univ_two]; norm_num
example := C99_affine_inv A m val 2 (by norm_num) ent (by norm_num [Nat.factorial]) (by rw [det]; norm_num) 3 (by rw [per, det]; norm_num)
  (by norm_num) _ vv v _ vv 0 (by rw [inv, det]; simp [Fin.sum_univ_two, Matrix.permanent, m]; norm_num)
example := C99_linear_round_trip (⟨M⟩ : Linear F 2) m val 2 (by norm_num) ent (by norm_num [Nat.factorial]) (by rw [det]; norm_num) 3 (by rw [per, det]; norm_num)
  (by norm_num) v _ vv 0 (by rw [inv, det]; simp [Fin.sum_univ_two, Matrix.permanent, m]; norm_num)
example := C99_affine_round_trip A m val 2 (by norm_num) ent (by norm_num [Nat.factorial]) (by rw [det]; norm_num) 3 (by rw [per, det]; norm_num)
  (by norm_num) _ dv vv v _ vv 0 (by rw [inv, det]; simp [Fin.sum_univ_two, Matrix.permanent, m]; norm_num)
end Vecmat
