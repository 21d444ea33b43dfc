import Verif.Lemmas.IeeeNearest
import Verif.Props.IeeeDiv2
/-!
# C105: inverses of integer matrices in floating point
Scalars are IEEE-754 floats; the entries of the matrix are integers of magnitude at most `c` with `N! c^N ≤ 2^p`
(`p = 53` for `f64`, so e.g. `4 × 4` matrices with entries up to `4400`).
-/
namespace Vecmat
open Spec Ieee
variable {φ : Fmt} {N n : Nat}

/-- Rounding of the model is to a nearest number of the format: an exact result `x` within the range becomes a number `r` of the
format and no number of the format is closer to `x`. -/
theorem C105_nearest (hφ : WF φ) {x : ℝ} (hx : x ≠ 0) (h : ∃ m, Representable φ m ∧ |x| ≤ m) :
    ∃ r, (rnd x : Ieee φ).toReal? = some r ∧ Representable φ r ∧ ∀ y, Representable φ y → |r - x| ≤ |y - x| := by
  have hp : 1 ≤ φ.p := by have := hφ.1; omega
  obtain ⟨m, hm, hxm⟩ := h
  have hlt : |φ.near x| < 2 ^ (φ.emax + 1) := by
    have hm' := rep_lt hm
    have h1 := Fmt.near_rep hm
    rw [abs_le] at hxm
    have a := Fmt.near_mono (φ := φ) hp hxm.1
    have b := Fmt.near_mono (φ := φ) hp hxm.2
    rw [Fmt.near_neg, h1] at a
    rw [h1] at b
    exact lt_of_le_of_lt ((abs_le.mpr ⟨a, b⟩).trans (le_abs_self m)) hm'
  exact ⟨φ.near x, val_rnd_near.mpr ⟨rfl, hlt⟩, Fmt.rep_near hφ hlt, fun y hy => Fmt.near_nearest hy⟩

theorem rep_intPow (hφ : WF φ) (he : (φ.p : ℤ) ≤ φ.emax) : Representable φ ((2 ^ φ.p : ℕ) : ℝ) := by
  have := rep_pow hφ (e := φ.p) (by have := hφ.2.1; omega) he
  rw [zpow_natCast] at this; exact_mod_cast this

/-- The adjugate in the trapping arithmetic of C72. -/
theorem adj_exact {F : ℝ → Option ℝ} {B c : ℕ} (hc : 1 ≤ c) (hF : ExactInts B F) (A : Mat (Fl F) (n + 1) (n + 1))
    (a : Matrix (Fin (n + 1)) (Fin (n + 1)) ℤ) (ha : ∀ i j : Fin (n + 1), A[i.1][j.1].val = some (a i j : ℝ)) (hb : ∀ i j, (a i j).natAbs ≤ c)
    (hB : n.factorial * c ^ n ≤ B) (i j : Fin (n + 1)) :
    A.adj[i.1][j.1].val = some (a.adjugate i j : ℝ) ∧ (a.adjugate i j).natAbs ≤ n.factorial * c ^ n := by
  obtain ⟨D, hD⟩ : ∃ D : Mat ℤ (n + 1) (n + 1), ∀ i j : Fin (n + 1), D[i.1][j.1] = a i j :=
    ⟨⟨⟨Vector.ofFn fun i => ⟨Vector.ofFn fun j => a i j⟩⟩⟩, by intro i j; simp⟩
  have he : ∀ i j, ExI c (Mat.ent A i j) (Mat.ent D i j) := by
    intro i j
    unfold Mat.ent
    split
    · next h => exact ⟨by rw [hD ⟨i, h.1⟩ ⟨j, h.2⟩]; exact ha ⟨i, h.1⟩ ⟨j, h.2⟩, by rw [hD ⟨i, h.1⟩ ⟨j, h.2⟩]; exact hb _ _⟩
    · exact ⟨by show some (0:ℝ) = _; simp, by simp⟩
  have hl := Mat.lap_exact hc hF _ _ he n ((List.range (n + 1)).eraseIdx j.1) ((List.range (n + 1)).eraseIdx i.1)
    (by rw [List.length_eraseIdx_of_lt (by have := j.2; simp; omega)]; simp) (by rw [List.length_eraseIdx_of_lt (by have := i.2; simp; omega)]; simp) hB
  have hs : ExI (n.factorial * c ^ n) (Mat.sgn (j.1 + i.1) (Mat.lap (Mat.ent A) ((List.range (n + 1)).eraseIdx j.1) ((List.range (n + 1)).eraseIdx i.1)))
      (Mat.sgn (j.1 + i.1) (Mat.lap (Mat.ent D) ((List.range (n + 1)).eraseIdx j.1) ((List.range (n + 1)).eraseIdx i.1))) := by
    unfold Mat.sgn; split
    · exact hl.neg
    · exact hl
  obtain ⟨B1, h1, h2⟩ := Mat.adjR_ok A
  obtain ⟨B2, h3, h4⟩ := Mat.adjR_ok D
  rw [← h2 i.1 i.2 j.1 j.2, ← h4 i.1 i.2 j.1 j.2] at hs
  have e1 : D.toMatrix = a := by ext i j; simp [hD]
  have e2 : B2[i.1][j.1] = a.adjugate i j := by
    rw [← Mat.getElem_congr_mat (show D.adj = B2 from Res.get_eq h3 _) i i.2 j j.2, ← e1, ← Mat.toMatrix_adj, Mat.toMatrix_apply]
  rw [e2, ← Mat.getElem_congr_mat (show A.adj = B1 from Res.get_eq h1 _) i i.2 j j.2] at hs
  exact hs

section
variable (hφ : WF φ) (he : (φ.p : ℤ) ≤ φ.emax) {c : ℕ} (hc : 1 ≤ c) (A : Mat (Ieee φ) N N) (a : Matrix (Fin N) (Fin N) ℤ)
  (ha : ∀ i j : Fin N, A[i.1][j.1].toReal? = some (a i j : ℝ)) (hb : ∀ i j, (a i j).natAbs ≤ c) (hB : N.factorial * c ^ N ≤ 2 ^ φ.p)
include hφ he hc ha hb hB

theorem adj_int (i j : Fin N) : A.adj[i.1][j.1].toReal? = some (a.adjugate i j : ℝ) ∧
    N * c * (a.adjugate i j).natAbs ≤ N.factorial * c ^ N ∧ (a.adjugate i j).natAbs ≤ 2 ^ φ.p := by
  obtain ⟨n, rfl⟩ : ∃ n, N = n + 1 := ⟨N - 1, by have := i.2; omega⟩
  have e : (n + 1).factorial * c ^ (n + 1) = (n + 1) * c * (n.factorial * c ^ n) := by rw [Nat.factorial_succ, pow_succ]; ring
  have h1 : n.factorial * c ^ n ≤ 2 ^ φ.p := by
    refine le_trans ?_ hB
    rw [e]; exact Nat.le_mul_of_pos_left _ (by positivity)
  obtain ⟨h2, h3⟩ := adj_exact hc (exact_trapping hφ he) (A.map trap) a (fun i j => by simpa [trap] using ha i j) hb h1 i j
  refine ⟨opRel_sim.adj (simM A) i.1 i.2 j.1 j.2 _ h2, ?_, h3.trans h1⟩
  rw [e]; exact Nat.mul_le_mul_left _ h3

/-- The adjugate is exact. -/
theorem C105_adj : ∃ B, A.adjR = .ok B ∧ ∀ i j : Fin N, B[i.1][j.1].toReal? = some (a.adjugate i j : ℝ) :=
  ⟨_, Res.ok_get A.adjR ((Mat.adjR_ok A).imp fun _ h => h.1), fun i j => (adj_int hφ he hc A a ha hb hB i j).1⟩
theorem inv_entries : ∃ d : Ieee φ, d.toReal? = some (a.det : ℝ) ∧ A.invR = .ok (A.adj.divS d) := by
  obtain ⟨d, h1, h2⟩ := C85_int_det hφ he hc A a ha hb hB
  refine ⟨d, h2, ?_⟩
  unfold Mat.invR
  rw [Res.ok_get A.adjR ((Mat.adjR_ok A).imp fun _ h => h.1), h1]; rfl
/-- The inverse of a non-singular integer matrix is correctly rounded: every entry is a number of the format nearest to the exact
entry of the inverse. -/
theorem C105_inv (hd : a.det ≠ 0) : ∃ B, A.invR = .ok B ∧ ∀ i j : Fin N, ∃ r, B[i.1][j.1].toReal? = some r ∧ Representable φ r ∧
    ∀ y, Representable φ y → |r - (a.map (Int.cast : ℤ → ℝ))⁻¹ i j| ≤ |y - (a.map (Int.cast : ℤ → ℝ))⁻¹ i j| := by
  obtain ⟨d, h1, h2⟩ := inv_entries hφ he hc A a ha hb hB
  refine ⟨_, h2, fun i j => ?_⟩
  obtain ⟨h3, -, h4⟩ := adj_int hφ he hc A a ha hb hB i j
  have e : (a.map (Int.cast : ℤ → ℝ))⁻¹ i j = (a.adjugate i j : ℝ) / (a.det : ℝ) := by
    have hdet : (a.map (Int.cast : ℤ → ℝ)).det = (a.det : ℝ) := (Int.cast_det a).symm
    have hadj : (a.map (Int.cast : ℤ → ℝ)).adjugate = a.adjugate.map (Int.cast : ℤ → ℝ) :=
      ((Int.castRingHom ℝ).map_adjugate a).symm
    rw [Matrix.inv_def, hdet, hadj, Ring.inverse_eq_inv']
    simp [div_eq_inv_mul]
  rw [e, Mat.getElem_divS]
  have hd' : (a.det : ℝ) ≠ 0 := by exact_mod_cast hd
  rcases Val.cases h3 with ⟨h0, s, h5⟩ | ⟨h0, h5⟩
  · rw [h5, h0, zero_div]
    rcases Val.cases h1 with ⟨h, -⟩ | ⟨-, rfl⟩
    · exact absurd h hd'
    · exact ⟨0, rfl, rep_zero hφ, fun y _ => by simp⟩
  · rcases Val.cases h1 with ⟨h, -⟩ | ⟨-, rfl⟩
    · exact absurd h hd'
    rw [h5]
    refine C105_nearest hφ (div_ne_zero h0 hd') ⟨_, rep_intPow hφ he, ?_⟩
    have hd1 : (1:ℝ) ≤ |(a.det : ℝ)| := by rw [← Int.cast_abs]; exact_mod_cast Int.one_le_abs hd
    rw [abs_div]
    refine (div_le_self (abs_nonneg _) hd1).trans ?_
    rw [← Int.cast_abs, Int.abs_eq_natAbs]; exact_mod_cast h4
/-- Singularity is detected exactly: the inverse has finite entries if the matrix is non-singular and none if it is singular. -/
theorem C105_singular (hN : 0 < N) : ∃ B, A.invR = .ok B ∧ ((∀ i (hi : i < N) j (hj : j < N), Spec.Finite B[i][j]) ↔ a.det ≠ 0) ∧
    ((∀ i (hi : i < N) j (hj : j < N), ¬ Spec.Finite B[i][j]) ↔ a.det = 0) := by
  by_cases hd : a.det = 0
  · obtain ⟨d, h1, h2⟩ := C85_int_det hφ he hc A a ha hb hB
    rw [hd, Int.cast_zero] at h2
    obtain ⟨s, rfl⟩ : ∃ s, d = .zero s := by
      rcases Val.cases h2 with ⟨-, h⟩ | ⟨h, -⟩
      · exact h
      · exact absurd rfl h
    obtain ⟨B, h3, h4⟩ := C104_matrix_inv_zero A s h1
    exact ⟨B, h3, ⟨fun h => absurd (h 0 hN 0 hN) (h4 0 hN 0 hN), fun h => absurd hd h⟩, ⟨fun _ => hd, fun _ => h4⟩⟩
  · obtain ⟨B, h1, h2⟩ := C105_inv hφ he hc A a ha hb hB hd
    have hf : ∀ i (hi : i < N) j (hj : j < N), Spec.Finite B[i][j] := fun i hi j hj => by
      obtain ⟨r, hr, -⟩ := h2 ⟨i, hi⟩ ⟨j, hj⟩; exact Val.finite hr
    exact ⟨B, h1, ⟨fun _ => hd, fun _ => hf⟩, ⟨fun h => absurd (hf 0 hN 0 hN) (h 0 hN 0 hN), fun h => absurd h hd⟩⟩
/-- A unimodular matrix (`det = ±1`): the inverse is exact, and so are both products `A·A⁻¹ = A⁻¹·A = 1`. -/
theorem C105_unimodular (hN : 0 < N) (hd : a.det = 1 ∨ a.det = -1) : ∃ B X Y, A.invR = .ok B ∧
    (∀ i j : Fin N, B[i.1][j.1].toReal? = some ((a⁻¹ i j : ℤ) : ℝ)) ∧ A.dotMR B = .ok X ∧ B.dotMR A = .ok Y ∧
    (∀ i j : Fin N, X[i.1][j.1].toReal? = some (if i = j then 1 else 0)) ∧
    (∀ i j : Fin N, Y[i.1][j.1].toReal? = some (if i = j then 1 else 0)) := by
  obtain ⟨d, h1, h2⟩ := inv_entries hφ he hc A a ha hb hB
  have hu : IsUnit a.det := by rcases hd with h | h <;> rw [h] <;> simp
  have einv : a⁻¹ = a.det • a.adjugate := by
    rw [Matrix.inv_def]; rcases hd with h | h <;> rw [h]
    · simp
    · rw [show Ring.inverse (-1 : ℤ) = -1 from by simpa using Ring.inverse_unit (-1 : ℤˣ)]
  have hnat : ∀ i j, (a⁻¹ i j).natAbs = (a.adjugate i j).natAbs := by
    intro i j; rw [einv]; rcases hd with h | h <;> rw [h] <;> simp
  have hval : ∀ i j : Fin N, (A.adj.divS d)[i.1][j.1].toReal? = some ((a⁻¹ i j : ℤ) : ℝ) := by
    intro i j
    obtain ⟨h3, -, h4⟩ := adj_int hφ he hc A a ha hb hB i j
    rw [Mat.getElem_divS]
    have hd' : (a.det : ℝ) ≠ 0 := by rcases hd with h | h <;> rw [h] <;> norm_num
    have e : ((a⁻¹ i j : ℤ) : ℝ) = (a.adjugate i j : ℝ) / (a.det : ℝ) := by
      rw [einv]; rcases hd with h | h <;> rw [h] <;> simp [div_neg]
    rw [e]
    refine val_div h3 h1 hd' ?_
    rw [← e]; exact rep_int hφ he (by rw [hnat]; exact h4)
  have hsum : ∀ (f g : Fin N → ℤ), (∀ k, N * (f k * g k).natAbs ≤ N.factorial * c ^ N) → ∑ k, (f k * g k).natAbs ≤ 2 ^ φ.p := by
    intro f g h
    refine le_trans ?_ hB
    have : N * ∑ k, (f k * g k).natAbs ≤ N * (N.factorial * c ^ N) := by
      rw [Finset.mul_sum]
      calc _ ≤ ∑ _k : Fin N, N.factorial * c ^ N := Finset.sum_le_sum fun k _ => h k
        _ = _ := by simp
    exact Nat.le_of_mul_le_mul_left this hN
  have hbd : ∀ i j k l, N * (a i j * a⁻¹ k l).natAbs ≤ N.factorial * c ^ N := by
    intro i j k l
    refine le_trans ?_ (adj_int hφ he hc A a ha hb hB k l).2.1
    rw [Int.natAbs_mul, hnat, mul_assoc]
    exact Nat.mul_le_mul_left _ (Nat.mul_le_mul_right _ (hb i j))
  obtain ⟨X, hX, hX'⟩ := C85_int_mat_mat hφ he hN A (A.adj.divS d) a a⁻¹ ha hval (fun i j => hsum _ _ fun k => hbd _ _ _ _)
  obtain ⟨Y, hY, hY'⟩ := C85_int_mat_mat hφ he hN (A.adj.divS d) A a⁻¹ a hval ha (fun i j => hsum _ _ fun k => by
    rw [mul_comm (a⁻¹ i k)]; exact hbd _ _ _ _)
  rw [Matrix.mul_nonsing_inv _ hu] at hX'
  rw [Matrix.nonsing_inv_mul _ hu] at hY'
  refine ⟨_, X, Y, h2, hval, hX, hY, fun i j => ?_, fun i j => ?_⟩
  · rw [hX', Matrix.one_apply]; split <;> simp
  · rw [hY', Matrix.one_apply]; split <;> simp
end

/-! ## the hypotheses are satisfiable -/
open IeeeEx
example := C105_nearest (x := 1 / 3) C80_formats.2 (by norm_num) ⟨1, rep_one C80_formats.2, by rw [abs_of_pos] <;> norm_num⟩
example := C105_adj C80_formats.2 (by decide) (c := 10000) (by norm_num)
  (mat fun i j => ((!![2, 3, 10000; 4, 5, -1; 0, 2, 7] : Matrix (Fin 3) (Fin 3) ℤ) i j : ℝ)) _ (mat_val _) (by decide) (by decide)
example := C105_inv C80_formats.2 (by decide) (c := 10000) (by norm_num)
  (mat fun i j => ((!![2, 3, 10000; 4, 5, -1; 0, 2, 7] : Matrix (Fin 3) (Fin 3) ℤ) i j : ℝ)) _ (mat_val _) (by decide) (by decide) (by decide)
example := C105_singular C80_formats.2 (by decide) (c := 9) (by norm_num)
  (mat fun i j => ((!![1, 2, 3; 4, 5, 6; 7, 8, 9] : Matrix (Fin 3) (Fin 3) ℤ) i j : ℝ)) _ (mat_val _) (by decide) (by decide) (by omega)
example := C105_unimodular C80_formats.2 (by decide) (c := 3) (by norm_num)
  (mat fun i j => ((!![2, 3; 1, 1] : Matrix (Fin 2) (Fin 2) ℤ) i j : ℝ)) _ (mat_val _) (by decide) (by decide) (by omega) (.inr (by decide))

end Vecmat
