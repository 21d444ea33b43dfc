import Verif.Props.IeeeDiv
import Verif.Props.IeeeTrap
import Verif.Lemmas.F64Moebius2
/-!
# C104, continued: quaternions, matrices, Moebius transformations, `look_at`
-/
namespace Vecmat
open Spec Ieee
variable {φ : Fmt} {N : Nat}

/-! ## quaternions -/
theorem quat_all {P : Ieee φ → Prop} {q : Quat (Ieee φ)} (h0 : P q.w) (h1 : P q.x) (h2 : P q.y) (h3 : P q.z) (i : Nat) (hi : i < 4) :
    P q.vec[i] := by
  match i, hi with
  | 0, _ => simpa using h0
  | 1, _ => simpa using h1
  | 2, _ => simpa using h2
  | 3, _ => simpa using h3
theorem quat_div_nan {p q : Quat (Ieee φ)} (h : q.inv.w = .nan ∨ q.inv.x = .nan ∨ q.inv.y = .nan ∨ q.inv.z = .nan) :
    p / q = Quat.new .nan .nan .nan .nan := (C81_quaternion q.inv p h).2.1
/-- Division by a zero quaternion is NaN in all components, whatever the dividend (quaternion, complex or scalar). -/
theorem C104_quaternion_zero (p q : Quat (Ieee φ)) (c : Cpx (Ieee φ)) (h0 : ∃ s, q.w = .zero s) (h1 : ∃ s, q.x = .zero s)
    (h2 : ∃ s, q.y = .zero s) (h3 : ∃ s, q.z = .zero s) :
    q.inv = Quat.new .nan .nan .nan .nan ∧ p / q = Quat.new .nan .nan .nan .nan ∧ Quat.cDiv c q = Quat.new .nan .nan .nan .nan ∧
      q.normalize = Quat.new .nan .nan .nan .nan := by
  have hz := quat_all (P := fun a => IsZ (a * a)) (IsZ.mul (IsZ.finite h0) h0) (IsZ.mul (IsZ.finite h1) h1)
    (IsZ.mul (IsZ.finite h2) h2) (IsZ.mul (IsZ.finite h3) h3)
  have hn : IsZ q.normSqr := sqLen_isZ _ hz
  have hl : IsZ q.norm := length_isZ _ hz
  have hi : q.inv = Quat.new .nan .nan .nan .nan := by
    apply Quat.ext'
    · simpa [Quat.inv] using IsZ.div h0 hn
    · simpa [Quat.inv] using IsZ.div (IsZ.neg h1) hn
    · simpa [Quat.inv] using IsZ.div (IsZ.neg h2) hn
    · simpa [Quat.inv] using IsZ.div (IsZ.neg h3) hn
  refine ⟨hi, quat_div_nan (by simp [hi]), ?_, ?_⟩
  · rw [Quat.cDiv, hi, Quat.cMul]; apply Quat.ext' <;> simp
  · apply Quat.ext'
    · simpa [Quat.normalize] using IsZ.div h0 hl
    · simpa [Quat.normalize] using IsZ.div h1 hl
    · simpa [Quat.normalize] using IsZ.div h2 hl
    · simpa [Quat.normalize] using IsZ.div h3 hl
/-- Division of a quaternion by a complex zero. -/
theorem C104_quaternion_div_complex_zero (q : Quat (Ieee φ)) (c : Cpx (Ieee φ)) (h0 : ∃ s, c.re = .zero s) (h1 : ∃ s, c.im = .zero s) :
    q.divC c = Quat.new .nan .nan .nan .nan := by
  rw [Quat.divC, (C104_complex_zero 0 c 0 h0 h1).1, Quat.mulC]
  apply Quat.ext' <;> simp
/-- Division by a quaternion with an infinite component is NaN in all components, whatever the dividend. -/
theorem C104_quaternion_inf (p q : Quat (Ieee φ)) (h : ∃ s, q.w = .inf s ∨ q.x = .inf s ∨ q.y = .inf s ∨ q.z = .inf s) :
    p / q = Quat.new .nan .nan .nan .nan := by
  by_cases hn : q.w = .nan ∨ q.x = .nan ∨ q.y = .nan ∨ q.z = .nan
  · exact (C81_quaternion q p hn).2.2.2.2.2.1
  push Not at hn
  have hne := quat_all (P := fun a => a ≠ .nan) hn.1 hn.2.1 hn.2.2.1 hn.2.2.2
  obtain ⟨s, h⟩ := h
  have key : ∀ k (hk : k < 4), q.vec[k] = .inf s → q.normSqr = .inf false := fun k hk e => sqLen_inf _ hne k hk (by
    rw [e, mul_def]; simp [Ieee.mul])
  refine quat_div_nan ?_
  rcases h with h | h | h | h
  · left; simp [Quat.inv, key 0 (by omega) (by simpa using h), h]; rfl
  · right; left; simp [Quat.inv, key 1 (by omega) (by simpa using h), h]; rfl
  · right; right; left; simp [Quat.inv, key 2 (by omega) (by simpa using h), h]; rfl
  · right; right; right; simp [Quat.inv, key 3 (by omega) (by simpa using h), h]; rfl
/-- A finite divisor with a component beyond the square root of the range: its inverse and every finite quotient are zero; so `q / q` is
zero. -/
theorem C104_quaternion_overflow (hφ : WF φ) (p q : Quat (Ieee φ))
    (hp : Spec.Finite p.w ∧ Spec.Finite p.x ∧ Spec.Finite p.y ∧ Spec.Finite p.z)
    (hq : Spec.Finite q.w ∧ Spec.Finite q.x ∧ Spec.Finite q.y ∧ Spec.Finite q.z) (x : ℝ)
    (hx : q.w.toReal? = some x ∨ q.x.toReal? = some x ∨ q.y.toReal? = some x ∨ q.z.toReal? = some x)
    (hbig : (2:ℝ) ^ (φ.emax + 1) ≤ x * x) :
    (∃ s t u v, q.inv = Quat.new (.zero s) (.zero t) (.zero u) (.zero v)) ∧
      (∃ s t u v, p / q = Quat.new (.zero s) (.zero t) (.zero u) (.zero v)) ∧
      ∃ s t u v, q.normalize = Quat.new (.zero s) (.zero t) (.zero u) (.zero v) := by
  have hne := quat_all (P := fun a => a ≠ .nan) hq.1.1 hq.2.1.1 hq.2.2.1.1 hq.2.2.2.1
  have key : ∀ k (hk : k < 4), (q.vec[k]).toReal? = some x → q.normSqr = .inf false ∧ q.norm = .inf false := fun k hk e =>
    have h' := sq_overflow hφ e hbig
    ⟨sqLen_inf _ hne k hk h', length_inf _ hne k hk h'⟩
  obtain ⟨hn, hl⟩ : q.normSqr = .inf false ∧ q.norm = .inf false := by
    rcases hx with h | h | h | h
    · exact key 0 (by omega) (by simpa using h)
    · exact key 1 (by omega) (by simpa using h)
    · exact key 2 (by omega) (by simpa using h)
    · exact key 3 (by omega) (by simpa using h)
  have hi0 : IsZ q.inv.w := by simpa [Quat.inv, hn] using isZ_div_inf hq.1 false
  have hi1 : IsZ q.inv.x := by simpa [Quat.inv, hn] using isZ_div_inf (finite_neg hq.2.1) false
  have hi2 : IsZ q.inv.y := by simpa [Quat.inv, hn] using isZ_div_inf (finite_neg hq.2.2.1) false
  have hi3 : IsZ q.inv.z := by simpa [Quat.inv, hn] using isZ_div_inf (finite_neg hq.2.2.2) false
  have fin : ∀ c : Quat (Ieee φ), IsZ c.w → IsZ c.x → IsZ c.y → IsZ c.z →
      ∃ s t u v, c = Quat.new (.zero s) (.zero t) (.zero u) (.zero v) := by
    rintro c ⟨s, h0⟩ ⟨t, h1⟩ ⟨u, h2⟩ ⟨v, h3⟩
    exact ⟨s, t, u, v, Quat.ext' (by simp [h0]) (by simp [h1]) (by simp [h2]) (by simp [h3])⟩
  obtain ⟨p0, p1, p2, p3⟩ := hp
  have e : p / q = p * q.inv := rfl
  refine ⟨fin _ hi0 hi1 hi2 hi3, ?_, fin _ ?_ ?_ ?_ ?_⟩
  · rw [e]
    refine fin _ ?_ ?_ ?_ ?_
    · rw [Quat.w_mul]; exact (((IsZ.mul p0 hi0).sub (IsZ.mul p1 hi1)).sub (IsZ.mul p2 hi2)).sub (IsZ.mul p3 hi3)
    · rw [Quat.x_mul]; exact (((IsZ.mul p0 hi1).add (IsZ.mul p1 hi0)).add (IsZ.mul p2 hi3)).sub (IsZ.mul p3 hi2)
    · rw [Quat.y_mul]; exact (((IsZ.mul p0 hi2).sub (IsZ.mul p1 hi3)).add (IsZ.mul p2 hi0)).add (IsZ.mul p3 hi1)
    · rw [Quat.z_mul]; exact (((IsZ.mul p0 hi3).add (IsZ.mul p1 hi2)).sub (IsZ.mul p2 hi1)).add (IsZ.mul p3 hi0)
  · simpa [Quat.normalize, hl] using isZ_div_inf hq.1 false
  · simpa [Quat.normalize, hl] using isZ_div_inf hq.2.1 false
  · simpa [Quat.normalize, hl] using isZ_div_inf hq.2.2.1 false
  · simpa [Quat.normalize, hl] using isZ_div_inf hq.2.2.2 false
/-- A divisor all of whose components square to at most half the smallest positive number: no quotient has a finite component. -/
theorem C104_quaternion_underflow (hφ : WF φ) (p q : Quat (Ieee φ)) (x : Fin 4 → ℝ) (hw : q.w.toReal? = some (x 0))
    (hx : q.x.toReal? = some (x 1)) (hy : q.y.toReal? = some (x 2)) (hz : q.z.toReal? = some (x 3))
    (hs : ∀ i, x i * x i ≤ (2:ℝ) ^ (φ.emin - φ.p)) :
    ¬ Spec.Finite (p / q).w ∧ ¬ Spec.Finite (p / q).x ∧ ¬ Spec.Finite (p / q).y ∧ ¬ Spec.Finite (p / q).z := by
  obtain ⟨s, hn⟩ : IsZ q.normSqr := sqLen_isZ _
    (quat_all (P := fun a => IsZ (a * a)) (sq_underflow hφ hw (hs 0)) (sq_underflow hφ hx (hs 1)) (sq_underflow hφ hy (hs 2))
      (sq_underflow hφ hz (hs 3)))
  have h0 : ¬ Spec.Finite q.inv.w := by simpa [Quat.inv, hn] using nf_div_zero q.w s
  have h1 : ¬ Spec.Finite q.inv.x := by simpa [Quat.inv, hn] using nf_div_zero (-q.x) s
  have h2 : ¬ Spec.Finite q.inv.y := by simpa [Quat.inv, hn] using nf_div_zero (-q.y) s
  have h3 : ¬ Spec.Finite q.inv.z := by simpa [Quat.inv, hn] using nf_div_zero (-q.z) s
  have e : p / q = p * q.inv := rfl
  rw [e, Quat.w_mul, Quat.x_mul, Quat.y_mul, Quat.z_mul]
  exact ⟨nf_sub (nf_mul h3), nf_sub (nf_mul h2), nf_add (nf_mul h1), nf_add (nf_mul h0)⟩

/-! ## matrices -/
/-- A square matrix whose computed determinant is zero: no entry of the inverse is a finite number. -/
theorem C104_matrix_inv_zero (A : Mat (Ieee φ) N N) (s : Bool) (hd : A.detR = .ok (.zero s)) :
    ∃ B, A.invR = .ok B ∧ ∀ i (hi : i < N) j (hj : j < N), ¬ Spec.Finite B[i][j] := by
  obtain ⟨B, hB, -⟩ := Mat.adjR_ok A
  refine ⟨B.divS (.zero s), by simp [Mat.invR, hB, hd], fun i hi j hj => ?_⟩
  rw [Mat.getElem_divS]; exact nf_div_zero _ _
/-- A square matrix whose computed determinant is infinite: entries of the inverse are zero where the adjugate is finite and NaN elsewhere. -/
theorem C104_matrix_inv_inf (A : Mat (Ieee φ) N N) (s : Bool) (hd : A.detR = .ok (.inf s)) :
    ∃ B C, A.invR = .ok B ∧ A.adjR = .ok C ∧ ∀ i (hi : i < N) j (hj : j < N),
      (Spec.Finite C[i][j] → ∃ t, B[i][j] = .zero t) ∧ (¬ Spec.Finite C[i][j] → B[i][j] = .nan) := by
  obtain ⟨C, hC, -⟩ := Mat.adjR_ok A
  refine ⟨C.divS (.inf s), C, by simp [Mat.invR, hC, hd], hC, fun i hi j hj => ?_⟩
  rw [Mat.getElem_divS]
  refine ⟨fun h => isZ_div_inf h s, fun h => ?_⟩
  rcases (notFinite_iff _).mp h with e | ⟨t, e⟩ <;> rw [e]
  · simp
  · rfl

/-! ## Moebius transformations -/
/-- The denominator `c z + d` computes to zero at a complex point: the image and the derivative are NaN in both components. -/
theorem C104_moebius_pole (m : Moebius (Cpx (Ieee φ))) (z : Cpx (Ieee φ)) (h0 : ∃ s, (m.c * z + m.d).re = .zero s)
    (h1 : ∃ s, (m.c * z + m.d).im = .zero s) : m.apply z = Cpx.new .nan .nan ∧ m.deriv z = Cpx.new .nan .nan := by
  refine ⟨(C104_complex_zero _ _ 0 h0 h1).2.1, ?_⟩
  refine (C104_complex_zero _ _ 0 ?_ ?_).2.1
  · rw [Cpx.re_mul]; exact (IsZ.mul (IsZ.finite h0) h0).sub (IsZ.mul (IsZ.finite h1) h1)
  · rw [Cpx.im_mul]; exact (IsZ.mul (IsZ.finite h0) h1).add (IsZ.mul (IsZ.finite h1) h0)
/-- The same at a point of the half-space (quaternion). -/
theorem C104_moebius_pole_quaternion (m : Moebius (Cpx (Ieee φ))) (q : Quat (Ieee φ)) (h0 : ∃ s, (m.c * q + m.d).w = .zero s)
    (h1 : ∃ s, (m.c * q + m.d).x = .zero s) (h2 : ∃ s, (m.c * q + m.d).y = .zero s) (h3 : ∃ s, (m.c * q + m.d).z = .zero s) :
    m.apply q = Quat.new .nan .nan .nan .nan :=
  (C104_quaternion_zero _ _ 0 h0 h1 h2 h3).2.1
/-- An infinite point is mapped to NaN, never to `a / c`. -/
theorem C104_moebius_infinity (m : Moebius (Cpx (Ieee φ))) (z : Cpx (Ieee φ))
    (h : ∃ s, (m.c * z + m.d).re = .inf s ∨ (m.c * z + m.d).im = .inf s) : m.apply z = Cpx.new .nan .nan :=
  C104_complex_inf _ _ h
/-- The determinant computes to zero: every coefficient of the inverse and of the normalised transformation is NaN. -/
theorem C104_moebius_degenerate (m : Moebius (Cpx (Ieee φ))) (h0 : ∃ s, m.det.re = .zero s) (h1 : ∃ s, m.det.im = .zero s) :
    (∀ n ∈ [m.inv, m.normalize], n.a = Cpx.new .nan .nan ∧ n.b = Cpx.new .nan .nan ∧ n.c = Cpx.new .nan .nan ∧ n.d = Cpx.new .nan .nan) := by
  have key : ∀ A : Mat (Cpx (Ieee φ)) 2 2, ∀ i (hi : i < 2) j (hj : j < 2), (A.divS m.det)[i][j] = Cpx.new .nan .nan := by
    intro A i hi j hj
    rw [Mat.getElem_divS]
    exact (C104_complex_zero _ _ 0 h0 h1).2.1
  intro n hn
  have hn : n = ⟨m.mat.adj.divS m.det⟩ ∨ n = ⟨m.mat.divS m.det⟩ := by
    simp only [List.mem_cons, List.not_mem_nil, or_false] at hn
    rcases hn with rfl | rfl
    · left
      show Moebius.fromMatrix m.mat.inv = _
      rw [Mat.inv_eq]; rfl
    · exact .inr rfl
  rcases hn with rfl | rfl <;> simp only [Moebius.a_eq, Moebius.b_eq, Moebius.c_eq, Moebius.d_eq] <;>
    exact ⟨key _ _ _ _ _, key _ _ _ _ _, key _ _ _ _ _, key _ _ _ _ _⟩

/-! ## `look_at` -/
theorem sub_self_cases (a : Ieee φ) : a - a = .nan ∨ IsZ (a - a) := by
  rw [sub_def, add_def]
  rcases a with _ | t | t | ⟨x, hx⟩
  · left; rfl
  · left; show Ieee.add (.inf t) (.inf !t) = _; simp [Ieee.add]
  · right; exact ⟨_, rfl⟩
  · right; show IsZ (Ieee.add (.num x hx) (.num (-x) _)); simp [Ieee.add, IsZ]
theorem cross_self_normalize (d : Vec (Ieee φ) 3) (i : Nat) (hi : i < 3) : (d.cross3 d).normalize[i] = .nan := by
  have hc : ∀ j (hj : j < 3), (d.cross3 d)[j] = .nan ∨ IsZ (d.cross3 d)[j] := by
    intro j hj
    match j, hj with
    | 0, _ => rw [Vec.cross3_0, imul_comm d[1]]; exact sub_self_cases _
    | 1, _ => rw [Vec.cross3_1, imul_comm d[2]]; exact sub_self_cases _
    | 2, _ => rw [Vec.cross3_2, imul_comm d[0]]; exact sub_self_cases _
  have key : ∀ {w : Vec (Ieee φ) 3}, (d.cross3 d).normalizeR = .ok w → (d.cross3 d).normalize = w := by
    intro w h; rw [Vec.normalize_ok] at h; exact Except.ok.inj h
  by_cases h : ∃ j, ∃ hj : j < 3, (d.cross3 d)[j] = .nan
  · obtain ⟨j, hj, h⟩ := h
    obtain ⟨w, hw, h'⟩ := C81_normalize _ j hj h
    rw [key hw]; exact h' i hi
  · push Not at h
    obtain ⟨w, hw, h'⟩ := C104_normalize_zero (d.cross3 d) (by omega) fun j hj => (hc j hj).resolve_left (h j hj)
    rw [key hw]; exact h' i hi
/-- `look_at(dir, dir)`: "up" along the direction.  For every `dir` the first two columns (the images of the x and y axes) are NaN. -/
theorem C104_look_at_parallel (d : Vec (Ieee φ) 3) (M : Mat (Ieee φ) 3 3) (hM : M = (Linear.lookAt d d).intoMatrix) (i : Nat) (hi : i < 3) :
    M[i][0] = .nan ∧ M[i][1] = .nan ∧ M[i][2] = -d[i] := by
  subst hM
  have hr := cross_self_normalize d
  unfold Linear.lookAt Linear.intoMatrix
  simp only [Mat.getElem_transpose]
  refine ⟨hr i hi, ?_, Vec.getElem_neg _ _ hi⟩
  show ((d.cross3 d).normalize.cross3 d)[i] = .nan
  match i, hi with
  | 0, _ => rw [Vec.cross3_0, hr 1]; simp
  | 1, _ => rw [Vec.cross3_1, hr 2]; simp
  | 2, _ => rw [Vec.cross3_2, hr 0]; simp
/-- ... so applying it gives NaN in every component, for every vector. -/
theorem C104_look_at_parallel_apply (d v : Vec (Ieee φ) 3) (i : Nat) (hi : i < 3) :
    (Transform.apply (Linear.lookAt d d) v)[i] = .nan := by
  show ((Linear.lookAt d d).lin.dotV v)[i] = _
  rw [Mat.getElem_dotV]
  exact dot_nan _ _ 0 (by omega) (.inl (C104_look_at_parallel d _ rfl i hi).1)

/-! ## the hypotheses are satisfiable -/
namespace IeeeEx
open Classical
theorem lit_zero : lit 0 = .zero false := by simp [lit, ofReal]
theorem z64 : ∃ s, (0 : Ieee Fmt.f64) = .zero s := ⟨false, rfl⟩
theorem nz64 : ∃ s, (-0 : Ieee Fmt.f64) = .zero s := ⟨true, rfl⟩
theorem big64 : (2:ℝ) ^ (Fmt.f64.emax + 1) ≤ 2 ^ (512 : ℤ) * 2 ^ (512 : ℤ) := by
  rw [← zpow_add₀ (by norm_num)]; exact zpow_le_zpow_right₀ (by norm_num) (by decide)
theorem small64 : (2:ℝ) ^ (-538 : ℤ) * 2 ^ (-538 : ℤ) ≤ (2:ℝ) ^ (Fmt.f64.emin - Fmt.f64.p) := by
  rw [← zpow_add₀ (by norm_num)]; exact zpow_le_zpow_right₀ (by norm_num) (by decide)
theorem small64' : (0:ℝ) * 0 ≤ (2:ℝ) ^ (Fmt.f64.emin - Fmt.f64.p) := by rw [mul_zero]; positivity
theorem det0 : ∃ s, (mat fun i j => ((!![1, 2; 2, 4] : Matrix (Fin 2) (Fin 2) ℤ) i j : ℝ)).detR = .ok (.zero s) := by
  obtain ⟨d, h1, h2⟩ := C85_int_det C80_formats.2 (by decide) (c := 4) (by norm_num)
    (mat fun i j => ((!![1, 2; 2, 4] : Matrix (Fin 2) (Fin 2) ℤ) i j : ℝ)) _ (mat_val _) (by decide) (by decide)
  rw [show (!![1, 2; 2, 4] : Matrix (Fin 2) (Fin 2) ℤ).det = 0 by decide, Int.cast_zero] at h2
  rcases Val.cases h2 with ⟨-, s, rfl⟩ | ⟨h, -⟩
  · exact ⟨s, h1⟩
  · exact absurd rfl h
theorem det_inf : ((Mat.fromArrArr #v[#v[.inf true]] : Mat (Ieee Fmt.f64) 1 1)).detR = .ok (.inf true) := by
  rw [Mat.detR_eq]
  congr 1
  show (0 : Ieee Fmt.f64) + (.inf true) * (1 : Ieee Fmt.f64) = _
  rw [mul_def, add_def]
  show Ieee.add (.zero false) (.inf (true ^^ decide ((1:ℝ) < 0))) = _
  rw [decide_eq_false (by norm_num)]; rfl
end IeeeEx
open IeeeEx
example := C104_div_zero (vec ![1, -2, 0]) true 1 (by omega)
example := C104_normalize_zero (Vec.fromArray #v[0, -0] : Vec (Ieee Fmt.f64) 2) (by omega) (fun i hi => by
  match i, hi with
  | 0, _ => exact z64
  | 1, _ => exact nz64)
example := C104_normalize_inf (Vec.fromArray #v[.inf true, 1, 0] : Vec (Ieee Fmt.f64) 3) (fun i hi => by
  match i, hi with
  | 0, _ => simp [Vec.fromArray]
  | 1, _ => intro h; cases h
  | 2, _ => intro h; cases h) 0 (by omega) true rfl
example := C104_normalize_overflow C80_formats.2 (vec ![1, 2 ^ (512 : ℤ)]) (fun i hi => by
  have := vec_get ![1, 2 ^ (512 : ℤ)] ⟨i, hi⟩
  simp only at this
  rw [this]; exact lit_finite _) 1 (by omega) _ (vec_val _ 1) big64
example := C104_normalize_underflow C80_formats.2 (vec ![2 ^ (-538 : ℤ), 0]) (by omega) _ (vec_val _) (fun i => by
  fin_cases i
  · exact small64
  · exact small64')
example := C104_complex_zero (Cpx.new 1 (.inf true)) (Cpx.new 0 (-0) : Cpx (Ieee Fmt.f64)) 1 z64 (by simpa using nz64)
example := C104_complex_inf (Cpx.new 1 0) (Cpx.new (.inf true) 1 : Cpx (Ieee Fmt.f64)) ⟨true, .inl rfl⟩
/-- `w / w = 0` for `w = 2^512 + i`. -/
example := C104_complex_overflow C80_formats.2 (Cpx.new (lit (2 ^ (512 : ℤ))) (lit 1)) (Cpx.new (lit (2 ^ (512 : ℤ))) (lit 1))
  (by simp [lit_finite]) (by simp [lit_finite]) _ (.inl (by rw [Cpx.re_new]; exact lit_val _)) big64
example := C104_complex_underflow C80_formats.2 (Cpx.new 1 0) (Cpx.new (lit 0) (lit (2 ^ (-538 : ℤ)))) _ _
  (by rw [Cpx.re_new]; exact lit_val _) (by rw [Cpx.im_new]; exact lit_val _) ⟨small64', small64⟩
example := C104_quaternion_zero (Quat.new 1 0 0 1) (Quat.new 0 (-0) 0 0 : Quat (Ieee Fmt.f64)) (Cpx.new 1 1) (by simpa using z64)
  (by simpa using nz64) (by simpa using z64) (by simpa using z64)
example := C104_quaternion_div_complex_zero (Quat.new 1 0 0 1) (Cpx.new 0 (-0) : Cpx (Ieee Fmt.f64)) z64 (by simpa using nz64)
example := C104_quaternion_inf (Quat.new 1 0 0 1) (Quat.new 0 1 (.inf false) 0 : Quat (Ieee Fmt.f64)) ⟨false, .inr (.inr (.inl (by simp)))⟩
example := C104_quaternion_overflow C80_formats.2 (Quat.new (lit 1) (lit 2) (lit 3) (lit 4)) (Quat.new (lit 1) (lit 2) (lit (2 ^ (512 : ℤ))) (lit 4))
  (by simp [lit_finite]) (by simp [lit_finite]) _ (.inr (.inr (.inl (by rw [Quat.y_new]; exact lit_val _)))) big64
example := C104_quaternion_underflow C80_formats.2 (Quat.new (lit 1) (lit 2) (lit 3) (lit 4)) (Quat.new (lit 0) (lit 0) (lit (2 ^ (-538 : ℤ))) (lit 0))
  ![0, 0, 2 ^ (-538 : ℤ), 0] (by rw [Quat.w_new]; exact lit_val _) (by rw [Quat.x_new]; exact lit_val _) (by rw [Quat.y_new]; exact lit_val _)
  (by rw [Quat.z_new]; exact lit_val _) (fun i => by
    fin_cases i
    · exact small64'
    · exact small64'
    · exact small64
    · exact small64')
/-- The singular matrix `[[1, 2], [2, 4]]`. -/
example := C104_matrix_inv_zero _ _ det0.choose_spec
example := C104_matrix_inv_inf _ _ det_inf
namespace IeeeEx
/-- A complex zero. -/
def ZC (z : Cpx (Ieee φ)) : Prop := IsZ z.re ∧ IsZ z.im
theorem ZC.mul {a b : Cpx (Ieee φ)} (h1 : Spec.Finite a.re) (h2 : Spec.Finite a.im) (h : ZC b) : ZC (a * b) :=
  ⟨by rw [Cpx.re_mul]; exact (IsZ.mul h1 h.1).sub (IsZ.mul h2 h.2), by rw [Cpx.im_mul]; exact (IsZ.mul h1 h.2).add (IsZ.mul h2 h.1)⟩
theorem ZC.add {a b : Cpx (Ieee φ)} (ha : ZC a) (h : ZC b) : ZC (a + b) :=
  ⟨by rw [Cpx.re_add]; exact ha.1.add h.1, by rw [Cpx.im_add]; exact ha.2.add h.2⟩
theorem ZC.neg {a : Cpx (Ieee φ)} (ha : ZC a) : ZC (-a) := ⟨by rw [Cpx.re_neg]; exact ha.1.neg, by rw [Cpx.im_neg]; exact ha.2.neg⟩
theorem ZC.zero : ZC (0 : Cpx (Ieee φ)) := ⟨⟨false, rfl⟩, ⟨false, rfl⟩⟩
theorem fin_one : Spec.Finite (1 : Ieee φ) := ⟨nofun, nofun⟩
theorem fin_zero : Spec.Finite (0 : Ieee φ) := ⟨nofun, nofun⟩
/-- `z ↦ 1 / z`. -/
noncomputable def recip : Moebius (Cpx (Ieee Fmt.f64)) := Moebius.new 0 1 1 0
theorem recip_c : recip.c = 1 := by rw [Moebius.c_eq]; rfl
theorem recip_d : recip.d = 0 := by rw [Moebius.d_eq]; rfl
/-- `z ↦ (z + 1) / 0`. -/
noncomputable def degen : Moebius (Cpx (Ieee Fmt.f64)) := Moebius.new 1 1 0 0
theorem degen_det : ZC degen.det := by
  show ZC degen.mat.det
  rw [F64.det2]
  have h00 : degen.mat[0][0] = 1 := rfl
  have h01 : degen.mat[0][1] = 1 := rfl
  have h10 : degen.mat[1][0] = 0 := rfl
  have h11 : degen.mat[1][1] = 0 := rfl
  rw [h00, h01, h10, h11]
  have z1 : ZC ((0 : Cpx (Ieee Fmt.f64)) + 0 * 1) := ZC.zero.add
    ⟨by rw [Cpx.re_mul]; exact ⟨_, rfl⟩, by rw [Cpx.im_mul]; exact ⟨_, rfl⟩⟩
  exact (ZC.zero.add (ZC.mul (a := 1) fin_one fin_zero z1)).add (ZC.mul (a := 1) fin_one fin_zero z1.neg)
theorem recip_zero : ZC (recip.c * 0 + recip.d) := by rw [recip_c, recip_d]; exact (ZC.mul (a := 1) fin_one fin_zero ZC.zero).add ZC.zero
theorem recip_inf : (recip.c * (Cpx.new (.inf true) 0 : Cpx (Ieee Fmt.f64)) + recip.d).re = .inf true := by
  rw [recip_c, recip_d, Cpx.re_add, Cpx.re_mul]
  simp only [Cpx.re_new, Cpx.im_new, Cpx.re_one, Cpx.im_one, Cpx.re_zero]
  show Ieee.add (Ieee.add (.inf (decide ((1:ℝ) < 0) ^^ true)) (.zero _)) (.zero _) = _
  rw [decide_eq_false (by norm_num)]; rfl
theorem recip_quat (P : Quat (Ieee Fmt.f64) → Prop) (h : P (Quat.addC (Quat.cMul 1 0) 0)) : P (recip.c * (0 : Quat (Ieee Fmt.f64)) + recip.d) := by
  rw [recip_c, recip_d]; exact h
end IeeeEx
/-- `z ↦ 1 / z` at zero. -/
example := C104_moebius_pole recip 0 recip_zero.1 recip_zero.2
example := C104_moebius_pole_quaternion recip 0
  (recip_quat (fun q => IsZ q.w) (by simp [Quat.addC, Quat.cMul]; exact ⟨_, rfl⟩))
  (recip_quat (fun q => IsZ q.x) (by simp [Quat.addC, Quat.cMul]; exact ⟨_, rfl⟩))
  (recip_quat (fun q => IsZ q.y) (by simp [Quat.addC, Quat.cMul]; exact ⟨_, rfl⟩))
  (recip_quat (fun q => IsZ q.z) (by simp [Quat.addC, Quat.cMul]; exact ⟨_, rfl⟩))
/-- ... and at infinity: NaN instead of zero. -/
example := C104_moebius_infinity recip (Cpx.new (.inf true) 0) ⟨true, .inl recip_inf⟩
example := C104_moebius_degenerate degen degen_det.1 degen_det.2
example := C104_look_at_parallel (vec ![1, 2, 3]) _ rfl 1 (by omega)
example := C104_look_at_parallel_apply (vec ![1, 2, 3]) (vec ![1, 0, 0]) 2 (by omega)

end Vecmat
