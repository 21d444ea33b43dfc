import Verif.Lemmas.IeeeErr
import Verif.Props.Rounding
import Verif.Props.IeeeNan
import Verif.Lemmas.IeeeEx
/-!
# C84: error bounds in IEEE-754 arithmetic
For the complete floating-point semantics of `Model/Ieee.lean`, underflow and overflow included.
`Close k c m d x` (`Spec/Ieee.lean`): `d`, if finite, is within `((1+u)^k - 1) m + c η (1+u)^k` of `x`, and it is finite when `m` plus this
bound is below the overflow threshold.  `u = 2^-p`, `η` is half the smallest positive number.
-/
namespace Vecmat
open Spec Ieee
variable {φ : Fmt} {L M N : Nat}

/-- `sum` does not suffer from underflow: `c = 0`. -/
theorem C84_sum (hφ : WF φ) (hN : 0 < N) (v : Vec (Ieee φ) N) (x : Fin N → ℝ) (hd : ∀ i : Fin N, Datum v[i.1])
    (hv : ∀ i : Fin N, v[i.1].toReal? = some (x i)) : ∃ d, v.sumR = .ok d ∧ Close (N - 1) 0 (∑ i, |x i|) d (∑ i, x i) := by
  have : NeZero N := ⟨by omega⟩
  have h := Vec.sum_ap hφ v x (fun i => |x i|) (k := 0) (c := 0) (fun i => Ap.of_val (hd i) (hv i))
  exact ⟨_, Vec.sum_ok v, by simpa using h.close⟩
/-- `dot`. -/
theorem C84_dot (hφ : WF φ) (hN : 0 < N) (v w : Vec (Ieee φ) N) (x y : Fin N → ℝ) (hv : ∀ i : Fin N, v[i.1].toReal? = some (x i))
    (hw : ∀ i : Fin N, w[i.1].toReal? = some (y i)) : ∃ d, v.dotR w = .ok d ∧ Close N N (∑ i, |x i| * |y i|) d (∑ i, x i * y i) := by
  have : NeZero N := ⟨by omega⟩
  exact ⟨_, Vec.dot_ok v w, (Vec.dot_ap hφ v w x y hv hw).close⟩
theorem C84_square_length (hφ : WF φ) (hN : 0 < N) (v : Vec (Ieee φ) N) (x : Fin N → ℝ) (hv : ∀ i : Fin N, v[i.1].toReal? = some (x i)) :
    ∃ d, v.squareLengthR = .ok d ∧ Close N N (∑ i, x i ^ 2) d (∑ i, x i ^ 2) := by
  have : NeZero N := ⟨by omega⟩
  refine ⟨_, Vec.squareLength_ok v, ?_⟩
  have h := Vec.sum_ap hφ (v.map fun a => a * a) (fun i => x i ^ 2) (fun i => x i ^ 2) (k := 1) (c := 1)
    (fun i => by have := Ap.mul hφ (hv i) (hv i); rw [← sq, ← sq, sq_abs] at this; simpa using this)
  rw [show 1 + (N - 1) = N by omega, Nat.mul_one] at h
  exact h.close
/-- Away from the underflow threshold the bound is relative: `((1+u)^(N+1) - 1) |v|²`. -/
theorem C84_square_length_rel (hφ : WF φ) (hN : 0 < N) (v : Vec (Ieee φ) N) (x : Fin N → ℝ) (hv : ∀ i : Fin N, v[i.1].toReal? = some (x i))
    (hlow : N * (2:ℝ) ^ φ.emin ≤ ∑ i, x i ^ 2) :
    ∃ d, v.squareLengthR = .ok d ∧ ∀ r, d.toReal? = some r → |r - ∑ i, x i ^ 2| ≤ gam (roundoff φ) (N + 1) * ∑ i, x i ^ 2 := by
  obtain ⟨d, h1, h2, -⟩ := C84_square_length hφ hN v x hv
  refine ⟨d, h1, fun r hr => (h2 r hr).trans ?_⟩
  have hu := u_pos (φ := φ)
  have ht : tiny φ = roundoff φ * 2 ^ φ.emin := by
    unfold tiny roundoff; rw [zpow_sub₀ (by norm_num), zpow_natCast]; ring
  unfold errBound gam
  rw [ht]
  have := mul_le_mul_of_nonneg_left hlow (by positivity : 0 ≤ roundoff φ * (1 + roundoff φ) ^ N)
  rw [pow_succ]; nlinarith
/-- `length`: the square root of the computed sum of squares with one more rounding. The condition on the format says that square roots
do not underflow; it holds for `f32` and `f64`. -/
theorem C84_length (hφ : WF φ) (hp : (φ.p : ℤ) ≤ 1 - φ.emin) (hN : 0 < N) (v : Vec (Ieee φ) N) (x : Fin N → ℝ)
    (hv : ∀ i : Fin N, v[i.1].toReal? = some (x i)) : ∃ d, v.lengthR = .ok d ∧
    (∀ r, d.toReal? = some r → (1 - roundoff φ) * Real.sqrt (∑ i, x i ^ 2 - errBound φ N N (∑ i, x i ^ 2)) ≤ r ∧
      r ≤ (1 + roundoff φ) * Real.sqrt (∑ i, x i ^ 2 + errBound φ N N (∑ i, x i ^ 2))) ∧
    (∑ i, x i ^ 2 + errBound φ N N (∑ i, x i ^ 2) < huge φ → ∃ r, d.toReal? = some r) := by
  have : NeZero N := ⟨by omega⟩
  obtain ⟨q, h1, h2, h3⟩ := C84_square_length hφ hN v x hv
  rw [Vec.squareLength_ok] at h1; cases h1
  have hds : Datum v.squareLength := by
    have h := Vec.sum_ap hφ (v.map fun a => a * a) (fun i => x i ^ 2) (fun i => x i ^ 2) (k := 1) (c := 1)
      (fun i => by have := Ap.mul hφ (hv i) (hv i); rw [← sq, ← sq, sq_abs] at this; simpa using this)
    exact h.datum
  refine ⟨_, Vec.length_ok v, fun r hr => ?_, fun hf => ?_⟩
  · obtain ⟨s, hs, h0, rfl, -⟩ := val_sqrt_iff.1 (show Val (Ieee.sqrt v.squareLength) r from hr)
    have e1 := abs_le.1 (h2 s hs)
    have e2 := abs_le.1 (near_sqrt_rel hφ hp h0 (Datum.rep hφ hds hs))
    have hu := u_pos (φ := φ)
    have hu1 : roundoff φ ≤ 1 := by
      unfold roundoff; rw [div_le_one (by positivity)]; exact one_le_pow₀ (by norm_num)
    constructor
    · refine le_trans (mul_le_mul_of_nonneg_left (Real.sqrt_le_sqrt (by linarith : _ ≤ s)) (by linarith)) (by linarith)
    · refine le_trans (by linarith : _ ≤ (1 + roundoff φ) * Real.sqrt s) (mul_le_mul_of_nonneg_left (Real.sqrt_le_sqrt (by linarith)) (by linarith))
  · obtain ⟨s, hs⟩ := h3 hf
    obtain ⟨t, ht, ht'⟩ := sum_nonneg' (v.map fun x => x * x) hN (fun i hi => by
      rw [Vec.getElem_map]; exact sq_nonneg' (fun h => not_val_nan (h ▸ hv ⟨i, hi⟩ : Val (.nan : Ieee φ) _)))
    rw [show (v.map fun x => x * x).sumR = .ok v.squareLength from Vec.squareLength_ok v] at ht; cases ht
    have h0 : 0 ≤ s := by
      rcases Val.cases hs with ⟨h, -⟩ | ⟨h, e⟩
      · exact h.ge
      · rw [e] at ht'; exact le_of_lt ht'
    exact ⟨_, val_sqrt_iff.2 ⟨s, hs, h0, rfl, near_sqrt_lt hφ h0 (Datum.rep hφ hds hs)⟩⟩
/-- `normalize` divides by the computed length `l` with one rounding per component. -/
theorem C84_normalize (hN : 0 < N) (v : Vec (Ieee φ) N) (x : Fin N → ℝ) (hv : ∀ i : Fin N, v[i.1].toReal? = some (x i))
    {d : Ieee φ} (hl : v.lengthR = .ok d) {l : ℝ} (hd : d.toReal? = some l) (h0 : 0 < l) :
    ∃ w, v.normalizeR = .ok w ∧ ∀ i : Fin N, (∀ r, w[i.1].toReal? = some r → |r - x i / l| ≤ roundoff φ * |x i / l| + tiny φ) ∧
      ((1 + roundoff φ) * |x i / l| + tiny φ < huge φ → ∃ r, w[i.1].toReal? = some r) := by
  have : NeZero N := ⟨by omega⟩
  refine ⟨_, Vec.normalize_ok v, fun i => ?_⟩
  rw [Vec.length_ok] at hl; cases hl
  rw [Vec.normalize, Vec.getElem_divS]
  refine ⟨fun r hr => ?_, fun hf => ⟨_, val_div_iff.2 (.inl ⟨_, _, hv i, hd, h0.ne', rfl, ?_⟩)⟩⟩
  · rcases val_div_iff.1 hr with ⟨x', y', hx, hy, -, rfl, -⟩ | ⟨-, -, s, hs⟩
    · rw [hx.unique (hv i), hy.unique hd]; exact near_err_add _
    · rw [hs] at hd; exact absurd hd (not_val_inf s)
  · have := near_err_add (φ := φ) (x i / l)
    calc _ = |(φ.near (x i / l) - x i / l) + x i / l| := by congr 1; ring
      _ ≤ _ := abs_add_le _ _
      _ < _ := by linarith
/-- Matrix-vector product. -/
theorem C84_mat_vec (hφ : WF φ) (hN : 0 < N) (A : Mat (Ieee φ) M N) (v : Vec (Ieee φ) N) (a : Matrix (Fin M) (Fin N) ℝ) (x : Fin N → ℝ)
    (ha : ∀ (i : Fin M) (j : Fin N), A[i.1][j.1].toReal? = some (a i j)) (hv : ∀ j : Fin N, v[j.1].toReal? = some (x j)) :
    ∃ w, A.dotVR v = .ok w ∧ ∀ i : Fin M, Close N N (∑ j, |a i j| * |x j|) w[i.1] (a.mulVec x i) := by
  have : NeZero N := ⟨by omega⟩
  refine ⟨_, Mat.dotVR_get A v, fun i => ?_⟩
  simpa [Matrix.mulVec, dotProduct] using (Vec.dot_ap hφ A[i.1] v (a i) x (ha i) hv).close
/-- Matrix product. -/
theorem C84_mat_mat (hφ : WF φ) (hM : 0 < M) (A : Mat (Ieee φ) L M) (B : Mat (Ieee φ) M N) (a : Matrix (Fin L) (Fin M) ℝ)
    (b : Matrix (Fin M) (Fin N) ℝ) (ha : ∀ (i : Fin L) (j : Fin M), A[i.1][j.1].toReal? = some (a i j))
    (hb : ∀ (i : Fin M) (j : Fin N), B[i.1][j.1].toReal? = some (b i j)) :
    ∃ X, A.dotMR B = .ok X ∧ ∀ (i : Fin L) (j : Fin N), Close M M (∑ k, |a i k| * |b k j|) X[i.1][j.1] ((a * b) i j) := by
  have : NeZero M := ⟨by omega⟩
  refine ⟨_, Mat.dotMR_get A B, fun i j => ?_⟩
  have := (Vec.dot_ap hφ A[i.1] (B.colOf j.1 j.2) (a i) (fun k => b k j) (ha i) (fun k => by simpa [Val] using hb k j)).close
  simpa [Matrix.mul_apply] using this
/-- Cross products. -/
theorem C84_cross2 (hφ : WF φ) (v w : Vec (Ieee φ) 2) (x y : Fin 2 → ℝ) (hv : ∀ i : Fin 2, v[i.1].toReal? = some (x i))
    (hw : ∀ i : Fin 2, w[i.1].toReal? = some (y i)) :
    Close 2 2 (|x 0| * |y 1| + |x 1| * |y 0|) (v.cross2 w) (x 0 * y 1 - x 1 * y 0) := by
  have := ((Ap.mul hφ (hv 0) (hw 1)).sub hφ (Ap.mul hφ (hv 1) (hw 0))).close
  simpa [Vec.cross2] using this
theorem C84_cross3 (hφ : WF φ) (v w : Vec (Ieee φ) 3) (x y : Fin 3 → ℝ) (hv : ∀ i : Fin 3, v[i.1].toReal? = some (x i))
    (hw : ∀ i : Fin 3, w[i.1].toReal? = some (y i)) (i : Fin 3) :
    Close 2 2 (|x (i + 1)| * |y (i + 2)| + |x (i + 2)| * |y (i + 1)|) (v.cross3 w)[i.1] (x (i + 1) * y (i + 2) - x (i + 2) * y (i + 1)) := by
  have := ((Ap.mul hφ (hv (i + 1)) (hw (i + 2))).sub hφ (Ap.mul hφ (hv (i + 2)) (hw (i + 1)))).close
  fin_cases i <;> simpa [Vec.cross3, Vec.fromArray] using this
/-- Complex product. -/
theorem C84_complex_mul (hφ : WF φ) (z w : Cpx (Ieee φ)) (Z W : ℂ) (h1 : z.re.toReal? = some Z.re) (h2 : z.im.toReal? = some Z.im)
    (h3 : w.re.toReal? = some W.re) (h4 : w.im.toReal? = some W.im) :
    Close 2 2 (‖Z‖ * ‖W‖) (z * w).re (Z * W).re ∧ Close 2 2 (‖Z‖ * ‖W‖) (z * w).im (Z * W).im := by
  have nz : ‖Z‖ = Real.sqrt (Z.re ^ 2 + Z.im ^ 2) := by rw [Complex.norm_eq_sqrt_sq_add_sq]
  have nw : ‖W‖ = Real.sqrt (W.re ^ 2 + W.im ^ 2) := by rw [Complex.norm_eq_sqrt_sq_add_sq]
  constructor
  · have := ((Ap.mul hφ h1 h3).sub hφ (Ap.mul hφ h2 h4)).mono_m (m' := ‖Z‖ * ‖W‖) (by rw [nz, nw]; exact abs_mul_add_le _ _ _ _)
    simpa using this.close
  · have := ((Ap.mul hφ h1 h4).add hφ (Ap.mul hφ h2 h3)).mono_m (m' := ‖Z‖ * ‖W‖) (by
      rw [nz, nw, add_comm (W.re ^ 2)]; exact abs_mul_add_le _ _ _ _)
    simpa using this.close
/-- Quaternion product. -/
theorem C84_quaternion_mul (hφ : WF φ) (p q : Quat (Ieee φ)) (P Q : Quaternion ℝ)
    (hp : p.w.toReal? = some P.re ∧ p.x.toReal? = some P.imI ∧ p.y.toReal? = some P.imJ ∧ p.z.toReal? = some P.imK)
    (hq : q.w.toReal? = some Q.re ∧ q.x.toReal? = some Q.imI ∧ q.y.toReal? = some Q.imJ ∧ q.z.toReal? = some Q.imK) :
    Close 4 4 (‖P‖ * ‖Q‖) (p * q).w (P * Q).re ∧ Close 4 4 (‖P‖ * ‖Q‖) (p * q).x (P * Q).imI ∧
    Close 4 4 (‖P‖ * ‖Q‖) (p * q).y (P * Q).imJ ∧ Close 4 4 (‖P‖ * ‖Q‖) (p * q).z (P * Q).imK := by
  obtain ⟨a, b, c, d⟩ := hp
  obtain ⟨a', b', c', d'⟩ := hq
  have up1 : ∀ {m : ℝ} {e : Ieee φ} {t : ℝ}, Ap 1 1 m e t → ∀ k, 1 ≤ k → Ap k 1 m e t := fun h k hk => h.mono hk le_rfl
  rw [quat_norm P, quat_norm Q]
  refine ⟨?_, ?_, ?_, ?_⟩
  · have h := (((Ap.mul hφ a a').sub hφ (Ap.mul hφ b b')).sub hφ (up1 (Ap.mul hφ c c') _ (by norm_num))).sub hφ (up1 (Ap.mul hφ d d') _ (by norm_num))
    have := (h.mono_m (abs_mul_add_le4 _ _ _ _ _ _ _ _)).close
    simpa using this
  · have h := (((Ap.mul hφ a b').add hφ (Ap.mul hφ b a')).add hφ (up1 (Ap.mul hφ c d') _ (by norm_num))).sub hφ (up1 (Ap.mul hφ d c') _ (by norm_num))
    have := (h.mono_m ((abs_mul_add_le4 _ _ _ _ Q.imI Q.re Q.imK Q.imJ).trans_eq (show _ = Real.sqrt (P.re ^ 2 + P.imI ^ 2 + P.imJ ^ 2 + P.imK ^ 2) * Real.sqrt (Q.re ^ 2 + Q.imI ^ 2 + Q.imJ ^ 2 + Q.imK ^ 2) by congr 2; ring))).close
    simpa using this
  · have h := (((Ap.mul hφ a c').sub hφ (Ap.mul hφ b d')).add hφ (up1 (Ap.mul hφ c a') _ (by norm_num))).add hφ (up1 (Ap.mul hφ d b') _ (by norm_num))
    have := (h.mono_m ((abs_mul_add_le4 _ _ _ _ Q.imJ Q.imK Q.re Q.imI).trans_eq (show _ = Real.sqrt (P.re ^ 2 + P.imI ^ 2 + P.imJ ^ 2 + P.imK ^ 2) * Real.sqrt (Q.re ^ 2 + Q.imI ^ 2 + Q.imJ ^ 2 + Q.imK ^ 2) by congr 2; ring))).close
    simpa using this
  · have h := (((Ap.mul hφ a d').add hφ (Ap.mul hφ b c')).sub hφ (up1 (Ap.mul hφ c b') _ (by norm_num))).add hφ (up1 (Ap.mul hφ d a') _ (by norm_num))
    have := (h.mono_m ((abs_mul_add_le4 _ _ _ _ Q.imK Q.imJ Q.imI Q.re).trans_eq (show _ = Real.sqrt (P.re ^ 2 + P.imI ^ 2 + P.imJ ^ 2 + P.imK ^ 2) * Real.sqrt (Q.re ^ 2 + Q.imI ^ 2 + Q.imJ ^ 2 + Q.imK ^ 2) by congr 2; ring))).close
    simpa using this
/-- Affine transformation `A x + b`. -/
theorem C84_affine (hφ : WF φ) (hN : 0 < N) (t : Affine (Ieee φ) N) (v : Vec (Ieee φ) N) (a : Matrix (Fin N) (Fin N) ℝ) (b x : Fin N → ℝ)
    (ha : ∀ i j : Fin N, t.linear.intoMatrix[i.1][j.1].toReal? = some (a i j)) (hd : ∀ i : Fin N, Datum t.shift.intoVector[i.1])
    (hb : ∀ i : Fin N, t.shift.intoVector[i.1].toReal? = some (b i)) (hv : ∀ j : Fin N, v[j.1].toReal? = some (x j)) (i : Fin N) :
    Close (N + 1) N (∑ j, |a i j| * |x j| + |b i|) (Transform.apply t v)[i.1] (a.mulVec x i + b i) := by
  have : NeZero N := ⟨by omega⟩
  have h := ((Vec.dot_ap hφ t.linear.intoMatrix[i.1] v (a i) x (ha i) hv).add hφ ((Ap.of_val (hd i) (hb i)).mono (Nat.zero_le N) le_rfl)).close
  have e : (Transform.apply t v)[i.1] = t.linear.intoMatrix[i.1].dot v + t.shift.intoVector[i.1] := by
    show (t.inner.lin.dotV v + t.outer.pos)[i.1] = _
    rw [Vec.getElem_add, Mat.getElem_dotV]; rfl
  rw [e]; simpa [Matrix.mulVec, dotProduct] using h
/-- Rotation of the plane. -/
theorem C84_rotation2 (hφ : WF φ) (t : Rotation2 (Ieee φ)) (v : Vec (Ieee φ) 2) (z x : ℂ)
    (h1 : t.intoComplex.re.toReal? = some z.re) (h2 : t.intoComplex.im.toReal? = some z.im) (h3 : v[0].toReal? = some x.re)
    (h4 : v[1].toReal? = some x.im) : Close 2 2 (‖x‖ * ‖z‖) (Transform.apply t v)[0] (x * z).re ∧
      Close 2 2 (‖x‖ * ‖z‖) (Transform.apply t v)[1] (x * z).im := by
  have := C84_complex_mul hφ (Cpx.fromVector v) t.intoComplex x z h3 h4 h1 h2
  exact this

/-! ## the hypotheses are satisfiable -/
open IeeeEx
example := C84_sum C80_formats.2 (by norm_num) (vec ![1, 2, -3]) _
  (fun i => by rw [vec_get]; fin_cases i <;> [exact_mod_cast lit_int 1 (by norm_num); exact_mod_cast lit_int 2 (by norm_num); exact_mod_cast lit_int (-3) (by norm_num)])
  (vec_val _)
example := C84_dot C80_formats.2 (by norm_num) (vec ![0.1, 2, -3]) (vec ![4, 1e-300, 6]) _ _ (vec_val _) (vec_val _)
example := C84_square_length C80_formats.2 (by norm_num) (vec ![0.1, 1e-200]) _ (vec_val _)
example := C84_length C80_formats.2 (by decide) (by norm_num) (vec ![0.1, 1e-200]) _ (vec_val _)
example := C84_mat_vec C80_formats.2 (by norm_num) (mat !![1, 2; 3, 4; 5, 6]) (vec ![0.1, -7]) _ _ (mat_val _) (vec_val _)
example := C84_mat_mat C80_formats.2 (by norm_num) (mat !![1, 2; 3, 4; 5, 6]) (mat !![1, 2, 3; 0, 4, 0.5]) _ _ (mat_val _) (mat_val _)
example := C84_cross2 C80_formats.2 (vec ![0.1, 2]) (vec ![4, 1e-300]) _ _ (vec_val _) (vec_val _)
example := C84_cross3 C80_formats.2 (vec ![0.1, 2, -3]) (vec ![4, 1e-300, 6]) _ _ (vec_val _) (vec_val _) 1
example := C84_complex_mul C80_formats.2 (Cpx.new (lit 3) (lit 4)) (Cpx.new (lit 0.1) (lit (-2))) ⟨3, 4⟩ ⟨0.1, -2⟩ (lit_val _) (lit_val _) (lit_val _) (lit_val _)
example := C84_quaternion_mul C80_formats.2 (Quat.new (lit 1) (lit 2) (lit 3) (lit 0.4)) (Quat.new (lit 5) (lit 0.6) (lit 7) (lit (-8)))
  ⟨1, 2, 3, 0.4⟩ ⟨5, 0.6, 7, -8⟩ ⟨lit_val _, lit_val _, lit_val _, lit_val _⟩ ⟨lit_val _, lit_val _, lit_val _, lit_val _⟩
example := C84_rotation2 C80_formats.2 (Rotation2.fromComplex (Cpx.new (lit 0.6) (lit 0.8))) (vec ![3, 0.1]) ⟨0.6, 0.8⟩ ⟨3, 0.1⟩
  (lit_val _) (lit_val _) (vec_val _ 0) (vec_val _ 1)
example (i : Fin 2) := C84_affine C80_formats.2 (by norm_num)
  ⟨Shift.fromVector (vec ![5, -6]), Linear.fromMatrix (mat !![1, 2; 3, 4])⟩ (vec ![3, 0.1]) !![1, 2; 3, 4] ![5, -6] _ (mat_val _)
  (fun i => show Datum (vec ![5, -6])[i.1] by
    rw [vec_get]; fin_cases i <;> [exact_mod_cast lit_int 5 (by norm_num); exact_mod_cast lit_int (-6) (by norm_num)])
  (vec_val _) (vec_val _) i
/-- No underflow in `|[0.1, 3]|²`. -/
example := C84_square_length_rel C80_formats.2 (by norm_num) (vec ![0.1, 3]) _ (vec_val _) (by
  have : (2:ℝ) ^ (-1022 : ℤ) ≤ 1 := zpow_le_one_of_nonpos₀ (by norm_num) (by norm_num)
  simp only [Fmt.f64, Fin.sum_univ_two]; norm_num at *; linarith)
/-- The length of `[0.1, 3]` is finite and positive, so `normalize` has the bound. -/
example : ∃ d l, (vec ![0.1, 3]).lengthR = .ok d ∧ d.toReal? = some l ∧ 0 < l ∧ ∃ w, (vec ![0.1, 3]).normalizeR = .ok w := by
  obtain ⟨d, h1, h2, h3⟩ := C84_length C80_formats.2 (by decide) (by norm_num) (vec ![0.1, 3]) _ (vec_val _)
  have hf : (∑ i, (![0.1, 3] : Fin 2 → ℝ) i ^ 2) = 9.01 := by simp [Fin.sum_univ_two]; norm_num
  have he : errBound Fmt.f64 2 2 9.01 ≤ 1 := by
    have : tiny Fmt.f64 ≤ 2 ^ (-53 : ℤ) := zpow_le_zpow_right₀ (by norm_num) (by decide)
    have h0 : 0 < tiny Fmt.f64 := by unfold tiny; positivity
    unfold errBound gam roundoff at *; simp only [Fmt.f64] at *; norm_num at *; nlinarith
  rw [hf] at h2 h3
  have hh : (2:ℝ) ^ (4 : ℤ) ≤ huge Fmt.f64 := zpow_le_zpow_right₀ (by norm_num) (by decide)
  obtain ⟨l, hl⟩ := h3 (by norm_num at hh; linarith)
  have h5 : 0 < l := lt_of_lt_of_le (mul_pos (by unfold roundoff; simp only [Fmt.f64]; norm_num) (Real.sqrt_pos.2 (by linarith))) (h2 l hl).1
  exact ⟨d, l, h1, hl, h5, (C84_normalize (by norm_num) (vec ![0.1, 3]) _ (vec_val _) h1 hl h5).imp fun w h => h.1⟩
end Vecmat
