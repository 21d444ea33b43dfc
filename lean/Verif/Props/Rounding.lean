import Verif.Lemmas.Rounding
import Verif.Lemmas.FloatEval
import Verif.Model.Transforms
import Mathlib.Analysis.Quaternion
/-!
# C70, C71, C72: floating-point accuracy
`Fl F` are floating-point numbers with rounding function `F`; `Spec.Rounding u F` is the standard model of floating-point
arithmetic with unit roundoff `u`; `Spec.gam u k = (1+u)^k - 1`.  The statements are about results that are numbers
(no overflow, underflow, division by zero).
-/
namespace Vecmat
open Spec
variable {F : ℝ → Option ℝ} {u : ℝ} {L M N : Nat}

/-! ## the standard model is met by binary floating point -/

/-- Round-to-nearest binary arithmetic with `p` bits is a rounding with `u = 2^-p` (`f32`: `2^-24`, `f64`: `2^-53`). -/
theorem C70_binary (p : Nat) (emin emax : Int) : Rounding (1 / 2 ^ p) (rdBin p emin emax) := by
  refine ⟨by positivity, fun x y h => ?_⟩
  unfold rdBin at h
  split at h
  · next h0 => cases h; simp [h0]
  · next h0 =>
    simp only at h
    split at h
    · cases h
      have hx : 0 < |x| := abs_pos.2 h0
      have h1 : (2 : ℝ) ^ (Int.log 2 |x|) ≤ |x| := by simpa using Int.zpow_log_le_self (b := 2) (by norm_num) hx
      generalize Int.log 2 |x| = e at *
      have hw : (0 : ℝ) < 2 ^ (e - p + 1) := by positivity
      have h2 := abs_sub_round (x / 2 ^ (e - p + 1))
      rw [abs_sub_comm] at h2
      have h3 : |round (x / 2 ^ (e - p + 1)) * (2 : ℝ) ^ (e - p + 1) - x| ≤ 1 / 2 * 2 ^ (e - p + 1) := by
        rw [show (round (x / 2 ^ (e - p + 1)) * (2 : ℝ) ^ (e - p + 1) - x) =
          (round (x / 2 ^ (e - p + 1)) - x / 2 ^ (e - p + 1)) * (2 : ℝ) ^ (e - p + 1) by field_simp, abs_mul, abs_of_pos hw]
        exact mul_le_mul_of_nonneg_right h2 hw.le
      refine h3.trans ?_
      rw [zpow_add₀ (by norm_num), zpow_sub₀ (by norm_num)]
      simp only [zpow_natCast, zpow_one]
      calc (1 / 2 * ((2 : ℝ) ^ e / 2 ^ p * 2)) = 1 / 2 ^ p * 2 ^ e := by ring
        _ ≤ _ := mul_le_mul_of_nonneg_left h1 (by positivity)
    · cases h

/-- The error factor is below the usual `k u / (1 - k u)`. -/
theorem C70_factor (hu : 0 ≤ u) (k : ℕ) (hk : k * u < 1) : gam u k ≤ k * u / (1 - k * u) := by
  by_cases hk0 : k = 0
  · subst hk0; simp [gam]
  have hu1 : u ≤ 1 := by
    have : (1 : ℝ) ≤ k := by exact_mod_cast Nat.one_le_iff_ne_zero.2 hk0
    nlinarith
  have hp : 0 < 1 - k * u := by linarith
  have h1 : 1 - k * u ≤ (1 - u) ^ k := by
    have := one_add_mul_le_pow (a := -u) (by linarith) k
    simpa [sub_eq_add_neg] using this
  have h2 : (1 + u) ^ k * (1 - u) ^ k ≤ 1 := by
    rw [← mul_pow]; exact pow_le_one₀ (by nlinarith) (by nlinarith)
  unfold gam
  rw [sub_le_iff_le_add, show k * u / (1 - k * u) + 1 = 1 / (1 - k * u) by field_simp; ring, le_div_iff₀ hp]
  have h3 : 0 ≤ (1 + u) ^ k := by positivity
  nlinarith

/-! ## C70: sums of products -/

theorem C70_sum [NeZero N] (hF : Rounding u F) (v : Vec (Fl F) N) (a : Fin N → ℝ) (ha : ∀ i, v[i.1].val = some (a i))
    {r : ℝ} (hr : v.sum.val = some r) : |r - ∑ i, a i| ≤ gam u (N - 1) * ∑ i, |a i| := by
  have := (Vec.sum_err hF v a (fun i => |a i|) (k := 0) fun i => Err.of_eq (ha i)).2 r hr
  rwa [zero_add] at this

/-- The computed dot product is within `((1+u)^N - 1) Σ |a_i b_i|` of the exact one. -/
theorem C70_dot [NeZero N] (hF : Rounding u F) (v w : Vec (Fl F) N) (a b : Fin N → ℝ) (ha : ∀ i, v[i.1].val = some (a i))
    (hb : ∀ i, w[i.1].val = some (b i)) {r : ℝ} (hr : (v.dot w).val = some r) :
    |r - ∑ i, a i * b i| ≤ gam u N * ∑ i, |a i| * |b i| := by
  have := (Vec.dot_err hF v w a b (fun i => |a i|) (fun i => |b i|) (k := 0) (l := 0) (fun i => Err.of_eq (ha i))
    fun i => Err.of_eq (hb i)).2 r hr
  simpa using this

/-- Matrix-vector product, any shape. -/
theorem C70_mat_vec [NeZero N] (hF : Rounding u F) (A : Mat (Fl F) M N) (v : Vec (Fl F) N) (a : Matrix (Fin M) (Fin N) ℝ) (b : Fin N → ℝ)
    (ha : ∀ (i : Fin M) (j : Fin N), A[i.1][j.1].val = some (a i j)) (hb : ∀ j, v[j.1].val = some (b j)) :
    ∃ x, A.dotVR v = .ok x ∧ ∀ (i : Fin M) (r : ℝ), x[i.1].val = some r →
      |r - a.mulVec b i| ≤ gam u N * ∑ j, |a i j| * |b j| := by
  refine ⟨_, Mat.dotVR_get A v, fun i r hr => ?_⟩
  have := C70_dot hF A[i.1] v (a i) b (fun j => ha i j) hb (r := r) (by simpa using hr)
  simpa [Matrix.mulVec, dotProduct] using this

/-- Matrix product, any shapes. -/
theorem C70_mat_mat [NeZero M] (hF : Rounding u F) (A : Mat (Fl F) L M) (B : Mat (Fl F) M N) (a : Matrix (Fin L) (Fin M) ℝ)
    (b : Matrix (Fin M) (Fin N) ℝ) (ha : ∀ (i : Fin L) (j : Fin M), A[i.1][j.1].val = some (a i j))
    (hb : ∀ (i : Fin M) (j : Fin N), B[i.1][j.1].val = some (b i j)) :
    ∃ X, A.dotMR B = .ok X ∧ ∀ (i : Fin L) (j : Fin N) (r : ℝ), X[i.1][j.1].val = some r →
      |r - (a * b) i j| ≤ gam u M * ∑ k, |a i k| * |b k j| := by
  refine ⟨_, Mat.dotMR_get A B, fun i j r hr => ?_⟩
  have := C70_dot hF A[i.1] (B.colOf j.1 j.2) (a i) (fun k => b k j) (fun k => ha i k)
    (fun k => by simpa using hb k j) (r := r) (by simpa using hr)
  simpa [Matrix.mul_apply] using this

/-- Cross product in the plane. -/
theorem C70_cross2 (hF : Rounding u F) (v w : Vec (Fl F) 2) (a b : Fin 2 → ℝ) (ha : ∀ i, v[i.1].val = some (a i))
    (hb : ∀ i, w[i.1].val = some (b i)) {r : ℝ} (hr : (v.cross2 w).val = some r) :
    |r - (a 0 * b 1 - a 1 * b 0)| ≤ gam u 2 * (|a 0| * |b 1| + |a 1| * |b 0|) := by
  have e : ∀ i, Err u 0 |a i| v[i.1] (a i) := fun i => Err.of_eq (ha i)
  have e' : ∀ i, Err u 0 |b i| w[i.1] (b i) := fun i => Err.of_eq (hb i)
  exact (((e 0).mul hF (e' 1)).sub hF ((e 1).mul hF (e' 0))).2 r (by simpa [Vec.cross2] using hr)

/-- Cross product in space, component `i`. -/
theorem C70_cross3 (hF : Rounding u F) (v w : Vec (Fl F) 3) (a b : Fin 3 → ℝ) (ha : ∀ i, v[i.1].val = some (a i))
    (hb : ∀ i, w[i.1].val = some (b i)) (i : Fin 3) {r : ℝ} (hr : (v.cross3 w)[i.1].val = some r) :
    |r - (a (i + 1) * b (i + 2) - a (i + 2) * b (i + 1))| ≤
      gam u 2 * (|a (i + 1)| * |b (i + 2)| + |a (i + 2)| * |b (i + 1)|) := by
  have e : ∀ i, Err u 0 |a i| v[i.1] (a i) := fun i => Err.of_eq (ha i)
  have e' : ∀ i, Err u 0 |b i| w[i.1] (b i) := fun i => Err.of_eq (hb i)
  have key := (((e (i + 1)).mul hF (e' (i + 2))).sub hF ((e (i + 2)).mul hF (e' (i + 1)))).2 r
  refine key ?_
  revert hr
  fin_cases i
  · intro hr; simpa [Vec.cross3, Vec.fromArray] using hr
  · intro hr; simpa [Vec.cross3, Vec.fromArray] using hr
  · intro hr; simpa [Vec.cross3, Vec.fromArray] using hr

/-- The computed determinant is within `((1+u)^(N(N+3)/2) - 1)` times the permanent of the matrix of absolute values. -/
theorem C70_det (hF : Rounding u F) (A : Mat (Fl F) N N) (a : Matrix (Fin N) (Fin N) ℝ)
    (ha : ∀ i j : Fin N, A[i.1][j.1].val = some (a i j)) {r : ℝ} (hr : A.det.val = some r) :
    |r - a.det| ≤ gam u (N * (N + 3) / 2) * (a.map abs).permanent := by
  obtain ⟨B, hB⟩ : ∃ B : Mat ℝ N N, ∀ i j : Fin N, B[i.1][j.1] = a i j :=
    ⟨⟨⟨Vector.ofFn fun i => ⟨Vector.ofFn fun j => a i j⟩⟩⟩, by intro i j; simp⟩
  have he : ∀ i j, Err u 0 |Mat.ent B i j| (Mat.ent A i j) (Mat.ent B i j) := by
    intro i j
    unfold Mat.ent
    split
    · next h => exact Err.of_eq (by rw [hB ⟨i, h.1⟩ ⟨j, h.2⟩]; exact ha ⟨i, h.1⟩ ⟨j, h.2⟩)
    · simpa using Err.zero
  have := Mat.lap_err hF _ _ he N (List.range N) (List.range N) (by simp) (by simp)
  rw [← show A.det = _ from Res.get_eq (Mat.detR_eq A) _, ← show B.det = _ from Res.get_eq (Mat.detR_eq B) _,
    plap_eq_permanent _ N _ _ (by simp) (by simp), Mat.det_eq] at this
  have h2 := this.2 r hr
  have e1 : B.toMatrix = a := by ext i j; simp [hB]
  rw [e1] at h2
  have e2 : (Matrix.of fun i j : Fin N => |Mat.ent B ((List.range N)[i.1]'(by simp)) ((List.range N)[j.1]'(by simp))|) = a.map abs := by
    ext i j; simp [Mat.ent_lt, hB]
  rw [e2] at h2
  exact h2

/-- Entries of the computed adjugate. -/
theorem C70_adj {n : Nat} (hF : Rounding u F) (A : Mat (Fl F) (n + 1) (n + 1)) (a : Matrix (Fin (n + 1)) (Fin (n + 1)) ℝ)
    (ha : ∀ i j : Fin (n + 1), A[i.1][j.1].val = some (a i j)) (i j : Fin (n + 1)) {r : ℝ} (hr : A.adj[i.1][j.1].val = some r) :
    |r - a.adjugate i j| ≤ gam u (n * (n + 3) / 2) * ((a.map abs).submatrix j.succAbove i.succAbove).permanent := by
  obtain ⟨B, hB⟩ : ∃ B : Mat ℝ (n + 1) (n + 1), ∀ i j : Fin (n + 1), B[i.1][j.1] = a i j :=
    ⟨⟨⟨Vector.ofFn fun i => ⟨Vector.ofFn fun j => a i j⟩⟩⟩, by intro i j; simp⟩
  have he : ∀ i j, Err u 0 |Mat.ent B i j| (Mat.ent A i j) (Mat.ent B i j) := by
    intro i j
    unfold Mat.ent
    split
    · next h => exact Err.of_eq (by rw [hB ⟨i, h.1⟩ ⟨j, h.2⟩]; exact ha ⟨i, h.1⟩ ⟨j, h.2⟩)
    · simpa using Err.zero
  have len : ∀ i : Fin (n + 1), ((List.range (n + 1)).eraseIdx i.1).length = n := by
    intro i; rw [List.length_eraseIdx_of_lt (by simp; omega)]; simp
  have := Mat.sgn_err (Mat.lap_err hF _ _ he n ((List.range (n + 1)).eraseIdx j.1) ((List.range (n + 1)).eraseIdx i.1) (len j) (len i)) (j.1 + i.1)
  obtain ⟨C, h1, h2⟩ := Mat.adjR_ok A
  rw [Mat.getElem_congr_mat (show A.adj = C from Res.get_eq h1 _) i i.2 j j.2, h2] at hr
  have h3 := this.2 r hr
  have e1 : B.toMatrix = a := by ext i j; simp [hB]
  rw [plap_eq_permanent _ n _ _ (len j) (len i), Mat.lap_erase, Mat.sgn_eq, e1] at h3
  rw [Matrix.adjugate_fin_succ_eq_det_submatrix]
  have key : ∀ (i : Fin (n + 1)) (a : Fin n) h, ((List.range (n + 1)).eraseIdx i.1)[a.1]'h = (i.succAbove a).1 := by
    intro i a h
    rw [List.getElem_eraseIdx]
    by_cases h : a.1 < i.1
    · rw [dif_pos h]; simp [Fin.succAbove, Fin.lt_def, h]
    · rw [dif_neg h]; simp [Fin.succAbove, Fin.lt_def, h]
  have e2 : (Matrix.of fun p q : Fin n => |Mat.ent B (((List.range (n + 1)).eraseIdx j.1)[p.1]'(by rw [len]; exact p.2))
      (((List.range (n + 1)).eraseIdx i.1)[q.1]'(by rw [len]; exact q.2))|) = (a.map abs).submatrix j.succAbove i.succAbove := by
    ext p q
    simp only [Matrix.of_apply, Matrix.submatrix_apply, Matrix.map_apply, key]
    rw [Mat.ent_lt _ _ _ (Fin.is_lt _) (Fin.is_lt _), hB]
  rw [e2] at h3
  exact h3

/-! ### complex numbers and quaternions -/

/-- The floating-point complex number `z` has the value `Z`. -/
def Cpx.HasVal (z : Cpx (Fl F)) (Z : ℂ) : Prop := z.re.val = some Z.re ∧ z.im.val = some Z.im
/-- The floating-point quaternion `p` has the value `P`. -/
def Quat.HasVal (p : Quat (Fl F)) (P : Quaternion ℝ) : Prop :=
  p.w.val = some P.re ∧ p.x.val = some P.imI ∧ p.y.val = some P.imJ ∧ p.z.val = some P.imK

theorem abs_mul_add_le (a b c d : ℝ) : |a| * |c| + |b| * |d| ≤ Real.sqrt (a ^ 2 + b ^ 2) * Real.sqrt (c ^ 2 + d ^ 2) := by
  rw [← Real.sqrt_mul (by positivity)]
  apply Real.le_sqrt_of_sq_le
  have h1 := sq_abs a; have h2 := sq_abs b; have h3 := sq_abs c; have h4 := sq_abs d
  nlinarith [sq_nonneg (|a| * |d| - |b| * |c|)]

/-- Each component of a computed complex product is within `((1+u)^2 - 1) |z| |w|` of the exact one. -/
theorem C70_complex_mul (hF : Rounding u F) (z w : Cpx (Fl F)) (Z W : ℂ) (hz : z.HasVal Z) (hw : w.HasVal W) :
    (∀ r, (z * w).re.val = some r → |r - (Z * W).re| ≤ gam u 2 * (‖Z‖ * ‖W‖)) ∧
    (∀ r, (z * w).im.val = some r → |r - (Z * W).im| ≤ gam u 2 * (‖Z‖ * ‖W‖)) := by
  have a := Err.of_eq (u := u) hz.1; have b := Err.of_eq (u := u) hz.2
  have c := Err.of_eq (u := u) hw.1; have d := Err.of_eq (u := u) hw.2
  have nz : ‖Z‖ = Real.sqrt (Z.re ^ 2 + Z.im ^ 2) := by rw [Complex.norm_eq_sqrt_sq_add_sq]
  have nw : ‖W‖ = Real.sqrt (W.re ^ 2 + W.im ^ 2) := by rw [Complex.norm_eq_sqrt_sq_add_sq]
  constructor
  · intro r hr
    refine (((a.mul hF c).sub hF (b.mul hF d)).2 r (by simpa using hr)).trans ?_
    refine mul_le_mul_of_nonneg_left ?_ (gam_nonneg hF.1 2)
    rw [nz, nw]; exact abs_mul_add_le _ _ _ _
  · intro r hr
    refine (((a.mul hF d).add hF (b.mul hF c)).2 r (by simpa using hr)).trans ?_
    refine mul_le_mul_of_nonneg_left ?_ (gam_nonneg hF.1 2)
    rw [nz, nw, add_comm (W.re ^ 2)]; exact abs_mul_add_le _ _ _ _

/-- Errors of a quaternion product of approximations. -/
theorem Quat.mul_err (hF : Rounding u F) (p q : Quat (Fl F)) (P Q : Quaternion ℝ) {k l : ℕ} {m0 m1 m2 m3 n0 n1 n2 n3 : ℝ}
    (a : Err u k m0 p.w P.re) (b : Err u k m1 p.x P.imI) (c : Err u k m2 p.y P.imJ) (d : Err u k m3 p.z P.imK)
    (a' : Err u l n0 q.w Q.re) (b' : Err u l n1 q.x Q.imI) (c' : Err u l n2 q.y Q.imJ) (d' : Err u l n3 q.z Q.imK) :
    Err u (k + l + 4) (m0 * n0 + m1 * n1 + m2 * n2 + m3 * n3) (p * q).w (P * Q).re ∧
    Err u (k + l + 4) (m0 * n1 + m1 * n0 + m2 * n3 + m3 * n2) (p * q).x (P * Q).imI ∧
    Err u (k + l + 4) (m0 * n2 + m1 * n3 + m2 * n0 + m3 * n1) (p * q).y (P * Q).imJ ∧
    Err u (k + l + 4) (m0 * n3 + m1 * n2 + m2 * n1 + m3 * n0) (p * q).z (P * Q).imK := by
  have hu := hF.1
  have fin : ∀ {j : ℕ} {m x y : ℝ} {e : Fl F}, Err u j m e x → j = k + l + 4 → x = y → Err u (k + l + 4) m e y := by
    rintro j m x y e h rfl rfl; exact h
  refine ⟨?_, ?_, ?_, ?_⟩
  · rw [Quat.w_mul]
    exact fin ((((a.mul hF a').sub hF (b.mul hF b')).sub hF (c.mul hF c')).sub hF (d.mul hF d')) (by omega) (by simp)
  · rw [Quat.x_mul]
    exact fin ((((a.mul hF b').add hF (b.mul hF a')).add hF (c.mul hF d')).sub hF (d.mul hF c')) (by omega) (by simp)
  · rw [Quat.y_mul]
    exact fin ((((a.mul hF c').sub hF (b.mul hF d')).add hF (c.mul hF a')).add hF (d.mul hF b')) (by omega) (by simp)
  · rw [Quat.z_mul]
    exact fin ((((a.mul hF d').add hF (b.mul hF c')).sub hF (c.mul hF b')).add hF (d.mul hF a')) (by omega) (by simp)

theorem quat_norm (P : Quaternion ℝ) : ‖P‖ = Real.sqrt (P.re ^ 2 + P.imI ^ 2 + P.imJ ^ 2 + P.imK ^ 2) := by
  rw [← Quaternion.normSq_def', Quaternion.normSq_eq_norm_mul_self, Real.sqrt_mul_self (norm_nonneg _)]

theorem abs_mul_add_le4 (a b c d a' b' c' d' : ℝ) : |a| * |a'| + |b| * |b'| + |c| * |c'| + |d| * |d'| ≤
    Real.sqrt (a ^ 2 + b ^ 2 + c ^ 2 + d ^ 2) * Real.sqrt (a' ^ 2 + b' ^ 2 + c' ^ 2 + d' ^ 2) := by
  rw [← Real.sqrt_mul (by positivity)]
  apply Real.le_sqrt_of_sq_le
  have := Finset.sum_mul_sq_le_sq_mul_sq (Finset.univ : Finset (Fin 4)) ![|a|, |b|, |c|, |d|] ![|a'|, |b'|, |c'|, |d'|]
  simpa [Fin.sum_univ_four] using this

/-- Each component of a computed quaternion product is within `((1+u)^4 - 1) |p| |q|` of the exact one. -/
theorem C70_quaternion_mul (hF : Rounding u F) (p q : Quat (Fl F)) (P Q : Quaternion ℝ) (hp : p.HasVal P) (hq : q.HasVal Q) :
    (∀ r, (p * q).w.val = some r → |r - (P * Q).re| ≤ gam u 4 * (‖P‖ * ‖Q‖)) ∧
    (∀ r, (p * q).x.val = some r → |r - (P * Q).imI| ≤ gam u 4 * (‖P‖ * ‖Q‖)) ∧
    (∀ r, (p * q).y.val = some r → |r - (P * Q).imJ| ≤ gam u 4 * (‖P‖ * ‖Q‖)) ∧
    (∀ r, (p * q).z.val = some r → |r - (P * Q).imK| ≤ gam u 4 * (‖P‖ * ‖Q‖)) := by
  obtain ⟨a, b, c, d⟩ := hp
  obtain ⟨a', b', c', d'⟩ := hq
  obtain ⟨h0, h1, h2, h3⟩ := Quat.mul_err hF p q P Q (Err.of_eq a) (Err.of_eq b) (Err.of_eq c) (Err.of_eq d)
    (Err.of_eq a') (Err.of_eq b') (Err.of_eq c') (Err.of_eq d')
  rw [quat_norm P, quat_norm Q]
  have g := gam_nonneg hF.1 4
  refine ⟨fun r hr => (h0.2 r hr).trans (mul_le_mul_of_nonneg_left ?_ g), fun r hr => (h1.2 r hr).trans (mul_le_mul_of_nonneg_left ?_ g),
    fun r hr => (h2.2 r hr).trans (mul_le_mul_of_nonneg_left ?_ g), fun r hr => (h3.2 r hr).trans (mul_le_mul_of_nonneg_left ?_ g)⟩
  · exact abs_mul_add_le4 _ _ _ _ _ _ _ _
  · refine (abs_mul_add_le4 _ _ _ _ Q.imI Q.re Q.imK Q.imJ).trans_eq ?_
    congr 2; ring
  · refine (abs_mul_add_le4 _ _ _ _ Q.imJ Q.imK Q.re Q.imI).trans_eq ?_
    congr 2; ring
  · refine (abs_mul_add_le4 _ _ _ _ Q.imK Q.imJ Q.imI Q.re).trans_eq ?_
    congr 2; ring

theorem sum_abs_le_two_norm (Q : Quaternion ℝ) : |Q.re| + |Q.imI| + |Q.imJ| + |Q.imK| ≤ 2 * ‖Q‖ := by
  rw [quat_norm]
  have := abs_mul_add_le4 1 1 1 1 Q.re Q.imI Q.imJ Q.imK
  simp only [abs_one, one_mul, one_pow] at this
  rwa [show (1 + 1 + 1 + 1 : ℝ) = 2 ^ 2 by norm_num, Real.sqrt_sq (by norm_num)] at this

/-- `Rotation3::apply` in floating point: every component of the image of `x` is within `2 ((1+u)^8 - 1) |q|² |x|` of the
component of the exact sandwich product `q x q̄`. -/
theorem C70_rotation3 (hF : Rounding u F) (R : Rotation3 (Fl F)) (v : Vec (Fl F) 3) (Q X : Quaternion ℝ)
    (hQ : R.quat.HasVal Q) (h0 : X.re = 0) (hx : v[0].val = some X.imI) (hy : v[1].val = some X.imJ) (hz : v[2].val = some X.imK) :
    (∀ r, (Transform.apply R v : Vec (Fl F) 3)[0].val = some r → |r - (Q * X * star Q).imI| ≤ 2 * gam u 8 * (‖Q‖ ^ 2 * ‖X‖)) ∧
    (∀ r, (Transform.apply R v : Vec (Fl F) 3)[1].val = some r → |r - (Q * X * star Q).imJ| ≤ 2 * gam u 8 * (‖Q‖ ^ 2 * ‖X‖)) ∧
    (∀ r, (Transform.apply R v : Vec (Fl F) 3)[2].val = some r → |r - (Q * X * star Q).imK| ≤ 2 * gam u 8 * (‖Q‖ ^ 2 * ‖X‖)) := by
  obtain ⟨a, b, c, d⟩ := hQ
  obtain ⟨vq, hvq⟩ : ∃ q, q = Quat.fromScalarAndVector3 0 v := ⟨_, rfl⟩
  have v0 : vq.HasVal X := by
    subst hvq
    refine ⟨by rw [h0]; rfl, ?_, ?_, ?_⟩
    · simpa [Quat.fromScalarAndVector3] using hx
    · simpa [Quat.fromScalarAndVector3] using hy
    · simpa [Quat.fromScalarAndVector3] using hz
  obtain ⟨a', b', c', d'⟩ := v0
  have main : ∀ m0 m1 m2 m3 : ℝ, m0 ≤ ‖Q‖ * ‖X‖ → m1 ≤ ‖Q‖ * ‖X‖ → m2 ≤ ‖Q‖ * ‖X‖ → m3 ≤ ‖Q‖ * ‖X‖ →
      ∀ n0 n1 n2 n3 : ℝ, 0 ≤ n0 → 0 ≤ n1 → 0 ≤ n2 → 0 ≤ n3 → n0 + n1 + n2 + n3 ≤ 2 * ‖Q‖ →
      m0 * n0 + m1 * n1 + m2 * n2 + m3 * n3 ≤ 2 * (‖Q‖ ^ 2 * ‖X‖) := by
    intro m0 m1 m2 m3 e0 e1 e2 e3 n0 n1 n2 n3 f0 f1 f2 f3 hs
    have hp : 0 ≤ ‖Q‖ * ‖X‖ := by positivity
    nlinarith [mul_le_mul_of_nonneg_right e0 f0, mul_le_mul_of_nonneg_right e1 f1, mul_le_mul_of_nonneg_right e2 f2,
      mul_le_mul_of_nonneg_right e3 f3, mul_le_mul_of_nonneg_left hs hp]
  obtain ⟨h0, h1, h2, h3⟩ := Quat.mul_err hF R.quat vq Q X (Err.of_eq a) (Err.of_eq b) (Err.of_eq c) (Err.of_eq d)
    (Err.of_eq a') (Err.of_eq b') (Err.of_eq c') (Err.of_eq d')
  have bd : ∀ y0 y1 y2 y3 : ℝ, y0 ^ 2 + y1 ^ 2 + y2 ^ 2 + y3 ^ 2 = X.re ^ 2 + X.imI ^ 2 + X.imJ ^ 2 + X.imK ^ 2 →
      |Q.re| * |y0| + |Q.imI| * |y1| + |Q.imJ| * |y2| + |Q.imK| * |y3| ≤ ‖Q‖ * ‖X‖ := by
    intro y0 y1 y2 y3 h
    rw [quat_norm Q, quat_norm X, ← h]
    exact abs_mul_add_le4 _ _ _ _ _ _ _ _
  have k0 := h0.mono hF.1 le_rfl (bd X.re X.imI X.imJ X.imK (by ring))
  have k1 := h1.mono hF.1 le_rfl (bd X.imI X.re X.imK X.imJ (by ring))
  have k2 := h2.mono hF.1 le_rfl (bd X.imJ X.imK X.re X.imI (by ring))
  have k3 := h3.mono hF.1 le_rfl (bd X.imK X.imJ X.imI X.re (by ring))
  obtain ⟨-, g1, g2, g3⟩ := Quat.mul_err hF (R.quat * vq) R.quat.conj (Q * X) (star Q) k0 k1 k2 k3
    (n0 := |Q.re|) (n1 := |Q.imI|) (n2 := |Q.imJ|) (n3 := |Q.imK|) (l := 0)
    (by simpa using Err.of_eq a) (by simpa using (Err.of_eq b).neg) (by simpa using (Err.of_eq c).neg) (by simpa using (Err.of_eq d).neg)
  have sm := sum_abs_le_two_norm Q
  have g := gam_nonneg hF.1 8
  have ap : (Transform.apply R v : Vec (Fl F) 3) = (R.quat * vq * R.quat.conj).intoScalarAndVector3.2 := by rw [hvq]; rfl
  have fin : ∀ {e : Fl F} {m t : ℝ}, Err u (0 + 0 + 4 + 0 + 4) m e t → m ≤ 2 * (‖Q‖ ^ 2 * ‖X‖) → ∀ r, e.val = some r →
      |r - t| ≤ 2 * gam u 8 * (‖Q‖ ^ 2 * ‖X‖) := by
    intro e m t h hm r hr
    refine (h.2 r hr).trans ?_
    refine (mul_le_mul_of_nonneg_left hm g).trans_eq (by ring)
  rw [ap]
  refine ⟨fun r hr => fin g1 ?_ r (by simpa [Quat.intoScalarAndVector3, Vec.fromArray] using hr), fun r hr => fin g2 ?_ r (by simpa [Quat.intoScalarAndVector3, Vec.fromArray] using hr),
    fun r hr => fin g3 ?_ r (by simpa [Quat.intoScalarAndVector3, Vec.fromArray] using hr)⟩
  all_goals exact main _ _ _ _ le_rfl le_rfl le_rfl le_rfl _ _ _ _ (abs_nonneg _) (abs_nonneg _) (abs_nonneg _) (abs_nonneg _) (by linarith)

/-! ## C71: lengths, normalization and reciprocals have small relative error -/

/-- `square_length`: relative error of `N` roundings. -/
theorem C71_square_length [NeZero N] (hF : Rounding u F) (hu : u < 1) (v : Vec (Fl F) N) (a : Fin N → ℝ)
    (ha : ∀ i, v[i.1].val = some (a i)) {r : ℝ} (hr : v.squareLength.val = some r) : RelClose u N r (∑ i, a i ^ 2) :=
  Vec.squareLength_rerr hF hu v a ha r hr

/-- `length`: relative error of about `N/2 + 1` roundings. -/
theorem C71_length [NeZero N] (hF : Rounding u F) (hu : u < 1) (v : Vec (Fl F) N) (a : Fin N → ℝ)
    (ha : ∀ i, v[i.1].val = some (a i)) {r : ℝ} (hr : v.length.val = some r) :
    RelClose u ((N + 1) / 2 + 1) r (Real.sqrt (∑ i, a i ^ 2)) :=
  Vec.length_rerr hF hu v a ha r hr

/-- `normalize`: every component has a relative error of about `N/2 + 2` roundings. -/
theorem C71_normalize [NeZero N] (hF : Rounding u F) (hu : u < 1) (v : Vec (Fl F) N) (a : Fin N → ℝ)
    (ha : ∀ i, v[i.1].val = some (a i)) (i : Fin N) {r : ℝ} (hr : v.normalize[i.1].val = some r) :
    RelClose u ((N + 1) / 2 + 2) r (a i / Real.sqrt (∑ i, a i ^ 2)) :=
  Vec.normalize_rerr hF hu v a ha i r hr

/-- The exact length of a computed `normalize` is 1 up to `N/2 + 2` roundings, unless the vector is zero. -/
theorem C71_normalize_length [NeZero N] (hF : Rounding u F) (hu : u < 1) (v : Vec (Fl F) N) (a : Fin N → ℝ)
    (ha : ∀ i, v[i.1].val = some (a i)) (h0 : a ≠ 0) (b : Fin N → ℝ) (hb : ∀ i, v.normalize[i.1].val = some (b i)) :
    RelClose u ((N + 1) / 2 + 2) (Real.sqrt (∑ i, b i ^ 2)) 1 := by
  have hp : 0 < 1 - u := by linarith
  have hs : 0 < ∑ i, a i ^ 2 := by
    obtain ⟨i, hi⟩ := Function.ne_iff.1 h0
    have hi' : a i ≠ 0 := hi
    exact Finset.sum_pos' (fun i _ => sq_nonneg _) ⟨i, Finset.mem_univ _, by positivity⟩
  have key : RelClose u (2 * ((N + 1) / 2 + 2)) (∑ i, b i ^ 2) (∑ i, (a i / Real.sqrt (∑ i, a i ^ 2)) ^ 2) := by
    have hc := fun i => C71_normalize hF hu v a ha i (hb i)
    generalize (N + 1) / 2 + 2 = k at *
    have : ∀ s : Finset (Fin N), RelClose u (2 * k) (∑ i ∈ s, b i ^ 2) (∑ i ∈ s, (a i / Real.sqrt (∑ i, a i ^ 2)) ^ 2) := by
      intro s
      classical
      induction s using Finset.induction_on with
      | empty => simpa using (RelClose.refl u 0).mono hF.1 hu (Nat.zero_le (2 * k))
      | insert i s hi ih =>
        rw [Finset.sum_insert hi, Finset.sum_insert hi]
        refine RelClose.add ?_ ih (sq_nonneg _) (Finset.sum_nonneg fun _ _ => sq_nonneg _)
        rw [two_mul, sq, sq]
        exact (hc i).mul hu (hc i)
    exact this Finset.univ
  have e : ∑ i, (a i / Real.sqrt (∑ i, a i ^ 2)) ^ 2 = 1 := by
    simp only [div_pow]
    rw [← Finset.sum_div, Real.sq_sqrt hs.le, div_self hs.ne']
  rw [e] at key
  simpa using key.sqrt hu zero_le_one

/-- `Complex::norm` and `Complex::inv`. -/
theorem C71_complex (hF : Rounding u F) (hu : u < 1) (z : Cpx (Fl F)) (Z : ℂ) (hz : z.HasVal Z) :
    (∀ r, z.norm.val = some r → RelClose u 2 r ‖Z‖) ∧
    (∀ r, z.inv.re.val = some r → RelClose u 3 r Z⁻¹.re) ∧ (∀ r, z.inv.im.val = some r → RelClose u 3 r Z⁻¹.im) := by
  have hv : ∀ i : Fin 2, z.vec[i.1].val = some (![Z.re, Z.im] i) := by
    intro i; fin_cases i
    · simpa using hz.1
    · simpa using hz.2
  have hs := Vec.squareLength_rerr hF hu z.vec _ hv
  have hl := Vec.length_rerr hF hu z.vec _ hv
  have e : ∑ i, ![Z.re, Z.im] i ^ 2 = Complex.normSq Z := by simp [Complex.normSq_apply, sq]
  rw [e] at hs hl
  refine ⟨fun r hr => ?_, fun r hr => ?_, fun r hr => ?_⟩
  · rw [Complex.norm_def]; exact hl r hr
  · rw [Complex.inv_re]
    have := (RErr.of_eq (u := u) hz.1).div hF hu hs
    exact this r (by simpa [Cpx.inv, Cpx.normSqr] using hr)
  · rw [Complex.inv_im]
    have := (RErr.of_eq (u := u) hz.2).neg.div hF hu hs
    exact this r (by simpa [Cpx.inv, Cpx.normSqr] using hr)

/-- `Quaternion::norm` and `Quaternion::inv`. -/
theorem C71_quaternion (hF : Rounding u F) (hu : u < 1) (q : Quat (Fl F)) (Q : Quaternion ℝ) (hq : q.HasVal Q) :
    (∀ r, q.norm.val = some r → RelClose u 3 r ‖Q‖) ∧
    (∀ r, q.inv.w.val = some r → RelClose u 5 r Q⁻¹.re) ∧ (∀ r, q.inv.x.val = some r → RelClose u 5 r Q⁻¹.imI) ∧
    (∀ r, q.inv.y.val = some r → RelClose u 5 r Q⁻¹.imJ) ∧ (∀ r, q.inv.z.val = some r → RelClose u 5 r Q⁻¹.imK) := by
  have hv : ∀ i : Fin 4, q.vec[i.1].val = some (![Q.re, Q.imI, Q.imJ, Q.imK] i) := by
    intro i; fin_cases i
    · simpa using hq.1
    · simpa using hq.2.1
    · simpa using hq.2.2.1
    · simpa using hq.2.2.2
  have hs := Vec.squareLength_rerr hF hu q.vec _ hv
  have hl := Vec.length_rerr hF hu q.vec _ hv
  have e : ∑ i, ![Q.re, Q.imI, Q.imJ, Q.imK] i ^ 2 = Quaternion.normSq Q := by
    rw [Quaternion.normSq_def']; simp [Fin.sum_univ_four]
  rw [e] at hs hl
  have hi : ∀ (a t : ℝ) (b : Fl F), b.val = some a → (Quaternion.normSq Q)⁻¹ * a = t → RErr u 5 (b / q.normSqr) t := by
    rintro a t b hb rfl
    have := (RErr.of_eq (u := u) hb).div hF hu hs
    rw [div_eq_inv_mul, zero_add] at this
    exact this
  have hn : ∀ {a : Fl F} {x : ℝ}, a.val = some x → (-a).val = some (-x) := by
    intro a x h; simp [Neg.neg, h]
  refine ⟨fun r hr => ?_, fun r hr => hi _ _ _ hq.1 ?_ r (by simpa [Quat.inv] using hr),
    fun r hr => hi _ _ _ (hn hq.2.1) ?_ r (by simpa [Quat.inv] using hr),
    fun r hr => hi _ _ _ (hn hq.2.2.1) ?_ r (by simpa [Quat.inv] using hr), fun r hr => hi _ _ _ (hn hq.2.2.2) ?_ r (by simpa [Quat.inv] using hr)⟩
  · rw [quat_norm, ← Quaternion.normSq_def']; exact hl r hr
  · show _ = ((Quaternion.normSq Q)⁻¹ • star Q).re; simp
  · show _ = ((Quaternion.normSq Q)⁻¹ • star Q).imI; simp
  · show _ = ((Quaternion.normSq Q)⁻¹ • star Q).imJ; simp
  · show _ = ((Quaternion.normSq Q)⁻¹ • star Q).imK; simp

/-! ## C72: integer-valued floats are exact while they fit -/

/-- Binary floating point with `p` bits represents the integers up to `2^p` exactly. -/
theorem C72_binary (p : Nat) (hp : 0 < p) (emin emax : Int) (h1 : emin ≤ 0) (h2 : p ≤ emax) : ExactInts (2 ^ p) (rdBin p emin emax) := by
  intro n hn
  unfold rdBin
  split
  · next h => rw [h]
  · next h0 =>
    have hn0 : n ≠ 0 := by rintro rfl; simp at h0
    have hc : |(n : ℝ)| = (n.natAbs : ℝ) := by rw [Nat.cast_natAbs]; simp
    have hlog : Int.log 2 |(n : ℝ)| = (Nat.log 2 n.natAbs : ℤ) := by
      rw [hc, Int.log_natCast]
    have hle : Nat.log 2 n.natAbs ≤ p := by
      calc Nat.log 2 n.natAbs ≤ Nat.log 2 (2 ^ p) := Nat.log_mono_right hn
        _ = p := Nat.log_pow (by norm_num) p
    simp only [hlog]
    rw [if_pos ⟨by omega, by omega⟩]
    congr 1
    have key : ∃ m : ℤ, (n : ℝ) = m * 2 ^ ((Nat.log 2 n.natAbs : ℤ) - p + 1) := by
      rcases Nat.lt_or_ge (Nat.log 2 n.natAbs) p with hlt | hge
      · refine ⟨n * 2 ^ (p - 1 - Nat.log 2 n.natAbs), ?_⟩
        have e : ((Nat.log 2 n.natAbs : ℤ) - p + 1) = -((p - 1 - Nat.log 2 n.natAbs : ℕ) : ℤ) := by omega
        rw [e, zpow_neg, zpow_natCast]
        push_cast
        field_simp
      · have hl : Nat.log 2 n.natAbs = p := le_antisymm hle hge
        have hn' : n.natAbs = 2 ^ p := by
          refine le_antisymm hn ?_
          rw [← hl]; exact Nat.pow_log_le_self 2 (by omega)
        have hd : (2 : ℤ) ∣ n := by
          have : (2 : ℕ) ∣ n.natAbs := by rw [hn']; exact dvd_pow_self 2 (by omega)
          exact Int.natCast_dvd.2 this
        obtain ⟨m, rfl⟩ := hd
        refine ⟨m, ?_⟩
        rw [hl]; simp; ring
    obtain ⟨m, hm⟩ := key
    have hw : (2 : ℝ) ^ ((Nat.log 2 n.natAbs : ℤ) - p + 1) ≠ 0 := by positivity
    generalize (2 : ℝ) ^ ((Nat.log 2 n.natAbs : ℤ) - p + 1) = w at *
    rw [hm, mul_div_assoc, div_self hw, mul_one, round_intCast]

/-- `a` is exactly the integer `n`, of magnitude at most `m`. -/
def ExI (m : ℕ) (a : Fl F) (n : ℤ) : Prop := a.val = some (n : ℝ) ∧ n.natAbs ≤ m

namespace ExI
variable {B k l : ℕ} {a b : Fl F} {m n : ℤ}
theorem mul (hF : ExactInts B F) (h : ExI k a m) (h' : ExI l b n) (hB : k * l ≤ B) : ExI (k * l) (a * b) (m * n) := by
  have hle : (m * n).natAbs ≤ k * l := by rw [Int.natAbs_mul]; exact Nat.mul_le_mul h.2 h'.2
  refine ⟨?_, hle⟩
  show (Fl.lift2 (· * ·) a b).val = _
  simp only [Fl.lift2, h.1, h'.1, Option.bind_some]
  rw [← Int.cast_mul]; exact hF _ (hle.trans hB)
theorem add (hF : ExactInts B F) (h : ExI k a m) (h' : ExI l b n) (hB : k + l ≤ B) : ExI (k + l) (a + b) (m + n) := by
  have hle : (m + n).natAbs ≤ k + l := (Int.natAbs_add_le _ _).trans (Nat.add_le_add h.2 h'.2)
  refine ⟨?_, hle⟩
  show (Fl.lift2 (· + ·) a b).val = _
  simp only [Fl.lift2, h.1, h'.1, Option.bind_some]
  rw [← Int.cast_add]; exact hF _ (hle.trans hB)
theorem sub (hF : ExactInts B F) (h : ExI k a m) (h' : ExI l b n) (hB : k + l ≤ B) : ExI (k + l) (a - b) (m - n) := by
  have hle : (m - n).natAbs ≤ k + l := (Int.natAbs_sub_le _ _).trans (Nat.add_le_add h.2 h'.2)
  refine ⟨?_, hle⟩
  show (Fl.lift2 (· - ·) a b).val = _
  simp only [Fl.lift2, h.1, h'.1, Option.bind_some]
  rw [← Int.cast_sub]; exact hF _ (hle.trans hB)
theorem neg (h : ExI k a m) : ExI k (-a) (-m) :=
  ⟨by show (a.val.map fun x => -x) = _; rw [h.1]; simp, by simpa using h.2⟩
theorem of_eq (h : a.val = some (m : ℝ)) : ExI m.natAbs a m := ⟨h, le_rfl⟩
theorem foldl_add (hF : ExactInts B F) {ι : Type*} (s : List ι) (g : ι → Fl F) (e : ι → ℤ) (c : ι → ℕ)
    (hg : ∀ i ∈ s, ExI (c i) (g i) (e i)) (h : ExI k a m) (hB : k + (s.map c).sum ≤ B) :
    ExI (k + (s.map c).sum) (s.foldl (fun a i => a + g i) a) (m + (s.map e).sum) := by
  induction s generalizing a m k with
  | nil => simpa using h
  | cons i s ih =>
    rw [List.map_cons, List.sum_cons] at hB
    have h1 := h.add hF (hg i (by simp)) (by omega)
    have := ih (fun j hj => hg j (by simp [hj])) h1 (by omega)
    simpa [add_assoc, add_comm, add_left_comm] using this
end ExI

/-- A dot product of integer-valued floats is exact if `Σ |a_i b_i|` is within the exactly representable range
(in particular it does not overflow). -/
theorem C72_dot [NeZero N] {B : ℕ} (hF : ExactInts B F) (v w : Vec (Fl F) N) (a b : Fin N → ℤ)
    (ha : ∀ i, v[i.1].val = some (a i : ℝ)) (hb : ∀ i, w[i.1].val = some (b i : ℝ))
    (hB : ∑ i, (a i * b i).natAbs ≤ B) : (v.dot w).val = some ((∑ i, a i * b i : ℤ) : ℝ) := by
  obtain ⟨n, rfl⟩ : ∃ n, N = n + 1 := ⟨N - 1, by have := NeZero.ne N; omega⟩
  have hm : ∀ i, ExI ((a i * b i).natAbs) (v[i.1] * w[i.1]) (a i * b i) := fun i => by
    have := (ExI.of_eq (ha i)).mul hF (ExI.of_eq (hb i))
      (by rw [← Int.natAbs_mul]; exact (Finset.single_le_sum (f := fun i => (a i * b i).natAbs) (fun _ _ => Nat.zero_le _) (Finset.mem_univ i)).trans hB)
    rwa [← Int.natAbs_mul] at this
  rw [show v.dot w = _ from Vec.foldFirst_congr (Vec.foldFirstR_succ (· + ·) _)]
  have h0 := hm 0
  have e1 : ∀ f : Fin (n + 1) → ℕ, f 0 + ((List.ofFn fun i : Fin n => i).map fun i => f i.succ).sum = ∑ i, f i := by
    intro f; rw [Fin.sum_univ_succ, ← List.sum_ofFn]; simp [List.ofFn_eq_map, List.map_id]
  have e2 : ∀ f : Fin (n + 1) → ℤ, f 0 + ((List.ofFn fun i : Fin n => i).map fun i => f i.succ).sum = ∑ i, f i := by
    intro f; rw [Fin.sum_univ_succ, ← List.sum_ofFn]; simp [List.ofFn_eq_map, List.map_id]
  have := ExI.foldl_add hF (List.ofFn fun i : Fin n => i) (fun i => v[i.1 + 1] * w[i.1 + 1]) (fun i => a i.succ * b i.succ)
    (fun i => (a i.succ * b i.succ).natAbs) (fun i _ => by simpa using hm i.succ) h0
    (by rw [e1 fun i => (a i * b i).natAbs]; exact hB)
  rw [e2 fun i => a i * b i] at this
  have h := this.1
  simpa [List.map_ofFn, Function.comp_def, List.foldl_map, List.ofFn_eq_map, List.map_id] using h

/-- Matrix product of integer-valued floats. -/
theorem C72_mat_mat [NeZero M] {B : ℕ} (hF : ExactInts B F) (A : Mat (Fl F) L M) (C : Mat (Fl F) M N) (a : Matrix (Fin L) (Fin M) ℤ)
    (c : Matrix (Fin M) (Fin N) ℤ) (ha : ∀ (i : Fin L) (j : Fin M), A[i.1][j.1].val = some (a i j : ℝ))
    (hc : ∀ (i : Fin M) (j : Fin N), C[i.1][j.1].val = some (c i j : ℝ)) (hB : ∀ i j, ∑ k, (a i k * c k j).natAbs ≤ B) :
    ∃ X, A.dotMR C = .ok X ∧ ∀ (i : Fin L) (j : Fin N), X[i.1][j.1].val = some (((a * c) i j : ℤ) : ℝ) := by
  refine ⟨_, Mat.dotMR_get A C, fun i j => ?_⟩
  have := C72_dot hF A[i.1] (C.colOf j.1 j.2) (a i) (fun k => c k j) (fun k => ha i k) (fun k => by simpa using hc k j) (hB i j)
  simpa [Matrix.mul_apply] using this

theorem C72_cross3 {B : ℕ} (hF : ExactInts B F) (v w : Vec (Fl F) 3) (a b : Fin 3 → ℤ) (ha : ∀ i, v[i.1].val = some (a i : ℝ))
    (hb : ∀ i, w[i.1].val = some (b i : ℝ))
    (hB : ∀ i, (a (i + 1) * b (i + 2)).natAbs + (a (i + 2) * b (i + 1)).natAbs ≤ B) (i : Fin 3) :
    (v.cross3 w)[i.1].val = some ((a (i + 1) * b (i + 2) - a (i + 2) * b (i + 1) : ℤ) : ℝ) := by
  have m : ∀ i j k l : Fin 3, (a i * b j).natAbs + (a k * b l).natAbs ≤ B →
      (v[i.1] * w[j.1] - v[k.1] * w[l.1]).val = some ((a i * b j - a k * b l : ℤ) : ℝ) := by
    intro i j k l h
    simp only [Int.natAbs_mul] at h
    exact (((ExI.of_eq (ha i)).mul hF (ExI.of_eq (hb j)) (by omega)).sub hF ((ExI.of_eq (ha k)).mul hF (ExI.of_eq (hb l)) (by omega)) h).1
  have := m (i + 1) (i + 2) (i + 2) (i + 1) (hB i)
  rw [← this]
  fin_cases i <;> simp [Vec.cross3, Vec.fromArray]

/-- The Laplace expansion on integers. -/
theorem Mat.lap_exact {B c : ℕ} (hc : 1 ≤ c) (hF : ExactInts B F) (f : Nat → Nat → Fl F) (g : Nat → Nat → ℤ) (h : ∀ i j, ExI c (f i j) (g i j))
    (n : ℕ) (R C : List Nat) (hR : R.length = n) (hC : C.length = n) (hB : n.factorial * c ^ n ≤ B) :
    ExI (n.factorial * c ^ n) (Mat.lap f R C) (Mat.lap g R C) := by
  induction n generalizing R C with
  | zero =>
    have : R = [] := List.length_eq_zero_iff.mp hR
    subst this
    exact ⟨by show some (1 : ℝ) = some _; simp [Mat.lap], by simp [Mat.lap]⟩
  | succ n ih =>
    cases R with
    | nil => simp at hR
    | cons i R =>
      have hn : c * (n.factorial * c ^ n) ≤ (n + 1).factorial * c ^ (n + 1) := by
        rw [Nat.factorial_succ, pow_succ]
        calc c * (n.factorial * c ^ n) = 1 * (n.factorial * (c ^ n * c)) := by ring
          _ ≤ (n + 1) * (n.factorial * (c ^ n * c)) := Nat.mul_le_mul_right _ (by omega)
          _ = _ := by ring
      have hn0 : n.factorial * c ^ n ≤ c * (n.factorial * c ^ n) := Nat.le_mul_of_pos_left _ hc
      have hT : ∀ k ∈ List.range C.length, ExI (c * (n.factorial * c ^ n))
          (f i (C[k]?.getD 0) * Mat.sgn k (Mat.lap f R (C.eraseIdx k)))
          (g i (C[k]?.getD 0) * Mat.sgn k (Mat.lap g R (C.eraseIdx k))) := fun k hk => by
        refine (h _ _).mul hF ?_ (hn.trans hB)
        have := ih R (C.eraseIdx k) (by simpa using hR) (by rw [List.length_eraseIdx_of_lt (by simpa using hk)]; omega)
          ((hn0.trans hn).trans hB)
        unfold Mat.sgn; split
        · exact this.neg
        · exact this
      have e0 : 0 + ((List.range C.length).map fun _ => c * (n.factorial * c ^ n)).sum = (n + 1).factorial * c ^ (n + 1) := by
        simp [hC, Nat.factorial_succ, pow_succ]; ring
      have := ExI.foldl_add hF (List.range C.length) _ _ _ hT (a := 0) (m := 0) (k := 0) ⟨by show some (0:ℝ) = _; simp, by simp⟩
        (by rw [e0]; exact hB)
      rw [e0] at this
      rw [Mat.lap, Mat.lap, Mat.foldl_range_add]
      have e1 : ∀ (c : ℕ → ℤ) (n : ℕ), ((List.range n).map c).sum = ∑ k : Fin n, c k.1 := by
        intro c n
        induction n with
        | zero => simp
        | succ n ih => rw [List.range_succ, List.map_append, List.sum_append, ih, Fin.sum_univ_castSucc]; simp
      rw [e1, zero_add] at this
      exact this

/-- The determinant of an integer-valued matrix with entries bounded by `c ≥ 1` is exact if `N! c^N` is within the exactly
representable range (`2^53` for `f64`). -/
theorem C72_det {B c : ℕ} (hc : 1 ≤ c) (hF : ExactInts B F) (A : Mat (Fl F) N N) (a : Matrix (Fin N) (Fin N) ℤ)
    (ha : ∀ i j : Fin N, A[i.1][j.1].val = some (a i j : ℝ)) (hb : ∀ i j, (a i j).natAbs ≤ c) (hB : N.factorial * c ^ N ≤ B) :
    A.det.val = some (a.det : ℝ) := by
  obtain ⟨D, hD⟩ : ∃ D : Mat ℤ N N, ∀ i j : Fin N, D[i.1][j.1] = a i j :=
    ⟨⟨⟨Vector.ofFn fun i => ⟨Vector.ofFn fun j => a i j⟩⟩⟩, by intro i j; simp⟩
  have he : ∀ i j, ExI c (Mat.ent A i j) (Mat.ent D i j) := by
    intro i j
    unfold Mat.ent
    split
    · next h => exact ⟨by rw [hD ⟨i, h.1⟩ ⟨j, h.2⟩]; exact ha ⟨i, h.1⟩ ⟨j, h.2⟩, by rw [hD ⟨i, h.1⟩ ⟨j, h.2⟩]; exact hb _ _⟩
    · exact ⟨by show some (0:ℝ) = _; simp, by simp⟩
  have := Mat.lap_exact hc hF _ _ he N (List.range N) (List.range N) (by simp) (by simp) hB
  rw [← show A.det = _ from Res.get_eq (Mat.detR_eq A) _, ← show D.det = _ from Res.get_eq (Mat.detR_eq D) _, Mat.det_eq] at this
  have e1 : D.toMatrix = a := by ext i j; simp [hD]
  rw [e1] at this
  exact this.1

/-- Case: `(1,2,3)·(4,5,6) = 32` in `f64`, exactly; the hypotheses of `C70_dot` are met by the same vectors. -/
example : ((⟨#v[.of 1, .of 2, .of 3]⟩ : Vec (Fl (rdBin 53 (-1022) 1023)) 3).dot ⟨#v[.of 4, .of 5, .of 6]⟩).val = some 32 := by
  have := C72_dot (C72_binary 53 (by norm_num) (-1022) 1023 (by norm_num) (by norm_num))
    (⟨#v[.of 1, .of 2, .of 3]⟩ : Vec (Fl (rdBin 53 (-1022) 1023)) 3) ⟨#v[.of 4, .of 5, .of 6]⟩ ![1, 2, 3] ![4, 5, 6]
    (by intro i; fin_cases i <;> simp [Fl.of]) (by intro i; fin_cases i <;> simp [Fl.of])
    (by simp [Fin.sum_univ_three])
  rw [this]; norm_num [Fin.sum_univ_succ]

/-- Case: rounding really happens in this model: adding `2^-60` to `1` in `f64` returns `1`, so the result is not exact. -/
example : ((⟨#v[.of 1, .of (1 / 2 ^ 60)]⟩ : Vec (Fl (rdBin 53 (-1022) 1023)) 2).sum).val = some 1 := by
  have : ((⟨#v[.of 1, .of (1 / 2 ^ 60)]⟩ : Vec (Fl (rdBin 53 (-1022) 1023)) 2).sum) = Fl.of 1 + Fl.of (1 / 2 ^ 60) :=
    Vec.foldFirst_congr (Vec.foldFirstR_succ (· + ·) _)
  rw [this]
  show rdBin 53 (-1022) 1023 (1 + 1 / 2 ^ 60) = _
  have hlog : Int.log 2 |(1 + 1 / 2 ^ 60 : ℝ)| = 0 := by
    rw [abs_of_pos (by positivity)]
    have h1 : (0 : ℤ) ≤ Int.log 2 (1 + 1 / 2 ^ 60 : ℝ) := (Int.zpow_le_iff_le_log (by norm_num) (by positivity)).1 (by norm_num)
    have h2 : Int.log 2 (1 + 1 / 2 ^ 60 : ℝ) < 1 := (Int.lt_zpow_iff_log_lt (by norm_num) (by positivity)).1 (by norm_num)
    omega
  unfold rdBin
  rw [if_neg (by positivity)]
  simp only [hlog]
  rw [if_pos (by norm_num)]
  have hr : round ((1 + 1 / 2 ^ 60 : ℝ) / 2 ^ ((0 : ℤ) - (53 : ℕ) + 1)) = 2 ^ 52 := by
    rw [round_eq, Int.floor_eq_iff]
    norm_num
  rw [hr]; norm_num

/-- Case: the length of `(3,4)` in `f64` is exactly 5, so `C71_length` is not vacuous. -/
example : ((⟨#v[.of 3, .of 4]⟩ : Vec (Fl (rdBin 53 (-1022) 1023)) 2).length).val = some 5 := by
  have hF : ∀ n : ℕ, n ≤ 2 ^ 53 → rdBin 53 (-1022) 1023 (n : ℝ) = some (n : ℝ) := fun n hn => by
    simpa using C72_binary 53 (by norm_num) (-1022) 1023 (by norm_num) (by norm_num) n (by simpa using hn)
  have hs : (⟨#v[.of 3, .of 4]⟩ : Vec (Fl (rdBin 53 (-1022) 1023)) 2).squareLength = Fl.of 3 * Fl.of 3 + Fl.of 4 * Fl.of 4 := by
    rw [Vec.squareLength, show ∀ v : Vec (Fl (rdBin 53 (-1022) 1023)) 2, v.sum = v[0] + v[1] from fun v =>
      (Vec.foldFirst_congr (Vec.foldFirstR_succ (· + ·) v)).trans (by simp)]
    simp
  have h9 : (Fl.of 3 * Fl.of 3 : Fl (rdBin 53 (-1022) 1023)) = Fl.of 9 := by
    show Fl.mk (rdBin 53 (-1022) 1023 (3 * 3)) = _
    rw [show (3 * 3 : ℝ) = (9 : ℕ) by norm_num, hF 9 (by norm_num)]; norm_num [Fl.of]
  have h16 : (Fl.of 4 * Fl.of 4 : Fl (rdBin 53 (-1022) 1023)) = Fl.of 16 := by
    show Fl.mk (rdBin 53 (-1022) 1023 (4 * 4)) = _
    rw [show (4 * 4 : ℝ) = (16 : ℕ) by norm_num, hF 16 (by norm_num)]; norm_num [Fl.of]
  have h25 : (Fl.of 9 + Fl.of 16 : Fl (rdBin 53 (-1022) 1023)) = Fl.of 25 := by
    show Fl.mk (rdBin 53 (-1022) 1023 (9 + 16)) = _
    rw [show (9 + 16 : ℝ) = (25 : ℕ) by norm_num, hF 25 (by norm_num)]; norm_num [Fl.of]
  rw [Vec.length, hs, h9, h16, h25]
  have h5 : Real.sqrt 25 = (5 : ℕ) := by rw [show (25 : ℝ) = 5 ^ 2 by norm_num, Real.sqrt_sq (by norm_num)]; norm_num
  simp only [FloatOps.sqrt, Fl.of, Option.bind_some]
  rw [if_neg (by norm_num), h5, hF 5 (by norm_num)]; norm_num

/-! ## the hypotheses of every theorem are met by `f64` computations -/
namespace FlEx
/-- `f64`. -/
noncomputable abbrev D : ℝ → Option ℝ := rdBin 53 (-1022) 1023
theorem dR : Rounding (1 / 2 ^ 53) D := C70_binary 53 (-1022) 1023
theorem dI : ExactInts (2 ^ 53) D := C72_binary 53 (by norm_num) (-1022) 1023 (by norm_num) (by norm_num)
theorem dU : (1 / 2 ^ 53 : ℝ) < 1 := by norm_num
/-- The length of `[10, 0]`, and its normalization. -/
theorem len10 : (vec ![10, 0] : Vec (Fl D) 2).length.val = some (10 : ℕ) :=
  sqrt_val dI (((BInt.opRel dI).vSquareLength (vec_R ![10, 0])).eval (by decide +kernel)) (by norm_num)
theorem norm10 (i : Fin 2) : (vec ![10, 0] : Vec (Fl D) 2).normalize[i.1].val = some ((![1, 0] : Fin 2 → ℤ) i : ℝ) := by
  rw [Vec.normalize, Vec.getElem_divS]
  exact div_val dI (n := ![1, 0] i) (m := 10) (by rw [vec_val]; fin_cases i <;> norm_num) (by exact_mod_cast len10) (by norm_num) (by fin_cases i <;> norm_num)
end FlEx
open FlEx
example := C70_factor (u := 1 / 2 ^ 53) (by norm_num) 1000 (by norm_num)
example := C70_sum dR (vec ![1, 2, -3]) _ (vec_val _) (((BInt.opRel dI).vSum (vec_R ![1, 2, -3])).eval (by decide +kernel))
example := C70_dot dR (vec ![1, 2, -3]) (vec ![4, 5, 6]) _ _ (vec_val _) (vec_val _)
  (((BInt.opRel dI).vDot (vec_R ![1, 2, -3]) (vec_R ![4, 5, 6])).eval (by decide +kernel))
example := C70_mat_vec dR (mat !![1, 2; 3, 4; 5, 6]) (vec ![7, -8]) _ _ (mat_val _) (vec_val _)
example := C70_mat_mat dR (mat !![1, 2; 3, 4; 5, 6]) (mat !![7, -8, 1; 0, 1, 3]) _ _ (mat_val _) (mat_val _)
example := C70_cross2 dR (vec ![1, 2]) (vec ![4, 5]) _ _ (vec_val _) (vec_val _)
  (((BInt.opRel dI).cross2 (vec_R ![1, 2]) (vec_R ![4, 5])).eval (by decide +kernel))
example := C70_cross3 dR (vec ![1, 2, -3]) (vec ![4, 5, 6]) _ _ (vec_val _) (vec_val _) 1
  (((BInt.opRel dI).cross3 (vec_R ![1, 2, -3]) (vec_R ![4, 5, 6]) 1 (by decide)).eval (by decide +kernel))
example := C70_det dR (mat !![2, 3, 1; 4, 5, -1; 0, 2, 7]) _ (mat_val _)
  (((BInt.opRel dI).det (mat_R !![2, 3, 1; 4, 5, -1; 0, 2, 7])).eval (by decide +kernel))
example := C70_adj dR (mat !![2, 3, 1; 4, 5, -1; 0, 2, 7]) _ (mat_val _) 1 2
  (((BInt.opRel dI).adj (mat_R !![2, 3, 1; 4, 5, -1; 0, 2, 7]) 1 (by decide) 2 (by decide)).eval (by decide +kernel))
example := C70_complex_mul dR (Cpx.new (.of 3) (.of 4)) (Cpx.new (.of 1) (.of (-2))) ⟨3, 4⟩ ⟨1, -2⟩ ⟨rfl, rfl⟩ ⟨rfl, rfl⟩
example := C70_quaternion_mul dR (Quat.new (.of 1) (.of 2) (.of 3) (.of 4)) (Quat.new (.of 5) (.of 6) (.of 7) (.of (-8)))
  ⟨1, 2, 3, 4⟩ ⟨5, 6, 7, -8⟩ ⟨rfl, rfl, rfl, rfl⟩ ⟨rfl, rfl, rfl, rfl⟩
example := C70_rotation3 dR (Rotation3.fromQuaternion (Quat.new (.of 1) (.of 2) (.of 3) (.of 4))) (vec ![1, 2, 3])
  ⟨1, 2, 3, 4⟩ ⟨0, (1 : ℤ), (2 : ℤ), (3 : ℤ)⟩ ⟨rfl, rfl, rfl, rfl⟩ rfl (vec_val _ 0) (vec_val _ 1) (vec_val _ 2)
/-- Components of these products are numbers: nothing overflows. -/
example : ∃ r, (Quat.new (.of 1) (.of 2) (.of 3) (.of 4) * Quat.new (.of 5) (.of 6) (.of 7) (.of (-8)) : Quat (Fl D)).w.val = some r := by
  have h : ∀ n : ℤ, BInt.R (2 ^ 53) (.of n) (.of (n : ℝ) : Fl D) := fun n => BInt.of_R rfl
  have h1 := (BInt.opRel dI).qMul (p := Quat.new (.of 1) (.of 2) (.of 3) (.of 4)) (p' := Quat.new (.of 5) (.of 6) (.of 7) (.of (-8)))
    (q := Quat.new (.of 1) (.of 2) (.of 3) (.of 4)) (q' := Quat.new (.of 5) (.of 6) (.of 7) (.of (-8)))
    ⟨by simpa using h 1, by simpa using h 2, by simpa using h 3, by simpa using h 4⟩
    ⟨by simpa using h 5, by simpa using h 6, by simpa using h 7, by simpa using h (-8)⟩
  exact ⟨_, h1.1.eval (by decide +kernel)⟩
example := C71_square_length dR dU (vec ![1, 2, -3]) _ (vec_val _) (((BInt.opRel dI).vSquareLength (vec_R ![1, 2, -3])).eval (by decide +kernel))
example := C71_length dR dU (vec ![10, 0]) _ (vec_val _) len10
example := C71_normalize dR dU (vec ![10, 0]) _ (vec_val _) 0 (norm10 0)
example := C71_normalize_length dR dU (vec ![10, 0]) _ (vec_val _) (fun h => by simpa using congrFun h 0) _ norm10
example := C71_complex dR dU (Cpx.new (.of 3) (.of 4)) ⟨3, 4⟩ ⟨rfl, rfl⟩
example := C71_quaternion dR dU (Quat.new (.of 1) (.of 2) (.of 3) (.of 4)) ⟨1, 2, 3, 4⟩ ⟨rfl, rfl, rfl, rfl⟩
example := C72_mat_mat dI (mat !![1, 2; 3, 4; 5, 6]) (mat !![7, -8, 1; 0, 1, 3]) _ _ (mat_val _) (mat_val _) (by decide +kernel)
example := C72_cross3 dI (vec ![1, 2, -3]) (vec ![4, 5, 6000]) _ _ (vec_val _) (vec_val _) (by decide +kernel) 2
example := C72_det (c := 10000) (by norm_num) dI (mat !![2, 3, 10000; 4, 5, -1; 0, 2, 7]) _ (mat_val _) (by decide) (by decide)
end Vecmat
