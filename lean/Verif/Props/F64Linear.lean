import Verif.Props.F64
/-! # C93 continued: `Rotation3::to_linear` in double precision -/
namespace Vecmat
open Spec Ieee F64
set_option exponentiation.threshold 3000

namespace F64
theorem round_val {x : ℝ} (h : |x| ≤ 4) : |Fmt.f64.near x| < huge Fmt.f64 ∧ |Fmt.f64.near x - x| ≤ 1 / 2 ^ 53 * |x| + 1 / 2 ^ 1075 := by
  have e := near_err_add (φ := Fmt.f64) x
  rw [u_eq, tiny_eq] at e
  refine ⟨?_, e⟩
  rw [huge_eq]
  calc |Fmt.f64.near x| = |(Fmt.f64.near x - x) + x| := by congr 1; ring
    _ ≤ _ := abs_add_le _ _
    _ ≤ (1 / 2 ^ 53 * 4 + 1 / 2 ^ 1075) + 4 := by refine add_le_add (e.trans ?_) h; gcongr
    _ < _ := by norm_num
theorem two_val : (two : F).toReal? = some 2 := rfl
theorem two_mul_val {a b : F} {x y : ℝ} (ha : a.toReal? = some x) (hb : b.toReal? = some y) (hx : |x| ≤ 1 + 1 / 2 ^ 10) (hy : |y| ≤ 1 + 1 / 2 ^ 10) :
    ∃ r, (two * a * b : F).toReal? = some r ∧ |r - 2 * x * y| ≤ 5 / 2 ^ 53 := by
  have h2x : |2 * x| ≤ 2 * (1 + 1 / 2 ^ 10) := by rw [abs_mul, abs_two]; gcongr
  obtain ⟨f1, e1⟩ := round_val (x := 2 * x) (h2x.trans (by norm_num))
  have v1 : (two * a : F).toReal? = some (Fmt.f64.near (2 * x)) := val_mul_iff.2 ⟨2, x, two_val, ha, rfl, f1⟩
  set m := Fmt.f64.near (2 * x) with hm
  have e1' : |m - 2 * x| ≤ 1 / 2 ^ 53 * (2 * (1 + 1 / 2 ^ 10)) + 1 / 2 ^ 1075 := e1.trans (by gcongr)
  have hmb : |m| ≤ 2 + 1 / 2 ^ 8 := by
    calc |m| = |(m - 2 * x) + 2 * x| := by congr 1; ring
      _ ≤ _ := abs_add_le _ _
      _ ≤ (1 / 2 ^ 53 * (2 * (1 + 1 / 2 ^ 10)) + 1 / 2 ^ 1075) + 2 * (1 + 1 / 2 ^ 10) := add_le_add e1' h2x
      _ ≤ _ := by norm_num
  have hmy : |m * y| ≤ (2 + 1 / 2 ^ 8) * (1 + 1 / 2 ^ 10) := by rw [abs_mul]; gcongr
  obtain ⟨f2, e2⟩ := round_val (x := m * y) (hmy.trans (by norm_num))
  refine ⟨_, val_mul_iff.2 ⟨m, y, v1, hb, rfl, f2⟩, ?_⟩
  calc |Fmt.f64.near (m * y) - 2 * x * y| = |(Fmt.f64.near (m * y) - m * y) + (m - 2 * x) * y| := by congr 1; ring
    _ ≤ _ := abs_add_le _ _
    _ ≤ (1 / 2 ^ 53 * ((2 + 1 / 2 ^ 8) * (1 + 1 / 2 ^ 10)) + 1 / 2 ^ 1075) + (1 / 2 ^ 53 * (2 * (1 + 1 / 2 ^ 10)) + 1 / 2 ^ 1075) * (1 + 1 / 2 ^ 10) := by
      refine add_le_add (e2.trans (by gcongr)) ?_
      rw [abs_mul]; gcongr
    _ ≤ _ := by norm_num
theorem add_val {a b : F} {x y x' y' e : ℝ} (ha : a.toReal? = some x') (hb : b.toReal? = some y') (hx : |x' + y' - (x + y)| ≤ e) (he : e ≤ 1 / 2 ^ 40)
    (hs : |x + y| ≤ 1 + 1 / 2 ^ 5) : ∃ r, (a + b).toReal? = some r ∧ |r - (x + y)| ≤ e + 5 / 4 / 2 ^ 53 := by
  have hs' : |x' + y'| ≤ 1 + 1 / 2 ^ 4 := by
    calc |x' + y'| = |(x' + y' - (x + y)) + (x + y)| := by congr 1; ring
      _ ≤ _ := abs_add_le _ _
      _ ≤ 1 / 2 ^ 40 + (1 + 1 / 2 ^ 5) := add_le_add (hx.trans he) hs
      _ ≤ _ := by norm_num
  obtain ⟨f, e'⟩ := round_val (x := x' + y') (hs'.trans (by norm_num))
  refine ⟨_, val_add_iff.2 ⟨x', y', ha, hb, rfl, f⟩, ?_⟩
  calc _ = |(Fmt.f64.near (x' + y') - (x' + y')) + (x' + y' - (x + y))| := by congr 1; ring
    _ ≤ _ := abs_add_le _ _
    _ ≤ (1 / 2 ^ 53 * (1 + 1 / 2 ^ 4) + 1 / 2 ^ 1075) + e := add_le_add (e'.trans (by gcongr)) hx
    _ ≤ (5 / 4 / 2 ^ 53) + e := by gcongr; norm_num
    _ = _ := by ring
theorem sub_val {a b : F} {x y x' y' e : ℝ} (ha : a.toReal? = some x') (hb : b.toReal? = some y') (hx : |x' - y' - (x - y)| ≤ e) (he : e ≤ 1 / 2 ^ 40)
    (hs : |x - y| ≤ 1 + 1 / 2 ^ 5) : ∃ r, (a - b).toReal? = some r ∧ |r - (x - y)| ≤ e + 5 / 4 / 2 ^ 53 := by
  have hn : (-b).toReal? = some (-y') := val_neg_iff.2 (by rw [neg_neg]; exact hb)
  have := add_val (x := x) (y := -y) ha hn (by rw [← sub_eq_add_neg, ← sub_eq_add_neg]; exact hx) he (by rw [← sub_eq_add_neg]; exact hs)
  rw [← sub_eq_add_neg] at this
  exact this
/-- `two * a * b - two * c * d` and `+`. -/
theorem off_val {a b c d : F} {x y z w : ℝ} (ha : a.toReal? = some x) (hb : b.toReal? = some y) (hc : c.toReal? = some z) (hd : d.toReal? = some w)
    (h : x ^ 2 + y ^ 2 + z ^ 2 + w ^ 2 ≤ (1 + 1 / 2 ^ 10) ^ 2) :
    (∃ r, (two * a * b - two * c * d : F).toReal? = some r ∧ |r - (2 * x * y - 2 * z * w)| ≤ 13 / 2 ^ 53) ∧
    ∃ r, (two * a * b + two * c * d : F).toReal? = some r ∧ |r - (2 * x * y + 2 * z * w)| ≤ 13 / 2 ^ 53 := by
  have bd : ∀ t : ℝ, t ^ 2 ≤ x ^ 2 + y ^ 2 + z ^ 2 + w ^ 2 → |t| ≤ 1 + 1 / 2 ^ 10 := fun t ht => abs_le_of_sq_le_sq (ht.trans h) (by norm_num)
  obtain ⟨r1, v1, e1⟩ := two_mul_val ha hb (bd x (by nlinarith [sq_nonneg y, sq_nonneg z, sq_nonneg w])) (bd y (by nlinarith [sq_nonneg x, sq_nonneg z, sq_nonneg w]))
  obtain ⟨r2, v2, e2⟩ := two_mul_val hc hd (bd z (by nlinarith [sq_nonneg x, sq_nonneg y, sq_nonneg w])) (bd w (by nlinarith [sq_nonneg x, sq_nonneg y, sq_nonneg z]))
  have s1 := sq_nonneg (x + y); have s2 := sq_nonneg (x - y); have s3 := sq_nonneg (z + w); have s4 := sq_nonneg (z - w)
  constructor
  · obtain ⟨r, hr, er⟩ := sub_val (x := 2 * x * y) (y := 2 * z * w) (e := 10 / 2 ^ 53) v1 v2 (by
      calc _ = |(r1 - 2 * x * y) - (r2 - 2 * z * w)| := by congr 1; ring
        _ ≤ _ := abs_sub _ _
        _ ≤ 5 / 2 ^ 53 + 5 / 2 ^ 53 := add_le_add e1 e2
        _ = _ := by ring) (by norm_num) (by rw [abs_le]; norm_num at h ⊢; constructor <;> nlinarith)
    exact ⟨r, hr, er.trans (by norm_num)⟩
  · obtain ⟨r, hr, er⟩ := add_val (x := 2 * x * y) (y := 2 * z * w) (e := 10 / 2 ^ 53) v1 v2 (by
      calc _ = |(r1 - 2 * x * y) + (r2 - 2 * z * w)| := by congr 1; ring
        _ ≤ _ := abs_add_le _ _
        _ ≤ 5 / 2 ^ 53 + 5 / 2 ^ 53 := add_le_add e1 e2
        _ = _ := by ring) (by norm_num) (by rw [abs_le]; norm_num at h ⊢; constructor <;> nlinarith)
    exact ⟨r, hr, er.trans (by norm_num)⟩
/-- `1 - two * a * a - two * b * b`. -/
theorem diag_val {a b : F} {x y : ℝ} (ha : a.toReal? = some x) (hb : b.toReal? = some y) (h : x ^ 2 + y ^ 2 ≤ (1 + 1 / 2 ^ 10) ^ 2) :
    ∃ r, (1 - two * a * a - two * b * b : F).toReal? = some r ∧ |r - (1 - 2 * x * x - 2 * y * y)| ≤ 13 / 2 ^ 53 := by
  have bd : ∀ t : ℝ, t ^ 2 ≤ x ^ 2 + y ^ 2 → |t| ≤ 1 + 1 / 2 ^ 10 := fun t ht => abs_le_of_sq_le_sq (ht.trans h) (by norm_num)
  have bx := bd x (by nlinarith [sq_nonneg y]); have by' := bd y (by nlinarith [sq_nonneg x])
  obtain ⟨r1, v1, e1⟩ := two_mul_val ha ha bx bx
  obtain ⟨r2, v2, e2⟩ := two_mul_val hb hb by' by'
  have sx := sq_nonneg x; have sy := sq_nonneg y
  obtain ⟨m, vm, em⟩ := sub_val (a := 1) (x' := 1) (x := 1) (y := 2 * x * x) (e := 5 / 2 ^ 53) rfl v1 (by
    rw [show 1 - r1 - (1 - 2 * x * x) = -(r1 - 2 * x * x) by ring, abs_neg]; exact e1) (by norm_num)
    (by rw [abs_le]; norm_num at h ⊢; constructor <;> nlinarith)
  obtain ⟨r, hr, er⟩ := sub_val (x := 1 - 2 * x * x) (y := 2 * y * y) (e := 5 / 2 ^ 53 + 5 / 4 / 2 ^ 53 + 5 / 2 ^ 53) vm v2 (by
    calc _ = |(m - (1 - 2 * x * x)) - (r2 - 2 * y * y)| := by congr 1; ring
      _ ≤ _ := abs_sub _ _
      _ ≤ _ := add_le_add em e2) (by norm_num) (by rw [abs_le]; norm_num at h ⊢; constructor <;> nlinarith)
  exact ⟨r, hr, er.trans (by norm_num)⟩
end F64

/-- `to_linear`: all nine entries are finite and within `13u` of the entries computed exactly. -/
theorem C93_to_linear3 (r : Rotation3 F) (R : Rotation3 ℝ) (hr : ValQ r.intoQuaternion R.intoQuaternion) (hu : NearUnit3 (1 / 2 ^ 10) R) :
    ∃ A : Matrix (Fin 3) (Fin 3) ℝ, (∀ i j : Fin 3, r.toLinear.intoMatrix[i.1][j.1].toReal? = some (A i j)) ∧
      ∀ i j : Fin 3, |A i j - R.toLinear.intoMatrix[i.1][j.1]| ≤ 13 / 2 ^ 53 := by
  obtain ⟨hw, hx, hy, hz⟩ : ValQ r.quat R.quat := hr
  obtain ⟨-, g⟩ := near_le hu
  have hq : R.quat.w ^ 2 + R.quat.x ^ 2 + R.quat.y ^ 2 + R.quat.z ^ 2 ≤ (1 + 1 / 2 ^ 10) ^ 2 := by
    have := pow_le_pow_left₀ (norm_nonneg _) g 2
    rwa [quat_norm, Real.sq_sqrt (by positivity)] at this
  have sw := sq_nonneg R.quat.w; have sx := sq_nonneg R.quat.x; have sy := sq_nonneg R.quat.y; have sz := sq_nonneg R.quat.z
  have key : ∀ i j : Fin 3, ∃ a, (r.toLinear.lin.toMatrix i j).toReal? = some a ∧ |a - R.toLinear.lin.toMatrix i j| ≤ 13 / 2 ^ 53 := by
    intro i j
    rw [Rotation3.toMatrix_toLinear, Rotation3.toMatrix_toLinear]
    fin_cases i <;> fin_cases j
    · exact diag_val hy hz (by linarith)
    · exact (off_val hx hy hz hw (by linarith)).1
    · exact (off_val hx hz hy hw (by linarith)).2
    · exact (off_val hx hy hz hw (by linarith)).2
    · exact diag_val hx hz (by linarith)
    · exact (off_val hy hz hx hw (by linarith)).1
    · exact (off_val hx hz hy hw (by linarith)).1
    · exact (off_val hy hz hx hw (by linarith)).2
    · exact diag_val hx hy (by linarith)
  choose A h1 h2 using key
  exact ⟨A, h1, h2⟩

namespace F64
theorem err33 {m : ℝ} (hm : 0 ≤ m) : errBound Fmt.f64 3 3 m ≤ 7 / 2 ^ 54 * m + 1 / 2 ^ 1073 := by
  unfold errBound gam
  rw [u_eq, tiny_eq]
  gcongr
  · norm_num
  · norm_num
theorem abs_le_length (X : Vec ℝ 3) (j : Fin 3) : |X[j.1]| ≤ X.length := by
  show _ ≤ Real.sqrt X.squareLength
  apply Real.abs_le_sqrt
  rw [Vec.squareLength3]
  fin_cases j <;> simp <;> nlinarith [sq_nonneg X[0], sq_nonneg X[1], sq_nonneg X[2]]
theorem length_le3 {X : Vec ℝ 3} {b : ℝ} (h : ∀ i : Fin 3, |X[i.1]| ≤ b) : X.length ≤ 2 * b := by
  have h0 := h 0; have h1 := h 1; have h2 := h 2
  have hb : 0 ≤ b := (abs_nonneg _).trans h0
  show Real.sqrt X.squareLength ≤ _
  rw [Vec.squareLength3, Real.sqrt_le_left (by linarith)]
  have s : ∀ {x : ℝ}, |x| ≤ b → x * x ≤ b ^ 2 := fun {x} h => by rw [← sq, ← sq_abs x]; exact pow_le_pow_left₀ (abs_nonneg x) h 2
  have a0 := s h0; have a1 := s h1; have a2 := s h2
  simp only [Fin.val_zero, Fin.val_one, Fin.val_two] at a0 a1 a2
  nlinarith
theorem off_abs {x y z w : ℝ} (h : x ^ 2 + y ^ 2 + z ^ 2 + w ^ 2 ≤ 1 + 1 / 2 ^ 8) :
    |(two : ℝ) * x * y - two * z * w| ≤ 1 + 1 / 2 ^ 6 ∧ |(two : ℝ) * x * y + two * z * w| ≤ 1 + 1 / 2 ^ 6 := by
  have ht : (two : ℝ) = 2 := rfl
  rw [ht, abs_le, abs_le]
  have s1 := sq_nonneg (x + y); have s2 := sq_nonneg (x - y); have s3 := sq_nonneg (z + w); have s4 := sq_nonneg (z - w)
  norm_num at h ⊢
  refine ⟨⟨?_, ?_⟩, ?_, ?_⟩ <;> linarith
theorem diag_abs {x y : ℝ} (h : x ^ 2 + y ^ 2 ≤ 1 + 1 / 2 ^ 8) : |1 - (two : ℝ) * x * x - two * y * y| ≤ 1 + 1 / 2 ^ 6 := by
  have ht : (two : ℝ) = 2 := rfl
  rw [ht, abs_le]
  have s1 := sq_nonneg x; have s2 := sq_nonneg y
  norm_num at h ⊢
  constructor <;> linarith
theorem sum_abs_le (X : Vec ℝ 3) : ∑ j : Fin 3, |X[j.1]| ≤ 2 * X.length := by
  rw [Fin.sum_univ_three]
  have e : X.length ^ 2 = X[0] * X[0] + X[1] * X[1] + X[2] * X[2] := by
    show (Real.sqrt X.squareLength) ^ 2 = _
    rw [Vec.squareLength3, Real.sq_sqrt (by nlinarith [sq_nonneg X[0], sq_nonneg X[1], sq_nonneg X[2]])]
  have h0 : 0 ≤ X.length := Real.sqrt_nonneg _
  have a0 := sq_abs X[0]; have a1 := sq_abs X[1]; have a2 := sq_abs X[2]
  show |X[0]| + |X[1]| + |X[2]| ≤ _
  refine (sq_le_sq₀ (by positivity) (by linarith)).1 ?_
  nlinarith [sq_nonneg (|X[0]| - |X[1]|), sq_nonneg (|X[0]| - |X[2]|), sq_nonneg (|X[1]| - |X[2]|)]
/-- The matrix of `to_linear` and the rotation differ by the defect of the quaternion. -/
theorem to_linear_defect (R : Rotation3 ℝ) (X : Vec ℝ 3) (i : Fin 3) :
    (Transform.apply R X)[i.1] - ∑ j : Fin 3, R.toLinear.lin.toMatrix i j * X[j.1] = (‖R.quat.toH‖ ^ 2 - 1) * X[i.1] := by
  rw [quat_norm, Real.sq_sqrt (by positivity), Rotation3.toMatrix_toLinear, Fin.sum_univ_three]
  have ht : (two : ℝ) = 2 := rfl
  fin_cases i
  · simp [Rotation3.apply_0, ht]; ring
  · simp [Rotation3.apply_1, ht]; ring
  · simp [Rotation3.apply_2, ht]; ring
end F64
/-- Rotating with the matrix of `to_linear` and with the quaternion itself agree, within `90u` and three times the defect of the quaternion:
the crate's test `to_linear`, src/transform/rotation.rs:452-467. -/
theorem C93_to_linear3_apply (r : Rotation3 F) (R : Rotation3 ℝ) (v : Vec F 3) (X : Vec ℝ 3) (δ : ℝ)
    (hr : ValQ r.intoQuaternion R.intoQuaternion) (hv : ValV v X) (hu : NearUnit3 δ R) (hδ : δ ≤ 1 / 2 ^ 10) (hX : X.length ≤ 2 ^ 900) :
    ∃ Y Z, ValV (Transform.apply r.toLinear v) Y ∧ ValV (Transform.apply r v) Z ∧
      (Y - Z).length ≤ (90 / 2 ^ 53 + 3 * δ) * X.length + 1 / 2 ^ 1068 := by
  have x0 : 0 ≤ X.length := by rw [← norm_pureH]; positivity
  have hδ0 : 0 ≤ δ := (abs_nonneg _).trans hu
  obtain ⟨l, g⟩ := near_le hu
  obtain ⟨Z, hZ, eZ, -⟩ := C93_rotation3_apply r R v X δ hr hv hu hδ hX
  obtain ⟨A, hA, eA⟩ := C93_to_linear3 r R hr (hu.trans hδ)
  obtain ⟨w, hw, hc⟩ := C84_mat_vec C80_formats.2 (by norm_num) r.toLinear.intoMatrix v A (fun j => X[j.1]) hA hv
  obtain rfl : r.toLinear.intoMatrix.dotV v = w := by
    have := (Res.ok_get _ (Mat.dotVR_ok r.toLinear.intoMatrix v)).symm.trans hw
    injection this
  have hp := norm_nonneg R.quat.toH
  have hq : ‖R.quat.toH‖ ^ 2 ≤ 1 + 1 / 2 ^ 8 := by
    calc ‖R.quat.toH‖ ^ 2 ≤ (1 + 1 / 2 ^ 10) ^ 2 := by gcongr; linarith
      _ ≤ _ := by norm_num
  -- the exact entries are at most `1 + 2^-6`
  have hE : ∀ i j : Fin 3, |R.toLinear.lin.toMatrix i j| ≤ 1 + 1 / 2 ^ 6 := by
    have hq' : R.quat.w ^ 2 + R.quat.x ^ 2 + R.quat.y ^ 2 + R.quat.z ^ 2 ≤ 1 + 1 / 2 ^ 8 := by
      rwa [quat_norm, Real.sq_sqrt (by positivity)] at hq
    intro i j
    rw [Rotation3.toMatrix_toLinear]
    have sw := sq_nonneg R.quat.w; have sx := sq_nonneg R.quat.x; have sy := sq_nonneg R.quat.y; have sz := sq_nonneg R.quat.z
    fin_cases i <;> fin_cases j
    · exact diag_abs (by linarith)
    · exact (off_abs (by linarith)).1
    · exact (off_abs (by linarith)).2
    · exact (off_abs (by linarith)).2
    · exact diag_abs (by linarith)
    · exact (off_abs (by linarith)).1
    · exact (off_abs (by linarith)).1
    · exact (off_abs (by linarith)).2
    · exact diag_abs (by linarith)
  have hA2 : ∀ i j : Fin 3, |A i j| ≤ 1 + 1 / 2 ^ 5 := fun i j => by
    calc |A i j| = |(A i j - R.toLinear.lin.toMatrix i j) + R.toLinear.lin.toMatrix i j| := by congr 1; ring
      _ ≤ _ := abs_add_le _ _
      _ ≤ 13 / 2 ^ 53 + (1 + 1 / 2 ^ 6) := add_le_add (eA i j) (hE i j)
      _ ≤ _ := by norm_num
  have hS := sum_abs_le X
  have hM : ∀ i : Fin 3, ∑ j : Fin 3, |A i j| * |X[j.1]| ≤ (1 + 1 / 2 ^ 5) * (2 * X.length) := fun i => by
    calc _ ≤ ∑ j : Fin 3, (1 + 1 / 2 ^ 5) * |X[j.1]| := Finset.sum_le_sum fun j _ => by have := hA2 i j; gcongr
      _ = (1 + 1 / 2 ^ 5) * ∑ j : Fin 3, |X[j.1]| := by rw [Finset.mul_sum]
      _ ≤ _ := by gcongr
  have hD : ∀ i : Fin 3, |A.mulVec (fun j => X[j.1]) i - ∑ j : Fin 3, R.toLinear.lin.toMatrix i j * X[j.1]| ≤ 13 / 2 ^ 53 * (2 * X.length) := fun i => by
    rw [Matrix.mulVec, dotProduct, ← Finset.sum_sub_distrib]
    calc _ ≤ ∑ j : Fin 3, |A i j * X[j.1] - R.toLinear.lin.toMatrix i j * X[j.1]| := Finset.abs_sum_le_sum_abs _ _
      _ ≤ ∑ j : Fin 3, 13 / 2 ^ 53 * |X[j.1]| := Finset.sum_le_sum fun j _ => by
        rw [← sub_mul, abs_mul]
        exact mul_le_mul_of_nonneg_right (eA i j) (abs_nonneg _)
      _ = 13 / 2 ^ 53 * ∑ j : Fin 3, |X[j.1]| := by rw [Finset.mul_sum]
      _ ≤ _ := by gcongr
  have hval : ∀ i : Fin 3, ∃ y, ((r.toLinear.intoMatrix.dotV v)[i.1]).toReal? = some y ∧
      |y - A.mulVec (fun j => X[j.1]) i| ≤ 7 / 2 ^ 54 * ((1 + 1 / 2 ^ 5) * (2 * X.length)) + 1 / 2 ^ 1073 := fun i => by
    refine close_val (e := 7 / 2 ^ 54 * ((1 + 1 / 2 ^ 5) * (2 * X.length)) + 1 / 2 ^ 1073) (hc i) ((err33 (by positivity)).trans (by have := hM i; gcongr)) ?_
    calc _ ≤ (1 + 1 / 2 ^ 5) * (2 * X.length) + (7 / 2 ^ 54 * ((1 + 1 / 2 ^ 5) * (2 * X.length)) + 1 / 2 ^ 1073) := by have := hM i; gcongr
      _ ≤ (1 + 1 / 2 ^ 5) * (2 * 2 ^ 900) + (7 / 2 ^ 54 * ((1 + 1 / 2 ^ 5) * (2 * 2 ^ 900)) + 1 / 2 ^ 1073) := by gcongr
      _ < _ := by norm_num
  choose y hy ey using hval
  refine ⟨Vec.fromTuple3 (y 0, y 1, y 2), Z, fun i => ?_, hZ, ?_⟩
  · show ((r.toLinear.intoMatrix.dotV v)[i.1]).toReal? = _
    rw [hy]; fin_cases i <;> simp
  · have hYi : ∀ i : Fin 3, (Vec.fromTuple3 (y 0, y 1, y 2))[i.1] = y i := fun i => by fin_cases i <;> simp
    -- the vector of the exact matrix product
    have hP : ∃ P : Vec ℝ 3, ∀ i : Fin 3, P[i.1] = ∑ j : Fin 3, R.toLinear.lin.toMatrix i j * X[j.1] :=
      ⟨Vec.fromArray (Vector.ofFn fun i => ∑ j : Fin 3, R.toLinear.lin.toMatrix i j * X[j.1]), fun i => Vector.getElem_ofFn i.2⟩
    obtain ⟨P, hP⟩ := hP
    have d1 : (Vec.fromTuple3 (y 0, y 1, y 2) - P).length ≤ 2 * (34 / 2 ^ 53 * X.length + 1 / 2 ^ 1073) := by
      refine length_le3 fun i => ?_
      rw [Vec.getElem_sub, hYi, hP]
      calc _ = |(y i - A.mulVec (fun j => X[j.1]) i) + (A.mulVec (fun j => X[j.1]) i - ∑ j : Fin 3, R.toLinear.lin.toMatrix i j * X[j.1])| := by congr 1; ring
        _ ≤ _ := abs_add_le _ _
        _ ≤ (7 / 2 ^ 54 * ((1 + 1 / 2 ^ 5) * (2 * X.length)) + 1 / 2 ^ 1073) + 13 / 2 ^ 53 * (2 * X.length) := add_le_add (ey i) (hD i)
        _ ≤ _ := by
          generalize 1 / (2:ℝ) ^ 1073 = t
          norm_num; linarith
    have d2 : (P - Transform.apply R X).length ≤ 3 * δ * X.length := by
      have e : P - Transform.apply R X = X.mulS (1 - ‖R.quat.toH‖ ^ 2) := by
        have c : ∀ i : Fin 3, (P - Transform.apply R X)[i.1] = (X.mulS (1 - ‖R.quat.toH‖ ^ 2))[i.1] := fun i => by
          have := to_linear_defect R X i
          rw [Vec.getElem_sub, Vec.getElem_mulS, hP i]; linarith
        exact Vec.ext3 (c 0) (c 1) (c 2)
      have e2 : (X.mulS (1 - ‖R.quat.toH‖ ^ 2)).length = |1 - ‖R.quat.toH‖ ^ 2| * X.length := by
        show Real.sqrt _ = |_| * Real.sqrt _
        rw [← Real.sqrt_sq_eq_abs, ← Real.sqrt_mul (sq_nonneg _)]
        congr 1
        simp only [Vec.squareLength3, Vec.getElem_mulS]; ring
      rw [e, e2]
      gcongr
      rw [abs_le]
      constructor <;> nlinarith
    have tri : ∀ a b c : Vec ℝ 3, (a - c).length ≤ (a - b).length + (b - c).length := fun a b c => by
      rw [← norm_pureH, ← norm_pureH, ← norm_pureH, pureH_sub, pureH_sub, pureH_sub]; exact norm_sub_le_norm_sub_add_norm_sub _ _ _
    have sym : (Transform.apply R X - Z).length = (Z - Transform.apply R X).length := by
      rw [← norm_pureH, ← norm_pureH, pureH_sub, pureH_sub, norm_sub_rev]
    refine (tri _ P _).trans ((add_le_add d1 ((tri _ (Transform.apply R X) _).trans (add_le_add d2 (sym.trans_le eZ)))).trans ?_)
    rw [show (1:ℝ) / 2 ^ 1073 = 1 / 16 * (1 / 2 ^ 1069) by norm_num, show (1:ℝ) / 2 ^ 1068 = 2 * (1 / 2 ^ 1069) by norm_num]
    have : (0:ℝ) < 1 / 2 ^ 1069 := by positivity
    generalize 1 / (2:ℝ) ^ 1069 = t at *
    norm_num; nlinarith
open F64Ex in
example := C93_to_linear3 r3 R3 r3_val (R3_unit (by norm_num))
open F64Ex in
example := C93_to_linear3_apply r3 R3 _ _ 0 r3_val (valV ![1, -2, 3]) (R3_unit le_rfl) (by norm_num) (len3.trans (by norm_num))
end Vecmat
