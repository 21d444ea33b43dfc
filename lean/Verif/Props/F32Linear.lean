import Verif.Props.F32
import Verif.Props.F64Linear
/-! # C107 continued: `Rotation3::to_linear` in single precision -/
namespace Vecmat
open Spec Ieee F32
open F64 (abs_le_length length_le3 off_abs diag_abs sum_abs_le to_linear_defect)
set_option exponentiation.threshold 3000

namespace F32
theorem round_val {x : ℝ} (h : |x| ≤ 4) : |Fmt.f32.near x| < huge Fmt.f32 ∧ |Fmt.f32.near x - x| ≤ 1 / 2 ^ 24 * |x| + 1 / 2 ^ 150 := by
  have e := near_err_add (φ := Fmt.f32) x
  rw [u_eq, tiny_eq] at e
  refine ⟨?_, e⟩
  rw [huge_eq]
  calc |Fmt.f32.near x| = |(Fmt.f32.near x - x) + x| := by congr 1; ring
    _ ≤ _ := abs_add_le _ _
    _ ≤ (1 / 2 ^ 24 * 4 + 1 / 2 ^ 150) + 4 := by refine add_le_add (e.trans ?_) h; gcongr
    _ < _ := by norm_num
theorem two_val : (two : F).toReal? = some 2 := rfl
theorem two_mul_val {a b : F} {x y : ℝ} (ha : a.toReal? = some x) (hb : b.toReal? = some y) (hx : |x| ≤ 1 + 1 / 2 ^ 10) (hy : |y| ≤ 1 + 1 / 2 ^ 10) :
    ∃ r, (two * a * b : F).toReal? = some r ∧ |r - 2 * x * y| ≤ 5 / 2 ^ 24 := by
  have h2x : |2 * x| ≤ 2 * (1 + 1 / 2 ^ 10) := by rw [abs_mul, abs_two]; gcongr
  obtain ⟨f1, e1⟩ := round_val (x := 2 * x) (h2x.trans (by norm_num))
  have v1 : (two * a : F).toReal? = some (Fmt.f32.near (2 * x)) := val_mul_iff.2 ⟨2, x, two_val, ha, rfl, f1⟩
  set m := Fmt.f32.near (2 * x) with hm
  have e1' : |m - 2 * x| ≤ 1 / 2 ^ 24 * (2 * (1 + 1 / 2 ^ 10)) + 1 / 2 ^ 150 := e1.trans (by gcongr)
  have hmb : |m| ≤ 2 + 1 / 2 ^ 8 := by
    calc |m| = |(m - 2 * x) + 2 * x| := by congr 1; ring
      _ ≤ _ := abs_add_le _ _
      _ ≤ (1 / 2 ^ 24 * (2 * (1 + 1 / 2 ^ 10)) + 1 / 2 ^ 150) + 2 * (1 + 1 / 2 ^ 10) := add_le_add e1' h2x
      _ ≤ _ := by norm_num
  have hmy : |m * y| ≤ (2 + 1 / 2 ^ 8) * (1 + 1 / 2 ^ 10) := by rw [abs_mul]; gcongr
  obtain ⟨f2, e2⟩ := round_val (x := m * y) (hmy.trans (by norm_num))
  refine ⟨_, val_mul_iff.2 ⟨m, y, v1, hb, rfl, f2⟩, ?_⟩
  calc |Fmt.f32.near (m * y) - 2 * x * y| = |(Fmt.f32.near (m * y) - m * y) + (m - 2 * x) * y| := by congr 1; ring
    _ ≤ _ := abs_add_le _ _
    _ ≤ (1 / 2 ^ 24 * ((2 + 1 / 2 ^ 8) * (1 + 1 / 2 ^ 10)) + 1 / 2 ^ 150) + (1 / 2 ^ 24 * (2 * (1 + 1 / 2 ^ 10)) + 1 / 2 ^ 150) * (1 + 1 / 2 ^ 10) := by
      refine add_le_add (e2.trans (by gcongr)) ?_
      rw [abs_mul]; gcongr
    _ ≤ _ := by norm_num
theorem add_val {a b : F} {x y x' y' e : ℝ} (ha : a.toReal? = some x') (hb : b.toReal? = some y') (hx : |x' + y' - (x + y)| ≤ e) (he : e ≤ 1 / 2 ^ 16)
    (hs : |x + y| ≤ 1 + 1 / 2 ^ 5) : ∃ r, (a + b).toReal? = some r ∧ |r - (x + y)| ≤ e + 5 / 4 / 2 ^ 24 := by
  have hs' : |x' + y'| ≤ 1 + 1 / 2 ^ 4 := by
    calc |x' + y'| = |(x' + y' - (x + y)) + (x + y)| := by congr 1; ring
      _ ≤ _ := abs_add_le _ _
      _ ≤ 1 / 2 ^ 16 + (1 + 1 / 2 ^ 5) := add_le_add (hx.trans he) hs
      _ ≤ _ := by norm_num
  obtain ⟨f, e'⟩ := round_val (x := x' + y') (hs'.trans (by norm_num))
  refine ⟨_, val_add_iff.2 ⟨x', y', ha, hb, rfl, f⟩, ?_⟩
  calc _ = |(Fmt.f32.near (x' + y') - (x' + y')) + (x' + y' - (x + y))| := by congr 1; ring
    _ ≤ _ := abs_add_le _ _
    _ ≤ (1 / 2 ^ 24 * (1 + 1 / 2 ^ 4) + 1 / 2 ^ 150) + e := add_le_add (e'.trans (by gcongr)) hx
    _ ≤ (5 / 4 / 2 ^ 24) + e := by gcongr; norm_num
    _ = _ := by ring
theorem sub_val {a b : F} {x y x' y' e : ℝ} (ha : a.toReal? = some x') (hb : b.toReal? = some y') (hx : |x' - y' - (x - y)| ≤ e) (he : e ≤ 1 / 2 ^ 16)
    (hs : |x - y| ≤ 1 + 1 / 2 ^ 5) : ∃ r, (a - b).toReal? = some r ∧ |r - (x - y)| ≤ e + 5 / 4 / 2 ^ 24 := by
  have hn : (-b).toReal? = some (-y') := val_neg_iff.2 (by rw [neg_neg]; exact hb)
  have := add_val (x := x) (y := -y) ha hn (by rw [← sub_eq_add_neg, ← sub_eq_add_neg]; exact hx) he (by rw [← sub_eq_add_neg]; exact hs)
  rw [← sub_eq_add_neg] at this
  exact this
/-- `two * a * b - two * c * d` and `+`. -/
theorem off_val {a b c d : F} {x y z w : ℝ} (ha : a.toReal? = some x) (hb : b.toReal? = some y) (hc : c.toReal? = some z) (hd : d.toReal? = some w)
    (h : x ^ 2 + y ^ 2 + z ^ 2 + w ^ 2 ≤ (1 + 1 / 2 ^ 10) ^ 2) :
    (∃ r, (two * a * b - two * c * d : F).toReal? = some r ∧ |r - (2 * x * y - 2 * z * w)| ≤ 13 / 2 ^ 24) ∧
    ∃ r, (two * a * b + two * c * d : F).toReal? = some r ∧ |r - (2 * x * y + 2 * z * w)| ≤ 13 / 2 ^ 24 := by
  have bd : ∀ t : ℝ, t ^ 2 ≤ x ^ 2 + y ^ 2 + z ^ 2 + w ^ 2 → |t| ≤ 1 + 1 / 2 ^ 10 := fun t ht => abs_le_of_sq_le_sq (ht.trans h) (by norm_num)
  obtain ⟨r1, v1, e1⟩ := two_mul_val ha hb (bd x (by nlinarith [sq_nonneg y, sq_nonneg z, sq_nonneg w])) (bd y (by nlinarith [sq_nonneg x, sq_nonneg z, sq_nonneg w]))
  obtain ⟨r2, v2, e2⟩ := two_mul_val hc hd (bd z (by nlinarith [sq_nonneg x, sq_nonneg y, sq_nonneg w])) (bd w (by nlinarith [sq_nonneg x, sq_nonneg y, sq_nonneg z]))
  have s1 := sq_nonneg (x + y); have s2 := sq_nonneg (x - y); have s3 := sq_nonneg (z + w); have s4 := sq_nonneg (z - w)
  constructor
  · obtain ⟨r, hr, er⟩ := sub_val (x := 2 * x * y) (y := 2 * z * w) (e := 10 / 2 ^ 24) v1 v2 (by
      calc _ = |(r1 - 2 * x * y) - (r2 - 2 * z * w)| := by congr 1; ring
        _ ≤ _ := abs_sub _ _
        _ ≤ 5 / 2 ^ 24 + 5 / 2 ^ 24 := add_le_add e1 e2
        _ = _ := by ring) (by norm_num) (by rw [abs_le]; norm_num at h ⊢; constructor <;> nlinarith)
    exact ⟨r, hr, er.trans (by norm_num)⟩
  · obtain ⟨r, hr, er⟩ := add_val (x := 2 * x * y) (y := 2 * z * w) (e := 10 / 2 ^ 24) v1 v2 (by
      calc _ = |(r1 - 2 * x * y) + (r2 - 2 * z * w)| := by congr 1; ring
        _ ≤ _ := abs_add_le _ _
        _ ≤ 5 / 2 ^ 24 + 5 / 2 ^ 24 := add_le_add e1 e2
        _ = _ := by ring) (by norm_num) (by rw [abs_le]; norm_num at h ⊢; constructor <;> nlinarith)
    exact ⟨r, hr, er.trans (by norm_num)⟩
/-- `1 - two * a * a - two * b * b`. -/
theorem diag_val {a b : F} {x y : ℝ} (ha : a.toReal? = some x) (hb : b.toReal? = some y) (h : x ^ 2 + y ^ 2 ≤ (1 + 1 / 2 ^ 10) ^ 2) :
    ∃ r, (1 - two * a * a - two * b * b : F).toReal? = some r ∧ |r - (1 - 2 * x * x - 2 * y * y)| ≤ 13 / 2 ^ 24 := by
  have bd : ∀ t : ℝ, t ^ 2 ≤ x ^ 2 + y ^ 2 → |t| ≤ 1 + 1 / 2 ^ 10 := fun t ht => abs_le_of_sq_le_sq (ht.trans h) (by norm_num)
  have bx := bd x (by nlinarith [sq_nonneg y]); have by' := bd y (by nlinarith [sq_nonneg x])
  obtain ⟨r1, v1, e1⟩ := two_mul_val ha ha bx bx
  obtain ⟨r2, v2, e2⟩ := two_mul_val hb hb by' by'
  have sx := sq_nonneg x; have sy := sq_nonneg y
  obtain ⟨m, vm, em⟩ := sub_val (a := 1) (x' := 1) (x := 1) (y := 2 * x * x) (e := 5 / 2 ^ 24) rfl v1 (by
    rw [show 1 - r1 - (1 - 2 * x * x) = -(r1 - 2 * x * x) by ring, abs_neg]; exact e1) (by norm_num)
    (by rw [abs_le]; norm_num at h ⊢; constructor <;> nlinarith)
  obtain ⟨r, hr, er⟩ := sub_val (x := 1 - 2 * x * x) (y := 2 * y * y) (e := 5 / 2 ^ 24 + 5 / 4 / 2 ^ 24 + 5 / 2 ^ 24) vm v2 (by
    calc _ = |(m - (1 - 2 * x * x)) - (r2 - 2 * y * y)| := by congr 1; ring
      _ ≤ _ := abs_sub _ _
      _ ≤ _ := add_le_add em e2) (by norm_num) (by rw [abs_le]; norm_num at h ⊢; constructor <;> nlinarith)
  exact ⟨r, hr, er.trans (by norm_num)⟩
end F32

/-- `to_linear`: all nine entries are finite and within `13u` of the entries computed exactly. -/
theorem C107_to_linear3 (r : Rotation3 F) (R : Rotation3 ℝ) (hr : ValQ r.intoQuaternion R.intoQuaternion) (hu : NearUnit3 (1 / 2 ^ 10) R) :
    ∃ A : Matrix (Fin 3) (Fin 3) ℝ, (∀ i j : Fin 3, r.toLinear.intoMatrix[i.1][j.1].toReal? = some (A i j)) ∧
      ∀ i j : Fin 3, |A i j - R.toLinear.intoMatrix[i.1][j.1]| ≤ 13 / 2 ^ 24 := by
  obtain ⟨hw, hx, hy, hz⟩ : ValQ r.quat R.quat := hr
  obtain ⟨-, g⟩ := near_le hu
  have hq : R.quat.w ^ 2 + R.quat.x ^ 2 + R.quat.y ^ 2 + R.quat.z ^ 2 ≤ (1 + 1 / 2 ^ 10) ^ 2 := by
    have := pow_le_pow_left₀ (norm_nonneg _) g 2
    rwa [quat_norm, Real.sq_sqrt (by positivity)] at this
  have sw := sq_nonneg R.quat.w; have sx := sq_nonneg R.quat.x; have sy := sq_nonneg R.quat.y; have sz := sq_nonneg R.quat.z
  have key : ∀ i j : Fin 3, ∃ a, (r.toLinear.lin.toMatrix i j).toReal? = some a ∧ |a - R.toLinear.lin.toMatrix i j| ≤ 13 / 2 ^ 24 := by
    intro i j
    rw [Rotation3.toMatrix_toLinear, Rotation3.toMatrix_toLinear]
    fin_cases i <;> fin_cases j
    · exact diag_val hy hz (by linarith)
    · exact (off_val hx hy hz hw (by linarith)).1
    · exact (off_val hx hz hy hw (by linarith)).2
    · exact (off_val hx hy hz hw (by linarith)).2
    · exact diag_val hx hz (by linarith)
    · exact (off_val hy hz hx hw (by linarith)).1
    · exact (off_val hx hz hy hw (by linarith)).1
    · exact (off_val hy hz hx hw (by linarith)).2
    · exact diag_val hx hy (by linarith)
  choose A h1 h2 using key
  exact ⟨A, h1, h2⟩

namespace F32
theorem err33 {m : ℝ} (hm : 0 ≤ m) : errBound Fmt.f32 3 3 m ≤ 7 / 2 ^ 25 * m + 1 / 2 ^ 148 := by
  unfold errBound gam
  rw [u_eq, tiny_eq]
  gcongr
  · norm_num
  · norm_num
end F32
/-- Rotating with the matrix of `to_linear` and with the quaternion itself agree, within `90u` and three times the defect of the quaternion:
the crate's test `to_linear`, src/transform/rotation.rs:452-467. -/
theorem C107_to_linear3_apply (r : Rotation3 F) (R : Rotation3 ℝ) (v : Vec F 3) (X : Vec ℝ 3) (δ : ℝ)
    (hr : ValQ r.intoQuaternion R.intoQuaternion) (hv : ValV v X) (hu : NearUnit3 δ R) (hδ : δ ≤ 1 / 2 ^ 10) (hX : X.length ≤ 2 ^ 108) :
    ∃ Y Z, ValV (Transform.apply r.toLinear v) Y ∧ ValV (Transform.apply r v) Z ∧
      (Y - Z).length ≤ (90 / 2 ^ 24 + 3 * δ) * X.length + 1 / 2 ^ 143 := by
  have x0 : 0 ≤ X.length := by rw [← norm_pureH]; positivity
  have hδ0 : 0 ≤ δ := (abs_nonneg _).trans hu
  obtain ⟨l, g⟩ := near_le hu
  obtain ⟨Z, hZ, eZ, -⟩ := C107_rotation3_apply r R v X δ hr hv hu hδ hX
  obtain ⟨A, hA, eA⟩ := C107_to_linear3 r R hr (hu.trans hδ)
  obtain ⟨w, hw, hc⟩ := C84_mat_vec C80_formats.1 (by norm_num) r.toLinear.intoMatrix v A (fun j => X[j.1]) hA hv
  obtain rfl : r.toLinear.intoMatrix.dotV v = w := by
    have := (Res.ok_get _ (Mat.dotVR_ok r.toLinear.intoMatrix v)).symm.trans hw
    injection this
  have hp := norm_nonneg R.quat.toH
  have hq : ‖R.quat.toH‖ ^ 2 ≤ 1 + 1 / 2 ^ 8 := by
    calc ‖R.quat.toH‖ ^ 2 ≤ (1 + 1 / 2 ^ 10) ^ 2 := by gcongr; linarith
      _ ≤ _ := by norm_num
  -- the exact entries are at most `1 + 2^-6`
  have hE : ∀ i j : Fin 3, |R.toLinear.lin.toMatrix i j| ≤ 1 + 1 / 2 ^ 6 := by
    have hq' : R.quat.w ^ 2 + R.quat.x ^ 2 + R.quat.y ^ 2 + R.quat.z ^ 2 ≤ 1 + 1 / 2 ^ 8 := by
      rwa [quat_norm, Real.sq_sqrt (by positivity)] at hq
    intro i j
    rw [Rotation3.toMatrix_toLinear]
    have sw := sq_nonneg R.quat.w; have sx := sq_nonneg R.quat.x; have sy := sq_nonneg R.quat.y; have sz := sq_nonneg R.quat.z
    fin_cases i <;> fin_cases j
    · exact diag_abs (by linarith)
    · exact (off_abs (by linarith)).1
    · exact (off_abs (by linarith)).2
    · exact (off_abs (by linarith)).2
    · exact diag_abs (by linarith)
    · exact (off_abs (by linarith)).1
    · exact (off_abs (by linarith)).1
    · exact (off_abs (by linarith)).2
    · exact diag_abs (by linarith)
  have hA2 : ∀ i j : Fin 3, |A i j| ≤ 1 + 1 / 2 ^ 5 := fun i j => by
    calc |A i j| = |(A i j - R.toLinear.lin.toMatrix i j) + R.toLinear.lin.toMatrix i j| := by congr 1; ring
      _ ≤ _ := abs_add_le _ _
      _ ≤ 13 / 2 ^ 24 + (1 + 1 / 2 ^ 6) := add_le_add (eA i j) (hE i j)
      _ ≤ _ := by norm_num
  have hS := sum_abs_le X
  have hM : ∀ i : Fin 3, ∑ j : Fin 3, |A i j| * |X[j.1]| ≤ (1 + 1 / 2 ^ 5) * (2 * X.length) := fun i => by
    calc _ ≤ ∑ j : Fin 3, (1 + 1 / 2 ^ 5) * |X[j.1]| := Finset.sum_le_sum fun j _ => by have := hA2 i j; gcongr
      _ = (1 + 1 / 2 ^ 5) * ∑ j : Fin 3, |X[j.1]| := by rw [Finset.mul_sum]
      _ ≤ _ := by gcongr
  have hD : ∀ i : Fin 3, |A.mulVec (fun j => X[j.1]) i - ∑ j : Fin 3, R.toLinear.lin.toMatrix i j * X[j.1]| ≤ 13 / 2 ^ 24 * (2 * X.length) := fun i => by
    rw [Matrix.mulVec, dotProduct, ← Finset.sum_sub_distrib]
    calc _ ≤ ∑ j : Fin 3, |A i j * X[j.1] - R.toLinear.lin.toMatrix i j * X[j.1]| := Finset.abs_sum_le_sum_abs _ _
      _ ≤ ∑ j : Fin 3, 13 / 2 ^ 24 * |X[j.1]| := Finset.sum_le_sum fun j _ => by
        rw [← sub_mul, abs_mul]
        exact mul_le_mul_of_nonneg_right (eA i j) (abs_nonneg _)
      _ = 13 / 2 ^ 24 * ∑ j : Fin 3, |X[j.1]| := by rw [Finset.mul_sum]
      _ ≤ _ := by gcongr
  have hval : ∀ i : Fin 3, ∃ y, ((r.toLinear.intoMatrix.dotV v)[i.1]).toReal? = some y ∧
      |y - A.mulVec (fun j => X[j.1]) i| ≤ 7 / 2 ^ 25 * ((1 + 1 / 2 ^ 5) * (2 * X.length)) + 1 / 2 ^ 148 := fun i => by
    refine close_val (e := 7 / 2 ^ 25 * ((1 + 1 / 2 ^ 5) * (2 * X.length)) + 1 / 2 ^ 148) (hc i) ((err33 (by positivity)).trans (by have := hM i; gcongr)) ?_
    calc _ ≤ (1 + 1 / 2 ^ 5) * (2 * X.length) + (7 / 2 ^ 25 * ((1 + 1 / 2 ^ 5) * (2 * X.length)) + 1 / 2 ^ 148) := by have := hM i; gcongr
      _ ≤ (1 + 1 / 2 ^ 5) * (2 * 2 ^ 108) + (7 / 2 ^ 25 * ((1 + 1 / 2 ^ 5) * (2 * 2 ^ 108)) + 1 / 2 ^ 148) := by gcongr
      _ < _ := by norm_num
  choose y hy ey using hval
  refine ⟨Vec.fromTuple3 (y 0, y 1, y 2), Z, fun i => ?_, hZ, ?_⟩
  · show ((r.toLinear.intoMatrix.dotV v)[i.1]).toReal? = _
    rw [hy]; fin_cases i <;> simp
  · have hYi : ∀ i : Fin 3, (Vec.fromTuple3 (y 0, y 1, y 2))[i.1] = y i := fun i => by fin_cases i <;> simp
    -- the vector of the exact matrix product
    have hP : ∃ P : Vec ℝ 3, ∀ i : Fin 3, P[i.1] = ∑ j : Fin 3, R.toLinear.lin.toMatrix i j * X[j.1] :=
      ⟨Vec.fromArray (Vector.ofFn fun i => ∑ j : Fin 3, R.toLinear.lin.toMatrix i j * X[j.1]), fun i => Vector.getElem_ofFn i.2⟩
    obtain ⟨P, hP⟩ := hP
    have d1 : (Vec.fromTuple3 (y 0, y 1, y 2) - P).length ≤ 2 * (34 / 2 ^ 24 * X.length + 1 / 2 ^ 148) := by
      refine length_le3 fun i => ?_
      rw [Vec.getElem_sub, hYi, hP]
      calc _ = |(y i - A.mulVec (fun j => X[j.1]) i) + (A.mulVec (fun j => X[j.1]) i - ∑ j : Fin 3, R.toLinear.lin.toMatrix i j * X[j.1])| := by congr 1; ring
        _ ≤ _ := abs_add_le _ _
        _ ≤ (7 / 2 ^ 25 * ((1 + 1 / 2 ^ 5) * (2 * X.length)) + 1 / 2 ^ 148) + 13 / 2 ^ 24 * (2 * X.length) := add_le_add (ey i) (hD i)
        _ ≤ _ := by
          generalize 1 / (2:ℝ) ^ 148 = t
          norm_num; linarith
    have d2 : (P - Transform.apply R X).length ≤ 3 * δ * X.length := by
      have e : P - Transform.apply R X = X.mulS (1 - ‖R.quat.toH‖ ^ 2) := by
        have c : ∀ i : Fin 3, (P - Transform.apply R X)[i.1] = (X.mulS (1 - ‖R.quat.toH‖ ^ 2))[i.1] := fun i => by
          have := to_linear_defect R X i
          rw [Vec.getElem_sub, Vec.getElem_mulS, hP i]; linarith
        exact Vec.ext3 (c 0) (c 1) (c 2)
      have e2 : (X.mulS (1 - ‖R.quat.toH‖ ^ 2)).length = |1 - ‖R.quat.toH‖ ^ 2| * X.length := by
        show Real.sqrt _ = |_| * Real.sqrt _
        rw [← Real.sqrt_sq_eq_abs, ← Real.sqrt_mul (sq_nonneg _)]
        congr 1
        simp only [Vec.squareLength3, Vec.getElem_mulS]; ring
      rw [e, e2]
      gcongr
      rw [abs_le]
      constructor <;> nlinarith
    have tri : ∀ a b c : Vec ℝ 3, (a - c).length ≤ (a - b).length + (b - c).length := fun a b c => by
      rw [← norm_pureH, ← norm_pureH, ← norm_pureH, pureH_sub, pureH_sub, pureH_sub]; exact norm_sub_le_norm_sub_add_norm_sub _ _ _
    have sym : (Transform.apply R X - Z).length = (Z - Transform.apply R X).length := by
      rw [← norm_pureH, ← norm_pureH, pureH_sub, pureH_sub, norm_sub_rev]
    refine (tri _ P _).trans ((add_le_add d1 ((tri _ (Transform.apply R X) _).trans (add_le_add d2 (sym.trans_le eZ)))).trans ?_)
    rw [show (1:ℝ) / 2 ^ 148 = 1 / 16 * (1 / 2 ^ 144) by norm_num, show (1:ℝ) / 2 ^ 143 = 2 * (1 / 2 ^ 144) by norm_num]
    have : (0:ℝ) < 1 / 2 ^ 144 := by positivity
    generalize 1 / (2:ℝ) ^ 144 = t at *
    norm_num; nlinarith
open F32Ex in
example := C107_to_linear3 r3 R3 r3_val (R3_unit (by norm_num))
open F32Ex in
example := C107_to_linear3_apply r3 R3 _ _ 0 r3_val (valV ![1, -2, 3]) (R3_unit le_rfl) (by norm_num) (len3.trans (by norm_num))
end Vecmat
