import Verif.Lemmas.IeeeQuat
import Verif.Props.Rotation
/-!
# C93: rotations, products and quotients in double precision, for every input in range
The input only has to be finite and of moderate size; there is no hypothesis on the run.  `ValQ q Q` says that the components of the `f64`
quaternion `q` are finite and hold the real quaternion `Q`; the results are compared with the same operation on real numbers.
-/
namespace Vecmat
open Spec Ieee F64
set_option exponentiation.threshold 3000

namespace F64
/-- The library quaternion with the components of a Mathlib quaternion. -/
noncomputable def ofH (V : Quaternion ℝ) : Quat ℝ := Quat.new V.re V.imI V.imJ V.imK
theorem toH_ofH (V : Quaternion ℝ) : (ofH V).toH = V := by apply Quaternion.ext <;> simp [ofH]
theorem norm_eq (Q : Quat ℝ) : Q.norm = ‖Q.toH‖ := (C43_isomorphic_real Q Q).2.2.2
theorem toH_mul (P Q : Quat ℝ) : (P * Q).toH = P.toH * Q.toH := (C43_isomorphic.2.2.2 P Q).2.2.2.1
theorem toH_sub (P Q : Quat ℝ) : (P - Q).toH = P.toH - Q.toH := (C43_isomorphic.2.2.2 P Q).2.1
theorem toH_conj (P : Quat ℝ) : P.conj.toH = star P.toH := (C43_isomorphic.2.2.2 P P).2.2.2.2
theorem toH_div (P Q : Quat ℝ) : (P / Q).toH = P.toH / Q.toH := (C43_isomorphic_real P Q).2.1
theorem valQ_ofH {q : Quat F} {V : Quaternion ℝ} (h : IsQ q V) : ValQ q (ofH V) := by
  have := h; rw [← toH_ofH V] at this; exact this
/-- The quaternion `xi + yj + zk`. -/
noncomputable def pureH (X : Vec ℝ 3) : Quaternion ℝ := (Quat.fromScalarAndVector3 0 X).toH
theorem norm_pureH (X : Vec ℝ 3) : ‖pureH X‖ = X.length := by
  show _ = Real.sqrt X.squareLength
  rw [pureH, quat_norm, Vec.squareLength3]; congr 1; simp; ring
theorem pureH_sub (X Y : Vec ℝ 3) : pureH (X - Y) = pureH X - pureH Y := by apply Quaternion.ext <;> simp [pureH]
theorem isQ_pure {v : Vec F 3} {X : Vec ℝ 3} (h : ValV v X) : IsQ (Quat.fromScalarAndVector3 0 v) (pureH X) := by
  refine ⟨?_, ?_, ?_, ?_⟩
  · simp [pureH]; rfl
  · simpa [pureH] using h 0
  · simpa [pureH] using h 1
  · simpa [pureH] using h 2
theorem pureH_apply (R : Rotation3 ℝ) (X : Vec ℝ 3) : pureH (Transform.apply R X) = R.quat.toH * pureH X * star R.quat.toH := by
  have := C55_sandwich R X
  rw [pureH, this, toH_mul, toH_mul, toH_conj]; rfl
/-- Dropping the scalar part does not increase the distance to a quaternion without scalar part. -/
theorem drop_le {W Z : Quaternion ℝ} (hZ : Z.re = 0) {Y : Vec ℝ 3} (h0 : Y[0] = W.imI) (h1 : Y[1] = W.imJ) (h2 : Y[2] = W.imK) :
    ‖pureH Y - Z‖ ≤ ‖W - Z‖ := by
  rw [quat_norm, quat_norm]
  apply Real.sqrt_le_sqrt
  simp [pureH, hZ, h0, h1, h2]
  positivity
theorem near_le {δ : ℝ} {R : Rotation3 ℝ} (h : NearUnit3 δ R) : 1 - δ ≤ ‖R.quat.toH‖ ∧ ‖R.quat.toH‖ ≤ 1 + δ := by
  have h' : |‖R.quat.toH‖ - 1| ≤ δ := by rw [← norm_eq]; exact h
  obtain ⟨a, b⟩ := abs_le.1 h'
  constructor <;> linarith
end F64

/-! ## products and quotients -/

/-- Product of quaternions: finite, and within `9u |p||q|` (plus an underflow unit) of the exact product. -/
theorem C93_quaternion_mul (p q : Quat F) (P Q : Quat ℝ) (hp : ValQ p P) (hq : ValQ q Q) (hr : P.norm * Q.norm ≤ 2 ^ 1000) :
    ∃ V, ValQ (p * q) V ∧ (V - P * Q).norm ≤ 9 / 2 ^ 53 * (P.norm * Q.norm) + 1 / 2 ^ 1071 := by
  simp only [norm_eq] at *
  obtain ⟨V, h1, h2⟩ := qmul (P := P.toH) (Q := Q.toH) hp hq hr
  exact ⟨ofH V, valQ_ofH h1, by rwa [toH_sub, toH_mul, toH_ofH]⟩
/-- Quotient of quaternions whose norms lie between `2^-400` and `2^400`. -/
theorem C93_quaternion_div (p q : Quat F) (P Q : Quat ℝ) (hp : ValQ p P) (hq : ValQ q Q) (pl : 1 / 2 ^ 400 ≤ P.norm) (pr : P.norm ≤ 2 ^ 400)
    (ql : 1 / 2 ^ 400 ≤ Q.norm) (qr : Q.norm ≤ 2 ^ 400) :
    ∃ V, ValQ (p / q) V ∧ (V - P / Q).norm ≤ 18 / 2 ^ 53 * (P.norm / Q.norm) := by
  simp only [norm_eq] at *
  obtain ⟨V, h1, h2⟩ := qdiv (P := P.toH) (Q := Q.toH) hp hq pl pr ql qr
  exact ⟨ofH V, valQ_ofH h1, by rwa [toH_sub, toH_div, toH_ofH]⟩
/-- The crate's randomised test `inversion`, src/complex/tests/quaternion/advanced.rs:31-38, for every input in range: the components of
`a / a` are within `1e-14` of those of `1`. -/
theorem C93_quaternion_self_div (q : Quat F) (Q : Quat ℝ) (hq : ValQ q Q) (ql : 1 / 2 ^ 400 ≤ Q.norm) (qr : Q.norm ≤ 2 ^ 400) :
    ∃ V, ValQ (q / q) V ∧ |V.w - 1| ≤ 1e-14 ∧ |V.x| ≤ 1e-14 ∧ |V.y| ≤ 1e-14 ∧ |V.z| ≤ 1e-14 := by
  obtain ⟨V, h1, h2⟩ := C93_quaternion_div q q Q Q hq hq ql qr ql qr
  have hQ : 0 < Q.norm := lt_of_lt_of_le (by positivity) ql
  have hn : Q.toH ≠ 0 := by rw [← norm_ne_zero_iff, ← norm_eq]; exact hQ.ne'
  have e : Q / Q = 1 := C43_isomorphic.1.1 (by rw [toH_div, div_self hn, C43_isomorphic.2.2.1])
  rw [div_self hQ.ne', e, norm_eq, quat_norm] at h2
  have c : ∀ x : ℝ, x ^ 2 ≤ (V - 1).toH.re ^ 2 + (V - 1).toH.imI ^ 2 + (V - 1).toH.imJ ^ 2 + (V - 1).toH.imK ^ 2 → |x| ≤ 1e-14 := fun x hx =>
    (Real.abs_le_sqrt hx).trans (h2.trans (by norm_num))
  simp only [Quat.toH_re, Quat.toH_imI, Quat.toH_imJ, Quat.toH_imK, Quat.w_sub, Quat.x_sub, Quat.y_sub, Quat.z_sub, Quat.w_one, Quat.x_one,
    Quat.y_one, Quat.z_one, sub_zero] at c
  refine ⟨V, h1, c _ ?_, c _ ?_, c _ ?_, c _ ?_⟩ <;> nlinarith [sq_nonneg (V.w - 1), sq_nonneg V.x, sq_nonneg V.y, sq_nonneg V.z]

/-! ## rotations of space -/
namespace F64
theorem apply_core {r : Rotation3 F} {R : Rotation3 ℝ} {v : Vec F 3} {X : Vec ℝ 3} (hr : ValQ r.intoQuaternion R.intoQuaternion)
    (hv : ValV v X) (hu : ‖R.quat.toH‖ ≤ 1 + 1 / 2 ^ 10) (hX : X.length ≤ 2 ^ 900) :
    ∃ Y, ValV (Transform.apply r v) Y ∧ (Y - Transform.apply R X).length ≤ 19 / 2 ^ 53 * X.length + 1 / 2 ^ 1069 := by
  obtain ⟨W, hW, eW⟩ := qrot (q := r.quat) (Q := R.quat.toH) hr (isQ_pure hv) hu (by rwa [norm_pureH])
  obtain ⟨-, h1, h2, h3⟩ := hW
  refine ⟨Vec.fromTuple3 (W.imI, W.imJ, W.imK), fun i => ?_, ?_⟩
  · have e : Transform.apply r v = (r.quat * Quat.fromScalarAndVector3 0 v * r.quat.conj).intoScalarAndVector3.2 := rfl
    rw [e]
    fin_cases i
    · rw [Quat.sv_0]; simpa using h1
    · rw [Quat.sv_1]; simpa using h2
    · rw [Quat.sv_2]; simpa using h3
  · rw [← norm_pureH, pureH_sub, pureH_apply, ← norm_pureH X]
    refine (drop_le ?_ (by simp) (by simp) (by simp)).trans eW
    rw [← pureH_apply]; simp [pureH]
theorem exact_length (R : Rotation3 ℝ) (X : Vec ℝ 3) : (Transform.apply R X).length = ‖R.quat.toH‖ ^ 2 * X.length := by
  rw [← norm_pureH, pureH_apply, norm_mul, norm_mul, norm_star, norm_pureH]; ring
theorem length_sub_le (X Y : Vec ℝ 3) : |X.length - Y.length| ≤ (X - Y).length := by
  rw [← norm_pureH, ← norm_pureH, ← norm_pureH, pureH_sub]; exact abs_norm_sub_norm_le _ _
theorem chain_core {r s : Rotation3 F} {R S : Rotation3 ℝ} (hr : ValQ r.intoQuaternion R.intoQuaternion) (hs : ValQ s.intoQuaternion S.intoQuaternion)
    (hR : ‖R.quat.toH‖ ≤ 1 + 1 / 2 ^ 10) (hS : ‖S.quat.toH‖ ≤ 1 + 1 / 2 ^ 10) :
    ∃ T : Rotation3 ℝ, ValQ (Transform.chain (Vec F 3) r s).intoQuaternion T.intoQuaternion ∧ ‖T.quat.toH - R.quat.toH * S.quat.toH‖ ≤ 10 / 2 ^ 53 := by
  have b : ‖R.quat.toH‖ * ‖S.quat.toH‖ ≤ (1 + 1 / 2 ^ 10) * (1 + 1 / 2 ^ 10) := by gcongr
  obtain ⟨V, h1, h2⟩ := qmul (P := R.quat.toH) (Q := S.quat.toH) hr hs (b.trans (by norm_num))
  refine ⟨⟨ofH V⟩, valQ_ofH h1, ?_⟩
  rw [toH_ofH]
  refine h2.trans ?_
  calc _ ≤ 9 / 2 ^ 53 * ((1 + 1 / 2 ^ 10) * (1 + 1 / 2 ^ 10) : ℝ) + 1 / 2 ^ 1071 := by gcongr
    _ ≤ _ := by norm_num
end F64

/-- `apply`: finite, within `19u |x|` of the exact image, and the length is kept up to the defect of the rotation and the same error. -/
theorem C93_rotation3_apply (r : Rotation3 F) (R : Rotation3 ℝ) (v : Vec F 3) (X : Vec ℝ 3) (δ : ℝ)
    (hr : ValQ r.intoQuaternion R.intoQuaternion) (hv : ValV v X) (hu : NearUnit3 δ R) (hδ : δ ≤ 1 / 2 ^ 10) (hX : X.length ≤ 2 ^ 900) :
    ∃ Y, ValV (Transform.apply r v) Y ∧ (Y - Transform.apply R X).length ≤ 19 / 2 ^ 53 * X.length + 1 / 2 ^ 1069 ∧
      |Y.length - X.length| ≤ (19 / 2 ^ 53 + 3 * δ) * X.length + 1 / 2 ^ 1069 := by
  obtain ⟨l, g⟩ := near_le hu
  obtain ⟨Y, h1, h2⟩ := apply_core hr hv (g.trans (by linarith)) hX
  refine ⟨Y, h1, h2, ?_⟩
  have hx : 0 ≤ X.length := by rw [← norm_pureH]; positivity
  have hδ0 : 0 ≤ δ := (abs_nonneg _).trans hu
  have e : |(Transform.apply R X).length - X.length| ≤ 3 * δ * X.length := by
    rw [exact_length, show ‖R.quat.toH‖ ^ 2 * X.length - X.length = (‖R.quat.toH‖ ^ 2 - 1) * X.length by ring, abs_mul, abs_of_nonneg hx]
    gcongr
    rw [abs_le]
    have hp := norm_nonneg R.quat.toH
    constructor <;> nlinarith
  calc |Y.length - X.length| = |(Y.length - (Transform.apply R X).length) + ((Transform.apply R X).length - X.length)| := by congr 1; ring
    _ ≤ _ := abs_add_le _ _
    _ ≤ (19 / 2 ^ 53 * X.length + 1 / 2 ^ 1069) + 3 * δ * X.length := add_le_add ((length_sub_le _ _).trans h2) e
    _ = _ := by ring
/-- `r.chain(r.inv())` is the identity within `1e-14`, the assertion of the crate's test `inversion`, src/transform/rotation.rs:443-450. -/
theorem C93_rotation3_inversion (r : Rotation3 F) (R : Rotation3 ℝ) (hr : ValQ r.intoQuaternion R.intoQuaternion) (hu : NearUnit3 (1 / 2 ^ 50) R) :
    ∃ T, ValQ (Transform.chain (Vec F 3) r (Transform.inv (Vec F 3) r)).intoQuaternion T ∧
      |T.w - 1| ≤ 1e-14 ∧ |T.x| ≤ 1e-14 ∧ |T.y| ≤ 1e-14 ∧ |T.z| ≤ 1e-14 := by
  obtain ⟨l, g⟩ := near_le hu
  have b : ‖R.quat.toH‖ * ‖star R.quat.toH‖ ≤ (1 + 1 / 2 ^ 50) * (1 + 1 / 2 ^ 50) := by rw [norm_star]; gcongr
  obtain ⟨V, h1, h2⟩ := qmul (p := r.quat) (q := r.quat.conj) (P := R.quat.toH) (Q := star R.quat.toH) hr (isQ_conj hr) (b.trans (by norm_num))
  have h3 : ‖R.quat.toH * star R.quat.toH - 1‖ ≤ 3 / 2 ^ 50 := by
    rw [Quaternion.self_mul_star, show ((Quaternion.normSq R.quat.toH : ℝ) : Quaternion ℝ) - 1 = ((Quaternion.normSq R.quat.toH - 1 : ℝ) : Quaternion ℝ) by simp,
      Quaternion.norm_coe, Quaternion.normSq_eq_norm_mul_self, Real.norm_eq_abs, abs_le]
    have hp := norm_nonneg R.quat.toH
    norm_num at l g ⊢
    constructor <;> nlinarith
  have h4 : ‖V - 1‖ ≤ 1e-14 := by
    calc ‖V - 1‖ = ‖(V - R.quat.toH * star R.quat.toH) + (R.quat.toH * star R.quat.toH - 1)‖ := by congr 1; abel
      _ ≤ _ := norm_add_le _ _
      _ ≤ (9 / 2 ^ 53 * ((1 + 1 / 2 ^ 50) * (1 + 1 / 2 ^ 50)) + 1 / 2 ^ 1071) + 3 / 2 ^ 50 := by
        refine add_le_add (h2.trans ?_) h3
        gcongr
      _ ≤ _ := by norm_num
  rw [quat_norm] at h4
  have c : ∀ x : ℝ, x ^ 2 ≤ (V - 1).re ^ 2 + (V - 1).imI ^ 2 + (V - 1).imJ ^ 2 + (V - 1).imK ^ 2 → |x| ≤ 1e-14 := fun x hx =>
    (Real.abs_le_sqrt hx).trans h4
  simp only [Quaternion.re_sub, Quaternion.imI_sub, Quaternion.imJ_sub, Quaternion.imK_sub, Quaternion.re_one, Quaternion.imI_one,
    Quaternion.imJ_one, Quaternion.imK_one, sub_zero] at c
  refine ⟨ofH V, valQ_ofH h1, ?_⟩
  simp only [ofH, Quat.w_new, Quat.x_new, Quat.y_new, Quat.z_new]
  refine ⟨c _ ?_, c _ ?_, c _ ?_, c _ ?_⟩ <;> nlinarith [sq_nonneg (V.re - 1), sq_nonneg V.imI, sq_nonneg V.imJ, sq_nonneg V.imK]
/-- Composing two rotations and applying the result agrees with applying them one after the other, within `80u |x|`. -/
theorem C93_rotation3_chain (r s : Rotation3 F) (R S : Rotation3 ℝ) (v : Vec F 3) (X : Vec ℝ 3) (hr : ValQ r.intoQuaternion R.intoQuaternion)
    (hs : ValQ s.intoQuaternion S.intoQuaternion) (hv : ValV v X) (hR : NearUnit3 (1 / 2 ^ 12) R) (hS : NearUnit3 (1 / 2 ^ 12) S) (hX : X.length ≤ 2 ^ 890) :
    ∃ Y Z, ValV (Transform.apply (Transform.chain (Vec F 3) r s) v) Y ∧ ValV (Transform.apply r (Transform.apply s v)) Z ∧
      (Y - Z).length ≤ 80 / 2 ^ 53 * X.length + 1 / 2 ^ 1065 := by
  obtain ⟨-, gR⟩ := near_le hR
  obtain ⟨-, gS⟩ := near_le hS
  have h10 : (1 + 1 / 2 ^ 12 : ℝ) ≤ 1 + 1 / 2 ^ 10 := by norm_num
  have x0 : 0 ≤ X.length := by rw [← norm_pureH]; positivity
  obtain ⟨T, hT, eT⟩ := chain_core hr hs (gR.trans h10) (gS.trans h10)
  have nP : ‖R.quat.toH * S.quat.toH‖ ≤ (1 + 1 / 2 ^ 12) * (1 + 1 / 2 ^ 12) := by rw [norm_mul]; gcongr
  have nT : ‖T.quat.toH‖ ≤ 1 + 1 / 2 ^ 10 := by
    calc ‖T.quat.toH‖ = ‖(T.quat.toH - R.quat.toH * S.quat.toH) + R.quat.toH * S.quat.toH‖ := by congr 1; abel
      _ ≤ _ := norm_add_le _ _
      _ ≤ 10 / 2 ^ 53 + (1 + 1 / 2 ^ 12) * (1 + 1 / 2 ^ 12) := add_le_add eT nP
      _ ≤ _ := by norm_num
  obtain ⟨Y, hY, eY⟩ := apply_core hT hv nT (hX.trans (by norm_num))
  obtain ⟨A, hA, eA⟩ := apply_core hs hv (gS.trans h10) (hX.trans (by norm_num))
  have lS : (Transform.apply S X).length ≤ (1 + 1 / 2 ^ 10) * X.length := by
    rw [exact_length]
    gcongr
    calc ‖S.quat.toH‖ ^ 2 ≤ (1 + 1 / 2 ^ 12) ^ 2 := by gcongr
      _ ≤ _ := by norm_num
  have lA : A.length ≤ (1 + 1 / 2 ^ 9) * X.length + 1 / 2 ^ 1069 := by
    have := (le_abs_self _).trans ((length_sub_le A (Transform.apply S X)).trans eA)
    generalize 1 / (2:ℝ) ^ 1069 = t at *
    norm_num at *; linarith
  obtain ⟨Z, hZ, eZ⟩ := apply_core hr hA (gR.trans h10) (lA.trans (by
    calc _ ≤ (1 + 1 / 2 ^ 9 : ℝ) * 2 ^ 890 + 1 / 2 ^ 1069 := by gcongr
      _ ≤ _ := by norm_num))
  refine ⟨Y, Z, hY, hZ, ?_⟩
  have hT := norm_nonneg T.quat.toH
  have hRn := norm_nonneg R.quat.toH
  rw [← norm_pureH, pureH_sub, pureH_apply] at eY eA eZ
  have d1 : ‖T.quat.toH * pureH X * star T.quat.toH - (R.quat.toH * S.quat.toH) * pureH X * star (R.quat.toH * S.quat.toH)‖ ≤
      10 / 2 ^ 53 * (X.length * (2 + 1 / 2 ^ 8)) := by
    rw [show T.quat.toH * pureH X * star T.quat.toH - (R.quat.toH * S.quat.toH) * pureH X * star (R.quat.toH * S.quat.toH) =
      (T.quat.toH - R.quat.toH * S.quat.toH) * pureH X * star T.quat.toH +
        (R.quat.toH * S.quat.toH) * pureH X * star (T.quat.toH - R.quat.toH * S.quat.toH) by rw [star_sub]; noncomm_ring]
    refine (norm_add_le _ _).trans ?_
    rw [norm_mul _ (star T.quat.toH), norm_mul _ (pureH X), norm_mul _ (star (_ - _)), norm_mul _ (pureH X), norm_star, norm_star, norm_pureH]
    calc _ ≤ 10 / 2 ^ 53 * X.length * (1 + 1 / 2 ^ 10) + (1 + 1 / 2 ^ 12) * (1 + 1 / 2 ^ 12) * X.length * (10 / 2 ^ 53) := by gcongr
      _ ≤ _ := by norm_num; nlinarith
  have d2 : ‖R.quat.toH * pureH A * star R.quat.toH - (R.quat.toH * S.quat.toH) * pureH X * star (R.quat.toH * S.quat.toH)‖ ≤
      (1 + 1 / 2 ^ 10) * (19 / 2 ^ 53 * X.length + 1 / 2 ^ 1069) := by
    rw [show R.quat.toH * pureH A * star R.quat.toH - (R.quat.toH * S.quat.toH) * pureH X * star (R.quat.toH * S.quat.toH) =
      R.quat.toH * (pureH A - S.quat.toH * pureH X * star S.quat.toH) * star R.quat.toH by rw [star_mul]; noncomm_ring]
    rw [norm_mul, norm_mul, norm_star]
    calc _ ≤ (1 + 1 / 2 ^ 12) * (19 / 2 ^ 53 * X.length + 1 / 2 ^ 1069) * (1 + 1 / 2 ^ 12) := by gcongr
      _ = (1 + 1 / 2 ^ 12) * (1 + 1 / 2 ^ 12) * (19 / 2 ^ 53 * X.length + 1 / 2 ^ 1069) := by ring
      _ ≤ _ := by gcongr; norm_num
  rw [← norm_pureH, pureH_sub]
  calc ‖pureH Y - pureH Z‖ = ‖(pureH Y - T.quat.toH * pureH X * star T.quat.toH) +
        (T.quat.toH * pureH X * star T.quat.toH - (R.quat.toH * S.quat.toH) * pureH X * star (R.quat.toH * S.quat.toH)) -
        (pureH Z - R.quat.toH * pureH A * star R.quat.toH) -
        (R.quat.toH * pureH A * star R.quat.toH - (R.quat.toH * S.quat.toH) * pureH X * star (R.quat.toH * S.quat.toH))‖ := by congr 1; abel
    _ ≤ (19 / 2 ^ 53 * X.length + 1 / 2 ^ 1069) + 10 / 2 ^ 53 * (X.length * (2 + 1 / 2 ^ 8)) + (19 / 2 ^ 53 * ((1 + 1 / 2 ^ 9) * X.length + 1 / 2 ^ 1069) + 1 / 2 ^ 1069) +
        (1 + 1 / 2 ^ 10) * (19 / 2 ^ 53 * X.length + 1 / 2 ^ 1069) := by
      refine (norm_sub_le _ _).trans (add_le_add ((norm_sub_le _ _).trans (add_le_add ((norm_add_le _ _).trans (add_le_add eY d1)) (eZ.trans ?_))) d2)
      gcongr
    _ ≤ _ := by
      rw [show (1:ℝ) / 2 ^ 1065 = 16 * (1 / 2 ^ 1069) by norm_num]
      have : (0:ℝ) < 1 / 2 ^ 1069 := by positivity
      generalize 1 / (2:ℝ) ^ 1069 = t at *
      norm_num; linarith

namespace F64
theorem long_core : ∀ (rs : List (Rotation3 F)) (Rs : List (Rotation3 ℝ)),
    List.Forall₂ (fun r R => ValQ r.intoQuaternion R.intoQuaternion ∧ NearUnit3 (1 / 2 ^ 50) R) rs Rs → ∀ (k : ℕ) (a : Rotation3 F) (A P : Rotation3 ℝ),
    ValQ a.intoQuaternion A.intoQuaternion → ‖A.quat.toH - P.quat.toH‖ ≤ 10 / 2 ^ 53 * k → |‖P.quat.toH‖ - 1| ≤ 1 / 2 ^ 49 * k → k + rs.length ≤ 2 ^ 40 →
    ∃ B : Rotation3 ℝ, ValQ (rs.foldl (Transform.chain (Vec F 3)) a).intoQuaternion B.intoQuaternion ∧
      ‖B.quat.toH - (Rs.foldl (Transform.chain (Vec ℝ 3)) P).quat.toH‖ ≤ 10 / 2 ^ 53 * (k + rs.length : ℕ) ∧
      |‖(Rs.foldl (Transform.chain (Vec ℝ 3)) P).quat.toH‖ - 1| ≤ 1 / 2 ^ 49 * (k + rs.length : ℕ) := by
  intro rs Rs h
  induction h with
  | nil => intro k a A P h1 h2 h3 _; exact ⟨A, h1, h2, h3⟩
  | @cons r R rs Rs hr _ ih =>
    intro k a A P h1 h2 h3 hk
    obtain ⟨hr, hu⟩ := hr
    obtain ⟨l, g⟩ := near_le hu
    have hk' : (k : ℝ) ≤ 2 ^ 40 := by
      have : k ≤ 2 ^ 40 := by omega
      exact_mod_cast this
    have k0 : (0:ℝ) ≤ k := by positivity
    obtain ⟨p1, p2⟩ := abs_le.1 h3
    have hR0 := norm_nonneg R.quat.toH
    have hP0 := norm_nonneg P.quat.toH
    have nA : ‖A.quat.toH‖ ≤ 1 + 1 / 2 ^ 7 := by
      calc ‖A.quat.toH‖ = ‖(A.quat.toH - P.quat.toH) + P.quat.toH‖ := by congr 1; abel
        _ ≤ _ := norm_add_le _ _
        _ ≤ 10 / 2 ^ 53 * k + (1 + 1 / 2 ^ 49 * k) := by linarith
        _ ≤ 10 / 2 ^ 53 * 2 ^ 40 + (1 + 1 / 2 ^ 49 * 2 ^ 40) := by gcongr
        _ ≤ _ := by norm_num
    have b : ‖A.quat.toH‖ * ‖R.quat.toH‖ ≤ (1 + 1 / 2 ^ 7) * (1 + 1 / 2 ^ 50) := by gcongr
    obtain ⟨V, v1, v2⟩ := qmul (p := a.quat) (q := r.quat) (P := A.quat.toH) (Q := R.quat.toH) h1 hr (b.trans (by norm_num))
    have e1 : ‖V - A.quat.toH * R.quat.toH‖ ≤ 9 / 2 ^ 53 * ((1 + 1 / 2 ^ 7) * (1 + 1 / 2 ^ 50)) + 1 / 2 ^ 1071 := v2.trans (by gcongr)
    have e2 : ‖A.quat.toH * R.quat.toH - P.quat.toH * R.quat.toH‖ ≤ 10 / 2 ^ 53 * k * (1 + 1 / 2 ^ 50) := by
      rw [← sub_mul, norm_mul]; gcongr
    have e3 : ‖V - P.quat.toH * R.quat.toH‖ ≤ 10 / 2 ^ 53 * (k + 1 : ℕ) := by
      calc _ = ‖(V - A.quat.toH * R.quat.toH) + (A.quat.toH * R.quat.toH - P.quat.toH * R.quat.toH)‖ := by congr 1; abel
        _ ≤ _ := norm_add_le _ _
        _ ≤ (9 / 2 ^ 53 * ((1 + 1 / 2 ^ 7) * (1 + 1 / 2 ^ 50)) + 1 / 2 ^ 1071) + 10 / 2 ^ 53 * k * (1 + 1 / 2 ^ 50) := add_le_add e1 e2
        _ ≤ (9 / 2 ^ 53 * ((1 + 1 / 2 ^ 7) * (1 + 1 / 2 ^ 50)) + 1 / 2 ^ 100) + 10 / 2 ^ 53 * k * (1 + 1 / 2 ^ 50) := by gcongr <;> norm_num
        _ = (9 / 2 ^ 53 * ((1 + 1 / 2 ^ 7) * (1 + 1 / 2 ^ 50)) + 1 / 2 ^ 100) + 10 / 2 ^ 53 * k + 10 / 2 ^ 103 * k := by ring
        _ ≤ (9 / 2 ^ 53 * ((1 + 1 / 2 ^ 7) * (1 + 1 / 2 ^ 50)) + 1 / 2 ^ 100) + 10 / 2 ^ 53 * k + 10 / 2 ^ 103 * 2 ^ 40 := by gcongr
        _ ≤ _ := by push_cast; norm_num; linarith
    have e4 : |‖(Transform.chain (Vec ℝ 3) P R).quat.toH‖ - 1| ≤ 1 / 2 ^ 49 * (k + 1 : ℕ) := by
      rw [show (Transform.chain (Vec ℝ 3) P R).quat.toH = P.quat.toH * R.quat.toH from toH_mul _ _, norm_mul, abs_le]
      push_cast
      constructor
      · have : (1 - 1 / 2 ^ 49 * k) * (1 - 1 / 2 ^ 50) ≤ ‖P.quat.toH‖ * ‖R.quat.toH‖ := by gcongr <;> linarith
        norm_num at this ⊢; linarith
      · have h5 : ‖P.quat.toH‖ * ‖R.quat.toH‖ ≤ (1 + 1 / 2 ^ 49 * k) * (1 + 1 / 2 ^ 50) := by gcongr; linarith
        have h6 : (1:ℝ) / 2 ^ 99 * k ≤ 1 / 2 ^ 99 * 2 ^ 40 := by gcongr
        norm_num at h5 h6 ⊢; linarith
    have := ih (k + 1) (Transform.chain (Vec F 3) a r) ⟨ofH V⟩ (Transform.chain (Vec ℝ 3) P R) (valQ_ofH v1)
      (by rw [toH_ofH, show (Transform.chain (Vec ℝ 3) P R).quat.toH = P.quat.toH * R.quat.toH from toH_mul _ _]; exact e3) e4 (by simp at hk; omega)
    rw [show k + 1 + rs.length = k + (r :: rs).length by simp; omega] at this
    exact this
end F64
/-- Drift of an incrementally composed rotation, e.g. one small step per frame: after `n ≤ 2^40` steps the result is finite, within
`10u n` of the exact composition, and its defect from unit length is at most `n 2^-48`. -/
theorem C93_rotation3_drift (rs : List (Rotation3 F)) (Rs : List (Rotation3 ℝ))
    (h : List.Forall₂ (fun r R => ValQ r.intoQuaternion R.intoQuaternion ∧ NearUnit3 (1 / 2 ^ 50) R) rs Rs) (hn : rs.length ≤ 2 ^ 40) :
    ∃ B : Rotation3 ℝ, ValQ (rs.foldl (Transform.chain (Vec F 3)) (Transform.identity (Vec F 3))).intoQuaternion B.intoQuaternion ∧
      (B.intoQuaternion - (Rs.foldl (Transform.chain (Vec ℝ 3)) (Transform.identity (Vec ℝ 3))).intoQuaternion).norm ≤ 10 / 2 ^ 53 * rs.length ∧
      NearUnit3 (1 / 2 ^ 48 * rs.length) B := by
  have hid : ValQ (Transform.identity (Vec F 3) : Rotation3 F).intoQuaternion (Transform.identity (Vec ℝ 3) : Rotation3 ℝ).intoQuaternion := by
    refine ⟨?_, ?_, ?_, ?_⟩ <;> simp [Rotation3.intoQuaternion, Transform.identity] <;> rfl
  have hH : (Transform.identity (Vec ℝ 3) : Rotation3 ℝ).quat.toH = 1 := C43_isomorphic.2.2.1
  obtain ⟨B, h1, h2, h3⟩ := long_core rs Rs h 0 _ _ (Transform.identity (Vec ℝ 3)) hid (by simp) (by rw [hH]; simp) (by simpa using hn)
  rw [zero_add] at h2 h3
  refine ⟨B, h1, by rw [norm_eq, toH_sub]; exact h2, ?_⟩
  show |B.quat.norm - 1| ≤ _
  rw [norm_eq]
  have n0 : (0:ℝ) ≤ rs.length := by positivity
  calc |‖B.quat.toH‖ - 1| = |(‖B.quat.toH‖ - ‖(Rs.foldl (Transform.chain (Vec ℝ 3)) (Transform.identity (Vec ℝ 3))).quat.toH‖) +
        (‖(Rs.foldl (Transform.chain (Vec ℝ 3)) (Transform.identity (Vec ℝ 3))).quat.toH‖ - 1)| := by congr 1; ring
    _ ≤ _ := abs_add_le _ _
    _ ≤ 10 / 2 ^ 53 * rs.length + 1 / 2 ^ 49 * rs.length := add_le_add ((abs_norm_sub_norm_le _ _).trans h2) h3
    _ ≤ _ := by norm_num; linarith

/-! ## complex numbers and rotations of the plane -/
namespace F64
noncomputable def ofC (V : ℂ) : Cpx ℝ := Cpx.new V.re V.im
theorem toC_ofC (V : ℂ) : (ofC V).toC = V := by apply Complex.ext <;> simp [ofC, Cpx.toC]
theorem cnorm_eq (Z : Cpx ℝ) : Z.norm = ‖Z.toC‖ := (C39_norm_real Z Z).1
theorem toC_mul (P Q : Cpx ℝ) : (P * Q).toC = P.toC * Q.toC := (C38_isomorphic.2.2.2.2 P Q).2.2.2.1
theorem toC_sub (P Q : Cpx ℝ) : (P - Q).toC = P.toC - Q.toC := (C38_isomorphic.2.2.2.2 P Q).2.1
theorem toC_conj (P : Cpx ℝ) : P.conj.toC = (starRingEnd ℂ) P.toC := (C39_norm_real P P).2.2.2.2.2
theorem toC_div (P Q : Cpx ℝ) : (P / Q).toC = P.toC / Q.toC := (C38_isomorphic.2.2.2.2 P Q).2.2.2.2.2
theorem valC_ofC {q : Cpx F} {V : ℂ} (h : IsC q V) : ValC q (ofC V) := by
  have := h; rw [← toC_ofC V] at this; exact this
/-- The complex number `x + yi`. -/
noncomputable def planeC (X : Vec ℝ 2) : ℂ := (Cpx.fromVector X).toC
theorem norm_planeC (X : Vec ℝ 2) : ‖planeC X‖ = X.length := by rw [planeC, ← cnorm_eq]; rfl
theorem planeC_sub (X Y : Vec ℝ 2) : planeC (X - Y) = planeC X - planeC Y := by rw [planeC, planeC, planeC, ← toC_sub]; rfl
theorem planeC_apply (R : Rotation2 ℝ) (X : Vec ℝ 2) : planeC (Transform.apply R X) = planeC X * R.comp.toC := by
  rw [planeC, planeC, ← toC_mul]; rfl
theorem isC_plane {v : Vec F 2} {X : Vec ℝ 2} (h : ValV v X) : IsC (Cpx.fromVector v) (planeC X) := ⟨h 0, h 1⟩
theorem near2_le {δ : ℝ} {R : Rotation2 ℝ} (h : NearUnit2 δ R) : 1 - δ ≤ ‖R.comp.toC‖ ∧ ‖R.comp.toC‖ ≤ 1 + δ := by
  have h' : |‖R.comp.toC‖ - 1| ≤ δ := by rw [← cnorm_eq]; exact h
  obtain ⟨a, b⟩ := abs_le.1 h'
  constructor <;> linarith
theorem apply2_core {r : Rotation2 F} {R : Rotation2 ℝ} {v : Vec F 2} {X : Vec ℝ 2} (hr : ValC r.intoComplex R.intoComplex)
    (hv : ValV v X) (hu : ‖R.comp.toC‖ ≤ 1 + 1 / 2 ^ 7) (hX : X.length ≤ 2 ^ 900) :
    ∃ Y, ValV (Transform.apply r v) Y ∧ (Y - Transform.apply R X).length ≤ 5 / 2 ^ 53 * X.length + 1 / 2 ^ 1072 := by
  have x0 : 0 ≤ X.length := by rw [← norm_planeC]; positivity
  have b : ‖planeC X‖ * ‖R.comp.toC‖ ≤ X.length * (1 + 1 / 2 ^ 7) := by rw [norm_planeC]; gcongr
  obtain ⟨W, hW, eW⟩ := cmul (z := Cpx.fromVector v) (w := r.comp) (W := R.comp.toC) (isC_plane hv) hr (b.trans (by
    calc _ ≤ (2:ℝ) ^ 900 * (1 + 1 / 2 ^ 7) := by gcongr
      _ ≤ _ := by norm_num))
  refine ⟨(ofC W).intoVector, fun i => ?_, ?_⟩
  · have := valC_ofC hW
    fin_cases i
    · exact this.1
    · exact this.2
  · rw [← norm_planeC, planeC_sub, planeC_apply, show planeC (ofC W).intoVector = W from toC_ofC W]
    refine eW.trans ?_
    calc _ ≤ 4 / 2 ^ 53 * (X.length * (1 + 1 / 2 ^ 7)) + 1 / 2 ^ 1072 := by gcongr
      _ ≤ _ := by
        generalize 1 / (2:ℝ) ^ 1072 = t
        norm_num; linarith
theorem length_sub_le2 (X Y : Vec ℝ 2) : |X.length - Y.length| ≤ (X - Y).length := by
  rw [← norm_planeC, ← norm_planeC, ← norm_planeC, planeC_sub]; exact abs_norm_sub_norm_le _ _
theorem mul_core {z w : Cpx F} {Z W : ℂ} (hz : IsC z Z) (hw : IsC w W) (h1 : ‖Z‖ ≤ 1 + 1 / 2 ^ 7) (h2 : ‖W‖ ≤ 1 + 1 / 2 ^ 7) :
    ∃ V, IsC (z * w) V ∧ ‖V - Z * W‖ ≤ 5 / 2 ^ 53 := by
  have b : ‖Z‖ * ‖W‖ ≤ (1 + 1 / 2 ^ 7) * (1 + 1 / 2 ^ 7) := by gcongr
  obtain ⟨V, h3, h4⟩ := cmul hz hw (b.trans (by norm_num))
  refine ⟨V, h3, h4.trans ?_⟩
  calc _ ≤ 4 / 2 ^ 53 * ((1 + 1 / 2 ^ 7) * (1 + 1 / 2 ^ 7) : ℝ) + 1 / 2 ^ 1072 := by gcongr
    _ ≤ _ := by norm_num
end F64

theorem C93_complex_mul (z w : Cpx F) (Z W : Cpx ℝ) (hz : ValC z Z) (hw : ValC w W) (hr : Z.norm * W.norm ≤ 2 ^ 1000) :
    ∃ V, ValC (z * w) V ∧ (V - Z * W).norm ≤ 4 / 2 ^ 53 * (Z.norm * W.norm) + 1 / 2 ^ 1072 := by
  simp only [cnorm_eq] at *
  obtain ⟨V, h1, h2⟩ := cmul (Z := Z.toC) (W := W.toC) hz hw hr
  exact ⟨ofC V, valC_ofC h1, by rwa [toC_sub, toC_mul, toC_ofC]⟩
theorem C93_complex_div (z w : Cpx F) (Z W : Cpx ℝ) (hz : ValC z Z) (hw : ValC w W) (zl : 1 / 2 ^ 400 ≤ Z.norm) (zr : Z.norm ≤ 2 ^ 400)
    (wl : 1 / 2 ^ 400 ≤ W.norm) (wr : W.norm ≤ 2 ^ 400) :
    ∃ V, ValC (z / w) V ∧ (V - Z / W).norm ≤ 11 / 2 ^ 53 * (Z.norm / W.norm) := by
  simp only [cnorm_eq] at *
  obtain ⟨V, h1, h2⟩ := cdiv (P := Z.toC) (Q := W.toC) hz hw zl zr wl wr
  exact ⟨ofC V, valC_ofC h1, by rwa [toC_sub, toC_div, toC_ofC]⟩
/-- `apply`: finite, within `5u |x|` of the exact image, and the length is kept up to the defect of the rotation and the same error. -/
theorem C93_rotation2_apply (r : Rotation2 F) (R : Rotation2 ℝ) (v : Vec F 2) (X : Vec ℝ 2) (δ : ℝ)
    (hr : ValC r.intoComplex R.intoComplex) (hv : ValV v X) (hu : NearUnit2 δ R) (hδ : δ ≤ 1 / 2 ^ 10) (hX : X.length ≤ 2 ^ 900) :
    ∃ Y, ValV (Transform.apply r v) Y ∧ (Y - Transform.apply R X).length ≤ 5 / 2 ^ 53 * X.length + 1 / 2 ^ 1072 ∧
      |Y.length - X.length| ≤ (5 / 2 ^ 53 + δ) * X.length + 1 / 2 ^ 1072 := by
  obtain ⟨l, g⟩ := near2_le hu
  obtain ⟨Y, h1, h2⟩ := apply2_core hr hv (g.trans (by norm_num at hδ ⊢; linarith)) hX
  refine ⟨Y, h1, h2, ?_⟩
  have hx : 0 ≤ X.length := by rw [← norm_planeC]; positivity
  have e : |(Transform.apply R X).length - X.length| ≤ δ * X.length := by
    rw [← norm_planeC, planeC_apply, norm_mul, norm_planeC, show X.length * ‖R.comp.toC‖ - X.length = (‖R.comp.toC‖ - 1) * X.length by ring, abs_mul, abs_of_nonneg hx]
    gcongr
    rw [abs_le]; constructor <;> linarith
  calc |Y.length - X.length| = |(Y.length - (Transform.apply R X).length) + ((Transform.apply R X).length - X.length)| := by congr 1; ring
    _ ≤ _ := abs_add_le _ _
    _ ≤ (5 / 2 ^ 53 * X.length + 1 / 2 ^ 1072) + δ * X.length := add_le_add ((length_sub_le2 _ _).trans h2) e
    _ = _ := by ring
/-- `r.chain(r.inv())` is the identity within `1e-14`: the crate's test `inversion`, src/transform/rotation.rs:401-408. -/
theorem C93_rotation2_inversion (r : Rotation2 F) (R : Rotation2 ℝ) (hr : ValC r.intoComplex R.intoComplex) (hu : NearUnit2 (1 / 2 ^ 50) R) :
    ∃ T, ValC (Transform.chain (Vec F 2) r (Transform.inv (Vec F 2) r)).intoComplex T ∧ |T.re - 1| ≤ 1e-14 ∧ |T.im| ≤ 1e-14 := by
  obtain ⟨l, g⟩ := near2_le hu
  obtain ⟨V, h1, h2⟩ := mul_core (z := r.comp) (w := r.comp.conj) (Z := R.comp.toC) (W := (starRingEnd ℂ) R.comp.toC) hr (isC_conj (Q := R.comp.toC) hr) (g.trans (by norm_num)) (by
    rw [RCLike.norm_conj]; exact g.trans (by norm_num))
  have h3 : ‖R.comp.toC * (starRingEnd ℂ) R.comp.toC - 1‖ ≤ 3 / 2 ^ 50 := by
    rw [Complex.mul_conj, ← Complex.ofReal_one, ← Complex.ofReal_sub, Complex.norm_real, Complex.normSq_eq_norm_sq, Real.norm_eq_abs, abs_le]
    have hp := norm_nonneg R.comp.toC
    norm_num at l g ⊢
    constructor <;> nlinarith
  have h4 : ‖V - 1‖ ≤ 1e-14 := by
    calc ‖V - 1‖ = ‖(V - R.comp.toC * (starRingEnd ℂ) R.comp.toC) + (R.comp.toC * (starRingEnd ℂ) R.comp.toC - 1)‖ := by congr 1; ring
      _ ≤ _ := norm_add_le _ _
      _ ≤ 5 / 2 ^ 53 + 3 / 2 ^ 50 := add_le_add h2 h3
      _ ≤ _ := by norm_num
  refine ⟨ofC V, valC_ofC h1, ?_, ?_⟩
  · have := (Complex.abs_re_le_norm (V - 1)).trans h4
    simpa [ofC] using this
  · have := (Complex.abs_im_le_norm (V - 1)).trans h4
    simpa [ofC] using this
theorem C93_rotation2_chain (r s : Rotation2 F) (R S : Rotation2 ℝ) (v : Vec F 2) (X : Vec ℝ 2) (hr : ValC r.intoComplex R.intoComplex)
    (hs : ValC s.intoComplex S.intoComplex) (hv : ValV v X) (hR : NearUnit2 (1 / 2 ^ 10) R) (hS : NearUnit2 (1 / 2 ^ 10) S) (hX : X.length ≤ 2 ^ 890) :
    ∃ Y Z, ValV (Transform.apply (Transform.chain (Vec F 2) r s) v) Y ∧ ValV (Transform.apply r (Transform.apply s v)) Z ∧
      (Y - Z).length ≤ 21 / 2 ^ 53 * X.length + 1 / 2 ^ 1070 := by
  obtain ⟨-, gR⟩ := near2_le hR
  obtain ⟨-, gS⟩ := near2_le hS
  have h10 : (1 + 1 / 2 ^ 10 : ℝ) ≤ 1 + 1 / 2 ^ 7 := by norm_num
  have x0 : 0 ≤ X.length := by rw [← norm_planeC]; positivity
  obtain ⟨T, hT, eT⟩ := mul_core (z := r.comp) (w := s.comp) (Z := R.comp.toC) (W := S.comp.toC) hr hs (gR.trans h10) (gS.trans h10)
  have nP : ‖R.comp.toC * S.comp.toC‖ ≤ (1 + 1 / 2 ^ 10) * (1 + 1 / 2 ^ 10) := by rw [norm_mul]; gcongr
  have nT : ‖T‖ ≤ 1 + 1 / 2 ^ 7 := by
    calc ‖T‖ = ‖(T - R.comp.toC * S.comp.toC) + R.comp.toC * S.comp.toC‖ := by congr 1; ring
      _ ≤ _ := norm_add_le _ _
      _ ≤ 5 / 2 ^ 53 + (1 + 1 / 2 ^ 10) * (1 + 1 / 2 ^ 10) := add_le_add eT nP
      _ ≤ _ := by norm_num
  obtain ⟨Y, hY, eY⟩ := apply2_core (r := Transform.chain (Vec F 2) r s) (R := ⟨ofC T⟩) (valC_ofC hT) hv (by rwa [toC_ofC]) (hX.trans (by norm_num))
  obtain ⟨A, hA, eA⟩ := apply2_core hs hv (gS.trans h10) (hX.trans (by norm_num))
  rw [← norm_planeC, planeC_sub, planeC_apply] at eY eA
  rw [toC_ofC] at eY
  have lA : A.length ≤ (1 + 1 / 2 ^ 9) * X.length + 1 / 2 ^ 1072 := by
    rw [← norm_planeC]
    calc ‖planeC A‖ = ‖(planeC A - planeC X * S.comp.toC) + planeC X * S.comp.toC‖ := by congr 1; ring
      _ ≤ _ := norm_add_le _ _
      _ ≤ (5 / 2 ^ 53 * X.length + 1 / 2 ^ 1072) + X.length * (1 + 1 / 2 ^ 10) := by
        rw [norm_mul, norm_planeC]; gcongr
      _ ≤ _ := by
        generalize 1 / (2:ℝ) ^ 1072 = t
        norm_num; linarith
  obtain ⟨Z, hZ, eZ⟩ := apply2_core hr hA (gR.trans h10) (lA.trans (by
    calc _ ≤ (1 + 1 / 2 ^ 9 : ℝ) * 2 ^ 890 + 1 / 2 ^ 1072 := by gcongr
      _ ≤ _ := by norm_num))
  refine ⟨Y, Z, hY, hZ, ?_⟩
  rw [← norm_planeC, planeC_sub, planeC_apply] at eZ
  rw [← norm_planeC, planeC_sub]
  calc ‖planeC Y - planeC Z‖ = ‖(planeC Y - planeC X * T) + planeC X * (T - R.comp.toC * S.comp.toC) - (planeC Z - planeC A * R.comp.toC) -
        (planeC A - planeC X * S.comp.toC) * R.comp.toC‖ := by congr 1; ring
    _ ≤ (5 / 2 ^ 53 * X.length + 1 / 2 ^ 1072) + X.length * (5 / 2 ^ 53) + (5 / 2 ^ 53 * ((1 + 1 / 2 ^ 9) * X.length + 1 / 2 ^ 1072) + 1 / 2 ^ 1072) +
        (5 / 2 ^ 53 * X.length + 1 / 2 ^ 1072) * (1 + 1 / 2 ^ 10) := by
      refine (norm_sub_le _ _).trans (add_le_add ((norm_sub_le _ _).trans (add_le_add ((norm_add_le _ _).trans (add_le_add eY ?_)) (eZ.trans ?_))) ?_)
      · rw [norm_mul, norm_planeC]; gcongr
      · gcongr
      · rw [norm_mul]; gcongr
    _ ≤ _ := by
      rw [show (1:ℝ) / 2 ^ 1070 = 4 * (1 / 2 ^ 1072) by norm_num]
      have : (0:ℝ) < 1 / 2 ^ 1072 := by positivity
      generalize 1 / (2:ℝ) ^ 1072 = t at *
      norm_num; linarith

namespace F64
theorem long_core2 : ∀ (rs : List (Rotation2 F)) (Rs : List (Rotation2 ℝ)),
    List.Forall₂ (fun r R => ValC r.intoComplex R.intoComplex ∧ NearUnit2 (1 / 2 ^ 50) R) rs Rs → ∀ (k : ℕ) (a : Rotation2 F) (A P : Rotation2 ℝ),
    ValC a.intoComplex A.intoComplex → ‖A.comp.toC - P.comp.toC‖ ≤ 5 / 2 ^ 53 * k → |‖P.comp.toC‖ - 1| ≤ 1 / 2 ^ 49 * k → k + rs.length ≤ 2 ^ 40 →
    ∃ B : Rotation2 ℝ, ValC (rs.foldl (Transform.chain (Vec F 2)) a).intoComplex B.intoComplex ∧
      ‖B.comp.toC - (Rs.foldl (Transform.chain (Vec ℝ 2)) P).comp.toC‖ ≤ 5 / 2 ^ 53 * (k + rs.length : ℕ) ∧
      |‖(Rs.foldl (Transform.chain (Vec ℝ 2)) P).comp.toC‖ - 1| ≤ 1 / 2 ^ 49 * (k + rs.length : ℕ) := by
  intro rs Rs h
  induction h with
  | nil => intro k a A P h1 h2 h3 _; exact ⟨A, h1, h2, h3⟩
  | @cons r R rs Rs hr _ ih =>
    intro k a A P h1 h2 h3 hk
    obtain ⟨hr, hu⟩ := hr
    obtain ⟨l, g⟩ := near2_le hu
    have hk' : (k : ℝ) ≤ 2 ^ 40 := by
      have : k ≤ 2 ^ 40 := by omega
      exact_mod_cast this
    have k0 : (0:ℝ) ≤ k := by positivity
    obtain ⟨p1, p2⟩ := abs_le.1 h3
    have hR0 := norm_nonneg R.comp.toC
    have hP0 := norm_nonneg P.comp.toC
    have nA : ‖A.comp.toC‖ ≤ 1 + 1 / 2 ^ 7 := by
      calc ‖A.comp.toC‖ = ‖(A.comp.toC - P.comp.toC) + P.comp.toC‖ := by congr 1; ring
        _ ≤ _ := norm_add_le _ _
        _ ≤ 5 / 2 ^ 53 * k + (1 + 1 / 2 ^ 49 * k) := by linarith
        _ ≤ 5 / 2 ^ 53 * 2 ^ 40 + (1 + 1 / 2 ^ 49 * 2 ^ 40) := by gcongr
        _ ≤ _ := by norm_num
    have b : ‖A.comp.toC‖ * ‖R.comp.toC‖ ≤ (1 + 1 / 2 ^ 7) * (1 + 1 / 2 ^ 50) := by gcongr
    obtain ⟨V, v1, v2⟩ := cmul (z := a.comp) (w := r.comp) (Z := A.comp.toC) (W := R.comp.toC) h1 hr (b.trans (by norm_num))
    have e1 : ‖V - A.comp.toC * R.comp.toC‖ ≤ 4 / 2 ^ 53 * ((1 + 1 / 2 ^ 7) * (1 + 1 / 2 ^ 50)) + 1 / 2 ^ 1072 := v2.trans (by gcongr)
    have e2 : ‖A.comp.toC * R.comp.toC - P.comp.toC * R.comp.toC‖ ≤ 5 / 2 ^ 53 * k * (1 + 1 / 2 ^ 50) := by
      rw [← sub_mul, norm_mul]; gcongr
    have e3 : ‖V - P.comp.toC * R.comp.toC‖ ≤ 5 / 2 ^ 53 * (k + 1 : ℕ) := by
      calc _ = ‖(V - A.comp.toC * R.comp.toC) + (A.comp.toC * R.comp.toC - P.comp.toC * R.comp.toC)‖ := by congr 1; ring
        _ ≤ _ := norm_add_le _ _
        _ ≤ (4 / 2 ^ 53 * ((1 + 1 / 2 ^ 7) * (1 + 1 / 2 ^ 50)) + 1 / 2 ^ 1072) + 5 / 2 ^ 53 * k * (1 + 1 / 2 ^ 50) := add_le_add e1 e2
        _ ≤ (4 / 2 ^ 53 * ((1 + 1 / 2 ^ 7) * (1 + 1 / 2 ^ 50)) + 1 / 2 ^ 100) + 5 / 2 ^ 53 * k * (1 + 1 / 2 ^ 50) := by gcongr <;> norm_num
        _ = (4 / 2 ^ 53 * ((1 + 1 / 2 ^ 7) * (1 + 1 / 2 ^ 50)) + 1 / 2 ^ 100) + 5 / 2 ^ 53 * k + 5 / 2 ^ 103 * k := by ring
        _ ≤ (4 / 2 ^ 53 * ((1 + 1 / 2 ^ 7) * (1 + 1 / 2 ^ 50)) + 1 / 2 ^ 100) + 5 / 2 ^ 53 * k + 5 / 2 ^ 103 * 2 ^ 40 := by gcongr
        _ ≤ _ := by push_cast; norm_num; linarith
    have e4 : |‖(Transform.chain (Vec ℝ 2) P R).comp.toC‖ - 1| ≤ 1 / 2 ^ 49 * (k + 1 : ℕ) := by
      rw [show (Transform.chain (Vec ℝ 2) P R).comp.toC = P.comp.toC * R.comp.toC from toC_mul _ _, norm_mul, abs_le]
      push_cast
      constructor
      · have : (1 - 1 / 2 ^ 49 * k) * (1 - 1 / 2 ^ 50) ≤ ‖P.comp.toC‖ * ‖R.comp.toC‖ := by gcongr <;> linarith
        norm_num at this ⊢; linarith
      · have h5 : ‖P.comp.toC‖ * ‖R.comp.toC‖ ≤ (1 + 1 / 2 ^ 49 * k) * (1 + 1 / 2 ^ 50) := by gcongr; linarith
        have h6 : (1:ℝ) / 2 ^ 99 * k ≤ 1 / 2 ^ 99 * 2 ^ 40 := by gcongr
        norm_num at h5 h6 ⊢; linarith
    have := ih (k + 1) (Transform.chain (Vec F 2) a r) ⟨ofC V⟩ (Transform.chain (Vec ℝ 2) P R) (valC_ofC v1)
      (by rw [toC_ofC, show (Transform.chain (Vec ℝ 2) P R).comp.toC = P.comp.toC * R.comp.toC from toC_mul _ _]; exact e3) e4 (by simp at hk; omega)
    rw [show k + 1 + rs.length = k + (r :: rs).length by simp; omega] at this
    exact this
end F64
/-- Drift of an incrementally composed rotation of the plane. -/
theorem C93_rotation2_drift (rs : List (Rotation2 F)) (Rs : List (Rotation2 ℝ))
    (h : List.Forall₂ (fun r R => ValC r.intoComplex R.intoComplex ∧ NearUnit2 (1 / 2 ^ 50) R) rs Rs) (hn : rs.length ≤ 2 ^ 40) :
    ∃ B : Rotation2 ℝ, ValC (rs.foldl (Transform.chain (Vec F 2)) (Transform.identity (Vec F 2))).intoComplex B.intoComplex ∧
      (B.intoComplex - (Rs.foldl (Transform.chain (Vec ℝ 2)) (Transform.identity (Vec ℝ 2))).intoComplex).norm ≤ 5 / 2 ^ 53 * rs.length ∧
      NearUnit2 (1 / 2 ^ 48 * rs.length) B := by
  have hid : ValC (Transform.identity (Vec F 2) : Rotation2 F).intoComplex (Transform.identity (Vec ℝ 2) : Rotation2 ℝ).intoComplex := by
    refine ⟨?_, ?_⟩ <;> simp [Rotation2.intoComplex, Transform.identity] <;> rfl
  have hH : (Transform.identity (Vec ℝ 2) : Rotation2 ℝ).comp.toC = 1 := C38_isomorphic.2.2.1
  obtain ⟨B, h1, h2, h3⟩ := long_core2 rs Rs h 0 _ _ (Transform.identity (Vec ℝ 2)) hid (by simp) (by rw [hH]; simp) (by simpa using hn)
  rw [zero_add] at h2 h3
  refine ⟨B, h1, by rw [cnorm_eq, toC_sub]; exact h2, ?_⟩
  show |B.comp.norm - 1| ≤ _
  rw [cnorm_eq]
  have n0 : (0:ℝ) ≤ rs.length := by positivity
  calc |‖B.comp.toC‖ - 1| = |(‖B.comp.toC‖ - ‖(Rs.foldl (Transform.chain (Vec ℝ 2)) (Transform.identity (Vec ℝ 2))).comp.toC‖) +
        (‖(Rs.foldl (Transform.chain (Vec ℝ 2)) (Transform.identity (Vec ℝ 2))).comp.toC‖ - 1)| := by congr 1; ring
    _ ≤ _ := abs_add_le _ _
    _ ≤ 5 / 2 ^ 53 * rs.length + 1 / 2 ^ 49 * rs.length := add_le_add ((abs_norm_sub_norm_le _ _).trans h2) h3
    _ ≤ _ := by norm_num; linarith

/-! ## concrete cases -/
namespace F64Ex
open IeeeEx
theorem valQ (w x y z : ℝ) : ValQ (Quat.new (lit w) (lit x) (lit y) (lit z)) (Quat.new w x y z) :=
  ⟨by simpa using lit_val w, by simpa using lit_val x, by simpa using lit_val y, by simpa using lit_val z⟩
theorem valC (x y : ℝ) : ValC (Cpx.new (lit x) (lit y)) (Cpx.new x y) := ⟨by simpa using lit_val x, by simpa using lit_val y⟩
theorem valV {N : ℕ} (x : Fin N → ℝ) : ValV (vec x) (Vec.fromArray (Vector.ofFn x)) := fun i => by
  rw [vec_val]; congr 1; exact (Vector.getElem_ofFn i.2).symm
/-- The turn by 120° about (1,1,1): its components are doubles, and its norm is exactly 1. -/
noncomputable def r3 : Rotation3 F := Rotation3.fromQuaternion (Quat.new (lit (1/2)) (lit (1/2)) (lit (1/2)) (lit (1/2)))
noncomputable def R3 : Rotation3 ℝ := Rotation3.fromQuaternion (Quat.new (1/2) (1/2) (1/2) (1/2))
theorem r3_val : ValQ r3.intoQuaternion R3.intoQuaternion := valQ _ _ _ _
theorem R3_norm : R3.intoQuaternion.norm = 1 := by
  rw [norm_eq, quat_norm, Real.sqrt_eq_one]; simp [R3, Rotation3.intoQuaternion, Rotation3.fromQuaternion]; norm_num
theorem R3_unit {δ : ℝ} (h : 0 ≤ δ) : NearUnit3 δ R3 := by unfold NearUnit3; rw [R3_norm]; simpa using h
/-- The doubles nearest to 0.6 and 0.8: not exactly a unit. -/
noncomputable def r2 : Rotation2 F := Rotation2.fromComplex (Cpx.new (lit (5404319552844595/2^53)) (lit (7205759403792794/2^53)))
noncomputable def R2 : Rotation2 ℝ := Rotation2.fromComplex (Cpx.new (5404319552844595/2^53) (7205759403792794/2^53))
theorem r2_val : ValC r2.intoComplex R2.intoComplex := valC _ _
theorem R2_norm2 : R2.intoComplex.norm ^ 2 = (5404319552844595/2^53) ^ 2 + (7205759403792794/2^53) ^ 2 := by
  rw [cnorm_eq, ← Complex.normSq_eq_norm_sq, Complex.normSq_apply]
  show (5404319552844595/2^53 : ℝ) * (5404319552844595/2^53) + (7205759403792794/2^53) * (7205759403792794/2^53) = _
  ring
theorem R2_unit {δ : ℝ} (h : 1 / 2 ^ 50 ≤ δ) : NearUnit2 δ R2 := by
  have e := R2_norm2
  have n0 : 0 ≤ R2.intoComplex.norm := by rw [cnorm_eq]; positivity
  refine le_trans (abs_le.2 ⟨?_, ?_⟩) h
  · norm_num at e ⊢; nlinarith
  · norm_num at e ⊢; nlinarith
theorem len3 : (Vec.fromArray (Vector.ofFn (![1, -2, 3] : Fin 3 → ℝ))).length ≤ 2 ^ 2 := by
  show Real.sqrt (Vec.squareLength _) ≤ _
  rw [Real.sqrt_le_left (by norm_num), Vec.squareLength3]
  show (1:ℝ) * 1 + (-2) * (-2) + 3 * 3 ≤ _
  norm_num
theorem len2 : (Vec.fromArray (Vector.ofFn (![1, -2] : Fin 2 → ℝ))).length ≤ 2 ^ 2 := by
  rw [← norm_planeC, planeC, ← Real.sqrt_sq (norm_nonneg _), ← Complex.normSq_eq_norm_sq, Complex.normSq_apply, Real.sqrt_le_left (by norm_num)]
  show (1:ℝ) * 1 + (-2) * (-2) ≤ _
  norm_num
theorem R2_lo : 1 / 2 ^ 400 ≤ R2.intoComplex.norm := by
  have := abs_le.1 (R2_unit le_rfl)
  norm_num at this ⊢; linarith
theorem R2_hi : R2.intoComplex.norm ≤ 2 := by
  have := abs_le.1 (R2_unit le_rfl)
  norm_num at this ⊢; linarith
end F64Ex
open F64Ex
example := C93_quaternion_mul r3.intoQuaternion r3.intoQuaternion _ _ r3_val r3_val (by rw [R3_norm]; norm_num)
example := C93_quaternion_div r3.intoQuaternion r3.intoQuaternion _ _ r3_val r3_val (by rw [R3_norm]; norm_num) (by rw [R3_norm]; norm_num)
  (by rw [R3_norm]; norm_num) (by rw [R3_norm]; norm_num)
example := C93_quaternion_self_div r3.intoQuaternion _ r3_val (by rw [R3_norm]; norm_num) (by rw [R3_norm]; norm_num)
example := C93_rotation3_apply r3 R3 _ _ 0 r3_val (valV ![1, -2, 3]) (R3_unit le_rfl) (by norm_num) (len3.trans (by norm_num))
example := C93_rotation3_inversion r3 R3 r3_val (R3_unit (by norm_num))
example := C93_rotation3_chain r3 r3 R3 R3 _ _ r3_val r3_val (valV ![1, -2, 3]) (R3_unit (by norm_num)) (R3_unit (by norm_num)) (len3.trans (by norm_num))
example := C93_rotation3_drift [r3, r3, r3] [R3, R3, R3] (by
  have : ValQ r3.intoQuaternion R3.intoQuaternion ∧ NearUnit3 (1 / 2 ^ 50) R3 := ⟨r3_val, R3_unit (by norm_num)⟩
  exact .cons this (.cons this (.cons this .nil))) (by simp)
example := C93_complex_mul r2.intoComplex r2.intoComplex _ _ r2_val r2_val
  ((mul_le_mul R2_hi R2_hi (by rw [cnorm_eq]; positivity) (by norm_num)).trans (by norm_num))
example := C93_complex_div r2.intoComplex r2.intoComplex _ _ r2_val r2_val R2_lo (R2_hi.trans (by norm_num)) R2_lo (R2_hi.trans (by norm_num))
example := C93_rotation2_apply r2 R2 _ _ (1 / 2 ^ 50) r2_val (valV ![1, -2]) (R2_unit le_rfl) (by norm_num) (len2.trans (by norm_num))
example := C93_rotation2_inversion r2 R2 r2_val (R2_unit le_rfl)
example := C93_rotation2_chain r2 r2 R2 R2 _ _ r2_val r2_val (valV ![1, -2]) (R2_unit (by norm_num)) (R2_unit (by norm_num)) (len2.trans (by norm_num))
example := C93_rotation2_drift [r2, r2, r2] [R2, R2, R2] (by
  have : ValC r2.intoComplex R2.intoComplex ∧ NearUnit2 (1 / 2 ^ 50) R2 := ⟨r2_val, R2_unit le_rfl⟩
  exact .cons this (.cons this (.cons this .nil))) (by simp)
end Vecmat
