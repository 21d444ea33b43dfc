import Verif.Lemmas.Complex
import Mathlib.Analysis.SpecialFunctions.Complex.Arg
import Mathlib.Analysis.Complex.Norm
import Mathlib.Analysis.SpecialFunctions.Complex.Log
/-!
# C38–C42: `Complex<T>`
-/
namespace Vecmat
variable {T : Type}
open scoped ComplexConjugate

/-- The mathematical complex number with the same components. -/
def Cpx.toC (z : Cpx ℝ) : ℂ := ⟨z.re, z.im⟩

/-! ## C38 ring and field laws -/

theorem C38_ring [CommRing T] (a b c : Cpx T) :
    (a + b) + c = a + (b + c) ∧ a + b = b + a ∧ a + 0 = a ∧ a + -a = 0 ∧ a - b = a + -b ∧
    (a * b) * c = a * (b * c) ∧ a * b = b * a ∧ a * 1 = a ∧ a * (b + c) = a * b + a * c :=
  ⟨add_assoc .., add_comm .., add_zero _, add_neg_cancel _, sub_eq_add_neg .., mul_assoc .., mul_comm .., mul_one _, mul_add ..⟩
theorem C38_i_sq [CommRing T] : (Cpx.i * Cpx.i : Cpx T) = -1 := by apply Cpx.ext' <;> simp
/-- Every complex number is `re + im·i`, and components determine it. -/
theorem C38_components [CommRing T] (z w : Cpx T) :
    z = Cpx.new z.re 0 + Cpx.new z.im 0 * Cpx.i ∧ ((z.re = w.re ∧ z.im = w.im) ↔ z = w) ∧
    (∀ a b : T, (Cpx.new a b).re = a ∧ (Cpx.new a b).im = b) := by
  refine ⟨by apply Cpx.ext' <;> simp, ⟨fun h => Cpx.ext' h.1 h.2, fun h => by simp [h]⟩, fun a b => by simp⟩
theorem C38_inverse [Field T] (w : Cpx T) (h : w.normSqr ≠ 0) :
    w * w.inv = 1 ∧ w.inv * w = 1 ∧ ∀ z : Cpx T, (z / w) * w = z ∧ (z * w) / w = z := by
  have h1 := Cpx.mul_inv_of_normSqr w h
  refine ⟨h1, by rw [mul_comm, h1], fun z => ⟨?_, ?_⟩⟩
  · rw [Cpx.div_def, mul_assoc, mul_comm w.inv, h1, mul_one]
  · rw [Cpx.div_def, mul_assoc, h1, mul_one]
/-- Over an ordered field (e.g. the reals) only `zero()` has `norm_sqr == 0`, so every other number is invertible; `is_zero`
recognises exactly `zero()`. -/
theorem C38_zero [Field T] [LinearOrder T] [IsStrictOrderedRing T] (z : Cpx T) :
    (z.normSqr = 0 ↔ z = 0) ∧ (IsZero.isZero z = true ↔ z = 0) := by
  refine ⟨Cpx.normSqr_eq_zero z, ?_⟩
  show (z.vec.toList.all IsZero.isZero) = true ↔ _
  have : z.vec.toList = [z.re, z.im] := by simp [Vec.toList_eq_ofFn]
  simp only [this, List.all_cons, List.all_nil, Bool.and_true, Bool.and_eq_true, isZero_iff]
  exact ⟨fun h => Cpx.ext' (by simp [h.1]) (by simp [h.2]), by rintro rfl; simp⟩
/-- Over the reals `Complex` is the field of complex numbers: the obvious map is bijective and preserves all operations,
including `inv` and `/` (with the convention that dividing by zero gives zero on both sides). -/
theorem C38_isomorphic : Function.Bijective Cpx.toC ∧
    Cpx.toC 0 = 0 ∧ Cpx.toC 1 = 1 ∧ Cpx.toC Cpx.i = Complex.I ∧
    ∀ z w : Cpx ℝ, (z + w).toC = z.toC + w.toC ∧ (z - w).toC = z.toC - w.toC ∧ (-z).toC = -z.toC ∧
      (z * w).toC = z.toC * w.toC ∧ z.inv.toC = z.toC⁻¹ ∧ (z / w).toC = z.toC / w.toC := by
  have hinv : ∀ z : Cpx ℝ, z.inv.toC = z.toC⁻¹ := by
    intro z
    apply Complex.ext
    · simp [Cpx.toC, Cpx.inv_re, Complex.inv_re, Complex.normSq_apply]
    · simp [Cpx.toC, Cpx.inv_im, Complex.inv_im, Complex.normSq_apply]
  have hmul : ∀ z w : Cpx ℝ, (z * w).toC = z.toC * w.toC := by
    intro z w; apply Complex.ext <;> simp [Cpx.toC]
  refine ⟨⟨fun z w h => ?_, fun c => ⟨Cpx.new c.re c.im, ?_⟩⟩, ?_, ?_, ?_, fun z w => ⟨?_, ?_, ?_, hmul z w, hinv z, ?_⟩⟩
  · exact Cpx.ext' (congrArg Complex.re h) (congrArg Complex.im h)
  · apply Complex.ext <;> simp [Cpx.toC]
  · apply Complex.ext <;> simp [Cpx.toC]
  · apply Complex.ext <;> simp [Cpx.toC]
  · apply Complex.ext <;> simp [Cpx.toC]
  · apply Complex.ext <;> simp [Cpx.toC]
  · apply Complex.ext <;> simp [Cpx.toC]
  · apply Complex.ext <;> simp [Cpx.toC]
  · rw [Cpx.div_def, hmul, hinv, div_eq_mul_inv]

example : (Cpx.new 1 2 : Cpx Int) * Cpx.new 3 4 = Cpx.new (-5) 10 := by apply Cpx.ext' <;> simp
/-- The hypothesis of `C38_inverse` is met, and the quotient is the expected one. -/
example : (Cpx.new 3 4 : Cpx ℚ).normSqr ≠ 0 ∧ (Cpx.new 1 0 : Cpx ℚ) / Cpx.new 3 4 = Cpx.new (3/25) (-4/25) := by
  refine ⟨by rw [Cpx.normSqr_eq]; norm_num, ?_⟩
  rw [Cpx.div_def]; apply Cpx.ext' <;> simp [Cpx.inv_re, Cpx.inv_im] <;> norm_num

/-! ## C39 conjugation and norm -/

theorem C39_conj [CommRing T] (z w : Cpx T) :
    z.conj.conj = z ∧ (z + w).conj = z.conj + w.conj ∧ (z * w).conj = z.conj * w.conj ∧ (1 : Cpx T).conj = 1 ∧
    z.conj.re = z.re ∧ z.conj.im = -z.im ∧
    z * z.conj = Cpx.new z.normSqr 0 ∧ z.normSqr = z.re * z.re + z.im * z.im := by
  refine ⟨?_, ?_, ?_, ?_, by simp, by simp, ?_, Cpx.normSqr_eq z⟩ <;> (try rw [Cpx.normSqr_eq]) <;> apply Cpx.ext' <;> simp <;> ring
theorem C39_normSqr_mul [CommRing T] (z w : Cpx T) : (z * w).normSqr = z.normSqr * w.normSqr ∧ z.conj.normSqr = z.normSqr := by
  constructor <;> simp only [Cpx.normSqr_eq] <;> simp <;> ring
theorem C39_dot [CommRing T] (z w : Cpx T) : z.dot w = (z * w.conj).re ∧ z.dot z = z.normSqr := by
  constructor
  · simp [Cpx.dot_eq]
  · rw [Cpx.dot_eq, Cpx.normSqr_eq]
theorem C39_norm_real (z w : Cpx ℝ) :
    z.norm = ‖z.toC‖ ∧ z.norm = Real.sqrt (z.re ^ 2 + z.im ^ 2) ∧ z.norm ^ 2 = z.normSqr ∧ (z * w).norm = z.norm * w.norm ∧
    (z + w).norm ≤ z.norm + w.norm ∧ z.conj.toC = conj z.toC := by
  have h : ∀ z : Cpx ℝ, z.norm = ‖z.toC‖ := by
    intro z
    show FloatOps.sqrt z.normSqr = _
    rw [Cpx.normSqr_eq, sqrt_real, Complex.norm_def, Complex.normSq_apply]; rfl
  have hs : z.norm = Real.sqrt (z.re ^ 2 + z.im ^ 2) := by
    show FloatOps.sqrt z.normSqr = _
    rw [Cpx.normSqr_eq, sqrt_real, sq, sq]
  refine ⟨h z, hs, ?_, ?_, ?_, ?_⟩
  · rw [hs, Real.sq_sqrt (by positivity), Cpx.normSqr_eq]; ring
  · rw [h, h, h, (C38_isomorphic.2.2.2.2 z w).2.2.2.1, norm_mul]
  · rw [h, h, h, (C38_isomorphic.2.2.2.2 z w).1]; exact norm_add_le _ _
  · apply Complex.ext <;> simp [Cpx.toC]
/-- `normalize` divides by the norm; a nonzero number becomes a unit number. -/
theorem C39_normalize (z : Cpx ℝ) (h : z ≠ 0) : z.normalize.norm = 1 ∧ z.normalize.mulS z.norm = z := by
  have hn : z.norm ≠ 0 := by
    rw [(C39_norm_real z z).1]
    intro e
    apply h
    apply C38_isomorphic.1.1
    rw [norm_eq_zero.1 e, C38_isomorphic.2.1]
  have hz : 0 ≤ z.norm := by rw [(C39_norm_real z z).1]; exact norm_nonneg _
  constructor
  · have e : z.normalize.toC = z.toC / (z.norm : ℂ) := by
      apply Complex.ext
      · simp [Cpx.toC, Cpx.normalize, Complex.div_ofReal_re]
      · simp [Cpx.toC, Cpx.normalize, Complex.div_ofReal_im]
    rw [(C39_norm_real _ z).1, e, norm_div, ← (C39_norm_real z z).1, Complex.norm_real, Real.norm_of_nonneg hz, div_self hn]
  · apply Cpx.ext' <;> simp [Cpx.normalize, div_mul_cancel₀ _ hn]

example : (Cpx.new 3 4 : Cpx ℝ).norm = 5 := by
  rw [(C39_norm_real _ 0).2.1]; simp
  rw [show (3 : ℝ) ^ 2 + 4 ^ 2 = 5 ^ 2 by norm_num, Real.sqrt_sq (by norm_num)]

/-! ## C40 mixed operators -/

theorem C40_add_sub [CommRing T] (z : Cpx T) (s : T) :
    z.addS s = z + Cpx.new s 0 ∧ z.subS s = z - Cpx.new s 0 ∧ Cpx.sAdd s z = Cpx.new s 0 + z ∧
    Cpx.sSub s z = Cpx.new s 0 - z ∧ z.mulS s = z * Cpx.new s 0 ∧ Cpx.sMul s z = Cpx.new s 0 * z := by
  refine ⟨?_, ?_, ?_, ?_, ?_, ?_⟩ <;> apply Cpx.ext' <;> simp [Cpx.sAdd, Cpx.sSub, Cpx.sMul, mul_comm, add_comm, sub_eq_add_neg]
theorem C40_div [Field T] (z : Cpx T) (s : T) :
    z.divS s = z / Cpx.new s 0 ∧ Cpx.sDiv s z = Cpx.new s 0 / z := by
  constructor
  · rw [Cpx.div_def]
    by_cases hs : s = 0
    · subst hs; apply Cpx.ext' <;> simp [Cpx.inv_re, Cpx.inv_im]
    · apply Cpx.ext' <;> simp [Cpx.inv_re, Cpx.inv_im] <;> field_simp
  · rw [Cpx.div_def]; apply Cpx.ext' <;> simp [Cpx.sDiv, Cpx.sMul, mul_comm]
/-- Assignment forms, for arbitrary scalar operations. -/
theorem C40_assign [Neg T] [Add T] [Sub T] [Mul T] [Div T] (z w : Cpx T) (s : T) :
    z.addAssign w = z + w ∧ z.subAssign w = z - w ∧ z.mulAssign w = z * w ∧ z.divAssign w = z / w ∧
    z.addAssignS s = z.addS s ∧ z.subAssignS s = z.subS s ∧ z.mulAssignS s = z.mulS s ∧ z.divAssignS s = z.divS s := by
  refine ⟨?_, ?_, rfl, rfl, ?_, ?_, rfl, rfl⟩
  · apply Cpx.ext' <;> simp [Cpx.addAssign, Vec.addAssign]
  · apply Cpx.ext' <;> simp [Cpx.subAssign, Vec.subAssign]
  · apply Cpx.ext' <;> simp [Cpx.addAssignS]
  · apply Cpx.ext' <;> simp [Cpx.subAssignS]
/-- Iterator `sum`/`product`. -/
theorem C40_iter [CommRing T] (l : List (Cpx T)) : Cpx.iterSum l = l.sum ∧ Cpx.iterProduct l = l.prod := by
  refine ⟨?_, ?_⟩
  · rw [Cpx.iterSum, List.sum_eq_foldl]
  · rw [Cpx.iterProduct, List.prod_eq_foldl]

example : Cpx.sSub 5 (Cpx.new 1 2 : Cpx Int) = Cpx.new 4 (-2) := by apply Cpx.ext' <;> simp [Cpx.sSub]

/-! ## C41 polar form -/

theorem C41_arg (z : Cpx ℝ) : z.arg = z.toC.arg ∧ -Real.pi < z.arg ∧ z.arg ≤ Real.pi := by
  have : z.arg = z.toC.arg := rfl
  rw [this]; exact ⟨rfl, Complex.neg_pi_lt_arg _, Complex.arg_le_pi _⟩
theorem Cpx.toC_fromPolar (r t : ℝ) : (Cpx.fromPolar r t).toC = r * (Complex.cos t + Complex.sin t * Complex.I) := by
  apply Complex.ext
  · simp [Cpx.toC, Cpx.fromPolar, ← Complex.ofReal_cos, ← Complex.ofReal_sin]
  · simp [Cpx.toC, Cpx.fromPolar, ← Complex.ofReal_cos, ← Complex.ofReal_sin]
theorem C41_from_to (z : Cpx ℝ) : Cpx.fromPolar z.toPolar.1 z.toPolar.2 = z := by
  apply C38_isomorphic.1.1
  rw [Cpx.toC_fromPolar, Cpx.toPolar, (C39_norm_real z z).1, (C41_arg z).1]
  exact Complex.norm_mul_cos_add_sin_mul_I _
theorem C41_to_from (r t : ℝ) (hr : 0 < r) (h1 : -Real.pi < t) (h2 : t ≤ Real.pi) :
    (Cpx.fromPolar r t).toPolar = (r, t) := by
  apply Prod.ext
  · show (Cpx.fromPolar r t).norm = r
    rw [(C39_norm_real _ 0).2.1]
    have : (Cpx.fromPolar r t).re ^ 2 + (Cpx.fromPolar r t).im ^ 2 = r ^ 2 := by
      simp only [Cpx.fromPolar, Cpx.re_new, Cpx.im_new, cos_real, sin_real]
      nlinarith [Real.sin_sq_add_cos_sq t]
    rw [this, Real.sqrt_sq hr.le]
  · show (Cpx.fromPolar r t).arg = t
    rw [(C41_arg _).1, Cpx.toC_fromPolar]
    exact Complex.arg_mul_cos_add_sin_mul_I hr ⟨h1, h2⟩
/-- Products multiply norms and add arguments (as angles, i.e. modulo `2π`). -/
theorem C41_mul (z w : Cpx ℝ) (hz : z ≠ 0) (hw : w ≠ 0) :
    (z * w).norm = z.norm * w.norm ∧ ((z * w).arg : Real.Angle) = (z.arg : Real.Angle) + (w.arg : Real.Angle) := by
  have ne : ∀ z : Cpx ℝ, z ≠ 0 → z.toC ≠ 0 := fun z hz e => hz (C38_isomorphic.1.1 (by rw [e, C38_isomorphic.2.1]))
  refine ⟨(C39_norm_real z w).2.2.2.1, ?_⟩
  rw [(C41_arg _).1, (C41_arg z).1, (C41_arg w).1, (C38_isomorphic.2.2.2.2 z w).2.2.2.1]
  exact Complex.arg_mul_coe_angle (ne z hz) (ne w hw)
/-- `from_polar` turns sums of angles into products, with no restriction on the angles. -/
theorem C41_from_polar_mul (r s a b : ℝ) : Cpx.fromPolar r a * Cpx.fromPolar s b = Cpx.fromPolar (r * s) (a + b) := by
  apply Cpx.ext' <;> simp [Cpx.fromPolar, Real.cos_add, Real.sin_add] <;> ring

example : (Cpx.fromPolar (2 : ℝ) 1).toPolar = (2, 1) :=
  C41_to_from 2 1 (by norm_num) (by linarith [Real.two_le_pi]) (by linarith [Real.two_le_pi])

/-! ## C42 matrix representation -/

theorem Cpx.getElem_intoMatrix [Neg T] (z : Cpx T) :
    z.intoMatrix[0][0] = z.re ∧ z.intoMatrix[0][1] = -z.im ∧ z.intoMatrix[1][0] = z.im ∧ z.intoMatrix[1][1] = z.re := by
  unfold Cpx.intoMatrix; rw [Cpx.intoTuple_eq]; exact ⟨rfl, rfl, rfl, rfl⟩
theorem Cpx.toMatrix_intoMatrix [Neg T] (z : Cpx T) : z.intoMatrix.toMatrix = !![z.re, -z.im; z.im, z.re] := by
  obtain ⟨h1, h2, h3, h4⟩ := Cpx.getElem_intoMatrix z
  ext i j
  fin_cases i <;> fin_cases j
  · exact h1
  · exact h2
  · exact h3
  · exact h4
theorem C42_homomorphism [CommRing T] (z w : Cpx T) :
    (z * w).intoMatrix = z.intoMatrix.dotM w.intoMatrix ∧ (z + w).intoMatrix = z.intoMatrix + w.intoMatrix ∧
    (1 : Cpx T).intoMatrix = 1 ∧ z.conj.intoMatrix = z.intoMatrix.transpose ∧ (z.intoMatrix = w.intoMatrix → z = w) := by
  refine ⟨?_, ?_, ?_, ?_, ?_⟩
  · apply Mat.toMatrix_inj; rw [Mat.toMatrix_dotM]; simp only [Cpx.toMatrix_intoMatrix, Matrix.mul_fin_two]
    ext i j; fin_cases i <;> fin_cases j <;> simp <;> ring
  · have h : ∀ A B : Mat T 2 2, (A + B).toMatrix = A.toMatrix + B.toMatrix := fun A B => by ext i j; simp
    apply Mat.toMatrix_inj; rw [h]; simp only [Cpx.toMatrix_intoMatrix]
    ext i j; fin_cases i <;> fin_cases j <;> simp; ring
  · apply Mat.toMatrix_inj; rw [Mat.toMatrix_one, Cpx.toMatrix_intoMatrix]
    ext i j; fin_cases i <;> fin_cases j <;> simp
  · apply Mat.toMatrix_inj; rw [Mat.toMatrix_transpose]; simp only [Cpx.toMatrix_intoMatrix]
    ext i j; fin_cases i <;> fin_cases j <;> simp
  · intro h
    have h1 := Cpx.getElem_intoMatrix z
    have h2 := Cpx.getElem_intoMatrix w
    rw [h] at h1
    exact Cpx.ext' (h1.1.symm.trans h2.1) (h1.2.2.1.symm.trans h2.2.2.1)
theorem C42_det [CommRing T] (z : Cpx T) : z.intoMatrix.det = z.normSqr := by
  rw [Mat.det_eq, Cpx.toMatrix_intoMatrix, Matrix.det_fin_two_of, Cpx.normSqr_eq]; ring
/-- Applying the matrix to the component vector is multiplication. -/
theorem C42_apply [CommRing T] (z w : Cpx T) : z.intoMatrix.dotV w.intoVector = (z * w).intoVector := by
  obtain ⟨h1, h2, h3, h4⟩ := Cpx.getElem_intoMatrix z
  apply Vec.ext_getElem; intro i hi
  rw [Mat.getElem_dotV_sum, Fin.sum_univ_two]
  match i, hi with
  | 0, _ =>
    simp only [Fin.val_zero, Fin.val_one, Cpx.intoVector, h1, h2, Cpx.re_eq, Cpx.im_eq, Cpx.re_mul]; ring
  | 1, _ =>
    simp only [Fin.val_zero, Fin.val_one, Cpx.intoVector, h3, h4, Cpx.re_eq, Cpx.im_eq, Cpx.im_mul]; ring

example : (Cpx.new 1 2 : Cpx Int).intoMatrix = ⟨⟨#v[⟨#v[1, -2]⟩, ⟨#v[2, 1]⟩]⟩⟩ := by decide

/-! ## further cases: the hypotheses are satisfiable -/
example := C38_inverse (Cpx.new 3 4 : Cpx ℚ) (by decide +kernel)
example := C39_normalize (Cpx.new 3 4) (fun h => by have := congrArg Cpx.im h; norm_num at this)
example := C41_mul (Cpx.new 3 4) (Cpx.new (-1) 2) (fun h => by have := congrArg Cpx.im h; norm_num at this) (fun h => by have := congrArg Cpx.im h; norm_num at this)

end Vecmat
