import Verif.Lemmas.Quaternion
import Verif.Props.Complex
import Mathlib.Analysis.Quaternion
/-!
# C43–C47: `Quaternion<T>`
-/
namespace Vecmat
variable {T : Type}

/-- The quaternion of Mathlib with the same components. -/
def Quat.toH [CommRing T] (q : Quat T) : Quaternion T := ⟨q.w, q.x, q.y, q.z⟩
@[simp] theorem Quat.toH_re [CommRing T] (q : Quat T) : q.toH.re = q.w := rfl
@[simp] theorem Quat.toH_imI [CommRing T] (q : Quat T) : q.toH.imI = q.x := rfl
@[simp] theorem Quat.toH_imJ [CommRing T] (q : Quat T) : q.toH.imJ = q.y := rfl
@[simp] theorem Quat.toH_imK [CommRing T] (q : Quat T) : q.toH.imK = q.z := rfl
/-- A complex number seen as the quaternion `re + im i`. -/
def Quat.ofC [Zero T] (c : Cpx T) : Quat T := Quat.new c.re c.im 0 0
/-- A scalar seen as a quaternion. -/
def Quat.ofS [Zero T] (s : T) : Quat T := Quat.new s 0 0 0

/-! ## C43 Hamilton's quaternions -/

theorem C43_ring [CommRing T] (a b c : Quat T) :
    (a + b) + c = a + (b + c) ∧ a + b = b + a ∧ a + 0 = a ∧ a + -a = 0 ∧ a - b = a + -b ∧
    (a * b) * c = a * (b * c) ∧ a * 1 = a ∧ 1 * a = a ∧ a * (b + c) = a * b + a * c ∧ (a + b) * c = a * c + b * c :=
  ⟨add_assoc .., add_comm .., add_zero _, add_neg_cancel _, sub_eq_add_neg .., mul_assoc .., mul_one _, one_mul _,
    mul_add .., add_mul ..⟩
theorem C43_units [CommRing T] :
    (Quat.i * Quat.i : Quat T) = -1 ∧ (Quat.j * Quat.j : Quat T) = -1 ∧ (Quat.k * Quat.k : Quat T) = -1 ∧
    (Quat.i * Quat.j * Quat.k : Quat T) = -1 ∧ (Quat.i * Quat.j : Quat T) = Quat.k ∧ (Quat.j * Quat.k : Quat T) = Quat.i ∧
    (Quat.k * Quat.i : Quat T) = Quat.j ∧ (Quat.j * Quat.i : Quat T) = -Quat.k := by
  refine ⟨?_, ?_, ?_, ?_, ?_, ?_, ?_, ?_⟩ <;> apply Quat.ext' <;> simp
theorem C43_isomorphic [CommRing T] : Function.Bijective (Quat.toH (T := T)) ∧
    Quat.toH (0 : Quat T) = 0 ∧ Quat.toH (1 : Quat T) = 1 ∧
    ∀ p q : Quat T, (p + q).toH = p.toH + q.toH ∧ (p - q).toH = p.toH - q.toH ∧ (-p).toH = -p.toH ∧
      (p * q).toH = p.toH * q.toH ∧ p.conj.toH = star p.toH := by
  refine ⟨⟨fun p q h => ?_, fun c => ⟨Quat.new c.re c.imI c.imJ c.imK, ?_⟩⟩, ?_, ?_, fun p q => ⟨?_, ?_, ?_, ?_, ?_⟩⟩
  · exact Quat.ext' (congrArg QuaternionAlgebra.re h) (congrArg QuaternionAlgebra.imI h)
      (congrArg QuaternionAlgebra.imJ h) (congrArg QuaternionAlgebra.imK h)
  · apply Quaternion.ext <;> simp
  · apply Quaternion.ext <;> simp <;> rfl
  · apply Quaternion.ext <;> simp <;> rfl
  · apply Quaternion.ext <;> simp
  · apply Quaternion.ext <;> simp
  · apply Quaternion.ext <;> simp
  · apply Quaternion.ext <;> simp
  · apply Quaternion.ext <;> simp
/-- Over the reals the isomorphism also respects `inv`, `/` and `norm_sqr`. -/
theorem C43_isomorphic_real (p q : Quat ℝ) :
    p.inv.toH = p.toH⁻¹ ∧ (p / q).toH = p.toH / q.toH ∧ p.normSqr = Quaternion.normSq p.toH ∧ p.norm = ‖p.toH‖ := by
  have hn : ∀ p : Quat ℝ, p.normSqr = Quaternion.normSq p.toH := by
    intro p; rw [Quat.normSqr_eq, Quaternion.normSq_def']; simp only [Quat.toH]; ring
  have hinv : ∀ p : Quat ℝ, p.inv.toH = p.toH⁻¹ := by
    intro p
    rw [Quaternion.instInv]
    show _ = (Quaternion.normSq p.toH)⁻¹ • star p.toH
    rw [← hn]
    apply Quaternion.ext <;> simp [Quat.inv, div_eq_inv_mul]
  refine ⟨hinv p, ?_, hn p, ?_⟩
  · rw [Quat.div_def, (C43_isomorphic.2.2.2 p q.inv).2.2.2.1, hinv, div_eq_mul_inv]
  · show FloatOps.sqrt p.normSqr = _
    rw [hn, sqrt_real, Quaternion.normSq_eq_norm_mul_self, Real.sqrt_mul_self (norm_nonneg _)]
theorem C43_inverse [Field T] (q : Quat T) (h : q.normSqr ≠ 0) :
    q * q.inv = 1 ∧ q.inv * q = 1 ∧ ∀ a : Quat T, (a / q) * q = a ∧ (a * q) / q = a ∧ a / q = a * q.inv := by
  have h1 := Quat.mul_inv_of_normSqr q h
  have h2 := Quat.inv_mul_of_normSqr q h
  refine ⟨h1, h2, fun a => ⟨?_, ?_, rfl⟩⟩
  · rw [Quat.div_def, mul_assoc, h2, mul_one]
  · rw [Quat.div_def, mul_assoc, h1, mul_one]
theorem C43_zero [Field T] [LinearOrder T] [IsStrictOrderedRing T] (q : Quat T) :
    (q.normSqr = 0 ↔ q = 0) ∧ (IsZero.isZero q = true ↔ q = 0) := by
  refine ⟨Quat.normSqr_eq_zero q, ?_⟩
  show (q.vec.toList.all IsZero.isZero) = true ↔ _
  have : q.vec.toList = [q.w, q.x, q.y, q.z] := by simp [Vec.toList_eq_ofFn]
  simp only [this, List.all_cons, List.all_nil, Bool.and_true, Bool.and_eq_true, isZero_iff]
  exact ⟨fun h => Quat.ext' (by simp [h.1]) (by simp [h.2]) (by simp [h.2]) (by simp [h.2]), by rintro rfl; simp⟩
/-- The product is not commutative (so `a / b` must be read as `a * inv(b)`, not `inv(b) * a`). -/
theorem C43_not_commutative : ∃ a b : Quat Int, a * b ≠ b * a ∧ a ≠ 0 ∧ b ≠ 0 :=
  ⟨Quat.i, Quat.j, fun h => absurd (congrArg Quat.z h) (by simp), fun h => absurd (congrArg Quat.x h) (by simp),
    fun h => absurd (congrArg Quat.y h) (by simp)⟩

example : (Quat.new 1 2 3 4 : Quat ℚ).normSqr ≠ 0 := by rw [Quat.normSqr_eq]; simp; norm_num
example : (Quat.new 1 2 3 4 : Quat Int) * Quat.new 5 6 7 8 = Quat.new (-60) 12 30 24 := by apply Quat.ext' <;> simp

/-! ## C44 conjugation and norm -/

theorem C44_conj [CommRing T] (p q : Quat T) :
    q.conj.conj = q ∧ (p + q).conj = p.conj + q.conj ∧ (p * q).conj = q.conj * p.conj ∧ (1 : Quat T).conj = 1 ∧
    q * q.conj = Quat.ofS q.normSqr ∧ q.conj * q = Quat.ofS q.normSqr ∧
    q.normSqr = q.w * q.w + q.x * q.x + q.y * q.y + q.z * q.z := by
  refine ⟨?_, ?_, ?_, ?_, Quat.mul_conj q, Quat.conj_mul q, Quat.normSqr_eq q⟩ <;> apply Quat.ext' <;> simp <;> ring
theorem C44_normSqr_mul [CommRing T] (p q : Quat T) :
    (p * q).normSqr = p.normSqr * q.normSqr ∧ q.conj.normSqr = q.normSqr := by
  constructor <;> simp only [Quat.normSqr_eq] <;> simp <;> ring
theorem C44_dot [CommRing T] (p q : Quat T) : p.dot q = (p * q.conj).w ∧ p.dot q = (p.conj * q).w ∧ q.dot q = q.normSqr := by
  refine ⟨?_, ?_, ?_⟩
  · simp [Quat.dot_eq]
  · simp [Quat.dot_eq]
  · rw [Quat.dot_eq, Quat.normSqr_eq]
/-- The law of cosines and the parallelogram law. -/
theorem C44_law_of_cosines [CommRing T] (p q : Quat T) :
    (p + q).normSqr = p.normSqr + q.normSqr + 2 * p.dot q ∧ (p - q).normSqr = p.normSqr + q.normSqr - 2 * p.dot q ∧
    (p + q).normSqr + (p - q).normSqr = 2 * (p.normSqr + q.normSqr) := by
  refine ⟨?_, ?_, ?_⟩ <;> simp only [Quat.normSqr_eq, Quat.dot_eq] <;> simp <;> ring
theorem C44_norm_real (p q : Quat ℝ) :
    q.norm = Real.sqrt (q.w ^ 2 + q.x ^ 2 + q.y ^ 2 + q.z ^ 2) ∧ q.norm ^ 2 = q.normSqr ∧ (p * q).norm = p.norm * q.norm ∧
    (p + q).norm ≤ p.norm + q.norm := by
  refine ⟨?_, ?_, ?_, ?_⟩
  · show FloatOps.sqrt q.normSqr = _
    rw [Quat.normSqr_eq, sqrt_real]; congr 1; ring
  · show (FloatOps.sqrt q.normSqr) ^ 2 = _
    rw [sqrt_real, Real.sq_sqrt]
    rw [Quat.normSqr_eq]
    linarith [mul_self_nonneg q.w, mul_self_nonneg q.x, mul_self_nonneg q.y, mul_self_nonneg q.z]
  · rw [(C43_isomorphic_real _ p).2.2.2, (C43_isomorphic_real p p).2.2.2, (C43_isomorphic_real q p).2.2.2,
      (C43_isomorphic.2.2.2 p q).2.2.2.1, norm_mul]
  · rw [(C43_isomorphic_real _ p).2.2.2, (C43_isomorphic_real p p).2.2.2, (C43_isomorphic_real q p).2.2.2,
      (C43_isomorphic.2.2.2 p q).1]
    exact norm_add_le _ _
theorem C44_normalize (q : Quat ℝ) (h : q ≠ 0) : q.normalize.norm = 1 ∧ q.normalize.mulS q.norm = q := by
  have h2 := (C44_norm_real q q).2.1
  have hn : q.norm ≠ 0 := fun e => h ((C43_zero q).1.1 (by rw [← h2, e]; ring))
  constructor
  · have e : q.normalize.normSqr = 1 := by
      have h3 : q.norm ^ 2 = q.w * q.w + q.x * q.x + q.y * q.y + q.z * q.z := by rw [h2, Quat.normSqr_eq]
      rw [Quat.normSqr_eq]; simp only [Quat.normalize, Quat.w_divS, Quat.x_divS, Quat.y_divS, Quat.z_divS]
      field_simp
      linarith
    show FloatOps.sqrt q.normalize.normSqr = 1
    rw [e]; simp
  · apply Quat.ext' <;> simp [Quat.normalize, div_mul_cancel₀ _ hn]

/-! ## C45 mixed operators -/

theorem C45_complex [CommRing T] (q : Quat T) (c : Cpx T) :
    q.mulC c = q * Quat.ofC c ∧ Quat.cMul c q = Quat.ofC c * q ∧
    q.addC c = q + Quat.ofC c ∧ Quat.cAdd c q = Quat.ofC c + q ∧
    q.subC c = q - Quat.ofC c ∧ Quat.cSub c q = Quat.ofC c - q := by
  refine ⟨?_, ?_, ?_, ?_, ?_, ?_⟩ <;> apply Quat.ext' <;>
    simp [Quat.mulC, Quat.cMul, Quat.addC, Quat.cAdd, Quat.subC, Quat.cSub, Quat.ofC, sub_eq_add_neg, add_comm]
theorem C45_scalar [CommRing T] (q : Quat T) (s : T) :
    q.mulS s = q * Quat.ofS s ∧ Quat.sMul s q = Quat.ofS s * q ∧
    q.addS s = q + Quat.ofS s ∧ Quat.sAdd s q = Quat.ofS s + q ∧
    q.subS s = q - Quat.ofS s ∧ Quat.sSub s q = Quat.ofS s - q := by
  refine ⟨?_, ?_, ?_, ?_, ?_, ?_⟩ <;> apply Quat.ext' <;>
    simp [Quat.sMul, Quat.addS, Quat.sAdd, Quat.subS, Quat.sSub, Quat.ofS, sub_eq_add_neg, add_comm, mul_comm]
/-- The embedding of complex numbers is an injective ring homomorphism compatible with `inv`. -/
theorem C45_embedding [CommRing T] (a b : Cpx T) :
    Quat.ofC (a + b) = Quat.ofC a + Quat.ofC b ∧ Quat.ofC (a * b) = Quat.ofC a * Quat.ofC b ∧
    Quat.ofC (1 : Cpx T) = 1 ∧ Quat.ofC a.conj = (Quat.ofC a).conj ∧ (Quat.ofC a).normSqr = a.normSqr ∧
    (Quat.ofC a = Quat.ofC b → a = b) := by
  refine ⟨?_, ?_, ?_, ?_, ?_, fun h => Cpx.ext' ?_ ?_⟩
  · apply Quat.ext' <;> simp [Quat.ofC]
  · apply Quat.ext' <;> simp [Quat.ofC]
  · apply Quat.ext' <;> simp [Quat.ofC]
  · apply Quat.ext' <;> simp [Quat.ofC]
  · rw [Quat.normSqr_eq, Cpx.normSqr_eq]; simp [Quat.ofC]
  · simpa [Quat.ofC] using congrArg Quat.w h
  · simpa [Quat.ofC] using congrArg Quat.x h
theorem C45_inv_embedding [Field T] (c : Cpx T) : Quat.ofC c.inv = (Quat.ofC c).inv := by
  have h := (C45_embedding c c).2.2.2.2.1
  apply Quat.ext' <;> simp only [Quat.inv, Cpx.inv, h] <;> simp [Quat.ofC]
theorem C45_div [Field T] (q : Quat T) (c : Cpx T) (s : T) :
    q.divC c = q / Quat.ofC c ∧ Quat.cDiv c q = Quat.ofC c / q ∧ q.divS s = q / Quat.ofS s ∧
    Quat.sDiv s q = Quat.ofS s / q := by
  refine ⟨?_, ?_, ?_, ?_⟩
  · rw [Quat.divC, (C45_complex q c.inv).1, C45_inv_embedding]; rfl
  · rw [Quat.cDiv, (C45_complex q.inv c).2.1]; rfl
  · rw [Quat.div_def]
    have e : (Quat.ofS s).inv = Quat.new s⁻¹ 0 0 0 := by
      rw [Quat.inv, Quat.normSqr_eq]
      by_cases hs : s = 0
      · subst hs; apply Quat.ext' <;> simp [Quat.ofS]
      · apply Quat.ext' <;> simp [Quat.ofS]
    rw [e, Quat.divS_eq_mul]
  · rw [Quat.sDiv, (C45_scalar q.inv s).2.1]; rfl
/-- Assignment forms, for arbitrary scalar operations. -/
theorem C45_assign [Neg T] [Add T] [Sub T] [Mul T] [Div T] (p q : Quat T) (c : Cpx T) (s : T) :
    p.addAssign q = p + q ∧ p.subAssign q = p - q ∧ p.mulAssign q = p * q ∧ p.divAssign q = p / q ∧
    p.addAssignC c = p.addC c ∧ p.subAssignC c = p.subC c ∧ p.mulAssignC c = p.mulC c ∧ p.divAssignC c = p.divC c ∧
    p.addAssignS s = p.addS s ∧ p.subAssignS s = p.subS s ∧ p.mulAssignS s = p.mulS s ∧ p.divAssignS s = p.divS s := by
  refine ⟨?_, ?_, rfl, rfl, ?_, ?_, rfl, rfl, ?_, ?_, rfl, rfl⟩
  · apply Quat.ext' <;> simp [Quat.addAssign, Vec.addAssign]
  · apply Quat.ext' <;> simp [Quat.subAssign, Vec.subAssign]
  · apply Quat.ext' <;> simp [Quat.addAssignC, Quat.addC]
  · apply Quat.ext' <;> simp [Quat.subAssignC, Quat.subC]
  · apply Quat.ext' <;> simp [Quat.addAssignS, Quat.addS]
  · apply Quat.ext' <;> simp [Quat.subAssignS, Quat.subS]
/-- Iterator `sum`; iterator `product` multiplies from left to right. -/
theorem C45_iter [CommRing T] (l : List (Quat T)) : Quat.iterSum l = l.sum ∧ Quat.iterProduct l = l.prod := by
  refine ⟨?_, ?_⟩
  · rw [Quat.iterSum, List.sum_eq_foldl]
  · rw [Quat.iterProduct, List.prod_eq_foldl]

example : (Quat.new 1 2 3 4 : Quat Int).mulC (Cpx.new 5 6) = Quat.new (-7) 16 39 2 := by
  apply Quat.ext' <;> simp [Quat.mulC]

/-! ## C46 matrix representation -/

theorem Quat.toMatrix_intoMatrix [Neg T] (q : Quat T) : q.intoMatrix.toMatrix =
    !![q.w, -q.x, -q.y, -q.z; q.x, q.w, -q.z, q.y; q.y, q.z, q.w, -q.x; q.z, -q.y, q.x, q.w] := by
  unfold Quat.intoMatrix; rw [Quat.intoTuple_eq]
  ext i j
  fin_cases i <;> fin_cases j <;> rfl
theorem C46_homomorphism [CommRing T] (p q : Quat T) :
    (p * q).intoMatrix = p.intoMatrix.dotM q.intoMatrix ∧ (p + q).intoMatrix = p.intoMatrix + q.intoMatrix ∧
    (1 : Quat T).intoMatrix = 1 ∧ q.conj.intoMatrix = q.intoMatrix.transpose ∧ (p.intoMatrix = q.intoMatrix → p = q) := by
  refine ⟨?_, ?_, ?_, ?_, ?_⟩
  · apply Mat.toMatrix_inj; rw [Mat.toMatrix_dotM]; simp only [Quat.toMatrix_intoMatrix]
    ext i j
    rw [Matrix.mul_apply, Fin.sum_univ_four]
    fin_cases i <;> fin_cases j <;> simp <;> ring
  · have h : ∀ A B : Mat T 4 4, (A + B).toMatrix = A.toMatrix + B.toMatrix := fun A B => by ext i j; simp
    apply Mat.toMatrix_inj; rw [h]; simp only [Quat.toMatrix_intoMatrix]
    ext i j; fin_cases i <;> fin_cases j <;> simp <;> ring
  · apply Mat.toMatrix_inj; rw [Mat.toMatrix_one, Quat.toMatrix_intoMatrix]
    ext i j; fin_cases i <;> fin_cases j <;> simp
  · apply Mat.toMatrix_inj; rw [Mat.toMatrix_transpose]; simp only [Quat.toMatrix_intoMatrix]
    ext i j; fin_cases i <;> fin_cases j <;> simp
  · intro h
    have h' := congrArg Mat.toMatrix h
    rw [Quat.toMatrix_intoMatrix, Quat.toMatrix_intoMatrix] at h'
    exact Quat.ext' (congrFun (congrFun h' 0) 0) (congrFun (congrFun h' 1) 0) (congrFun (congrFun h' 2) 0)
      (congrFun (congrFun h' 3) 0)
theorem C46_det [CommRing T] (q : Quat T) : q.intoMatrix.det = q.normSqr ^ 2 := by
  rw [Mat.det_eq, Quat.toMatrix_intoMatrix, Quat.normSqr_eq]
  simp [Matrix.det_succ_row_zero, Fin.sum_univ_succ, Fin.succAbove]
  ring
theorem C46_apply [CommRing T] (p q : Quat T) : p.intoMatrix.dotV q.intoVector = (p * q).intoVector := by
  have hc : ∀ (i j : Fin 4), p.intoMatrix[i.1][j.1] = p.intoMatrix.toMatrix i j := fun _ _ => rfl
  apply Vec.ext_getElem; intro i hi
  rw [Mat.getElem_dotV_sum]
  have e := fun k : Fin 4 => hc ⟨i, hi⟩ k
  simp only at e
  simp only [e, Quat.toMatrix_intoMatrix, Fin.sum_univ_four]
  match i, hi with
  | 0, _ => simp [Quat.intoVector]; ring
  | 1, _ => simp [Quat.intoVector]; ring
  | 2, _ => simp [Quat.intoVector]; ring
  | 3, _ => simp [Quat.intoVector]; ring

example : (Quat.new 1 2 3 4 : Quat Int).intoMatrix =
    ⟨⟨#v[⟨#v[1, -2, -3, -4]⟩, ⟨#v[2, 1, -4, 3]⟩, ⟨#v[3, 4, 1, -2]⟩, ⟨#v[4, -3, 2, 1]⟩]⟩⟩ := by decide

/-! ## C47 unimplemented operations -/

/-- `%` on quaternions panics with "not implemented", whatever the operands. -/
theorem C47_rem_panics (p q : Quat T) : p.remR q = .error .unimplementedOp := rfl
theorem C47_from_str_radix_panics {E : Type} (s : String) (radix : Nat) :
    (Quat.fromStrRadixR s radix : Res (Except E (Quat T))) = .error .unimplementedOp := rfl

/-! ## further cases: the hypotheses are satisfiable -/
example := C43_inverse (Quat.new 1 2 3 4 : Quat ℚ) (by decide +kernel)
example := C44_normalize (Quat.new 1 2 3 4) (fun h => by have := congrArg Quat.x h; norm_num at this)

end Vecmat
