import Verif.Model.Transform
import Verif.Lemmas.Moebius
import Verif.Props.Quaternion
import Mathlib.Analysis.Calculus.FDeriv.Mul
import Mathlib.Analysis.Calculus.Deriv.Inv
import Mathlib.Analysis.Calculus.Deriv.Add
import Mathlib.Analysis.Calculus.FDeriv.Equiv
/-!
# C48–C51: `Moebius<T>`
-/
set_option linter.unusedSectionVars false
namespace Vecmat
variable {T : Type}

/-! ## conversions -/

/-- The coefficient accessors and the conversions agree with the coefficients given to `new`. -/
theorem C48_coefficients (a b c d : T) : let m := Moebius.new a b c d
    m.a = a ∧ m.b = b ∧ m.c = c ∧ m.d = d ∧ m.intoTuple = (a, b, c, d) ∧ m.intoArray = #v[#v[a, b], #v[c, d]] ∧
    Moebius.fromTuple m.intoTuple = m ∧ Moebius.fromArray m.intoArray = m ∧ Moebius.fromMatrix m.intoMatrix = m ∧
    ∀ n : Moebius T, Moebius.new n.a n.b n.c n.d = n := by
  refine ⟨by simp, by simp, by simp, by simp, ?_, rfl, ?_, rfl, rfl, fun n => ?_⟩
  · simp [Moebius.intoTuple, Moebius.intoMatrix, Mat.intoVecVec]; exact ⟨rfl, rfl, rfl, rfl⟩
  · apply Moebius.ext_entries <;> simp [Moebius.intoTuple, Moebius.intoMatrix, Mat.intoVecVec, Moebius.fromTuple] <;> rfl
  · apply Moebius.ext_entries <;> simp

section
variable [Field T] [LinearOrder T] [IsStrictOrderedRing T]

/-! ## C48 composition -/

theorem Quat.hMul_C (c : Cpx T) (q : Quat T) : HMul.hMul c q = Quat.ofC c * q := (C45_complex q c).2.1
theorem Quat.hAdd_C (c : Cpx T) (q : Quat T) : HAdd.hAdd q c = q + Quat.ofC c := (C45_complex q c).2.2.1
theorem Quat.hMul_S (s : T) (q : Quat T) : HMul.hMul s q = Quat.ofS s * q := (C45_scalar q s).2.1
theorem Quat.hAdd_S (s : T) (q : Quat T) : HAdd.hAdd q s = q + Quat.ofS s := (C45_scalar q s).2.2.1
theorem Quat.ofS_mul (s t : T) : Quat.ofS (s * t) = Quat.ofS s * Quat.ofS t := (Quat.new_mul_new s t).symm
theorem Quat.ofS_add (s t : T) : Quat.ofS (s + t) = Quat.ofS s + Quat.ofS t := by apply Quat.ext' <;> simp [Quat.ofS]
theorem Quat.ofC_zero : Quat.ofC (0 : Cpx T) = 0 := by apply Quat.ext' <;> simp [Quat.ofC]

/-- `Moebius<T>` on scalars, `Moebius<Complex>` on complex points, `Moebius<Quaternion>` on quaternion points: coefficients and
points of the same kind. `a.chain(b)` is "first `b`, then `a`". -/
theorem C48_composition_scalar (m n : Moebius T) (x : T) (h : n.c * x + n.d ≠ 0) :
    (m.chain n).apply x = m.apply (n.apply x) :=
  Moebius.apply_chain id (fun _ _ => rfl) (fun _ _ => rfl) (fun _ _ => rfl) (fun _ _ => rfl) m n x h
theorem C48_composition_complex (m n : Moebius (Cpx T)) (x : Cpx T) (h : n.c * x + n.d ≠ 0) :
    (m.chain n).apply x = m.apply (n.apply x) :=
  Moebius.apply_chain id (fun _ _ => rfl) (fun _ _ => rfl) (fun _ _ => rfl) (fun _ _ => rfl) m n x h
theorem C48_composition_quaternion (m n : Moebius (Quat T)) (x : Quat T) (h : n.c * x + n.d ≠ 0) :
    (m.chain n).apply x = m.apply (n.apply x) :=
  Moebius.apply_chain (T := Quat T) (U := Quat T) id (fun _ _ => rfl) (fun _ _ => rfl) (fun _ _ => rfl) (fun _ _ => rfl) m n x h
/-- `Moebius<Complex>` on quaternion points. -/
theorem C48_composition_complex_on_quaternion (m n : Moebius (Cpx T)) (x : Quat T) (h : n.c * x + n.d ≠ 0) :
    (m.chain n).apply x = m.apply (n.apply x) :=
  Moebius.apply_chain (T := Cpx T) (U := Quat T) Quat.ofC Quat.hMul_C Quat.hAdd_C (fun a b => (C45_embedding a b).2.1) (fun a b => (C45_embedding a b).1)
    m n x (by rwa [← Quat.hMul_C, ← Quat.hAdd_C])
/-- `Moebius<T>` on quaternion points (real coefficients). -/
theorem C48_composition_scalar_on_quaternion (m n : Moebius T) (x : Quat T) (h : n.c * x + n.d ≠ 0) :
    (m.chain n).apply x = m.apply (n.apply x) :=
  Moebius.apply_chain (T := T) (U := Quat T) Quat.ofS Quat.hMul_S Quat.hAdd_S Quat.ofS_mul Quat.ofS_add m n x (by rwa [← Quat.hMul_S, ← Quat.hAdd_S])
theorem C48_identity (x : T) (z : Cpx T) (q : Quat T) :
    (Moebius.identity : Moebius T).apply x = x ∧ (Moebius.identity : Moebius (Cpx T)).apply z = z ∧
    (Moebius.identity : Moebius (Quat T)).apply q = q ∧ (Moebius.identity : Moebius (Cpx T)).apply q = q ∧
    (Moebius.identity : Moebius T).apply q = q :=
  ⟨Moebius.apply_identity id (fun _ _ => rfl) (fun _ _ => rfl) rfl rfl x,
    Moebius.apply_identity (T := Cpx T) (U := Cpx T) id (fun _ _ => rfl) (fun _ _ => rfl) rfl rfl z,
    Moebius.apply_identity (T := Quat T) (U := Quat T) id (fun _ _ => rfl) (fun _ _ => rfl) rfl rfl q,
    Moebius.apply_identity (T := Cpx T) (U := Quat T) Quat.ofC Quat.hMul_C Quat.hAdd_C Quat.ofC_zero (C45_embedding 1 1).2.2.1 q,
    Moebius.apply_identity (T := T) (U := Quat T) Quat.ofS Quat.hMul_S Quat.hAdd_S rfl rfl q⟩
theorem Cpx.hMul_S (s : T) (z : Cpx T) : HMul.hMul s z = Cpx.new s 0 * z := by
  change Cpx.sMul s z = _
  apply Cpx.ext' <;> simp [Cpx.sMul, mul_comm]
theorem Cpx.hAdd_S (s : T) (z : Cpx T) : HAdd.hAdd z s = z + Cpx.new s 0 := by
  change Cpx.addS z s = _
  apply Cpx.ext' <;> simp [Cpx.addS]
theorem Cpx.ofS_mul (s t : T) : Cpx.new (s * t) 0 = Cpx.new s 0 * Cpx.new t 0 := by apply Cpx.ext' <;> simp
theorem Cpx.ofS_add (s t : T) : Cpx.new (s + t) 0 = Cpx.new s 0 + Cpx.new t 0 := by apply Cpx.ext' <;> simp
/-- `Moebius<T>` on complex points (real coefficients). -/
theorem C48_composition_scalar_on_complex (m n : Moebius T) (x : Cpx T) (h : n.c * x + n.d ≠ 0) :
    (m.chain n).apply x = m.apply (n.apply x) :=
  Moebius.apply_chain (T := T) (U := Cpx T) (Cpx.new · 0) Cpx.hMul_S Cpx.hAdd_S Cpx.ofS_mul Cpx.ofS_add m n x
    (by rwa [← Cpx.hMul_S, ← Cpx.hAdd_S])
/-- Real coefficients act on complex and on quaternion points as the same coefficients read as complex numbers. -/
theorem C48_real_coefficients (a b c d : T) (z : Cpx T) (q : Quat T) :
    (Moebius.new a b c d).apply z = (Moebius.new (Cpx.new a 0) (Cpx.new b 0) (Cpx.new c 0) (Cpx.new d 0)).apply z ∧
    (Moebius.new a b c d).apply q = (Moebius.new (Cpx.new a 0) (Cpx.new b 0) (Cpx.new c 0) (Cpx.new d 0)).apply q ∧
    (Moebius.identity : Moebius T).apply z = z := by
  refine ⟨?_, ?_, Moebius.apply_identity (T := T) (U := Cpx T) (Cpx.new · 0) Cpx.hMul_S Cpx.hAdd_S rfl rfl z⟩
  · simp only [Moebius.apply, Cpx.hMul_S, Cpx.hAdd_S, C48_coefficients]
  · simp only [Moebius.apply, Quat.hMul_S, Quat.hAdd_S, Quat.hMul_C, Quat.hAdd_C, C48_coefficients]
    have : ∀ s : T, Quat.ofC (Cpx.new s 0) = Quat.ofS s := fun s => by apply Quat.ext' <;> simp [Quat.ofC, Quat.ofS]
    simp only [this]
/-- What `apply` computes, written with the embedding of the coefficients. -/
theorem C48_apply_formula (m : Moebius (Cpx T)) (z : Cpx T) (q : Quat T) :
    m.apply z = (m.a * z + m.b) / (m.c * z + m.d) ∧
    m.apply q = (Quat.ofC m.a * q + Quat.ofC m.b) / (Quat.ofC m.c * q + Quat.ofC m.d) := by
  refine ⟨rfl, ?_⟩
  rw [Moebius.apply, Quat.hAdd_C, Quat.hMul_C, Quat.hAdd_C, Quat.hMul_C]
/-- `chain` is associative and `identity` is its unit (as coefficient matrices, so for every kind of point). -/
theorem C48_chain_monoid (m n k : Moebius (Cpx T)) :
    (m.chain n).chain k = m.chain (n.chain k) ∧ Moebius.identity.chain m = m ∧ m.chain Moebius.identity = m := by
  refine ⟨?_, ?_, ?_⟩ <;> apply Moebius.ext <;> apply Mat.toMatrix_inj <;>
    simp [Moebius.chain, Moebius.identity, Mat.toMatrix_dotM, Mat.toMatrix_one, Matrix.mul_assoc]
/-- The `Transform` methods are these functions. -/
theorem C48_transform (m n : Moebius (Cpx T)) (z w : Cpx T) (q : Quat T) :
    Transform.apply m z = m.apply z ∧ Transform.apply m q = m.apply q ∧
    (Transform.chain (Cpx T) m n = m.chain n) ∧ (Transform.chain (Quat T) m n = m.chain n) ∧
    (Transform.inv (Cpx T) m = m.inv) ∧ (Transform.inv (Quat T) m = m.inv) ∧
    Transform.deriv m z w = m.deriv z * w := ⟨rfl, rfl, rfl, rfl, rfl, rfl, rfl⟩

/-! ## C49 inverse -/

theorem C49_inverse_complex (m : Moebius (Cpx T)) (hdet : m.det ≠ 0) (x : Cpx T) :
    (m.c * x + m.d ≠ 0 → m.inv.apply (m.apply x) = x) ∧ (m.inv.c * x + m.inv.d ≠ 0 → m.apply (m.inv.apply x) = x) :=
  ⟨fun h => (Moebius.apply_inv_of_chain (T := Cpx T) (U := Cpx T) id (fun _ _ => rfl) (fun _ _ => rfl) (fun _ _ => rfl) (fun _ _ => rfl) rfl rfl
      m.inv m x (Moebius.inv_chain m hdet).1 h).1,
    fun h => (Moebius.apply_inv_of_chain (T := Cpx T) (U := Cpx T) id (fun _ _ => rfl) (fun _ _ => rfl) (fun _ _ => rfl) (fun _ _ => rfl) rfl rfl
      m m.inv x (Moebius.inv_chain m hdet).2 h).1⟩
theorem C49_inverse_complex_on_quaternion (m : Moebius (Cpx T)) (hdet : m.det ≠ 0) (x : Quat T) :
    (m.c * x + m.d ≠ 0 → m.inv.apply (m.apply x) = x) ∧ (m.inv.c * x + m.inv.d ≠ 0 → m.apply (m.inv.apply x) = x) :=
  ⟨fun h => (Moebius.apply_inv_of_chain (T := Cpx T) (U := Quat T) Quat.ofC Quat.hMul_C Quat.hAdd_C (fun a b => (C45_embedding a b).2.1)
      (fun a b => (C45_embedding a b).1) Quat.ofC_zero (C45_embedding 1 1).2.2.1 m.inv m x (Moebius.inv_chain m hdet).1
      (by rwa [← Quat.hMul_C, ← Quat.hAdd_C])).1,
    fun h => (Moebius.apply_inv_of_chain (T := Cpx T) (U := Quat T) Quat.ofC Quat.hMul_C Quat.hAdd_C (fun a b => (C45_embedding a b).2.1)
      (fun a b => (C45_embedding a b).1) Quat.ofC_zero (C45_embedding 1 1).2.2.1 m m.inv x (Moebius.inv_chain m hdet).2
      (by rwa [← Quat.hMul_C, ← Quat.hAdd_C])).1⟩
/-- The poles: the inverse has its pole exactly at `a / c` (the image of infinity), and nowhere else if `c = 0`. -/
theorem C49_inverse_pole (m : Moebius (Cpx T)) (hdet : m.det ≠ 0) (x : Cpx T) :
    m.inv.c * x + m.inv.d = 0 ↔ m.a = m.c * x := by
  have e : m.inv.c * x + m.inv.d = (m.a - m.c * x) / m.det := by
    have h := Mat.toMatrix_inv m.mat
    have h10 := congrFun (congrFun h 1) 0
    have h11 := congrFun (congrFun h 1) 1
    rw [Matrix.inv_def, Matrix.adjugate_fin_two] at h10 h11
    simp only [Mat.toMatrix_apply] at h10 h11
    have hi : m.inv.mat = m.mat.inv := rfl
    simp only [Moebius.c_eq, Moebius.d_eq, Moebius.a_eq, hi]
    have hd : m.mat.toMatrix.det = m.det := (Mat.det_eq _).symm
    have k10 : m.mat.inv[1][0] = (m.det)⁻¹ * -m.mat[1][0] := by simpa [hd] using h10
    have k11 : m.mat.inv[1][1] = (m.det)⁻¹ * m.mat[0][0] := by simpa [hd] using h11
    rw [k10, k11]; ring
  rw [e, div_eq_zero_iff, sub_eq_zero]
  simp [hdet]
end

/-- For `Moebius<Quaternion>` the `inv` method is *not* an inverse, although the determinant and all denominators met are
nonzero: with `a = i, d = j, b = c = 0` the round trip of `1` is `-1`. -/
theorem C49_quaternion_coefficients_refuted : ∃ (m : Moebius (Quat ℚ)) (x : Quat ℚ),
    m.det ≠ 0 ∧ m.c * x + m.d ≠ 0 ∧ m.inv.c * m.apply x + m.inv.d ≠ 0 ∧ m.inv.apply (m.apply x) = -x ∧ x ≠ 0 := by
  let m : Moebius (Quat ℚ) := Moebius.new Quat.i 0 0 Quat.j
  have hij : (Quat.i * Quat.j : Quat ℚ) = Quat.k := by apply Quat.ext' <;> simp
  have hlap : ∀ (f : Nat → Nat → Quat ℚ) i j, Mat.lap f [i] [j] = f i j := by
    intro f i j; simp [Mat.lap, List.range_succ, Mat.sgn]
  have hdet : m.det = Quat.k := by
    have h := Mat.detR_eq m.mat
    rw [Moebius.det, show m.mat.det = _ from Res.get_eq h _]
    simp [Mat.lap, List.range_succ, Mat.sgn, Mat.ent, m, hij]
  obtain ⟨B, h1, h2⟩ := Mat.adjR_ok m.mat
  have hadj : m.mat.adj = B := Res.get_eq h1 _
  have hinv : ∀ i (hi : i < 2) j (hj : j < 2), m.inv.mat[i][j] = B[i][j] / Quat.k := by
    intro i hi j hj
    show (m.mat.inv)[i][j] = _
    rw [Mat.getElem_congr_mat (Mat.inv_eq m.mat) i hi j hj, Mat.getElem_divS, hadj]
    congr 1
  have b00 : B[0][0] = Quat.j := by rw [h2]; simp [List.range_succ, Mat.sgn, Mat.ent, hlap, m]
  have b01 : B[0][1] = 0 := by rw [h2]; simp [List.range_succ, Mat.sgn, Mat.ent, hlap, m]
  have b10 : B[1][0] = 0 := by rw [h2]; simp [List.range_succ, Mat.sgn, Mat.ent, hlap, m]
  have b11 : B[1][1] = Quat.i := by rw [h2]; simp [List.range_succ, Mat.sgn, Mat.ent, hlap, m]
  have kinv : (Quat.k : Quat ℚ).inv = -Quat.k := by
    rw [Quat.inv, Quat.normSqr_eq]; apply Quat.ext' <;> simp
  have jinv : (Quat.j : Quat ℚ).inv = -Quat.j := by
    rw [Quat.inv, Quat.normSqr_eq]; apply Quat.ext' <;> simp
  have c00 : m.inv.mat[0][0] = -Quat.i := by
    rw [hinv, b00, Quat.div_def, kinv]; apply Quat.ext' <;> simp
  have c01 : m.inv.mat[0][1] = 0 := by rw [hinv, b01, Quat.div_def, zero_mul]
  have c10 : m.inv.mat[1][0] = 0 := by rw [hinv, b10, Quat.div_def, zero_mul]
  have c11 : m.inv.mat[1][1] = Quat.j := by
    rw [hinv, b11, Quat.div_def, kinv]; apply Quat.ext' <;> simp
  have jne : (Quat.j : Quat ℚ) ≠ 0 := fun h => by simpa using congrArg Quat.y h
  refine ⟨m, 1, ?_, ?_, ?_, ?_, ?_⟩
  · rw [hdet]; intro h; simpa using congrArg Quat.z h
  · simpa [m] using jne
  · rw [Moebius.c_eq, Moebius.d_eq, c10, c11, zero_mul, zero_add]; exact jne
  · simp only [Moebius.apply, Moebius.a_eq, Moebius.b_eq, Moebius.c_eq, Moebius.d_eq, c00, c01, c10, c11, Quat.div_def, m,
      Moebius.new_00, Moebius.new_01, Moebius.new_10, Moebius.new_11, zero_mul, zero_add, jinv]
    apply Quat.ext' <;> simp
  · exact one_ne_zero

/-! ## C50 derivative -/

/-- `Moebius<Complex>::deriv` is the complex derivative of `apply` at every point that is not the pole. -/
theorem C50_deriv_complex (m : Moebius (Cpx ℝ)) (p : Cpx ℝ) (h : m.c * p + m.d ≠ 0) :
    HasDerivAt (fun z : ℂ => (m.apply (Cpx.new z.re z.im)).toC) (m.deriv p).toC p.toC := by
  have iso := C38_isomorphic.2.2.2.2
  have hz : ∀ z : ℂ, (Cpx.new z.re z.im).toC = z := fun z => by apply Complex.ext <;> simp [Cpx.toC]
  have hf : (fun z : ℂ => (m.apply (Cpx.new z.re z.im)).toC) =
      fun z => (m.a.toC * z + m.b.toC) / (m.c.toC * z + m.d.toC) := by
    funext z
    rw [Moebius.apply, (iso _ _).2.2.2.2.2, (iso _ _).1, (iso _ _).1, (iso _ _).2.2.2.1, (iso _ _).2.2.2.1, hz]
  have hd : m.c.toC * p.toC + m.d.toC ≠ 0 := by
    rw [← (iso _ _).2.2.2.1, ← (iso _ _).1, ← C38_isomorphic.2.1]
    exact fun e => h (C38_isomorphic.1.1 e)
  rw [hf]
  have h1 : HasDerivAt (fun z : ℂ => m.a.toC * z + m.b.toC) m.a.toC p.toC := by
    simpa using ((hasDerivAt_id p.toC).const_mul m.a.toC).add_const m.b.toC
  have h2 : HasDerivAt (fun z : ℂ => m.c.toC * z + m.d.toC) m.c.toC p.toC := by
    simpa using ((hasDerivAt_id p.toC).const_mul m.c.toC).add_const m.d.toC
  have h3 := h1.div h2 hd
  refine h3.congr_deriv ?_
  rw [Moebius.deriv, (iso _ _).2.2.2.2.2, (iso _ _).2.1, (iso _ _).2.2.2.1, (iso _ _).2.2.2.1, (iso _ _).2.2.2.1,
    (iso _ _).1, (iso _ _).1, (iso _ _).2.2.2.1, (iso _ _).2.2.2.1, pow_two]
/-- Closed form: `deriv(p) = det / (c p + d)²`; in particular it vanishes nowhere when `det ≠ 0` (the map is conformal). -/
theorem C50_deriv_closed_form [Field T] [LinearOrder T] [IsStrictOrderedRing T] (m : Moebius (Cpx T)) (p : Cpx T) :
    m.deriv p = m.det / ((m.c * p + m.d) * (m.c * p + m.d)) := by
  rw [Moebius.deriv, Moebius.det_two]
  congr 1
  ring

/-- `Transform<Quaternion>::deriv` (`deriv_dir`) is the Fréchet derivative of `apply` on quaternions at every point where the
denominator does not vanish; in particular it is the directional derivative in every direction. -/
theorem C50_deriv_quaternion (m : Moebius (Cpx ℝ)) (p : Quat ℝ) (h : m.c * p + m.d ≠ 0) :
    ∃ L : Quaternion ℝ →L[ℝ] Quaternion ℝ, (∀ v : Quat ℝ, L v.toH = (Transform.deriv m p v).toH) ∧
      HasFDerivAt (fun x : Quaternion ℝ => (m.apply (Quat.new x.re x.imI x.imJ x.imK)).toH) L p.toH := by
  have iso := (C43_isomorphic (T := ℝ)).2.2.2
  have isor := C43_isomorphic_real
  have hz : ∀ x : Quaternion ℝ, (Quat.new x.re x.imI x.imJ x.imK).toH = x := fun z => by
    apply Quaternion.ext <;> simp [Quat.toH]
  set A := (Quat.ofC m.a).toH with hA
  set B := (Quat.ofC m.b).toH with hB
  set C := (Quat.ofC m.c).toH with hC
  set D := (Quat.ofC m.d).toH with hD
  have happ : ∀ q : Quat ℝ, (m.apply q).toH = (A * q.toH + B) * (C * q.toH + D)⁻¹ := by
    intro q
    rw [(C48_apply_formula m 0 q).2, (isor _ _).2.1, (iso _ _).1, (iso _ _).1, (iso _ _).2.2.2.1, (iso _ _).2.2.2.1, div_eq_mul_inv]
  have hf : (fun x : Quaternion ℝ => (m.apply (Quat.new x.re x.imI x.imJ x.imK)).toH) =
      fun x => (A * x + B) * (C * x + D)⁻¹ := by
    funext x; rw [happ, hz]
  have hdq : (HAdd.hAdd (HMul.hMul m.c p) m.d : Quat ℝ) = Quat.ofC m.c * p + Quat.ofC m.d := by
    rw [Quat.hMul_C, Quat.hAdd_C]
  set dq := Quat.ofC m.c * p + Quat.ofC m.d with hdqdef
  have hdH : dq.toH = C * p.toH + D := by rw [hdqdef, (iso _ _).1, (iso _ _).2.2.2.1]
  have hd0 : dq ≠ 0 := by rw [← hdq]; exact h
  have hd : C * p.toH + D ≠ 0 := by
    rw [← hdH]
    intro e
    exact hd0 ((C43_isomorphic (T := ℝ)).1.1 (e.trans (C43_isomorphic (T := ℝ)).2.1.symm))
  have h1 : HasFDerivAt (fun x : Quaternion ℝ => A * x + B) (A • ContinuousLinearMap.id ℝ (Quaternion ℝ)) p.toH :=
    ((hasFDerivAt_id p.toH).const_mul A).add_const B
  have h2 : HasFDerivAt (fun x : Quaternion ℝ => C * x + D) (C • ContinuousLinearMap.id ℝ (Quaternion ℝ)) p.toH :=
    ((hasFDerivAt_id p.toH).const_mul C).add_const D
  have h3 := h1.mul' ((hasFDerivAt_inv' (𝕜 := ℝ) hd).comp p.toH h2)
  refine ⟨_, ?_, by rw [hf]; exact h3⟩
  intro v
  -- the algebra behind the code: `-d⁻¹ w d⁻¹ = (w* - 2 (d·w) d* / |d|²) / |d|²`
  have alg : ∀ d w : Quat ℝ, d ≠ 0 →
      ((w.conj - d.conj.mulS (d.dot w * two / d.normSqr)).divS d.normSqr) = -(d.inv * w * d.inv) := by
    intro d w hd
    have hn : d.normSqr ≠ 0 := fun e => hd ((C43_zero d).1.1 e)
    rw [Quat.normSqr_eq] at hn
    have hn2 : d.w ^ 2 + d.x ^ 2 + d.y ^ 2 + d.z ^ 2 ≠ 0 := by intro e; apply hn; linarith
    apply Quat.ext' <;>
      simp only [Quat.inv, Quat.w_divS, Quat.x_divS, Quat.y_divS, Quat.z_divS, Quat.w_sub, Quat.x_sub, Quat.y_sub, Quat.z_sub,
        Quat.w_mulS, Quat.x_mulS, Quat.y_mulS, Quat.z_mulS, Quat.w_conj, Quat.x_conj, Quat.y_conj, Quat.z_conj,
        Quat.w_neg, Quat.x_neg, Quat.y_neg, Quat.z_neg, Quat.w_mul, Quat.x_mul, Quat.y_mul, Quat.z_mul, Quat.normSqr_eq,
        Quat.dot_eq, two_eq] <;>
      field_simp <;> ring
  have hcode : Transform.deriv m p v = (Quat.ofC m.a * v) / dq +
      (Quat.ofC m.a * p + Quat.ofC m.b) * -(dq.inv * (Quat.ofC m.c * v) * dq.inv) := by
    show Moebius.derivDir m p v = _
    simp only [Moebius.derivDir, Quat.hMul_C, Quat.hAdd_C]
    rw [← hdqdef, alg dq _ hd0]
  rw [hcode, (iso _ _).1, (isor _ _).2.1, (iso _ _).2.2.2.1, (iso _ _).2.2.2.1, (iso _ p).2.2.1, (iso _ _).1, (iso _ _).2.2.2.1,
    (iso _ _).2.2.2.1, (iso _ _).2.2.2.1, (iso _ _).2.2.2.1, (isor _ p).1, hdH]
  simp [div_eq_mul_inv, -Moebius.a_eq, -Moebius.b_eq, -Moebius.c_eq, -Moebius.d_eq]
  rw [(iso _ _).1, (iso _ _).2.2.2.1]
  abel

/-! ## C51 normalization and determinant -/
section
variable [Field T] [LinearOrder T] [IsStrictOrderedRing T]
theorem C51_det_mul (m n : Moebius (Cpx T)) : (m.chain n).det = m.det * n.det := by
  simp [Moebius.det, Moebius.chain, Mat.det_eq, Mat.toMatrix_dotM]
theorem C51_det_formula (m : Moebius (Cpx T)) : m.det = m.a * m.d - m.b * m.c ∧ (Moebius.identity : Moebius (Cpx T)).det = 1 := by
  refine ⟨Moebius.det_two m, ?_⟩
  simp [Moebius.det, Moebius.identity, Mat.det_eq, Mat.toMatrix_one]
/-- `normalize()` does not change the transformation of complex points. -/
theorem C51_normalize_apply (m : Moebius (Cpx T)) (hdet : m.det ≠ 0) (x : Cpx T) : m.normalize.apply x = m.apply x := by
  simp only [Moebius.apply, Moebius.normalize, Moebius.a_eq, Moebius.b_eq, Moebius.c_eq, Moebius.d_eq, Mat.getElem_divS]
  rw [div_mul_eq_mul_div, ← add_div, div_mul_eq_mul_div, ← add_div, div_div_div_cancel_right₀ hdet]
/-- … and its determinant becomes `1 / det`, not `1`. -/
theorem C51_normalize_det (m : Moebius (Cpx T)) : m.normalize.det = 1 / m.det := by
  rw [Moebius.det_two]
  simp only [Moebius.normalize, Moebius.a_eq, Moebius.b_eq, Moebius.c_eq, Moebius.d_eq, Mat.getElem_divS]
  have h := Moebius.det_two m
  simp only [Moebius.a_eq, Moebius.b_eq, Moebius.c_eq, Moebius.d_eq] at h
  by_cases h0 : m.det = 0
  · simp [h0]
  · rw [div_mul_div_comm, div_mul_div_comm, ← sub_div, ← h, div_mul_cancel_left₀ h0, one_div]
/-- The determinant is nonzero exactly when distinct non-pole points have distinct images (the map is injective). -/
theorem C51_det_ne_zero_iff (m : Moebius (Cpx T)) (hcd : m.c ≠ 0 ∨ m.d ≠ 0) :
    m.det ≠ 0 ↔ ∀ x y : Cpx T, m.c * x + m.d ≠ 0 → m.c * y + m.d ≠ 0 → m.apply x = m.apply y → x = y := by
  have key : ∀ x y : Cpx T, m.c * x + m.d ≠ 0 → m.c * y + m.d ≠ 0 → (m.apply x = m.apply y ↔ m.det * (x - y) = 0) := by
    intro x y hx hy
    rw [Moebius.apply, Moebius.apply, div_eq_div_iff hx hy, Moebius.det_two, ← sub_eq_zero]
    have : (m.a * x + m.b) * (m.c * y + m.d) - (m.a * y + m.b) * (m.c * x + m.d) = (m.a * m.d - m.b * m.c) * (x - y) := by ring
    rw [this]
  constructor
  · intro hd x y hx hy h
    rw [key x y hx hy, mul_eq_zero] at h
    exact sub_eq_zero.1 (h.resolve_left hd)
  · intro h hd
    -- two distinct points off the pole
    obtain ⟨x, y, hxy, hx, hy⟩ : ∃ x y : Cpx T, x ≠ y ∧ m.c * x + m.d ≠ 0 ∧ m.c * y + m.d ≠ 0 := by
      by_cases hc : m.c = 0
      · have hd' : m.d ≠ 0 := hcd.resolve_left (fun h => h hc)
        exact ⟨0, 1, zero_ne_one, by rw [hc, zero_mul, zero_add]; exact hd', by rw [hc, zero_mul, zero_add]; exact hd'⟩
      · have h2 : (2 : Cpx T) ≠ 0 := by
          intro e
          have := congrArg Cpx.re e
          rw [show (2 : Cpx T) = 1 + 1 by norm_num] at this
          simp at this
        refine ⟨(1 - m.d) / m.c, (2 - m.d) / m.c, ?_, ?_, ?_⟩
        · intro e
          rw [div_left_inj' hc, sub_left_inj] at e
          have : (1 : Cpx T) = 0 := by linear_combination -e
          exact one_ne_zero this
        · rw [mul_div_cancel₀ _ hc, sub_add_cancel]; exact one_ne_zero
        · rw [mul_div_cancel₀ _ hc, sub_add_cancel]; exact h2
    exact hxy (h x y hx hy ((key x y hx hy).2 (by rw [hd, zero_mul])))
/-- On quaternion points `normalize()` keeps the transformation if the determinant is real … -/
theorem C51_normalize_quaternion_real (m : Moebius (Cpx T)) (hdet : m.det ≠ 0) (hre : m.det.im = 0) (x : Quat T)
    (h : m.c * x + m.d ≠ 0) : m.normalize.apply x = m.apply x := by
  have hs : Quat.ofC (1 / m.det) = Quat.ofS (m.det.re)⁻¹ := by
    have h1 : m.det.re ≠ 0 := fun e => hdet (Cpx.ext' (by simp [e]) (by simp [hre]))
    have e : (1 / m.det : Cpx T) = m.det.inv := by rw [Cpx.div_def, one_mul]
    rw [e]
    apply Quat.ext' <;> simp [Quat.ofC, Quat.ofS, Cpx.inv_re, Cpx.inv_im, hre]
  have hs0 : Quat.ofC (1 / m.det) ≠ 0 := by
    intro e
    have : (1 / m.det : Cpx T) = 0 := (C45_embedding (1 / m.det) 0).2.2.2.2.2 (by rw [e, Quat.ofC_zero])
    exact (one_div_ne_zero hdet) this
  have hcomm : ∀ q : Quat T, Quat.ofC (1 / m.det) * q = q * Quat.ofC (1 / m.det) := by
    intro q; rw [hs]; exact (Quat.new_mul_comm q _).symm
  rw [(C48_apply_formula _ 0 x).2, (C48_apply_formula _ 0 x).2]
  have hsc : ∀ c : Cpx T, Quat.ofC (c / m.det) = Quat.ofC c * Quat.ofC (1 / m.det) := by
    intro c; rw [← (C45_embedding _ _).2.1, mul_one_div]
  have h' : Quat.ofC m.c * x + Quat.ofC m.d ≠ 0 := by rwa [Quat.hMul_C, Quat.hAdd_C] at h
  simp only [Moebius.normalize, Moebius.a_eq, Moebius.b_eq, Moebius.c_eq, Moebius.d_eq, Mat.getElem_divS] at h' ⊢
  rw [hsc m.mat[0][0], hsc m.mat[0][1], hsc m.mat[1][0], hsc m.mat[1][1]]
  rw [mul_assoc _ _ x, mul_assoc _ _ x, hcomm x, ← mul_assoc, ← mul_assoc, ← add_mul, ← add_mul, mul_div_mul_right _ _ hs0]
end
/-- … but not in general: for `a = i, d = 1, b = c = 0` the point `j` goes to `k` before and to something else after
`normalize()`. -/
theorem C51_normalize_quaternion_refuted : ∃ (m : Moebius (Cpx ℚ)) (x : Quat ℚ),
    m.det ≠ 0 ∧ m.c * x + m.d ≠ 0 ∧ m.normalize.apply x ≠ m.apply x := by
  let m : Moebius (Cpx ℚ) := Moebius.new Cpx.i 0 0 1
  have hdet : m.det = Cpx.i := by rw [Moebius.det_two]; simp [m]
  have hii : (Cpx.i / Cpx.i : Cpx ℚ) = 1 := div_self (fun e => by simpa using congrArg Cpx.im e)
  have hi1 : (1 / Cpx.i : Cpx ℚ) = -Cpx.i := by
    rw [Cpx.div_def, one_mul]; apply Cpx.ext' <;> simp [Cpx.inv_re, Cpx.inv_im]
  refine ⟨m, Quat.j, ?_, ?_, ?_⟩
  · rw [hdet]; exact fun e => by simpa using congrArg Cpx.im e
  · rw [Quat.hMul_C, Quat.hAdd_C]
    intro e
    simpa [m, Quat.ofC] using congrArg Quat.w e
  · rw [(C48_apply_formula _ 0 _).2, (C48_apply_formula _ 0 _).2]
    have n00 : m.normalize.mat[0][0] = 1 := by simp only [Moebius.normalize, Mat.getElem_divS, hdet, m, Moebius.new_00, hii]
    have n01 : m.normalize.mat[0][1] = 0 := by simp [Moebius.normalize, Mat.getElem_divS, m]
    have n10 : m.normalize.mat[1][0] = 0 := by simp [Moebius.normalize, Mat.getElem_divS, m]
    have n11 : m.normalize.mat[1][1] = -Cpx.i := by simp only [Moebius.normalize, Mat.getElem_divS, hdet, m, Moebius.new_11, hi1]
    simp only [Moebius.a_eq, Moebius.b_eq, Moebius.c_eq, Moebius.d_eq, n00, n01, n10, n11]
    intro e
    have := congrArg Quat.z e
    rw [Quat.div_def, Quat.div_def] at this
    simp [m, Quat.ofC, Quat.inv, Quat.normSqr_eq] at this
    norm_num at this

example : (Moebius.new (Cpx.new 1 2) (Cpx.new 0 1) (Cpx.new 3 0) (Cpx.new 1 1) : Moebius (Cpx ℚ)).det ≠ 0 := by
  rw [Moebius.det_two]
  intro e
  have := congrArg Cpx.re e
  simp at this
  norm_num at this
example : (Moebius.new (Cpx.new 1 2) (Cpx.new 0 1) (Cpx.new 3 0) (Cpx.new 1 1) : Moebius (Cpx ℚ)).c * (Quat.new 1 2 3 4 : Quat ℚ) +
    (Moebius.new (Cpx.new 1 2) (Cpx.new 0 1) (Cpx.new 3 0) (Cpx.new 1 1) : Moebius (Cpx ℚ)).d ≠ 0 := by
  rw [Quat.hMul_C, Quat.hAdd_C]
  intro e
  have := congrArg Quat.w e
  simp [Quat.ofC] at this
  norm_num at this

/-! ## further cases: the hypotheses are satisfiable -/
/-- `x ↦ ((1+2i) x + i) / (3 x + 1 + i)`. -/
def Ex.moe : Moebius (Cpx ℚ) := Moebius.new (Cpx.new 1 2) (Cpx.new 0 1) (Cpx.new 3 0) (Cpx.new 1 1)
def Ex.moeQ : Moebius (Quat ℚ) := Moebius.new (Quat.new 1 2 0 1) (Quat.new 0 1 5 0) (Quat.new 3 0 0 1) (Quat.new 1 1 0 2)
def Ex.moeS : Moebius ℚ := Moebius.new 1 2 3 4
example := C48_composition_complex Ex.moe Ex.moe (Cpx.new 1 5) (by decide +kernel)
example := C48_composition_complex_on_quaternion Ex.moe Ex.moe (Quat.new 1 2 3 4) (by decide +kernel)
example := C48_composition_quaternion Ex.moeQ Ex.moeQ (Quat.new 1 2 3 4) (by decide +kernel)
example := C48_composition_scalar Ex.moeS Ex.moeS 7 (by decide +kernel)
example := C48_composition_scalar_on_complex Ex.moeS Ex.moeS (Cpx.new 1 5) (by decide +kernel)
example := C48_composition_scalar_on_quaternion Ex.moeS Ex.moeS (Quat.new 1 2 3 4) (by decide +kernel)
example : Ex.moe.inv.apply (Ex.moe.apply (Cpx.new 1 5)) = Cpx.new 1 5 := (C49_inverse_complex Ex.moe (by decide +kernel) (Cpx.new 1 5)).1 (by decide +kernel)
example : Ex.moe.apply (Ex.moe.inv.apply (Quat.new 1 2 3 4 : Quat ℚ)) = Quat.new 1 2 3 4 :=
  (C49_inverse_complex_on_quaternion Ex.moe (by decide +kernel) (Quat.new 1 2 3 4)).2 (by decide +kernel)
example := C49_inverse_pole Ex.moe (by decide +kernel) (Cpx.new 1 5)
theorem Ex.pole : (Moebius.new (Cpx.new 1 2) (Cpx.new 0 1) (Cpx.new 3 0) (Cpx.new 1 1) : Moebius (Cpx ℝ)).c * Cpx.new (1 : ℝ) 5 +
    (Moebius.new (Cpx.new 1 2) (Cpx.new 0 1) (Cpx.new 3 0) (Cpx.new 1 1) : Moebius (Cpx ℝ)).d ≠ 0 := fun e => by
  have := congrArg Cpx.re e; simp at this; norm_num at this
theorem Ex.poleQ : (Moebius.new (Cpx.new 1 2) (Cpx.new 0 1) (Cpx.new 3 0) (Cpx.new 1 1) : Moebius (Cpx ℝ)).c * (Quat.new 1 2 3 4 : Quat ℝ) +
    (Moebius.new (Cpx.new 1 2) (Cpx.new 0 1) (Cpx.new 3 0) (Cpx.new 1 1) : Moebius (Cpx ℝ)).d ≠ 0 := fun e => by
  rw [Quat.hMul_C, Quat.hAdd_C] at e
  have := congrArg Quat.w e
  simp [Quat.ofC] at this; norm_num at this
example := C50_deriv_complex _ _ Ex.pole
example := C50_deriv_quaternion _ _ Ex.poleQ
example := C51_det_ne_zero_iff Ex.moe (by decide +kernel)
example := C51_normalize_apply Ex.moe (by decide +kernel) (Cpx.new 1 5)
example := C51_normalize_quaternion_real (Moebius.new (Cpx.new 1 1) (Cpx.new 0 0) (Cpx.new 3 0) (Cpx.new 1 (-1)) : Moebius (Cpx ℚ))
  (by decide +kernel) (by decide +kernel) (Quat.new 1 2 3 4) (by decide +kernel)

end Vecmat
