import Verif.Lemmas.Units
import Verif.Props.IeeeCompose
import Verif.Props.Square
/-!
# C117: data in other units
Rounding to a binary format commutes with multiplication by a power of two as long as no result overflows or falls below the smallest
normal number.  So data given in units that differ by a power of two (another power for each argument, row or column) give the same
results in the corresponding unit, bit for bit: the two computed values differ by exactly that power of two.
-/
namespace Vecmat
open Spec Ieee
variable {φ : Fmt} {L M N : Nat} {k l m s t : ℤ}

theorem Spec.Rescales.mk {a b : Fl (normal φ)} {d e : Ieee φ} (h1 : SimN d a) (h2 : SimN e b) (h : W k a b) : Rescales k a b d e :=
  fun _ _ hr hs => ⟨h1 _ hr, h2 _ hs, h _ _ hr hs⟩
namespace W
theorem vec {v w : Vec (Ieee φ) N} (h : ∀ i : Fin N, Scaled k v[i.1] w[i.1]) : RelV (W k) (v.map strict) (w.map strict) :=
  fun i hi => by rw [Vec.getElem_map, Vec.getElem_map]; exact of_scaled (h ⟨i, hi⟩)
theorem mat {p q : ℕ → ℤ} {A B : Mat (Ieee φ) N N} (h : ∀ i j : Fin N, Scaled (p i + q j) A[i.1][j.1] B[i.1][j.1]) :
    MM p q (A.map strict) (B.map strict) :=
  fun i hi j hj => by rw [Mat.getElem_map, Mat.getElem_map]; exact of_scaled (h ⟨i, hi⟩ ⟨j, hj⟩)
theorem cpx {z w : Cpx (Ieee φ)} (h : ScaledC k z w) : RelC (W k) (mapC strict z) (mapC strict w) := by
  refine ⟨?_, ?_⟩
  · simpa [mapC] using of_scaled h.1
  · simpa [mapC] using of_scaled h.2
theorem quat {z w : Quat (Ieee φ)} (h : ScaledQ k z w) : RelQ (W k) (mapQ strict z) (mapQ strict w) := by
  refine ⟨?_, ?_, ?_, ?_⟩
  · simpa [mapQ] using of_scaled h.1
  · simpa [mapQ] using of_scaled h.2.1
  · simpa [mapQ] using of_scaled h.2.2.1
  · simpa [mapQ] using of_scaled h.2.2.2
theorem map_sum (p : ℕ → ℤ) : ((List.range N).map p).sum = ∑ i ∈ Finset.range N, p i := rfl
end W
theorem Spec.RescalesC.mk {a b : Cpx (Fl (normal φ))} {d e : Cpx (Ieee φ)} (h1 : RelC SimN d a) (h2 : RelC SimN e b) (h : RelC (W k) a b) :
    RescalesC k a b d e := ⟨.mk h1.1 h2.1 h.1, .mk h1.2 h2.2 h.2⟩
theorem Spec.RescalesQ.mk {a b : Quat (Fl (normal φ))} {d e : Quat (Ieee φ)} (h1 : RelQ SimN d a) (h2 : RelQ SimN e b) (h : RelQ (W k) a b) :
    RescalesQ k a b d e := ⟨.mk h1.1 h2.1 h.1, .mk h1.2.1 h2.2.1 h.2.1, .mk h1.2.2.1 h2.2.2.1 h.2.2.1, .mk h1.2.2.2 h2.2.2.2 h.2.2.2⟩

/-! ## vectors -/
/-- Sum of the components. -/
theorem C117_sum [NeZero N] (v v' : Vec (Ieee φ) N) (hv : ∀ i : Fin N, Scaled k v[i.1] v'[i.1]) : ∃ d e, v.sumR = .ok d ∧ v'.sumR = .ok e ∧
    Rescales k (v.map strict).sum (v'.map strict).sum d e :=
  ⟨_, _, Vec.sum_ok v, Vec.sum_ok v', .mk (opRel_simN.vSum (simNV v)) (opRel_simN.vSum (simNV v')) (W.sum dyadic_normal (W.vec hv))⟩
/-- Dot product: the exponents of the units add up. -/
theorem C117_dot [NeZero N] (v v' w w' : Vec (Ieee φ) N) (hv : ∀ i : Fin N, Scaled k v[i.1] v'[i.1]) (hw : ∀ i : Fin N, Scaled l w[i.1] w'[i.1]) :
    ∃ d e, v.dotR w = .ok d ∧ v'.dotR w' = .ok e ∧
      Rescales (k + l) ((v.map strict).dot (w.map strict)) ((v'.map strict).dot (w'.map strict)) d e :=
  ⟨_, _, Vec.dot_ok v w, Vec.dot_ok v' w', .mk (opRel_simN.vDot (simNV v) (simNV w)) (opRel_simN.vDot (simNV v') (simNV w'))
    (W.dot dyadic_normal (W.vec hv) (W.vec hw))⟩
/-- Length: in the unit of the components. -/
theorem C117_length [NeZero N] (v v' : Vec (Ieee φ) N) (hv : ∀ i : Fin N, Scaled k v[i.1] v'[i.1]) : ∃ d e, v.lengthR = .ok d ∧ v'.lengthR = .ok e ∧
    Rescales k (v.map strict).length (v'.map strict).length d e :=
  ⟨_, _, Vec.length_ok v, Vec.length_ok v', .mk (simN_sqrt (opRel_simN.vSquareLength (simNV v))) (simN_sqrt (opRel_simN.vSquareLength (simNV v')))
    (W.length dyadic_normal (W.vec hv))⟩
/-- Normalisation does not depend on the unit. -/
theorem C117_normalize [NeZero N] (v v' : Vec (Ieee φ) N) (hv : ∀ i : Fin N, Scaled k v[i.1] v'[i.1]) :
    ∃ w w', v.normalizeR = .ok w ∧ v'.normalizeR = .ok w' ∧
      ∀ i : Fin N, Rescales 0 (v.map strict).normalize[i.1] (v'.map strict).normalize[i.1] w[i.1] w'[i.1] := by
  have hs : ∀ v : Vec (Ieee φ) N, RelV SimN v.normalize (v.map strict).normalize := fun v i hi => by
    rw [Vec.normalize, Vec.normalize, Vec.getElem_divS, Vec.getElem_divS]
    exact simN_div (simNV v i hi) (simN_sqrt (opRel_simN.vSquareLength (simNV v)))
  exact ⟨_, _, Vec.normalize_ok v, Vec.normalize_ok v', fun i => .mk (hs v i i.2) (hs v' i i.2) (W.normalize dyadic_normal (W.vec hv) i i.2)⟩
/-- Cross products. -/
theorem C117_cross2 (v v' w w' : Vec (Ieee φ) 2) (hv : ∀ i : Fin 2, Scaled k v[i.1] v'[i.1]) (hw : ∀ i : Fin 2, Scaled l w[i.1] w'[i.1]) :
    Rescales (k + l) ((v.map strict).cross2 (w.map strict)) ((v'.map strict).cross2 (w'.map strict)) (v.cross2 w) (v'.cross2 w') :=
  .mk (opRel_simN.cross2 (simNV v) (simNV w)) (opRel_simN.cross2 (simNV v') (simNV w')) (W.cross2 dyadic_normal (W.vec hv) (W.vec hw))
theorem C117_cross3 (v v' w w' : Vec (Ieee φ) 3) (hv : ∀ i : Fin 3, Scaled k v[i.1] v'[i.1]) (hw : ∀ i : Fin 3, Scaled l w[i.1] w'[i.1]) (i : Fin 3) :
    Rescales (k + l) ((v.map strict).cross3 (w.map strict))[i.1] ((v'.map strict).cross3 (w'.map strict))[i.1] (v.cross3 w)[i.1] (v'.cross3 w')[i.1] :=
  .mk (opRel_simN.cross3 (simNV v) (simNV w) i i.2) (opRel_simN.cross3 (simNV v') (simNV w') i i.2) (W.cross3 dyadic_normal (W.vec hv) (W.vec hw) i i.2)

/-! ## matrices: a unit for each row and each column -/
/-- Matrix times vector: the vector's components in the units that cancel those of the columns. -/
theorem C117_mat_vec [NeZero N] (p q : ℕ → ℤ) (A A' : Mat (Ieee φ) N N) (v v' : Vec (Ieee φ) N)
    (hA : ∀ i j : Fin N, Scaled (p i + q j) A[i.1][j.1] A'[i.1][j.1]) (hv : ∀ j : Fin N, Scaled (k - q j) v[j.1] v'[j.1]) :
    ∃ w w', A.dotVR v = .ok w ∧ A'.dotVR v' = .ok w' ∧ ∀ i : Fin N,
      Rescales (p i + k) ((A.map strict).dotV (v.map strict))[i.1] ((A'.map strict).dotV (v'.map strict))[i.1] w[i.1] w'[i.1] := by
  have hs : ∀ (A : Mat (Ieee φ) N N) (v : Vec (Ieee φ) N), RelV SimN (A.dotV v) ((A.map strict).dotV (v.map strict)) := fun A v i hi => by
    rw [Mat.getElem_dotV _ _ _ hi, Mat.getElem_dotV _ _ _ hi]; exact opRel_simN.vDot (simNM A i hi) (simNV v)
  refine ⟨_, _, Res.ok_get _ (Mat.dotVR_ok A v), Res.ok_get _ (Mat.dotVR_ok A' v'), fun i => .mk (hs A v i i.2) (hs A' v' i i.2)
    (W.dotV dyadic_normal (W.mat hA) (fun j hj => ?_) i i.2)⟩
  rw [Vec.getElem_map, Vec.getElem_map]; exact W.of_scaled (hv ⟨j, hj⟩)
/-- Matrix product. -/
theorem C117_mat_mat [NeZero N] (p q r : ℕ → ℤ) (A A' B B' : Mat (Ieee φ) N N)
    (hA : ∀ i j : Fin N, Scaled (p i + q j) A[i.1][j.1] A'[i.1][j.1]) (hB : ∀ i j : Fin N, Scaled (k - q i + r j) B[i.1][j.1] B'[i.1][j.1]) :
    ∃ X X', A.dotMR B = .ok X ∧ A'.dotMR B' = .ok X' ∧ ∀ i j : Fin N,
      Rescales (p i + k + r j) ((A.map strict).dotM (B.map strict))[i.1][j.1] ((A'.map strict).dotM (B'.map strict))[i.1][j.1] X[i.1][j.1] X'[i.1][j.1] := by
  have hs : ∀ (A B : Mat (Ieee φ) N N), RelM SimN (A.dotM B) ((A.map strict).dotM (B.map strict)) := fun A B =>
    CompEx.dotM_rel opRel_simN (simNM A) (simNM B)
  refine ⟨_, _, Res.ok_get _ (Mat.dotMR_ok A B), Res.ok_get _ (Mat.dotMR_ok A' B'), fun i j => .mk (hs A B i i.2 j j.2) (hs A' B' i i.2 j j.2) ?_⟩
  rw [Mat.getElem_dotM _ _ _ i.2 _ j.2, Mat.getElem_dotM _ _ _ i.2 _ j.2]
  refine W.dotG dyadic_normal (p := fun x => p i + q x) (q := fun x => k - q x + r j) (fun x => by ring) (W.mat hA i i.2) fun x hx => ?_
  rw [Mat.getElem_colOf, Mat.getElem_colOf, Mat.getElem_map, Mat.getElem_map]; exact W.of_scaled (hB ⟨x, hx⟩ j)
/-- Determinant: in the product of the units of all rows and columns. -/
theorem C117_det (p q : ℕ → ℤ) (A A' : Mat (Ieee φ) N N) (hA : ∀ i j : Fin N, Scaled (p i + q j) A[i.1][j.1] A'[i.1][j.1]) :
    ∃ d e, A.detR = .ok d ∧ A'.detR = .ok e ∧
      Rescales (∑ i ∈ Finset.range N, (p i + q i)) (A.map strict).det (A'.map strict).det d e := by
  refine ⟨_, _, Res.ok_get A.detR (Mat.detR_ok A), Res.ok_get A'.detR (Mat.detR_ok A'), .mk (opRel_simN.det (simNM A)) (opRel_simN.det (simNM A')) ?_⟩
  refine (W.det dyadic_normal (W.mat hA)).cast ?_
  rw [W.map_sum, W.map_sum, Finset.sum_add_distrib]
/-- Inverse: in the inverse units, rows and columns exchanged. -/
theorem C117_inverse (p q : ℕ → ℤ) (A A' : Mat (Ieee φ) N N) (hA : ∀ i j : Fin N, Scaled (p i + q j) A[i.1][j.1] A'[i.1][j.1]) (i j : Fin N) :
    Rescales (-p j - q i) (A.map strict).inv[i.1][j.1] (A'.map strict).inv[i.1][j.1] A.inv[i.1][j.1] A'.inv[i.1][j.1] := by
  rw [Mat.getElem_congr_mat (Mat.inv_eq A) i i.2 j j.2, Mat.getElem_congr_mat (Mat.inv_eq A') i i.2 j j.2,
    Mat.getElem_congr_mat (Mat.inv_eq (A.map strict)) i i.2 j j.2, Mat.getElem_congr_mat (Mat.inv_eq (A'.map strict)) i i.2 j j.2]
  have hs : ∀ A : Mat (Ieee φ) N N, SimN (A.adj.divS A.det)[i.1][j.1] ((A.map strict).adj.divS (A.map strict).det)[i.1][j.1] := fun A => by
    rw [Mat.getElem_divS, Mat.getElem_divS]
    exact simN_div (opRel_simN.adj (simNM A) i.1 i.2 j.1 j.2) (opRel_simN.det (simNM A))
  exact .mk (hs A) (hs A') (W.inv dyadic_normal (W.mat hA) i i.2 j j.2)

/-! ## complex numbers and quaternions -/
theorem Ieee.simN_cInv {z : Cpx (Ieee φ)} {w : Cpx (Fl (normal φ))} (h : RelC SimN z w) : RelC SimN z.inv w.inv := by
  have hn := opRel_simN.cNormSqr h
  exact ⟨by simpa [Cpx.inv] using simN_div h.1 hn, by simpa [Cpx.inv] using simN_div (opRel_simN.neg h.2) hn⟩
theorem Ieee.simN_cDiv {z z' : Cpx (Ieee φ)} {w w' : Cpx (Fl (normal φ))} (h : RelC SimN z w) (h' : RelC SimN z' w') : RelC SimN (z / z') (w / w') := by
  rw [Cpx.div_def, Cpx.div_def]; exact opRel_simN.cMul h (simN_cInv h')
theorem Ieee.simN_qInv {z : Quat (Ieee φ)} {w : Quat (Fl (normal φ))} (h : RelQ SimN z w) : RelQ SimN z.inv w.inv := by
  have hn := opRel_simN.qNormSqr h
  obtain ⟨a, b, c, d⟩ := h
  exact ⟨by simpa [Quat.inv] using simN_div a hn, by simpa [Quat.inv] using simN_div (opRel_simN.neg b) hn,
    by simpa [Quat.inv] using simN_div (opRel_simN.neg c) hn, by simpa [Quat.inv] using simN_div (opRel_simN.neg d) hn⟩
theorem Ieee.simN_qDiv {z z' : Quat (Ieee φ)} {w w' : Quat (Fl (normal φ))} (h : RelQ SimN z w) (h' : RelQ SimN z' w') : RelQ SimN (z / z') (w / w') := by
  rw [Quat.div_def, Quat.div_def]; exact opRel_simN.qMul h (simN_qInv h')
/-- Complex product, quotient, inverse and modulus. -/
theorem C117_complex (z z' w w' : Cpx (Ieee φ)) (hz : ScaledC k z z') (hw : ScaledC l w w') :
    RescalesC (k + l) (mapC strict z * mapC strict w) (mapC strict z' * mapC strict w') (z * w) (z' * w') ∧
    RescalesC (k - l) (mapC strict z / mapC strict w) (mapC strict z' / mapC strict w') (z / w) (z' / w') ∧
    RescalesC (-k) (mapC strict z).inv (mapC strict z').inv z.inv z'.inv ∧
    Rescales k (mapC strict z).norm (mapC strict z').norm z.norm z'.norm :=
  ⟨.mk (opRel_simN.cMul (simNC z) (simNC w)) (opRel_simN.cMul (simNC z') (simNC w')) (W.cMul dyadic_normal (W.cpx hz) (W.cpx hw)),
    .mk (simN_cDiv (simNC z) (simNC w)) (simN_cDiv (simNC z') (simNC w')) (W.cDiv dyadic_normal (W.cpx hz) (W.cpx hw)),
    .mk (simN_cInv (simNC z)) (simN_cInv (simNC z')) (W.cInv dyadic_normal (W.cpx hz)),
    .mk (simN_sqrt (opRel_simN.cNormSqr (simNC z))) (simN_sqrt (opRel_simN.cNormSqr (simNC z'))) (W.length dyadic_normal (W.cVec (W.cpx hz)))⟩
/-- Quaternion product, quotient, inverse and norm. -/
theorem C117_quaternion (z z' w w' : Quat (Ieee φ)) (hz : ScaledQ k z z') (hw : ScaledQ l w w') :
    RescalesQ (k + l) (mapQ strict z * mapQ strict w) (mapQ strict z' * mapQ strict w') (z * w) (z' * w') ∧
    RescalesQ (k - l) (mapQ strict z / mapQ strict w) (mapQ strict z' / mapQ strict w') (z / w) (z' / w') ∧
    RescalesQ (-k) (mapQ strict z).inv (mapQ strict z').inv z.inv z'.inv ∧
    Rescales k (mapQ strict z).norm (mapQ strict z').norm z.norm z'.norm :=
  ⟨.mk (opRel_simN.qMul (simNQ z) (simNQ w)) (opRel_simN.qMul (simNQ z') (simNQ w')) (W.qMul dyadic_normal (W.quat hz) (W.quat hw)),
    .mk (simN_qDiv (simNQ z) (simNQ w)) (simN_qDiv (simNQ z') (simNQ w')) (W.qDiv dyadic_normal (W.quat hz) (W.quat hw)),
    .mk (simN_qInv (simNQ z)) (simN_qInv (simNQ z')) (W.qInv dyadic_normal (W.quat hz)),
    .mk (simN_sqrt (opRel_simN.qNormSqr (simNQ z))) (simN_sqrt (opRel_simN.qNormSqr (simNQ z'))) (W.length dyadic_normal (W.qVec (W.quat hz)))⟩

/-! ## transformations -/
namespace W
theorem fsv {v w : Vec (Ieee φ) 3} (h : ∀ i : Fin 3, Scaled k v[i.1] w[i.1]) :
    RelQ (W k) (Quat.fromScalarAndVector3 0 (v.map strict)) (Quat.fromScalarAndVector3 0 (w.map strict)) := by
  refine ⟨W.zero k, ?_, ?_, ?_⟩
  · rw [Quat.x_fsv, Quat.x_fsv]; exact vec h 0 (by omega)
  · rw [Quat.y_fsv, Quat.y_fsv]; exact vec h 1 (by omega)
  · rw [Quat.z_fsv, Quat.z_fsv]; exact vec h 2 (by omega)
end W
theorem Ieee.simN_fsv (v : Vec (Ieee φ) 3) : RelQ SimN (Quat.fromScalarAndVector3 0 v) (Quat.fromScalarAndVector3 0 (v.map strict)) := by
  refine ⟨opRel_simN.zero, ?_, ?_, ?_⟩
  · rw [Quat.x_fsv, Quat.x_fsv]; exact simNV v 0 (by omega)
  · rw [Quat.y_fsv, Quat.y_fsv]; exact simNV v 1 (by omega)
  · rw [Quat.z_fsv, Quat.z_fsv]; exact simNV v 2 (by omega)
/-- A rotation in space applied to a point (for a unit quaternion, `k = 0`: the result is in the unit of the point). -/
theorem C117_rotation3 (r r' : Rotation3 (Ieee φ)) (v v' : Vec (Ieee φ) 3) (hr : ScaledQ k r.intoQuaternion r'.intoQuaternion)
    (hv : ∀ i : Fin 3, Scaled l v[i.1] v'[i.1]) (i : Fin 3) :
    Rescales (k + l + k) (Transform.apply (mapRot3 strict r) (v.map strict))[i.1] (Transform.apply (mapRot3 strict r') (v'.map strict))[i.1]
      (Transform.apply r v)[i.1] (Transform.apply r' v')[i.1] := by
  have hs : ∀ (r : Rotation3 (Ieee φ)) (v : Vec (Ieee φ) 3), RelQ SimN (r.quat * Quat.fromScalarAndVector3 0 v * r.quat.conj)
      (mapQ strict r.quat * Quat.fromScalarAndVector3 0 (v.map strict) * (mapQ strict r.quat).conj) := fun r v =>
    opRel_simN.qMul (opRel_simN.qMul (simNQ _) (simN_fsv v)) (opRel_simN.qConj (simNQ _))
  have hq := W.qMul dyadic_normal (W.qMul dyadic_normal (W.quat hr) (W.fsv hv)) (W.qConj (W.quat hr))
  obtain ⟨-, h0, h1, h2⟩ := RescalesQ.mk (hs r v) (hs r' v') hq
  match i with
  | 0 => exact h0
  | 1 => exact h1
  | 2 => exact h2
/-- A rotation of the plane applied to a point. -/
theorem C117_rotation2 (r r' : Rotation2 (Ieee φ)) (v v' : Vec (Ieee φ) 2) (hr : ScaledC k r.intoComplex r'.intoComplex)
    (hv : ∀ i : Fin 2, Scaled l v[i.1] v'[i.1]) (i : Fin 2) :
    Rescales (l + k) (Transform.apply (mapRot2 strict r) (v.map strict))[i.1] (Transform.apply (mapRot2 strict r') (v'.map strict))[i.1]
      (Transform.apply r v)[i.1] (Transform.apply r' v')[i.1] := by
  have hc : ∀ v : Vec (Ieee φ) 2, RelC SimN (Cpx.fromVector v) (Cpx.fromVector (v.map strict)) := fun v => ⟨simNV v 0 (by omega), simNV v 1 (by omega)⟩
  have hw : RelC (W l) (Cpx.fromVector (v.map strict)) (Cpx.fromVector (v'.map strict)) := ⟨W.vec hv 0 (by omega), W.vec hv 1 (by omega)⟩
  obtain ⟨h0, h1⟩ := RescalesC.mk (opRel_simN.cMul (hc v) (simNC r.intoComplex)) (opRel_simN.cMul (hc v') (simNC r'.intoComplex))
    (W.cMul dyadic_normal hw (W.cpx hr))
  match i with
  | 0 => exact h0
  | 1 => exact h1
/-- An affine map with the same linear part, its shift and the point given in another unit. -/
theorem C117_affine [NeZero N] (f f' : Affine (Ieee φ) N) (v v' : Vec (Ieee φ) N)
    (hl : ∀ i j : Fin N, Scaled 0 f.linear.intoMatrix[i.1][j.1] f'.linear.intoMatrix[i.1][j.1])
    (hs : ∀ i : Fin N, Scaled k f.shift.intoVector[i.1] f'.shift.intoVector[i.1]) (hv : ∀ i : Fin N, Scaled k v[i.1] v'[i.1]) (i : Fin N) :
    Rescales k (Transform.apply (mapAffine strict f) (v.map strict))[i.1] (Transform.apply (mapAffine strict f') (v'.map strict))[i.1]
      (Transform.apply f v)[i.1] (Transform.apply f' v')[i.1] := by
  have hs' : ∀ (f : Affine (Ieee φ) N) (v : Vec (Ieee φ) N), RelV SimN (f.linear.intoMatrix.dotV v + f.shift.intoVector)
      ((f.linear.intoMatrix.map strict).dotV (v.map strict) + f.shift.intoVector.map strict) := fun f v => by
    refine opRel_simN.vAdd (fun i hi => ?_) (simNV _)
    rw [Mat.getElem_dotV _ _ _ hi, Mat.getElem_dotV _ _ _ hi]; exact opRel_simN.vDot (simNM _ i hi) (simNV v)
  have hw : RelV (W k) ((f.linear.intoMatrix.map strict).dotV (v.map strict) + f.shift.intoVector.map strict)
      ((f'.linear.intoMatrix.map strict).dotV (v'.map strict) + f'.shift.intoVector.map strict) := by
    intro i hi
    rw [Vec.getElem_add, Vec.getElem_add]
    refine W.add dyadic_normal ((W.dotV dyadic_normal (p := fun _ => 0) (q := fun _ => 0) (k := k) (W.mat (by simpa using hl)) ?_ i hi).cast (zero_add k)) (W.vec hs i hi)
    intro j hj; rw [sub_zero]; exact W.vec hv j hj
  exact .mk (hs' f v i i.2) (hs' f' v' i i.2) (hw i i.2)
/-- A complex Moebius transformation. -/
theorem C117_moebius (f f' : Moebius (Cpx (Ieee φ))) (z z' : Cpx (Ieee φ)) (hz : ScaledC m z z') (ha : ScaledC (s - m) f.a f'.a)
    (hb : ScaledC s f.b f'.b) (hc : ScaledC (t - m) f.c f'.c) (hd : ScaledC t f.d f'.d) :
    RescalesC (s - t) ((mapMo (mapC strict) f).apply (mapC strict z)) ((mapMo (mapC strict) f').apply (mapC strict z')) (f.apply z) (f'.apply z') := by
  have hs : ∀ (f : Moebius (Cpx (Ieee φ))) (z : Cpx (Ieee φ)), RelC SimN (f.apply z) ((mapMo (mapC strict) f).apply (mapC strict z)) := fun f z => by
    obtain ⟨ea, eb, ec, ed⟩ := mapMo_abcd (mapC strict) f
    unfold Moebius.apply
    rw [ea, eb, ec, ed]
    exact simN_cDiv (opRel_simN.cAdd (opRel_simN.cMul (simNC _) (simNC _)) (simNC _)) (opRel_simN.cAdd (opRel_simN.cMul (simNC _) (simNC _)) (simNC _))
  refine .mk (hs f z) (hs f' z') ?_
  obtain ⟨ea, eb, ec, ed⟩ := mapMo_abcd (mapC strict) f
  obtain ⟨ea', eb', ec', ed'⟩ := mapMo_abcd (mapC strict) f'
  unfold Moebius.apply
  rw [ea, eb, ec, ed, ea', eb', ec', ed']
  have h1 := W.cMul dyadic_normal (W.cpx ha) (W.cpx hz)
  have h2 := W.cMul dyadic_normal (W.cpx hc) (W.cpx hz)
  rw [sub_add_cancel] at h1 h2
  exact W.cDiv dyadic_normal (W.cAdd dyadic_normal h1 (W.cpx hb)) (W.cAdd dyadic_normal h2 (W.cpx hd))
/-- … applied to a quaternion. -/
theorem C117_moebius_quaternion (f f' : Moebius (Cpx (Ieee φ))) (z z' : Quat (Ieee φ)) (hz : ScaledQ m z z') (ha : ScaledC (s - m) f.a f'.a)
    (hb : ScaledC s f.b f'.b) (hc : ScaledC (t - m) f.c f'.c) (hd : ScaledC t f.d f'.d) :
    RescalesQ (s - t) ((mapMo (mapC strict) f).apply (mapQ strict z)) ((mapMo (mapC strict) f').apply (mapQ strict z')) (f.apply z) (f'.apply z') := by
  have hs : ∀ (f : Moebius (Cpx (Ieee φ))) (z : Quat (Ieee φ)), RelQ SimN (f.apply z) ((mapMo (mapC strict) f).apply (mapQ strict z)) := fun f z => by
    obtain ⟨ea, eb, ec, ed⟩ := mapMo_abcd (mapC strict) f
    unfold Moebius.apply
    rw [ea, eb, ec, ed]
    exact simN_qDiv (relQ_addC' opRel_simN (simNC _) (relQ_cMul' opRel_simN (simNC _) (simNQ _)))
      (relQ_addC' opRel_simN (simNC _) (relQ_cMul' opRel_simN (simNC _) (simNQ _)))
  refine .mk (hs f z) (hs f' z') ?_
  obtain ⟨ea, eb, ec, ed⟩ := mapMo_abcd (mapC strict) f
  obtain ⟨ea', eb', ec', ed'⟩ := mapMo_abcd (mapC strict) f'
  unfold Moebius.apply
  rw [ea, eb, ec, ed, ea', eb', ec', ed']
  have h1 := W.cqMul dyadic_normal (W.cpx ha) (W.quat hz)
  have h2 := W.cqMul dyadic_normal (W.cpx hc) (W.quat hz)
  rw [sub_add_cancel] at h1 h2
  exact W.qDiv dyadic_normal (W.qAddC dyadic_normal h1 (W.cpx hb)) (W.qAddC dyadic_normal h2 (W.cpx hd))
/-- `look_at`: the first column does not depend on the units of the direction and of the up vector, the other two are in the unit of the direction. -/
theorem C117_look_at (u u' v v' : Vec (Ieee φ) 3) (hu : ∀ i : Fin 3, Scaled k u[i.1] u'[i.1]) (hv : ∀ i : Fin 3, Scaled l v[i.1] v'[i.1]) (i j : Fin 3) :
    Rescales (if j = 0 then 0 else k) (Linear.lookAt (u.map strict) (v.map strict)).intoMatrix[i.1][j.1]
      (Linear.lookAt (u'.map strict) (v'.map strict)).intoMatrix[i.1][j.1]
      (Linear.lookAt u v).intoMatrix[i.1][j.1] (Linear.lookAt u' v').intoMatrix[i.1][j.1] := by
  have hn : ∀ {v : Vec (Ieee φ) 3} {w : Vec (Fl (normal φ)) 3}, RelV SimN v w → RelV SimN v.normalize w.normalize := fun h i hi => by
    rw [Vec.normalize, Vec.normalize, Vec.getElem_divS, Vec.getElem_divS]
    exact simN_div (h i hi) (simN_sqrt (opRel_simN.vSquareLength h))
  have hr : ∀ u v : Vec (Ieee φ) 3, RelV SimN (u.cross3 v).normalize ((u.map strict).cross3 (v.map strict)).normalize := fun u v =>
    hn (opRel_simN.cross3 (simNV u) (simNV v))
  have wr := W.normalize dyadic_normal (W.cross3 dyadic_normal (W.vec hu) (W.vec hv))
  match j with
  | 0 =>
    simpa [Linear.lookAt, Linear.intoMatrix, Mat.fromArrVec, Mat.fromVecVec, Vec.fromArray] using Rescales.mk (hr u v i i.2) (hr u' v' i i.2) (wr i i.2)
  | 1 =>
    have := Rescales.mk (opRel_simN.cross3 (hr u v) (simNV u) i i.2) (opRel_simN.cross3 (hr u' v') (simNV u') i i.2) (W.cross3 dyadic_normal wr (W.vec hu) i i.2)
    simpa [Linear.lookAt, Linear.intoMatrix, Mat.fromArrVec, Mat.fromVecVec, Vec.fromArray] using this
  | 2 =>
    have := Rescales.mk (opRel_simN.neg (simNV u i i.2)) (opRel_simN.neg (simNV u' i i.2)) (W.neg (W.vec hu i i.2))
    simpa [Linear.lookAt, Linear.intoMatrix, Mat.fromArrVec, Mat.fromVecVec, Vec.fromArray] using this

/-! ## compositions in any bracketing -/
/-- A composition of rotations in space, each quaternion with a factor of its own. -/
theorem C117_compose_rotation3 (t : Bracketing (Rotation3 (Ieee φ) × Rotation3 (Ieee φ) × ℤ))
    (h : ∀ x ∈ t.items, ScaledQ x.2.2 x.1.intoQuaternion x.2.1.intoQuaternion) :
    RescalesQ (t.items.map fun x => x.2.2).sum
      ((t.map fun x => mapRot3 strict x.1).eval (Transform.chain (Vec (Fl (normal φ)) 3))).intoQuaternion
      ((t.map fun x => mapRot3 strict x.2.1).eval (Transform.chain (Vec (Fl (normal φ)) 3))).intoQuaternion
      ((t.map fun x : Rotation3 (Ieee φ) × Rotation3 (Ieee φ) × ℤ => x.1).eval (Transform.chain (Vec (Ieee φ) 3))).intoQuaternion
      ((t.map fun x : Rotation3 (Ieee φ) × Rotation3 (Ieee φ) × ℤ => x.2.1).eval (Transform.chain (Vec (Ieee φ) 3))).intoQuaternion := by
  refine .mk ?_ ?_ ?_
  · clear h; induction t with
    | one x => exact simNQ x.1.intoQuaternion
    | two a b ha hb => exact opRel_simN.qMul ha hb
  · clear h; induction t with
    | one x => exact simNQ x.2.1.intoQuaternion
    | two a b ha hb => exact opRel_simN.qMul ha hb
  · induction t with
    | one x =>
      have := W.quat (h x (by simp [Bracketing.items]))
      rw [show ((Bracketing.one x).items.map fun x => x.2.2).sum = x.2.2 by simp [Bracketing.items]]
      exact this
    | two a b ha hb =>
      have := W.qMul dyadic_normal (ha fun x hx => h x (by simp [Bracketing.items, hx])) (hb fun x hx => h x (by simp [Bracketing.items, hx]))
      rw [show ((Bracketing.two a b).items.map fun x => x.2.2).sum = (a.items.map fun x => x.2.2).sum + (b.items.map fun x => x.2.2).sum by
        simp [Bracketing.items]]
      exact this
/-- A composition of affine maps with the same linear parts, all shifts in another unit: the linear part stays the same, the shift is in the new unit. -/
theorem C117_compose_affine [NeZero N] (t : Bracketing (Affine (Ieee φ) N × Affine (Ieee φ) N))
    (hl : ∀ x ∈ t.items, ∀ i j : Fin N, Scaled 0 x.1.linear.intoMatrix[i.1][j.1] x.2.linear.intoMatrix[i.1][j.1])
    (hs : ∀ x ∈ t.items, ∀ i : Fin N, Scaled k x.1.shift.intoVector[i.1] x.2.shift.intoVector[i.1])
    {s s' : Affine (Fl (normal φ)) N} (es : s = (t.map fun x => mapAffine strict x.1).eval (Transform.chain (Vec (Fl (normal φ)) N)))
    (es' : s' = (t.map fun x => mapAffine strict x.2).eval (Transform.chain (Vec (Fl (normal φ)) N)))
    {f f' : Affine (Ieee φ) N} (ef : f = (t.map fun x => x.1).eval (Transform.chain (Vec (Ieee φ) N)))
    (ef' : f' = (t.map fun x => x.2).eval (Transform.chain (Vec (Ieee φ) N))) :
    (∀ i j : Fin N, Rescales 0 s.linear.intoMatrix[i.1][j.1] s'.linear.intoMatrix[i.1][j.1] f.linear.intoMatrix[i.1][j.1] f'.linear.intoMatrix[i.1][j.1]) ∧
    ∀ i : Fin N, Rescales k s.shift.intoVector[i.1] s'.shift.intoVector[i.1] f.shift.intoVector[i.1] f'.shift.intoVector[i.1] := by
  have hV : ∀ {A : Mat (Ieee φ) N N} {B : Mat (Fl (normal φ)) N N} {v : Vec (Ieee φ) N} {w : Vec (Fl (normal φ)) N}, RelM SimN A B → RelV SimN v w →
      RelV SimN (A.dotV v) (B.dotV w) := fun h h' i hi => by
    rw [Mat.getElem_dotV _ _ _ hi, Mat.getElem_dotV _ _ _ hi]; exact opRel_simN.vDot (h i hi) h'
  have h1 : RelM SimN f.linear.intoMatrix s.linear.intoMatrix ∧ RelV SimN f.shift.intoVector s.shift.intoVector := by
    subst es ef; clear hl hs es' ef'; induction t with
    | one x => exact ⟨simNM x.1.linear.intoMatrix, simNV x.1.shift.intoVector⟩
    | two a b ha hb => exact ⟨CompEx.dotM_rel opRel_simN ha.1 hb.1, opRel_simN.vAdd ha.2 (hV ha.1 hb.2)⟩
  have h2 : RelM SimN f'.linear.intoMatrix s'.linear.intoMatrix ∧ RelV SimN f'.shift.intoVector s'.shift.intoVector := by
    subst es' ef'; clear hl hs es ef; induction t with
    | one x => exact ⟨simNM x.2.linear.intoMatrix, simNV x.2.shift.intoVector⟩
    | two a b ha hb => exact ⟨CompEx.dotM_rel opRel_simN ha.1 hb.1, opRel_simN.vAdd ha.2 (hV ha.1 hb.2)⟩
  have h3 : W.MM (fun _ => 0) (fun _ => 0) s.linear.intoMatrix s'.linear.intoMatrix ∧ RelV (W k) s.shift.intoVector s'.shift.intoVector := by
    subst es es'; clear h1 h2 ef ef'; induction t with
    | one x => exact ⟨W.mat (A := x.1.linear.intoMatrix) (B := x.2.linear.intoMatrix) (p := fun _ => 0) (q := fun _ => 0) (by rw [add_zero]; exact hl x (by simp [Bracketing.items])), W.vec (hs x (by simp [Bracketing.items]))⟩
    | two a b ha hb =>
      have ha := ha (fun x hx => hl x (by simp [Bracketing.items, hx])) (fun x hx => hs x (by simp [Bracketing.items, hx]))
      have hb := hb (fun x hx => hl x (by simp [Bracketing.items, hx])) (fun x hx => hs x (by simp [Bracketing.items, hx]))
      refine ⟨W.dotMM dyadic_normal ha.1 hb.1, W.vAdd dyadic_normal ha.2 fun i hi => ?_⟩
      exact (W.dotV dyadic_normal (k := k) ha.1 (fun j hj => by rw [sub_zero]; exact hb.2 j hj) i hi).cast (zero_add k)
  exact ⟨fun i j => .mk (h1.1 i i.2 j j.2) (h2.1 i i.2 j j.2) (h3.1 i i.2 j j.2), fun i => .mk (h1.2 i i.2) (h2.2 i i.2) (h3.2 i i.2)⟩

/-! ## directions -/
/-- Directions and normals under a linear map (`apply_dir`, `apply_normal`): neither the unit of the matrix nor that of the vector matters. -/
theorem C117_directions [NeZero N] (A A' : Mat (Ieee φ) N N) (x x' v v' : Vec (Ieee φ) N) (hA : ∀ i j : Fin N, Scaled k A[i.1][j.1] A'[i.1][j.1])
    (hv : ∀ i : Fin N, Scaled l v[i.1] v'[i.1]) (i : Fin N) :
    Rescales 0 (Directional.applyDir (Linear.fromMatrix (A.map strict)) (x.map strict) (v.map strict))[i.1]
      (Directional.applyDir (Linear.fromMatrix (A'.map strict)) (x'.map strict) (v'.map strict))[i.1]
      (Directional.applyDir (Linear.fromMatrix A) x v)[i.1] (Directional.applyDir (Linear.fromMatrix A') x' v')[i.1] ∧
    Rescales 0 (Directional.applyNormal (Linear.fromMatrix (A.map strict)) (x.map strict) (v.map strict))[i.1]
      (Directional.applyNormal (Linear.fromMatrix (A'.map strict)) (x'.map strict) (v'.map strict))[i.1]
      (Directional.applyNormal (Linear.fromMatrix A) x v)[i.1] (Directional.applyNormal (Linear.fromMatrix A') x' v')[i.1] := by
  have hn : ∀ {v : Vec (Ieee φ) N} {w : Vec (Fl (normal φ)) N}, RelV SimN v w → RelV SimN v.normalize w.normalize := fun h i hi => by
    rw [Vec.normalize, Vec.normalize, Vec.getElem_divS, Vec.getElem_divS]
    exact simN_div (h i hi) (simN_sqrt (opRel_simN.vSquareLength h))
  have hV : ∀ {A : Mat (Ieee φ) N N} {B : Mat (Fl (normal φ)) N N} {v : Vec (Ieee φ) N} {w : Vec (Fl (normal φ)) N}, RelM SimN A B → RelV SimN v w →
      RelV SimN (A.dotV v) (B.dotV w) := fun h h' i hi => by
    rw [Mat.getElem_dotV _ _ _ hi, Mat.getElem_dotV _ _ _ hi]; exact opRel_simN.vDot (h i hi) h'
  have hi : ∀ A : Mat (Ieee φ) N N, RelM SimN A.inv.transpose (A.map strict).inv.transpose := fun A i hi j hj => by
    rw [Mat.getElem_transpose, Mat.getElem_transpose, Mat.getElem_congr_mat (Mat.inv_eq A) j hj i hi, Mat.getElem_congr_mat (Mat.inv_eq (A.map strict)) j hj i hi,
      Mat.getElem_divS, Mat.getElem_divS]
    exact simN_div (opRel_simN.adj (simNM A) j hj i hi) (opRel_simN.det (simNM A))
  have hm : W.MM (fun _ => k) (fun _ => 0) (A.map strict) (A'.map strict) := W.mat (by simpa using hA)
  have ht : W.MM (fun _ => -k) (fun _ => 0) (A.map strict).inv.transpose (A'.map strict).inv.transpose := fun i hi j hj => by
    rw [Mat.getElem_transpose, Mat.getElem_transpose, Mat.getElem_congr_mat (Mat.inv_eq _) j hj i hi, Mat.getElem_congr_mat (Mat.inv_eq (A'.map strict)) j hj i hi]
    exact (W.inv dyadic_normal hm j hj i hi).cast (by ring)
  have hw : ∀ j (hj : j < N), W (l - 0) (v.map strict)[j] (v'.map strict)[j] := fun j hj => by rw [sub_zero]; exact W.vec hv j hj
  exact ⟨.mk (hn (hV (simNM A) (simNV v)) i i.2) (hn (hV (simNM A') (simNV v')) i i.2) (W.normalize dyadic_normal (W.dotV dyadic_normal hm hw) i i.2),
    .mk (hn (hV (hi A) (simNV v)) i i.2) (hn (hV (hi A') (simNV v')) i i.2) (W.normalize dyadic_normal (W.dotV dyadic_normal ht hw) i i.2)⟩

/-- Derivative of a complex Möbius map along a direction, and the normalised direction (`deriv`, `apply_dir`; `apply_normal` is the same function). -/
theorem C117_moebius_directions (f f' : Moebius (Cpx (Ieee φ))) (z z' v v' : Cpx (Ieee φ)) (hz : ScaledC m z z') (hv : ScaledC l v v') (ha : ScaledC (s - m) f.a f'.a)
    (hb : ScaledC s f.b f'.b) (hc : ScaledC (t - m) f.c f'.c) (hd : ScaledC t f.d f'.d) :
    RescalesC (s - m - t + l) (Transform.deriv (mapMo (mapC strict) f) (mapC strict z) (mapC strict v))
      (Transform.deriv (mapMo (mapC strict) f') (mapC strict z') (mapC strict v')) (Transform.deriv f z v) (Transform.deriv f' z' v') ∧
    RescalesC 0 (Directional.applyDir (mapMo (mapC strict) f) (mapC strict z) (mapC strict v))
      (Directional.applyDir (mapMo (mapC strict) f') (mapC strict z') (mapC strict v')) (Directional.applyDir f z v) (Directional.applyDir f' z' v') ∧
    RescalesC 0 (Directional.applyNormal (mapMo (mapC strict) f) (mapC strict z) (mapC strict v))
      (Directional.applyNormal (mapMo (mapC strict) f') (mapC strict z') (mapC strict v')) (Directional.applyNormal f z v) (Directional.applyNormal f' z' v') := by
  have cSub : ∀ {z z' : Cpx (Ieee φ)} {w w' : Cpx (Fl (normal φ))}, RelC SimN z w → RelC SimN z' w' → RelC SimN (z - z') (w - w') := fun h h' =>
    ⟨by simpa using opRel_simN.sub h.1 h'.1, by simpa using opRel_simN.sub h.2 h'.2⟩
  have hs : ∀ (f : Moebius (Cpx (Ieee φ))) (z v : Cpx (Ieee φ)), RelC SimN (Transform.deriv f z v) (Transform.deriv (mapMo (mapC strict) f) (mapC strict z) (mapC strict v)) := fun f z v => by
    obtain ⟨ea, eb, ec, ed⟩ := mapMo_abcd (mapC strict) f
    show RelC SimN (f.deriv z * v) ((mapMo (mapC strict) f).deriv (mapC strict z) * mapC strict v)
    refine opRel_simN.cMul ?_ (simNC v)
    unfold Moebius.deriv
    rw [ea, eb, ec, ed]
    have h1 := opRel_simN.cAdd (opRel_simN.cMul (simNC f.a) (simNC z)) (simNC f.b)
    have h2 := opRel_simN.cAdd (opRel_simN.cMul (simNC f.c) (simNC z)) (simNC f.d)
    exact simN_cDiv (cSub (opRel_simN.cMul (simNC f.a) h2) (opRel_simN.cMul h1 (simNC f.c))) (opRel_simN.cMul h2 h2)
  have hw : RelC (W (s - m - t + l)) (Transform.deriv (mapMo (mapC strict) f) (mapC strict z) (mapC strict v))
      (Transform.deriv (mapMo (mapC strict) f') (mapC strict z') (mapC strict v')) := by
    obtain ⟨ea, eb, ec, ed⟩ := mapMo_abcd (mapC strict) f
    obtain ⟨ea', eb', ec', ed'⟩ := mapMo_abcd (mapC strict) f'
    refine W.cMul (k := s - m - t) dyadic_normal ?_ (W.cpx hv)
    unfold Moebius.deriv
    rw [ea, eb, ec, ed, ea', eb', ec', ed']
    have h1 := W.cMul dyadic_normal (W.cpx ha) (W.cpx hz)
    have h2 := W.cMul dyadic_normal (W.cpx hc) (W.cpx hz)
    rw [sub_add_cancel] at h1 h2
    have h1 := W.cAdd dyadic_normal h1 (W.cpx hb)
    have h2 := W.cAdd dyadic_normal h2 (W.cpx hd)
    have h3 := W.cMul dyadic_normal (W.cpx ha) h2
    have h4 := W.cMul dyadic_normal h1 (W.cpx hc)
    rw [show s + (t - m) = s - m + t by ring] at h4
    have h5 := W.cDiv dyadic_normal (W.cSub dyadic_normal h3 h4) (W.cMul dyadic_normal h2 h2)
    rwa [show s - m + t - (t + t) = s - m - t by ring] at h5
  have hn : ∀ {z : Cpx (Ieee φ)} {w : Cpx (Fl (normal φ))}, RelC SimN z w → RelC SimN z.normalize w.normalize := fun {z w} h => by
    have hk : SimN z.norm w.norm := simN_sqrt (opRel_simN.cNormSqr h)
    exact ⟨by simpa [Cpx.normalize] using simN_div h.1 hk, by simpa [Cpx.normalize] using simN_div h.2 hk⟩
  have hr := RescalesC.mk (hn (hs f z v)) (hn (hs f' z' v')) (W.cNormalize dyadic_normal hw)
  exact ⟨.mk (hs f z v) (hs f' z' v') hw, hr, hr⟩

/-- … at a quaternion. -/
theorem C117_moebius_quaternion_directions (f f' : Moebius (Cpx (Ieee φ))) (z z' v v' : Quat (Ieee φ)) (hz : ScaledQ m z z') (hv : ScaledQ l v v')
    (ha : ScaledC (s - m) f.a f'.a) (hb : ScaledC s f.b f'.b) (hc : ScaledC (t - m) f.c f'.c) (hd : ScaledC t f.d f'.d) :
    RescalesQ (s - m - t + l) (Transform.deriv (mapMo (mapC strict) f) (mapQ strict z) (mapQ strict v))
      (Transform.deriv (mapMo (mapC strict) f') (mapQ strict z') (mapQ strict v')) (Transform.deriv f z v) (Transform.deriv f' z' v') ∧
    RescalesQ 0 (Directional.applyDir (mapMo (mapC strict) f) (mapQ strict z) (mapQ strict v))
      (Directional.applyDir (mapMo (mapC strict) f') (mapQ strict z') (mapQ strict v')) (Directional.applyDir f z v) (Directional.applyDir f' z' v') ∧
    RescalesQ 0 (Directional.applyNormal (mapMo (mapC strict) f) (mapQ strict z) (mapQ strict v))
      (Directional.applyNormal (mapMo (mapC strict) f') (mapQ strict z') (mapQ strict v')) (Directional.applyNormal f z v) (Directional.applyNormal f' z' v') := by
  have hr := opRel_simN (φ := φ)
  have qDivS : ∀ {z : Quat (Ieee φ)} {w : Quat (Fl (normal φ))} {a : Ieee φ} {b : Fl (normal φ)}, RelQ SimN z w → SimN a b → RelQ SimN (z.divS a) (w.divS b) := fun h h' =>
    ⟨by simpa using simN_div h.1 h', by simpa using simN_div h.2.1 h', by simpa using simN_div h.2.2.1 h', by simpa using simN_div h.2.2.2 h'⟩
  have qMulS : ∀ {z : Quat (Ieee φ)} {w : Quat (Fl (normal φ))} {a : Ieee φ} {b : Fl (normal φ)}, RelQ SimN z w → SimN a b → RelQ SimN (z.mulS a) (w.mulS b) := fun h h' =>
    ⟨by simpa using hr.mul h.1 h', by simpa using hr.mul h.2.1 h', by simpa using hr.mul h.2.2.1 h', by simpa using hr.mul h.2.2.2 h'⟩
  have qAdd : ∀ {z z' : Quat (Ieee φ)} {w w' : Quat (Fl (normal φ))}, RelQ SimN z w → RelQ SimN z' w' → RelQ SimN (z + z') (w + w') := fun h h' =>
    ⟨by simpa using hr.add h.1 h'.1, by simpa using hr.add h.2.1 h'.2.1, by simpa using hr.add h.2.2.1 h'.2.2.1, by simpa using hr.add h.2.2.2 h'.2.2.2⟩
  have qSub : ∀ {z z' : Quat (Ieee φ)} {w w' : Quat (Fl (normal φ))}, RelQ SimN z w → RelQ SimN z' w' → RelQ SimN (z - z') (w - w') := fun h h' =>
    ⟨by simpa using hr.sub h.1 h'.1, by simpa using hr.sub h.2.1 h'.2.1, by simpa using hr.sub h.2.2.1 h'.2.2.1, by simpa using hr.sub h.2.2.2 h'.2.2.2⟩
  have qVec : ∀ {z : Quat (Ieee φ)} {w : Quat (Fl (normal φ))}, RelQ SimN z w → RelV SimN z.vec w.vec := fun h i hi => by
    match i, hi with
    | 0, _ => simpa using h.1
    | 1, _ => simpa using h.2.1
    | 2, _ => simpa using h.2.2.1
    | 3, _ => simpa using h.2.2.2
  have two : SimN (NumConst.two : Ieee φ) NumConst.two := fun x hx => by cases hx; rfl
  have hs : ∀ (f : Moebius (Cpx (Ieee φ))) (z v : Quat (Ieee φ)), RelQ SimN (Transform.deriv f z v) (Transform.deriv (mapMo (mapC strict) f) (mapQ strict z) (mapQ strict v)) := fun f z v => by
    obtain ⟨ea, eb, ec, ed⟩ := mapMo_abcd (mapC strict) f
    show RelQ SimN (f.derivDir z v) ((mapMo (mapC strict) f).derivDir (mapQ strict z) (mapQ strict v))
    unfold Moebius.derivDir
    rw [ea, eb, ec, ed]
    have h1 := relQ_addC' hr (simNC f.b) (relQ_cMul' hr (simNC f.a) (simNQ z))
    have h2 := relQ_addC' hr (simNC f.d) (relQ_cMul' hr (simNC f.c) (simNQ z))
    have h3 := relQ_cMul' hr (simNC f.c) (simNQ v)
    have hn := hr.qNormSqr h2
    exact qAdd (simN_qDiv (relQ_cMul' hr (simNC f.a) (simNQ v)) h2) (hr.qMul h1 (qDivS (qSub (hr.qConj h3)
      (qMulS (hr.qConj h2) (simN_div (hr.mul (hr.vDot (qVec h2) (qVec h3)) two) hn))) hn))
  have hw : RelQ (W (s - m - t + l)) (Transform.deriv (mapMo (mapC strict) f) (mapQ strict z) (mapQ strict v))
      (Transform.deriv (mapMo (mapC strict) f') (mapQ strict z') (mapQ strict v')) := by
    obtain ⟨ea, eb, ec, ed⟩ := mapMo_abcd (mapC strict) f
    obtain ⟨ea', eb', ec', ed'⟩ := mapMo_abcd (mapC strict) f'
    show RelQ _ ((mapMo (mapC strict) f).derivDir (mapQ strict z) (mapQ strict v)) ((mapMo (mapC strict) f').derivDir (mapQ strict z') (mapQ strict v'))
    unfold Moebius.derivDir
    rw [ea, eb, ec, ed, ea', eb', ec', ed']
    have hF := dyadic_normal (φ := φ)
    have h1 := W.cqMul hF (W.cpx ha) (W.quat hz)
    have h2 := W.cqMul hF (W.cpx hc) (W.quat hz)
    rw [sub_add_cancel] at h1 h2
    have h1 := W.qAddC hF h1 (W.cpx hb)
    have h2 := W.qAddC hF h2 (W.cpx hd)
    have h3 := W.cqMul hF (W.cpx hc) (W.quat hv)
    have hn := W.squareLength hF (W.qVec h2)
    have h4 := W.qMulS hF (W.qConj h2) (((W.dot hF (W.qVec h2) (W.qVec h3)).mul hF W.two).div hF hn)
    rw [show t + (t + (t - m + l) + 0 - 2 * t) = t - m + l by ring] at h4
    have h5 := W.qMul hF h1 (W.qDivS hF (W.qSub hF (W.qConj h3) h4) hn)
    rw [show s + (t - m + l - 2 * t) = s - m - t + l by ring] at h5
    have h6 := W.qDiv hF (W.cqMul hF (W.cpx ha) (W.quat hv)) h2
    rw [show s - m + l - t = s - m - t + l by ring] at h6
    exact W.qAdd hF h6 h5
  have hn : ∀ {z : Quat (Ieee φ)} {w : Quat (Fl (normal φ))}, RelQ SimN z w → RelQ SimN z.normalize w.normalize := fun h =>
    qDivS h (simN_sqrt (hr.qNormSqr h))
  have hq := RescalesQ.mk (hn (hs f z v)) (hn (hs f' z' v')) (W.qNormalize dyadic_normal hw)
  exact ⟨.mk (hs f z v) (hs f' z' v') hw, hq, hq⟩

/-! ## changing the unit -/
/-- Multiplying a vector by `2^k` is exact, and dividing by `2^k` gives it back, when the components are zero or normal before and after. -/
theorem C117_rescale (hφ : WF φ) (v : Vec (Ieee φ) N) (c : Ieee φ) (hc : c.toReal? = some (2 ^ k)) (i : Fin N) (x : ℝ) (hd : Datum v[i.1])
    (hx : v[i.1].toReal? = some x) (h0 : x = 0 ∨ 2 ^ φ.emin ≤ |x| ∧ 2 ^ φ.emin ≤ |2 ^ k * x|) (h1 : |2 ^ k * x| < huge φ) :
    Scaled k v[i.1] (v.mulS c)[i.1] ∧ ((v.mulS c).divS c)[i.1].toReal? = v[i.1].toReal? := by
  have hp : (2:ℝ) ^ k ≠ 0 := by positivity
  have hr : Representable φ x := by
    rcases hv : v[i.1] with _ | b | b | ⟨y, hy⟩ <;> rw [hv] at hx hd
    · cases hx
    · cases hx
    · cases hx; exact rep_zero hφ
    · cases hx; exact hd
  have n1 : φ.near x = x := Fmt.near_rep hr
  have n2 : φ.near (2 ^ k * x) = 2 ^ k * x := by
    rcases h0 with rfl | ⟨h2, h3⟩
    · rw [mul_zero, Fmt.near_zero]
    · rw [near_scale (by rintro rfl; simp at h2; exact absurd h2 (not_le.2 (by positivity))) h2 h3, n1]
  have m1 : Val (v.mulS c)[i.1] (2 ^ k * x) := by
    rw [Vec.getElem_mulS]
    exact val_mul_iff.2 ⟨x, 2 ^ k, hx, hc, by rw [mul_comm x, n2], by rw [mul_comm x, n2]; exact h1⟩
  refine ⟨⟨x, hx, m1⟩, ?_⟩
  rw [Vec.getElem_divS, hx]
  refine val_div_iff.2 (.inl ⟨2 ^ k * x, 2 ^ k, m1, hc, hp, ?_, ?_⟩)
  · rw [mul_div_cancel_left₀ _ hp, n1]
  · rw [mul_div_cancel_left₀ _ hp, n1]; exact rep_lt hr

/-! ## the hypotheses are met by `f64` computations -/
namespace UnitsEx
open IeeeEx
theorem scaled_lit {x y : ℝ} (h : y = 2 ^ k * x) : Scaled k (lit x) (lit y) := ⟨x, lit_val x, h ▸ lit_val y⟩
theorem scaled_int {a b : ℤ} (n : ℕ) (h : b = 2 ^ n * a) : Scaled n (lit a) (lit b) := scaled_lit (by rw [h]; push_cast; simp)
theorem scaled_vec {a b : Fin N → ℤ} (n : ℕ) (h : ∀ i, b i = 2 ^ n * a i) (i : Fin N) :
    Scaled n (vec fun i => (a i : ℝ))[i.1] (vec fun i => (b i : ℝ))[i.1] := ⟨a i, vec_val _ i, by rw [vec_val, h i]; push_cast; simp⟩
theorem scaled_mat {a b : Matrix (Fin N) (Fin N) ℤ} (p q : ℕ → ℕ) (h : ∀ i j, b i j = 2 ^ (p i + q j) * a i j) (i j : Fin N) :
    Scaled ((p i : ℤ) + (q j : ℤ)) (mat (M := N) (N := N) fun i j => (a i j : ℝ))[i.1][j.1] (mat (M := N) (N := N) fun i j => (b i j : ℝ))[i.1][j.1] :=
  ⟨a i j, mat_val _ i j, (mat_val _ i j).trans (by rw [h i j]; push_cast; rw [← Nat.cast_add, zpow_natCast])⟩
theorem exact64 : ExactInts (2 ^ 53) (normal Fmt.f64) := by
  intro n hn
  have hr := rep_int (φ := Fmt.f64) C80_formats.2 (by decide) hn
  rw [normal_some]
  rcases eq_or_ne n 0 with rfl | h0
  · exact .inl (by simp)
  · refine .inr ⟨by exact_mod_cast h0, ?_, by rw [Fmt.near_rep hr]; exact rep_lt hr, (Fmt.near_rep hr).symm⟩
    have h1 : (1:ℝ) ≤ |(n:ℝ)| := by exact_mod_cast Int.one_le_abs h0
    exact le_trans (zpow_le_one_of_nonpos₀ (by norm_num) (by decide)) h1
theorem v_R (x : Fin N → ℤ) : RelV (BInt.R (2 ^ 53)) (BInt.vec x) ((vec fun i => (x i : ℝ)).map strict) :=
  BInt.vec_R fun i => by rw [Vec.getElem_map]; exact vec_val _ i
theorem m_R (a : Matrix (Fin N) (Fin N) ℤ) : RelM (BInt.R (2 ^ 53)) (BInt.mat a) ((mat fun i j => (a i j : ℝ)).map strict) :=
  BInt.mat_R fun i j => by rw [Mat.getElem_map]; exact mat_val _ i j
/-- Both runs deliver numbers. -/
theorem fin {a b : Fl (normal Fmt.f64)} {d e : Ieee Fmt.f64} {r s : ℝ} (h : Rescales k a b d e) (ha : a.val = some r) (hb : b.val = some s) :
    ∃ r : ℝ, d.toReal? = some r ∧ e.toReal? = some (2 ^ k * r) := by obtain ⟨h1, h2, h3⟩ := h r s ha hb; exact ⟨r, h1, h3 ▸ h2⟩
end UnitsEx
open UnitsEx IeeeEx
/-- `[1, 2, 3]` in units of `1/1024`, `[5, -7, 11]` in units of `1/8`. -/
example : ∃ d e : Ieee Fmt.f64, ∃ r : ℝ, (vec fun i => ((![1, 2, 3] : Fin 3 → ℤ) i : ℝ)).dotR (vec fun i => ((![5, -7, 11] : Fin 3 → ℤ) i : ℝ)) = .ok d ∧
    (vec fun i => ((![1024, 2048, 3072] : Fin 3 → ℤ) i : ℝ)).dotR (vec fun i => ((![40, -56, 88] : Fin 3 → ℤ) i : ℝ)) = .ok e ∧
    d.toReal? = some r ∧ e.toReal? = some (2 ^ ((10 : ℕ) + (3 : ℕ) : ℤ) * r) := by
  obtain ⟨d, e, h1, h2, h⟩ := C117_dot (φ := Fmt.f64) _ _ _ _ (scaled_vec (a := ![1, 2, 3]) (b := ![1024, 2048, 3072]) 10 (by decide))
    (scaled_vec (a := ![5, -7, 11]) (b := ![40, -56, 88]) 3 (by decide))
  obtain ⟨r, h3, h4⟩ := fin h (((BInt.opRel UnitsEx.exact64).vDot (v_R ![1, 2, 3]) (v_R ![5, -7, 11])).eval (by decide +kernel))
    (((BInt.opRel UnitsEx.exact64).vDot (v_R ![1024, 2048, 3072]) (v_R ![40, -56, 88])).eval (by decide +kernel))
  exact ⟨d, e, r, h1, h2, h3, h4⟩
example : ∃ d e : Ieee Fmt.f64, ∃ r : ℝ, (vec fun i => ((![1, 2, 3] : Fin 3 → ℤ) i : ℝ)).sumR = .ok d ∧
    (vec fun i => ((![1024, 2048, 3072] : Fin 3 → ℤ) i : ℝ)).sumR = .ok e ∧ d.toReal? = some r ∧ e.toReal? = some (2 ^ ((10 : ℕ) : ℤ) * r) := by
  obtain ⟨d, e, h1, h2, h⟩ := C117_sum (φ := Fmt.f64) _ _ (scaled_vec (a := ![1, 2, 3]) (b := ![1024, 2048, 3072]) 10 (by decide))
  obtain ⟨r, h3, h4⟩ := fin h (((BInt.opRel UnitsEx.exact64).vSum (v_R ![1, 2, 3])).eval (by decide +kernel))
    (((BInt.opRel UnitsEx.exact64).vSum (v_R ![1024, 2048, 3072])).eval (by decide +kernel))
  exact ⟨d, e, r, h1, h2, h3, h4⟩
example : ∃ r : ℝ, ((vec fun i => ((![1, 2, 3] : Fin 3 → ℤ) i : ℝ)).cross3 (vec fun i => ((![5, -7, 11] : Fin 3 → ℤ) i : ℝ)))[2].toReal? = some r ∧
    ((vec fun i => ((![2, 4, 6] : Fin 3 → ℤ) i : ℝ)).cross3 (vec fun i => ((![40, -56, 88] : Fin 3 → ℤ) i : ℝ)))[2].toReal? =
      some (2 ^ ((1 : ℕ) + (3 : ℕ) : ℤ) * r) :=
  fin (C117_cross3 (φ := Fmt.f64) _ _ _ _ (scaled_vec (a := ![1, 2, 3]) (b := ![2, 4, 6]) 1 (by decide)) (scaled_vec (a := ![5, -7, 11]) (b := ![40, -56, 88]) 3 (by decide)) 2)
    (((BInt.opRel UnitsEx.exact64).cross3 (v_R ![1, 2, 3]) (v_R ![5, -7, 11]) 2 (by decide)).eval (by decide +kernel))
    (((BInt.opRel UnitsEx.exact64).cross3 (v_R ![2, 4, 6]) (v_R ![40, -56, 88]) 2 (by decide)).eval (by decide +kernel))
/-- Rows in units of `1`, `1/2`, `1/4`, columns in units of `1/8`, `1`, `1`: the determinant is `2^(1 + 2 + 3)` times as large. -/
example : ∃ d e : Ieee Fmt.f64, ∃ r : ℝ, (mat fun i j => ((!![2, 3, 1; 4, 5, -1; 0, 2, 7] : Matrix (Fin 3) (Fin 3) ℤ) i j : ℝ)).detR = .ok d ∧
    (mat fun i j => ((!![16, 3, 1; 64, 10, -2; 0, 8, 28] : Matrix (Fin 3) (Fin 3) ℤ) i j : ℝ)).detR = .ok e ∧
    d.toReal? = some r ∧ e.toReal? = some (64 * r) := by
  obtain ⟨d, e, h1, h2, h⟩ := C117_det (φ := Fmt.f64) (fun i => ((fun i => i : ℕ → ℕ) i : ℤ)) (fun j => ((fun j => if j = 0 then 3 else 0 : ℕ → ℕ) j : ℤ)) _ _
    (scaled_mat (a := !![2, 3, 1; 4, 5, -1; 0, 2, 7]) (b := !![16, 3, 1; 64, 10, -2; 0, 8, 28]) (fun i => i) (fun j => if j = 0 then 3 else 0) (by intro i j; fin_cases i <;> fin_cases j <;> rfl))
  obtain ⟨r, h3, h4⟩ := fin h (((BInt.opRel UnitsEx.exact64).det (m_R !![2, 3, 1; 4, 5, -1; 0, 2, 7])).eval (by decide +kernel))
    (((BInt.opRel UnitsEx.exact64).det (m_R !![16, 3, 1; 64, 10, -2; 0, 8, 28])).eval (by decide +kernel))
  refine ⟨d, e, r, h1, h2, h3, h4.trans ?_⟩
  simp [Finset.sum_range_succ]; norm_num
namespace UnitsEx
abbrev E := UnitsEx.exact64
theorem length_val {v : Vec (Fl (normal Fmt.f64)) N} [NeZero N] {w : Vec BInt N} (h : RelV (BInt.R (2 ^ 53)) w v) {n : ℕ} (hn : w.squareLength.n = (n * n : ℕ))
    (hb : w.squareLength.b ≤ 2 ^ 53) (hn' : n ≤ 2 ^ 53) : v.length.val = some ((n : ℤ) : ℝ) := by
  have := ((BInt.opRel E).vSquareLength h).eval hb
  rw [hn] at this
  rw [Int.cast_natCast]; exact FlEx.sqrt_val E this hn'
/-- The value of an integer computation. -/
theorem ev {x : BInt} {y : Fl (normal Fmt.f64)} (h : BInt.R (2 ^ 53) x y) (n : ℤ) (hb : x.b ≤ 2 ^ 53) (hn : x.n = n) : y.val = some (n : ℝ) := hn ▸ h.eval hb
theorem sqrt1 {x : BInt} {y : Fl (normal Fmt.f64)} (h : BInt.R (2 ^ 53) x y) (n : ℕ) (hb : x.b ≤ 2 ^ 53) (hn : x.n = (n * n : ℕ)) (hn' : n ≤ 2 ^ 53) :
    (FloatOps.sqrt y).val = some (n : ℝ) := FlEx.sqrt_val E (hn ▸ h.eval hb) hn'
theorem div1 {a b : Fl (normal Fmt.f64)} {n m : ℤ} (ha : a.val = some ((n * m : ℤ) : ℝ)) (hb : b.val = some (m : ℝ)) (hm : m ≠ 0) (hn : n.natAbs ≤ 2 ^ 53) :
    (a / b).val = some (n : ℝ) := FlEx.div_val E ha hb hm hn
/-- A quotient that is an odd multiple of a power of two. -/
theorem div2 {a b : Fl (normal Fmt.f64)} {n m : ℤ} (r e : ℤ) (ha : a.val = some (n : ℝ)) (hb : b.val = some (m : ℝ)) (hm : m ≠ 0) (h : (n : ℝ) / m = r * 2 ^ e)
    (hr : 1 ≤ |r|) (hr' : |r| < 2 ^ 53) (he : -1022 ≤ e) (he' : e ≤ 971) : (a / b).val = some (r * 2 ^ e : ℝ) := by
  show (a.val.bind fun x : ℝ => b.val.bind fun y => if y = 0 then none else normal Fmt.f64 (x / y)) = _
  rw [ha, hb]
  have hm' : (m : ℝ) ≠ 0 := by exact_mod_cast hm
  show (if _ then none else _) = _
  rw [if_neg hm', h, normal_some]
  have hrep : Representable Fmt.f64 (r * 2 ^ e) := ⟨r, e, rfl, hr', by change -1022 - 53 + 1 ≤ e; omega, by change e ≤ 1023 - 53 + 1; omega⟩
  have h1 : (1:ℝ) ≤ |(r:ℝ)| := by exact_mod_cast hr
  have hr0 : (r:ℝ) ≠ 0 := by rintro h; rw [h] at h1; norm_num at h1
  refine .inr ⟨mul_ne_zero hr0 (by positivity), ?_, by rw [Fmt.near_rep hrep]; exact rep_lt hrep, (Fmt.near_rep hrep).symm⟩
  rw [abs_mul, abs_of_pos (by positivity : (0:ℝ) < 2 ^ e)]
  have h2 : (2:ℝ) ^ Fmt.f64.emin ≤ 2 ^ e := zpow_le_zpow_right₀ (by norm_num) he
  have h3 : (0:ℝ) < 2 ^ e := by positivity
  nlinarith
noncomputable def c (x y : ℤ) : Cpx (Ieee Fmt.f64) := Cpx.new (lit x) (lit y)
noncomputable def q (w x y z : ℤ) : Quat (Ieee Fmt.f64) := Quat.new (lit w) (lit x) (lit y) (lit z)
theorem c_R (x y : ℤ) : RelC (BInt.R (2 ^ 53)) (CompEx.ci x y) (mapC strict (c x y)) :=
  ⟨BInt.of_R (lit_val _), BInt.of_R (lit_val _)⟩
theorem q_R (w x y z : ℤ) : RelQ (BInt.R (2 ^ 53)) (CompEx.qi w x y z) (mapQ strict (q w x y z)) :=
  ⟨BInt.of_R (lit_val _), BInt.of_R (lit_val _), BInt.of_R (lit_val _), BInt.of_R (lit_val _)⟩
theorem c_S (n : ℕ) (x y : ℤ) : ScaledC n (c x y) (c (2 ^ n * x) (2 ^ n * y)) := ⟨scaled_int n rfl, scaled_int n rfl⟩
theorem q_S (n : ℕ) (w x y z : ℤ) : ScaledQ n (q w x y z) (q (2 ^ n * w) (2 ^ n * x) (2 ^ n * y) (2 ^ n * z)) :=
  ⟨scaled_int n rfl, scaled_int n rfl, scaled_int n rfl, scaled_int n rfl⟩
theorem cInv_R {z : Cpx (Fl (normal Fmt.f64))} {x y : ℤ} (h : RelC (BInt.R (2 ^ 53)) (CompEx.ci x y) z) (hn : z.normSqr.val = some ((1 : ℤ) : ℝ))
    (hx : x.natAbs ≤ 2 ^ 53) (hy : y.natAbs ≤ 2 ^ 53) (h1 : (BInt.of x).b ≤ 2 ^ 53) (h2 : (BInt.of y).b ≤ 2 ^ 53) :
    RelC (BInt.R (2 ^ 53)) (CompEx.ci x (-y)) z.inv := by
  refine ⟨BInt.of_R ?_, BInt.of_R ?_⟩
  · rw [show z.inv.re = z.re / z.normSqr by simp [Cpx.inv]]; exact div1 (m := 1) (ev h.1 _ h1 (by simp; rfl)) hn (by decide) hx
  · rw [show z.inv.im = -z.im / z.normSqr by simp [Cpx.inv]]
    exact div1 (m := 1) (ev ((BInt.opRel E).neg h.2) _ h2 (by simp; rfl)) hn (by decide) (by simpa using hy)
end UnitsEx
/-- The length of `[3, 4]`, in units and in 1024ths. -/
example : ∃ d e : Ieee Fmt.f64, ∃ r : ℝ, (vec fun i => ((![3, 4] : Fin 2 → ℤ) i : ℝ)).lengthR = .ok d ∧
    (vec fun i => ((![3072, 4096] : Fin 2 → ℤ) i : ℝ)).lengthR = .ok e ∧ d.toReal? = some r ∧ e.toReal? = some (2 ^ ((10 : ℕ) : ℤ) * r) := by
  obtain ⟨d, e, h1, h2, h⟩ := C117_length (φ := Fmt.f64) _ _ (scaled_vec (a := ![3, 4]) (b := ![3072, 4096]) 10 (by decide))
  obtain ⟨r, h3, h4⟩ := fin h (length_val (n := 5) (v_R ![3, 4]) (by decide +kernel) (by decide +kernel) (by decide))
    (length_val (n := 5120) (v_R ![3072, 4096]) (by decide +kernel) (by decide +kernel) (by decide))
  exact ⟨d, e, r, h1, h2, h3, h4⟩
example : ∃ w w' : Vec (Ieee Fmt.f64) 2, ∃ r : ℝ, (vec fun i => ((![10, 0] : Fin 2 → ℤ) i : ℝ)).normalizeR = .ok w ∧
    (vec fun i => ((![40, 0] : Fin 2 → ℤ) i : ℝ)).normalizeR = .ok w' ∧ w[0].toReal? = some r ∧ w'[0].toReal? = some (2 ^ (0 : ℤ) * r) := by
  obtain ⟨d, e, h1, h2, h⟩ := C117_normalize (φ := Fmt.f64) _ _ (scaled_vec (a := ![10, 0]) (b := ![40, 0]) 2 (by decide))
  have l1 := length_val (n := 10) (v_R ![10, 0]) (by decide +kernel) (by decide +kernel) (by decide)
  have l2 := length_val (n := 40) (v_R ![40, 0]) (by decide +kernel) (by decide +kernel) (by decide)
  obtain ⟨r, h3, h4⟩ := fin (h 0) (r := ((1 : ℤ) : ℝ)) (s := ((1 : ℤ) : ℝ))
    (by rw [Vec.normalize, Vec.getElem_divS]; exact div1 (((v_R ![10, 0]) 0 (by decide)).eval (by decide +kernel)) l1 (by decide) (by decide))
    (by rw [Vec.normalize, Vec.getElem_divS]; exact div1 (((v_R ![40, 0]) 0 (by decide)).eval (by decide +kernel)) l2 (by decide) (by decide))
  exact ⟨d, e, r, h1, h2, h3, h4⟩
/-- The second column in quarters, and the vector accordingly. -/
example : ∃ w w' : Vec (Ieee Fmt.f64) 2, ∃ r : ℝ, (mat fun i j => ((!![2, 3; 4, 5] : Matrix (Fin 2) (Fin 2) ℤ) i j : ℝ)).dotVR (vec fun i => ((![1, 8] : Fin 2 → ℤ) i : ℝ)) = .ok w ∧
    (mat fun i j => ((!![2, 12; 8, 40] : Matrix (Fin 2) (Fin 2) ℤ) i j : ℝ)).dotVR (vec fun i => ((![4, 8] : Fin 2 → ℤ) i : ℝ)) = .ok w' ∧
    w[1].toReal? = some r ∧ w'[1].toReal? = some (8 * r) := by
  obtain ⟨d, e, h1, h2, h⟩ := C117_mat_vec (φ := Fmt.f64) (k := 2) (fun i => ((fun i => i : ℕ → ℕ) i : ℤ)) (fun j => ((fun j => 2 * j : ℕ → ℕ) j : ℤ)) _ _
    (vec fun i => ((![1, 8] : Fin 2 → ℤ) i : ℝ)) (vec fun i => ((![4, 8] : Fin 2 → ℤ) i : ℝ))
    (scaled_mat (a := !![2, 3; 4, 5]) (b := !![2, 12; 8, 40]) (fun i => i) (fun j => 2 * j) (by intro i j; fin_cases i <;> fin_cases j <;> rfl))
    (by intro j; refine ⟨_, vec_val _ j, ?_⟩; rw [vec_val]; fin_cases j <;> norm_num)
  have hv : ∀ (A : Matrix (Fin 2) (Fin 2) ℤ) (v : Fin 2 → ℤ), BInt.R (2 ^ 53) ((BInt.mat A)[1].dot (BInt.vec v))
      (((mat fun i j => (A i j : ℝ)).map strict).dotV ((vec fun i => (v i : ℝ)).map strict))[1] := fun A v => by
    rw [Mat.getElem_dotV _ _ 1 (by decide)]; exact (BInt.opRel E).vDot (m_R A 1 (by decide)) (v_R v)
  obtain ⟨r, h3, h4⟩ := fin (h 1) ((hv !![2, 3; 4, 5] ![1, 8]).eval (by decide +kernel)) ((hv !![2, 12; 8, 40] ![4, 8]).eval (by decide +kernel))
  refine ⟨d, e, r, h1, h2, h3, h4.trans ?_⟩
  norm_num
example : ∃ w w' : Mat (Ieee Fmt.f64) 2 2, ∃ r : ℝ, (mat fun i j => ((!![2, 3; 4, 5] : Matrix (Fin 2) (Fin 2) ℤ) i j : ℝ)).dotMR (mat fun i j => ((!![1, 2; 8, 4] : Matrix (Fin 2) (Fin 2) ℤ) i j : ℝ)) = .ok w ∧
    (mat fun i j => ((!![2, 12; 8, 40] : Matrix (Fin 2) (Fin 2) ℤ) i j : ℝ)).dotMR (mat fun i j => ((!![4, 8; 8, 4] : Matrix (Fin 2) (Fin 2) ℤ) i j : ℝ)) = .ok w' ∧
    w[1][0].toReal? = some r ∧ w'[1][0].toReal? = some (8 * r) := by
  obtain ⟨d, e, h1, h2, h⟩ := C117_mat_mat (φ := Fmt.f64) (k := 2) (fun i => ((fun i => i : ℕ → ℕ) i : ℤ)) (fun j => ((fun j => 2 * j : ℕ → ℕ) j : ℤ)) (fun _ => 0) _ _
    (mat fun i j => ((!![1, 2; 8, 4] : Matrix (Fin 2) (Fin 2) ℤ) i j : ℝ)) (mat fun i j => ((!![4, 8; 8, 4] : Matrix (Fin 2) (Fin 2) ℤ) i j : ℝ))
    (scaled_mat (a := !![2, 3; 4, 5]) (b := !![2, 12; 8, 40]) (fun i => i) (fun j => 2 * j) (by intro i j; fin_cases i <;> fin_cases j <;> rfl))
    (by intro i j; refine ⟨_, mat_val _ i j, (mat_val _ i j).trans ?_⟩; fin_cases i <;> fin_cases j <;> norm_num)
  have hv : ∀ A B : Matrix (Fin 2) (Fin 2) ℤ, RelM (BInt.R (2 ^ 53)) ((BInt.mat A).dotM (BInt.mat B))
      (((mat fun i j => (A i j : ℝ)).map strict).dotM ((mat fun i j => (B i j : ℝ)).map strict)) := fun A B => CompEx.dotM_rel (BInt.opRel E) (m_R A) (m_R B)
  obtain ⟨r, h3, h4⟩ := fin (h 1 0) ((hv !![2, 3; 4, 5] !![1, 2; 8, 4] 1 (by decide) 0 (by decide)).eval (by decide +kernel))
    ((hv !![2, 12; 8, 40] !![4, 8; 8, 4] 1 (by decide) 0 (by decide)).eval (by decide +kernel))
  refine ⟨d, e, r, h1, h2, h3, h4.trans ?_⟩
  norm_num
/-- An entry of the inverse of a matrix in halves. -/
example : ∃ r : ℝ, (mat fun i j => ((!![2, 3; 1, 2] : Matrix (Fin 2) (Fin 2) ℤ) i j : ℝ)).inv[0][1].toReal? = some r ∧
    (mat fun i j => ((!![4, 6; 2, 4] : Matrix (Fin 2) (Fin 2) ℤ) i j : ℝ)).inv[0][1].toReal? = some (2 ^ (-((1 : ℕ) : ℤ) - ((0 : ℕ) : ℤ)) * r) := by
  have hv : ∀ A : Matrix (Fin 2) (Fin 2) ℤ, ((mat fun i j => (A i j : ℝ)).map strict).inv[0][1] =
      ((mat fun i j => (A i j : ℝ)).map strict).adj[0][1] / ((mat fun i j => (A i j : ℝ)).map strict).det := fun A => by
    rw [Mat.getElem_congr_mat (Mat.inv_eq _) 0 (by decide) 1 (by decide), Mat.getElem_divS]
  refine fin (r := ((-3 : ℤ) : ℝ)) (s := ((-3 : ℤ) : ℝ) * 2 ^ (-1 : ℤ)) (C117_inverse (φ := Fmt.f64) (fun i => ((fun _ => 1 : ℕ → ℕ) i : ℤ)) (fun j => ((fun _ => 0 : ℕ → ℕ) j : ℤ)) _ _
    (scaled_mat (a := !![2, 3; 1, 2]) (b := !![4, 6; 2, 4]) (fun _ => 1) (fun _ => 0) (by intro i j; fin_cases i <;> fin_cases j <;> rfl)) 0 1) ?_ ?_
  · refine (congrArg Fl.val (hv !![2, 3; 1, 2])).trans (div1 (m := 1) (ev ((BInt.opRel E).adj (m_R !![2, 3; 1, 2]) 0 (by decide) 1 (by decide)) _ (by decide +kernel) (by decide +kernel))
      (ev ((BInt.opRel E).det (m_R !![2, 3; 1, 2])) _ (by decide +kernel) (by decide +kernel)) (by decide) (by decide))
  · refine (congrArg Fl.val (hv !![4, 6; 2, 4])).trans (div2 (n := -6) (m := 4) (-3) (-1) (ev ((BInt.opRel E).adj (m_R !![4, 6; 2, 4]) 0 (by decide) 1 (by decide)) _ (by decide +kernel) (by decide +kernel))
      (ev ((BInt.opRel E).det (m_R !![4, 6; 2, 4])) _ (by decide +kernel) (by decide +kernel)) (by decide) (by norm_num) (by decide) (by decide) (by decide) (by decide))
/-- Complex numbers: product and quotient by a unit. -/
example : (∃ r : ℝ, (c 3 4 * c 0 (-1)).re.toReal? = some r ∧ (c (2 ^ 5 * 3) (2 ^ 5 * 4) * c (2 ^ 0 * 0) (2 ^ 0 * (-1))).re.toReal? = some (2 ^ (((5 : ℕ) : ℤ) + ((0 : ℕ) : ℤ)) * r)) ∧
    (∃ r : ℝ, (c 3 4 / c 0 (-1)).im.toReal? = some r ∧ (c (2 ^ 5 * 3) (2 ^ 5 * 4) / c (2 ^ 0 * 0) (2 ^ 0 * (-1))).im.toReal? = some (2 ^ (((5 : ℕ) : ℤ) - ((0 : ℕ) : ℤ)) * r)) ∧
    ∃ r : ℝ, (c 3 4).norm.toReal? = some r ∧ (c (2 ^ 5 * 3) (2 ^ 5 * 4)).norm.toReal? = some (2 ^ ((5 : ℕ) : ℤ) * r) := by
  obtain ⟨h1, h2, -, h4⟩ := C117_complex _ _ _ _ (c_S 5 3 4) (c_S 0 0 (-1))
  have hi := cInv_R (c_R (2 ^ 0 * 0) (2 ^ 0 * (-1))) (((BInt.opRel E).cNormSqr (c_R (2 ^ 0 * 0) (2 ^ 0 * (-1)))).eval (by decide +kernel)) (by decide) (by decide) (by decide) (by decide)
  refine ⟨fin h1.1 (((BInt.opRel E).cMul (c_R 3 4) (c_R 0 (-1))).1.eval (by decide +kernel)) (((BInt.opRel E).cMul (c_R _ _) (c_R _ _)).1.eval (by decide +kernel)),
    fin h2.2 (((BInt.opRel E).cMul (c_R 3 4) hi).2.eval (by decide +kernel)) (((BInt.opRel E).cMul (c_R _ _) hi).2.eval (by decide +kernel)),
    fin h4 (sqrt1 ((BInt.opRel E).cNormSqr (c_R 3 4)) 5 (by decide +kernel) (by decide +kernel) (by decide))
      (sqrt1 ((BInt.opRel E).cNormSqr (c_R (2 ^ 5 * 3) (2 ^ 5 * 4))) 160 (by decide +kernel) (by decide +kernel) (by decide))⟩
/-- Quaternions: product, inverse and norm. -/
example : (∃ r : ℝ, (q 1 2 3 4 * q 5 6 7 8).y.toReal? = some r ∧
      (q (2 ^ 5 * 1) (2 ^ 5 * 2) (2 ^ 5 * 3) (2 ^ 5 * 4) * q (2 ^ 3 * 5) (2 ^ 3 * 6) (2 ^ 3 * 7) (2 ^ 3 * 8)).y.toReal? = some (2 ^ (((5 : ℕ) : ℤ) + ((3 : ℕ) : ℤ)) * r)) ∧
    ∃ r : ℝ, (q 1 1 (-1) 1).norm.toReal? = some r ∧ (q (2 ^ 5 * 1) (2 ^ 5 * 1) (2 ^ 5 * (-1)) (2 ^ 5 * 1)).norm.toReal? = some (2 ^ ((5 : ℕ) : ℤ) * r) := by
  obtain ⟨h1, -⟩ := C117_quaternion _ _ _ _ (q_S 5 1 2 3 4) (q_S 3 5 6 7 8)
  obtain ⟨-, -, -, h4⟩ := C117_quaternion _ _ _ _ (q_S 5 1 1 (-1) 1) (q_S 3 5 6 7 8)
  refine ⟨fin h1.2.2.1 (((BInt.opRel E).qMul (q_R 1 2 3 4) (q_R 5 6 7 8)).2.2.1.eval (by decide +kernel)) (((BInt.opRel E).qMul (q_R _ _ _ _) (q_R _ _ _ _)).2.2.1.eval (by decide +kernel)),
    fin h4 (sqrt1 ((BInt.opRel E).qNormSqr (q_R 1 1 (-1) 1)) 2 (by decide +kernel) (by decide +kernel) (by decide))
      (sqrt1 ((BInt.opRel E).qNormSqr (q_R (2 ^ 5 * 1) (2 ^ 5 * 1) (2 ^ 5 * (-1)) (2 ^ 5 * 1))) 64 (by decide +kernel) (by decide +kernel) (by decide))⟩
/-- Cross product in the plane. -/
example : ∃ r : ℝ, ((vec fun i => ((![1, 2] : Fin 2 → ℤ) i : ℝ)).cross2 (vec fun i => ((![5, -7] : Fin 2 → ℤ) i : ℝ))).toReal? = some r ∧
    ((vec fun i => ((![2, 4] : Fin 2 → ℤ) i : ℝ)).cross2 (vec fun i => ((![40, -56] : Fin 2 → ℤ) i : ℝ))).toReal? = some (2 ^ ((1 : ℕ) + (3 : ℕ) : ℤ) * r) :=
  fin (C117_cross2 (φ := Fmt.f64) _ _ _ _ (scaled_vec (a := ![1, 2]) (b := ![2, 4]) 1 (by decide)) (scaled_vec (a := ![5, -7]) (b := ![40, -56]) 3 (by decide)))
    (((BInt.opRel E).cross2 (v_R ![1, 2]) (v_R ![5, -7])).eval (by decide +kernel)) (((BInt.opRel E).cross2 (v_R ![2, 4]) (v_R ![40, -56])).eval (by decide +kernel))
/-- A (non-unit) rotation in space: the quaternion in halves, the point in eighths. -/
example : ∃ r : ℝ, (Transform.apply (Rotation3.fromQuaternion (q 1 2 0 (-1))) (vec fun i => ((![1, 2, 3] : Fin 3 → ℤ) i : ℝ)))[1].toReal? = some r ∧
    (Transform.apply (Rotation3.fromQuaternion (q (2 ^ 1 * 1) (2 ^ 1 * 2) (2 ^ 1 * 0) (2 ^ 1 * (-1)))) (vec fun i => ((![8, 16, 24] : Fin 3 → ℤ) i : ℝ)))[1].toReal? =
      some (2 ^ (((1 : ℕ) : ℤ) + ((3 : ℕ) : ℤ) + ((1 : ℕ) : ℤ)) * r) := by
  have hv : ∀ x y z : ℤ, RelQ (BInt.R (2 ^ 53)) (CompEx.qi 0 x y z) (Quat.fromScalarAndVector3 0 ((vec fun i => ((![x, y, z] : Fin 3 → ℤ) i : ℝ)).map strict) : Quat (Fl (normal Fmt.f64))) := fun x y z => by
    refine ⟨(BInt.opRel E).zero, ?_, ?_, ?_⟩
    · rw [Quat.x_fsv]; exact v_R ![x, y, z] 0 (by decide)
    · rw [Quat.y_fsv]; exact v_R ![x, y, z] 1 (by decide)
    · rw [Quat.z_fsv]; exact v_R ![x, y, z] 2 (by decide)
  have hr : ∀ a b c d x y z : ℤ, BInt.R (2 ^ 53) (CompEx.qi a b c d * CompEx.qi 0 x y z * (CompEx.qi a b c d).conj).y
      (Transform.apply (mapRot3 strict (Rotation3.fromQuaternion (q a b c d))) ((vec fun i => ((![x, y, z] : Fin 3 → ℤ) i : ℝ)).map strict))[1] :=
    fun a b c d x y z => ((BInt.opRel E).qMul ((BInt.opRel E).qMul (q_R a b c d) (hv x y z)) ((BInt.opRel E).qConj (q_R a b c d))).2.2.1
  have h := C117_rotation3 (φ := Fmt.f64) (Rotation3.fromQuaternion (q 1 2 0 (-1))) (Rotation3.fromQuaternion (q (2 ^ 1 * 1) (2 ^ 1 * 2) (2 ^ 1 * 0) (2 ^ 1 * (-1))))
    (vec fun i => ((![1, 2, 3] : Fin 3 → ℤ) i : ℝ)) (vec fun i => ((![8, 16, 24] : Fin 3 → ℤ) i : ℝ)) (q_S 1 1 2 0 (-1)) (scaled_vec (a := ![1, 2, 3]) (b := ![8, 16, 24]) 3 (by decide)) 1
  have h1 := (hr 1 2 0 (-1) 1 2 3).eval (by decide +kernel)
  have h2 := (hr (2 ^ 1 * 1) (2 ^ 1 * 2) (2 ^ 1 * 0) (2 ^ 1 * (-1)) 8 16 24).eval (by decide +kernel)
  exact fin h h1 h2
example : ∃ r : ℝ, (Transform.apply (Rotation2.fromComplex (c 3 4)) (vec fun i => ((![1, 2] : Fin 2 → ℤ) i : ℝ)))[1].toReal? = some r ∧
    (Transform.apply (Rotation2.fromComplex (c (2 ^ 1 * 3) (2 ^ 1 * 4))) (vec fun i => ((![8, 16] : Fin 2 → ℤ) i : ℝ)))[1].toReal? =
      some (2 ^ (((3 : ℕ) : ℤ) + ((1 : ℕ) : ℤ)) * r) := by
  have hv : ∀ x y : ℤ, RelC (BInt.R (2 ^ 53)) (CompEx.ci x y) (Cpx.fromVector ((vec fun i => ((![x, y] : Fin 2 → ℤ) i : ℝ)).map strict) : Cpx (Fl (normal Fmt.f64))) :=
    fun x y => ⟨v_R ![x, y] 0 (by decide), v_R ![x, y] 1 (by decide)⟩
  exact fin (C117_rotation2 (φ := Fmt.f64) _ _ _ _ (c_S 1 3 4) (scaled_vec (a := ![1, 2]) (b := ![8, 16]) 3 (by decide)) 1)
    (ev ((BInt.opRel E).cMul (hv 1 2) (c_R 3 4)).2 _ (by decide +kernel) rfl) (ev ((BInt.opRel E).cMul (hv 8 16) (c_R _ _)).2 _ (by decide +kernel) rfl)
/-- An affine map, the shift and the point in quarters. -/
example : ∃ r : ℝ,
    (Transform.apply (Chain.new (Shift.fromVector (vec fun i => ((![5, 6] : Fin 2 → ℤ) i : ℝ))) (Linear.fromMatrix (mat fun i j => ((!![2, 3; 4, 5] : Matrix (Fin 2) (Fin 2) ℤ) i j : ℝ))) : Affine (Ieee Fmt.f64) 2)
      (vec fun i => ((![1, 8] : Fin 2 → ℤ) i : ℝ)))[1].toReal? = some r ∧
    (Transform.apply (Chain.new (Shift.fromVector (vec fun i => ((![20, 24] : Fin 2 → ℤ) i : ℝ))) (Linear.fromMatrix (mat fun i j => ((!![2, 3; 4, 5] : Matrix (Fin 2) (Fin 2) ℤ) i j : ℝ))) : Affine (Ieee Fmt.f64) 2)
      (vec fun i => ((![4, 32] : Fin 2 → ℤ) i : ℝ)))[1].toReal? = some (2 ^ ((2 : ℕ) : ℤ) * r) := by
  have hv : ∀ (A : Matrix (Fin 2) (Fin 2) ℤ) (s v : Fin 2 → ℤ), BInt.R (2 ^ 53) ((BInt.mat A)[1].dot (BInt.vec v) + (BInt.vec s)[1])
      (Transform.apply (mapAffine strict (Chain.new (Shift.fromVector (vec fun i => (s i : ℝ))) (Linear.fromMatrix (mat fun i j => (A i j : ℝ))) : Affine (Ieee Fmt.f64) 2)) ((vec fun i => (v i : ℝ)).map strict))[1] := fun A s v => by
    show BInt.R _ _ (((mat fun i j => (A i j : ℝ)).map strict).dotV ((vec fun i => (v i : ℝ)).map strict) + (vec fun i => (s i : ℝ)).map strict)[1]
    rw [Vec.getElem_add, Mat.getElem_dotV _ _ 1 (by decide)]; exact (BInt.opRel E).add ((BInt.opRel E).vDot (m_R A 1 (by decide)) (v_R v)) (v_R s 1 (by decide))
  have hl : ∀ i j : Fin 2, Scaled 0 (mat fun i j => ((!![2, 3; 4, 5] : Matrix (Fin 2) (Fin 2) ℤ) i j : ℝ))[i.1][j.1] (mat fun i j => ((!![2, 3; 4, 5] : Matrix (Fin 2) (Fin 2) ℤ) i j : ℝ))[i.1][j.1] :=
    fun i j => ⟨((!![2, 3; 4, 5] : Matrix (Fin 2) (Fin 2) ℤ) i j : ℝ), mat_val _ i j, (mat_val _ i j).trans (by simp)⟩
  have h := C117_affine (φ := Fmt.f64) (Chain.new (Shift.fromVector (vec fun i => ((![5, 6] : Fin 2 → ℤ) i : ℝ))) (Linear.fromMatrix (mat fun i j => ((!![2, 3; 4, 5] : Matrix (Fin 2) (Fin 2) ℤ) i j : ℝ))) : Affine (Ieee Fmt.f64) 2)
    (Chain.new (Shift.fromVector (vec fun i => ((![20, 24] : Fin 2 → ℤ) i : ℝ))) (Linear.fromMatrix (mat fun i j => ((!![2, 3; 4, 5] : Matrix (Fin 2) (Fin 2) ℤ) i j : ℝ))) : Affine (Ieee Fmt.f64) 2)
    (vec fun i => ((![1, 8] : Fin 2 → ℤ) i : ℝ)) (vec fun i => ((![4, 32] : Fin 2 → ℤ) i : ℝ)) hl
    (scaled_vec (a := ![5, 6]) (b := ![20, 24]) 2 (by decide)) (scaled_vec (a := ![1, 8]) (b := ![4, 32]) 2 (by decide)) 1
  have h1 := (hv !![2, 3; 4, 5] ![5, 6] ![1, 8]).eval (by decide +kernel)
  have h2 := (hv !![2, 3; 4, 5] ![20, 24] ![4, 32]).eval (by decide +kernel)
  exact fin h h1 h2
/-- Multiplying `[1, 2, 3]` by `8` and back. -/
example : Scaled 3 (vec fun i => ((![1, 2, 3] : Fin 3 → ℤ) i : ℝ))[2] ((vec fun i => ((![1, 2, 3] : Fin 3 → ℤ) i : ℝ)).mulS (lit 8))[2] :=
  (C117_rescale C80_formats.2 (vec fun i => ((![1, 2, 3] : Fin 3 → ℤ) i : ℝ)) (lit 8) (k := 3) (by rw [lit_val]; norm_num) 2 3
    (vec_ok ![1, 2, 3] (by decide) 2 (by decide)).1 (by simpa using vec_val (fun i => ((![1, 2, 3] : Fin 3 → ℤ) i : ℝ)) 2)
    (.inr ⟨le_trans (zpow_le_one_of_nonpos₀ (by norm_num) (by decide)) (by norm_num), le_trans (zpow_le_one_of_nonpos₀ (by norm_num) (by decide)) (by norm_num)⟩)
    (lt_of_lt_of_le (b := 2 ^ (5:ℤ)) (by norm_num) (zpow_le_zpow_right₀ (by norm_num) (by decide)))).1
/-- `look_at` along `-z`, the direction in halves, the up vector in eighths. -/
example : ∃ r : ℝ, (Linear.lookAt (vec fun i => ((![0, 0, -2] : Fin 3 → ℤ) i : ℝ)) (vec fun i => ((![0, 1, 0] : Fin 3 → ℤ) i : ℝ))).intoMatrix[0][0].toReal? = some r ∧
    (Linear.lookAt (vec fun i => ((![0, 0, -4] : Fin 3 → ℤ) i : ℝ)) (vec fun i => ((![0, 8, 0] : Fin 3 → ℤ) i : ℝ))).intoMatrix[0][0].toReal? = some (2 ^ (0 : ℤ) * r) := by
  have hv : ∀ u v : Vec (Fl (normal Fmt.f64)) 3, (Linear.lookAt u v).intoMatrix[0][0] = (u.cross3 v)[0] / (u.cross3 v).length := fun u v => by
    rw [show (Linear.lookAt u v).intoMatrix[0][0] = (u.cross3 v).normalize[0] by simp [Linear.lookAt, Linear.intoMatrix, Mat.fromArrVec, Mat.fromVecVec, Vec.fromArray],
      Vec.normalize, Vec.getElem_divS]
  have hc := fun u v : Fin 3 → ℤ => (BInt.opRel E).cross3 (v_R u) (v_R v)
  have h := C117_look_at (φ := Fmt.f64) _ _ _ _ (scaled_vec (a := ![0, 0, -2]) (b := ![0, 0, -4]) 1 (by decide)) (scaled_vec (a := ![0, 1, 0]) (b := ![0, 8, 0]) 3 (by decide)) 0 0
  have h1 := div1 (n := 1) (m := (2 : ℕ)) (ev (hc ![0, 0, -2] ![0, 1, 0] 0 (by decide)) _ (by decide +kernel) (by decide +kernel)) (length_val (n := 2) (hc ![0, 0, -2] ![0, 1, 0]) (by decide +kernel) (by decide +kernel) (by decide))
    (by decide) (by decide)
  have h2 := div1 (n := 1) (m := (32 : ℕ)) (ev (hc ![0, 0, -4] ![0, 8, 0] 0 (by decide)) _ (by decide +kernel) (by decide +kernel)) (length_val (n := 32) (hc ![0, 0, -4] ![0, 8, 0]) (by decide +kernel) (by decide +kernel) (by decide))
    (by decide) (by decide)
  exact fin h ((congrArg Fl.val (hv _ _)).trans h1) ((congrArg Fl.val (hv _ _)).trans h2)
/-- `z ↦ (2 z + 3) / (2 z - 2 + i)` at `1 - i`, and at `2 - 2 i` in halves. -/
example : ∃ r : ℝ, ((Moebius.new (c 2 0) (c 3 0) (c 2 0) (c (-2) 1)).apply (c 1 (-1))).re.toReal? = some r ∧
    ((Moebius.new (c 2 0) (c 6 0) (c 1 0) (c (-2) 1)).apply (c 2 (-2))).re.toReal? = some (2 ^ ((1 : ℤ) - 0) * r) := by
  have hv : ∀ a b p q d e x y : ℤ, (mapMo (mapC strict) (Moebius.new (c a b) (c p 0) (c q 0) (c d e))).apply (mapC strict (c x y)) =
      (mapC strict (c a b) * mapC strict (c x y) + mapC strict (c p 0)) * (mapC strict (c q 0) * mapC strict (c x y) + mapC strict (c d e)).inv := fun a b p q d e x y => by
    obtain ⟨ea, eb, ec, ed⟩ := mapMo_abcd (mapC strict) (Moebius.new (c a b) (c p 0) (c q 0) (c d e))
    unfold Moebius.apply
    rw [ea, eb, ec, ed]; rfl
  have h := C117_moebius (φ := Fmt.f64) (m := 1) (s := 1) (t := 0) (Moebius.new (c 2 0) (c 3 0) (c 2 0) (c (-2) 1)) (Moebius.new (c 2 0) (c 6 0) (c 1 0) (c (-2) 1)) (c 1 (-1)) (c 2 (-2))
    ⟨scaled_lit (by norm_num), scaled_lit (by norm_num)⟩ ⟨scaled_lit (by norm_num), scaled_lit (by norm_num)⟩ ⟨scaled_lit (by norm_num), scaled_lit (by norm_num)⟩
    ⟨scaled_lit (by norm_num), scaled_lit (by norm_num)⟩ ⟨scaled_lit (by norm_num), scaled_lit (by norm_num)⟩
  have hr := BInt.opRel E
  have hd1 := hr.cAdd (hr.cMul (c_R 2 0) (c_R 1 (-1))) (c_R (-2) 1)
  have hd2 := hr.cAdd (hr.cMul (c_R 1 0) (c_R 2 (-2))) (c_R (-2) 1)
  have i1 := cInv_R (x := 0) (y := -1) ⟨BInt.of_R (ev hd1.1 0 (by decide +kernel) (by decide +kernel)), BInt.of_R (ev hd1.2 (-1) (by decide +kernel) (by decide +kernel))⟩
    (ev (hr.cNormSqr hd1) 1 (by decide +kernel) (by decide +kernel)) (by decide) (by decide) (by decide) (by decide)
  have i2 := cInv_R (x := 0) (y := -1) ⟨BInt.of_R (ev hd2.1 0 (by decide +kernel) (by decide +kernel)), BInt.of_R (ev hd2.2 (-1) (by decide +kernel) (by decide +kernel))⟩
    (ev (hr.cNormSqr hd2) 1 (by decide +kernel) (by decide +kernel)) (by decide) (by decide) (by decide) (by decide)
  have h1 := (hr.cMul (hr.cAdd (hr.cMul (c_R 2 0) (c_R 1 (-1))) (c_R 3 0)) i1).1.eval (by decide +kernel)
  have h2 := (hr.cMul (hr.cAdd (hr.cMul (c_R 2 0) (c_R 2 (-2))) (c_R 6 0)) i2).1.eval (by decide +kernel)
  exact fin h.1 ((congrArg (fun w => w.re.val) (hv _ _ _ _ _ _ _ _)).trans h1) ((congrArg (fun w => w.re.val) (hv _ _ _ _ _ _ _ _)).trans h2)
/-- `q ↦ (2 q + 3) / (q - 2 i)` and eight times this map, at `2 i + k`. -/
example : ∃ r : ℝ, ((Moebius.new (c 2 0) (c 3 0) (c 1 0) (c 0 (-2))).apply (q 0 2 0 1)).z.toReal? = some r ∧
    ((Moebius.new (c 16 0) (c 24 0) (c 1 0) (c 0 (-2))).apply (q 0 2 0 1)).z.toReal? = some (2 ^ ((3 : ℤ) - 0) * r) := by
  have hr := BInt.opRel E
  have hv : ∀ a b : ℤ, (mapMo (mapC strict) (Moebius.new (c a 0) (c b 0) (c 1 0) (c 0 (-2)))).apply (mapQ strict (q 0 2 0 1)) =
      (mapC strict (c a 0) * mapQ strict (q 0 2 0 1) + mapC strict (c b 0) : Quat (Fl (normal Fmt.f64))) *
      (mapC strict (c 1 0) * mapQ strict (q 0 2 0 1) + mapC strict (c 0 (-2)) : Quat (Fl (normal Fmt.f64))).inv := fun a b => by
    obtain ⟨ea, eb, ec, ed⟩ := mapMo_abcd (mapC strict) (Moebius.new (c a 0) (c b 0) (c 1 0) (c 0 (-2)))
    unfold Moebius.apply
    rw [ea, eb, ec, ed]; rfl
  have hn := fun a b => relQ_addC' hr (c_R b 0) (relQ_cMul' hr (c_R a 0) (q_R 0 2 0 1))
  have hd := relQ_addC' hr (c_R 0 (-2)) (relQ_cMul' hr (c_R 1 0) (q_R 0 2 0 1))
  have n1 := ev (hr.qNormSqr hd) 1 (by decide +kernel) (by decide +kernel)
  have hw : ∀ r : Quat (Fl (normal Fmt.f64)), r.inv.w = r.w / r.normSqr := fun r => by simp [Quat.inv]
  have hx : ∀ r : Quat (Fl (normal Fmt.f64)), r.inv.x = -r.x / r.normSqr := fun r => by simp [Quat.inv]
  have hy : ∀ r : Quat (Fl (normal Fmt.f64)), r.inv.y = -r.y / r.normSqr := fun r => by simp [Quat.inv]
  have hz : ∀ r : Quat (Fl (normal Fmt.f64)), r.inv.z = -r.z / r.normSqr := fun r => by simp [Quat.inv]
  have hi : RelQ (BInt.R (2 ^ 53)) (CompEx.qi 0 0 0 (-1)) (mapC strict (c 1 0) * mapQ strict (q 0 2 0 1) + mapC strict (c 0 (-2)) : Quat (Fl (normal Fmt.f64))).inv := by
    refine ⟨BInt.of_R ?_, BInt.of_R ?_, BInt.of_R ?_, BInt.of_R ?_⟩
    · rw [hw]; exact div1 (n := 0) (m := 1) (ev hd.1 _ (by decide +kernel) (by decide +kernel)) n1 (by decide) (by decide)
    · rw [hx]; exact div1 (n := 0) (m := 1) (ev (hr.neg hd.2.1) _ (by decide +kernel) (by decide +kernel)) n1 (by decide) (by decide)
    · rw [hy]; exact div1 (n := 0) (m := 1) (ev (hr.neg hd.2.2.1) _ (by decide +kernel) (by decide +kernel)) n1 (by decide) (by decide)
    · rw [hz]; exact div1 (n := -1) (m := 1) (ev (hr.neg hd.2.2.2) _ (by decide +kernel) (by decide +kernel)) n1 (by decide) (by decide)
  have h := C117_moebius_quaternion (φ := Fmt.f64) (m := 0) (s := 3) (t := 0) (Moebius.new (c 2 0) (c 3 0) (c 1 0) (c 0 (-2))) (Moebius.new (c 16 0) (c 24 0) (c 1 0) (c 0 (-2))) (q 0 2 0 1) (q 0 2 0 1)
    ⟨scaled_lit (by norm_num), scaled_lit (by norm_num), scaled_lit (by norm_num), scaled_lit (by norm_num)⟩ ⟨scaled_lit (by norm_num), scaled_lit (by norm_num)⟩
    ⟨scaled_lit (by norm_num), scaled_lit (by norm_num)⟩ ⟨scaled_lit (by norm_num), scaled_lit (by norm_num)⟩ ⟨scaled_lit (by norm_num), scaled_lit (by norm_num)⟩
  have h1 := (hr.qMul (hn 2 3) hi).2.2.2.eval (by decide +kernel)
  have h2 := (hr.qMul (hn 16 24) hi).2.2.2.eval (by decide +kernel)
  exact fin h.2.2.2 ((congrArg (fun w => w.z.val) (hv _ _)).trans h1) ((congrArg (fun w => w.z.val) (hv _ _)).trans h2)
/-- The composition of two rotations, the first quaternion in halves, the second in eighths. -/
example : ∃ r : ℝ, (Transform.chain (Vec (Ieee Fmt.f64) 3) (Rotation3.fromQuaternion (q 1 2 3 4)) (Rotation3.fromQuaternion (q 5 6 7 8))).intoQuaternion.y.toReal? = some r ∧
    (Transform.chain (Vec (Ieee Fmt.f64) 3) (Rotation3.fromQuaternion (q (2 ^ 1 * 1) (2 ^ 1 * 2) (2 ^ 1 * 3) (2 ^ 1 * 4)))
      (Rotation3.fromQuaternion (q (2 ^ 3 * 5) (2 ^ 3 * 6) (2 ^ 3 * 7) (2 ^ 3 * 8)))).intoQuaternion.y.toReal? = some (2 ^ (4 : ℤ) * r) := by
  have h := C117_compose_rotation3 (φ := Fmt.f64) (.two
    (.one (Rotation3.fromQuaternion (q 1 2 3 4), Rotation3.fromQuaternion (q (2 ^ 1 * 1) (2 ^ 1 * 2) (2 ^ 1 * 3) (2 ^ 1 * 4)), ((1 : ℕ) : ℤ)))
    (.one (Rotation3.fromQuaternion (q 5 6 7 8), Rotation3.fromQuaternion (q (2 ^ 3 * 5) (2 ^ 3 * 6) (2 ^ 3 * 7) (2 ^ 3 * 8)), ((3 : ℕ) : ℤ))))
    (by
      intro x hx
      simp only [Bracketing.items, List.mem_append, List.mem_singleton] at hx
      rcases hx with rfl | rfl
      · exact q_S 1 1 2 3 4
      · exact q_S 3 5 6 7 8)
  have h1 := ((BInt.opRel E).qMul (q_R 1 2 3 4) (q_R 5 6 7 8)).2.2.1.eval (by decide +kernel)
  have h2 := ((BInt.opRel E).qMul (q_R (2 ^ 1 * 1) (2 ^ 1 * 2) (2 ^ 1 * 3) (2 ^ 1 * 4)) (q_R (2 ^ 3 * 5) (2 ^ 3 * 6) (2 ^ 3 * 7) (2 ^ 3 * 8))).2.2.1.eval (by decide +kernel)
  exact fin h.2.2.1 h1 h2
/-- The composition of two affine maps, the shifts in quarters. -/
example : ∃ r : ℝ, (show Affine (Ieee Fmt.f64) 2 from Transform.chain (Vec (Ieee Fmt.f64) 2)
      (Chain.new (Shift.fromVector (vec fun i => ((![5, 6] : Fin 2 → ℤ) i : ℝ))) (Linear.fromMatrix (mat fun i j => ((!![2, 3; 4, 5] : Matrix (Fin 2) (Fin 2) ℤ) i j : ℝ))) : Affine (Ieee Fmt.f64) 2)
      (Chain.new (Shift.fromVector (vec fun i => ((![1, 8] : Fin 2 → ℤ) i : ℝ))) (Linear.fromMatrix (mat fun i j => ((!![1, 0; 7, 2] : Matrix (Fin 2) (Fin 2) ℤ) i j : ℝ))) : Affine (Ieee Fmt.f64) 2)).shift.intoVector[1].toReal? = some r ∧
    (show Affine (Ieee Fmt.f64) 2 from Transform.chain (Vec (Ieee Fmt.f64) 2)
      (Chain.new (Shift.fromVector (vec fun i => ((![20, 24] : Fin 2 → ℤ) i : ℝ))) (Linear.fromMatrix (mat fun i j => ((!![2, 3; 4, 5] : Matrix (Fin 2) (Fin 2) ℤ) i j : ℝ))) : Affine (Ieee Fmt.f64) 2)
      (Chain.new (Shift.fromVector (vec fun i => ((![4, 32] : Fin 2 → ℤ) i : ℝ))) (Linear.fromMatrix (mat fun i j => ((!![1, 0; 7, 2] : Matrix (Fin 2) (Fin 2) ℤ) i j : ℝ))) : Affine (Ieee Fmt.f64) 2)).shift.intoVector[1].toReal? = some (2 ^ ((2 : ℕ) : ℤ) * r) := by
  have hl : ∀ (A : Matrix (Fin 2) (Fin 2) ℤ) (i j : Fin 2), Scaled 0 (mat fun i j => (A i j : ℝ))[i.1][j.1] (mat fun i j => (A i j : ℝ))[i.1][j.1] :=
    fun A i j => ⟨(A i j : ℝ), mat_val _ i j, (mat_val _ i j).trans (by simp)⟩
  have hv : ∀ (A : Matrix (Fin 2) (Fin 2) ℤ) (s v : Fin 2 → ℤ), BInt.R (2 ^ 53) ((BInt.vec s)[1] + (BInt.mat A)[1].dot (BInt.vec v))
      ((vec fun i => (s i : ℝ)).map strict + ((mat fun i j => (A i j : ℝ)).map strict).dotV ((vec fun i => (v i : ℝ)).map strict))[1] := fun A s v => by
    rw [Vec.getElem_add, Mat.getElem_dotV _ _ 1 (by decide)]; exact (BInt.opRel E).add (v_R s 1 (by decide)) ((BInt.opRel E).vDot (m_R A 1 (by decide)) (v_R v))
  have h := (C117_compose_affine (φ := Fmt.f64) (k := (2 : ℕ)) (.two
    (.one ((Chain.new (Shift.fromVector (vec fun i => ((![5, 6] : Fin 2 → ℤ) i : ℝ))) (Linear.fromMatrix (mat fun i j => ((!![2, 3; 4, 5] : Matrix (Fin 2) (Fin 2) ℤ) i j : ℝ))) : Affine (Ieee Fmt.f64) 2),
      (Chain.new (Shift.fromVector (vec fun i => ((![20, 24] : Fin 2 → ℤ) i : ℝ))) (Linear.fromMatrix (mat fun i j => ((!![2, 3; 4, 5] : Matrix (Fin 2) (Fin 2) ℤ) i j : ℝ))) : Affine (Ieee Fmt.f64) 2)))
    (.one ((Chain.new (Shift.fromVector (vec fun i => ((![1, 8] : Fin 2 → ℤ) i : ℝ))) (Linear.fromMatrix (mat fun i j => ((!![1, 0; 7, 2] : Matrix (Fin 2) (Fin 2) ℤ) i j : ℝ))) : Affine (Ieee Fmt.f64) 2),
      (Chain.new (Shift.fromVector (vec fun i => ((![4, 32] : Fin 2 → ℤ) i : ℝ))) (Linear.fromMatrix (mat fun i j => ((!![1, 0; 7, 2] : Matrix (Fin 2) (Fin 2) ℤ) i j : ℝ))) : Affine (Ieee Fmt.f64) 2))))
    (by
      intro x hx
      simp only [Bracketing.items, List.mem_append, List.mem_singleton] at hx
      rcases hx with rfl | rfl
      · exact hl !![2, 3; 4, 5]
      · exact hl !![1, 0; 7, 2])
    (by
      intro x hx
      simp only [Bracketing.items, List.mem_append, List.mem_singleton] at hx
      rcases hx with rfl | rfl
      · exact scaled_vec (a := ![5, 6]) (b := ![20, 24]) 2 (by decide)
      · exact scaled_vec (a := ![1, 8]) (b := ![4, 32]) 2 (by decide)) rfl rfl rfl rfl).2 1
  have h1 := (hv !![2, 3; 4, 5] ![5, 6] ![1, 8]).eval (by decide +kernel)
  have h2 := (hv !![2, 3; 4, 5] ![20, 24] ![4, 32]).eval (by decide +kernel)
  exact fin h h1 h2
/-- The direction `[2, -3]` in eighths under a matrix in quarters; the normal `[2, 1]` in eighths. -/
example : (∃ r : ℝ, (Directional.applyDir (Linear.fromMatrix (mat fun i j => ((!![2, 1; 3, 2] : Matrix (Fin 2) (Fin 2) ℤ) i j : ℝ))) (0 : Vec (Ieee Fmt.f64) 2) (vec fun i => ((![2, -3] : Fin 2 → ℤ) i : ℝ)))[0].toReal? = some r ∧
      (Directional.applyDir (Linear.fromMatrix (mat fun i j => ((!![8, 4; 12, 8] : Matrix (Fin 2) (Fin 2) ℤ) i j : ℝ))) (0 : Vec (Ieee Fmt.f64) 2) (vec fun i => ((![16, -24] : Fin 2 → ℤ) i : ℝ)))[0].toReal? = some (2 ^ (0 : ℤ) * r)) ∧
    ∃ r : ℝ, (Directional.applyNormal (Linear.fromMatrix (mat fun i j => ((!![2, 1; 3, 2] : Matrix (Fin 2) (Fin 2) ℤ) i j : ℝ))) (0 : Vec (Ieee Fmt.f64) 2) (vec fun i => ((![2, 1] : Fin 2 → ℤ) i : ℝ)))[0].toReal? = some r ∧
      (Directional.applyNormal (Linear.fromMatrix (mat fun i j => ((!![2, 1; 3, 2] : Matrix (Fin 2) (Fin 2) ℤ) i j : ℝ))) (0 : Vec (Ieee Fmt.f64) 2) (vec fun i => ((![16, 8] : Fin 2 → ℤ) i : ℝ)))[0].toReal? = some (2 ^ (0 : ℤ) * r) := by
  have hr := BInt.opRel E
  have hn : ∀ {w : Vec BInt 2} {v : Vec (Fl (normal Fmt.f64)) 2} (n : ℕ), RelV (BInt.R (2 ^ 53)) w v → w.squareLength.n = (n * n : ℕ) → w.squareLength.b ≤ 2 ^ 53 → n ≤ 2 ^ 53 →
      w[0].b ≤ 2 ^ 53 → w[0].n = n → n ≠ 0 → v.normalize[0].val = some ((1 : ℤ) : ℝ) := fun n h h1 h2 h3 h4 h5 h6 => by
    rw [Vec.normalize, Vec.getElem_divS]
    exact div1 (m := n) (by rw [one_mul]; exact ev (h 0 (by decide)) n h4 h5) (length_val h h1 h2 h3) (by exact_mod_cast h6) (by decide)
  have hd : ∀ {A : Mat BInt 2 2} {B : Mat (Fl (normal Fmt.f64)) 2 2} (v : Fin 2 → ℤ), RelM (BInt.R (2 ^ 53)) A B →
      RelV (BInt.R (2 ^ 53)) (Vec.fromArray #v[A[0].dot (BInt.vec v), A[1].dot (BInt.vec v)]) (B.dotV ((vec fun i => (v i : ℝ)).map strict)) := fun v h i hi => by
    rw [Mat.getElem_dotV _ _ i hi]
    match i, hi with
    | 0, _ => exact hr.vDot (h 0 (by decide)) (v_R v)
    | 1, _ => exact hr.vDot (h 1 (by decide)) (v_R v)
  have hi : RelM (BInt.R (2 ^ 53)) (BInt.mat !![2, -3; -1, 2]) ((mat fun i j => ((!![2, 1; 3, 2] : Matrix (Fin 2) (Fin 2) ℤ) i j : ℝ)).map strict).inv.transpose := by
    have ha := hr.adj (m_R !![2, 1; 3, 2])
    have hdet := ev (hr.det (m_R !![2, 1; 3, 2])) 1 (by decide +kernel) (by decide +kernel)
    have hq : ∀ i (hi : i < 2) j (hj : j < 2) (n : ℤ), ((BInt.mat !![2, 1; 3, 2]).adj[j][i]).b ≤ 2 ^ 53 → ((BInt.mat !![2, 1; 3, 2]).adj[j][i]).n = n * 1 → n.natAbs ≤ 2 ^ 53 →
        (((mat fun i j => ((!![2, 1; 3, 2] : Matrix (Fin 2) (Fin 2) ℤ) i j : ℝ)).map strict).inv.transpose[i][j]).val = some (n : ℝ) := fun i hi j hj n h1 h2 h3 => by
      rw [Mat.getElem_transpose, Mat.getElem_congr_mat (Mat.inv_eq _) j hj i hi, Mat.getElem_divS]
      exact div1 (m := 1) (ev (ha j hj i hi) _ h1 h2) hdet (by decide) h3
    have q := fun i hi j hj h1 h2 h3 => BInt.of_R (B := 2 ^ 53) (hq i hi j hj ((!![2, -3; -1, 2] : Matrix (Fin 2) (Fin 2) ℤ) ⟨i, hi⟩ ⟨j, hj⟩) h1 h2 h3)
    have q00 := q 0 (by decide) 0 (by decide) (by decide +kernel) (by decide +kernel) (by decide)
    have q01 := q 0 (by decide) 1 (by decide) (by decide +kernel) (by decide +kernel) (by decide)
    have q10 := q 1 (by decide) 0 (by decide) (by decide +kernel) (by decide +kernel) (by decide)
    have q11 := q 1 (by decide) 1 (by decide) (by decide +kernel) (by decide +kernel) (by decide)
    exact fun i hi j hj => match i, hi, j, hj with
      | 0, _, 0, _ => q00
      | 0, _, 1, _ => q01
      | 1, _, 0, _ => q10
      | 1, _, 1, _ => q11
  refine ⟨?_, ?_⟩
  · exact fin (C117_directions (φ := Fmt.f64) (k := 2) _ _ 0 0 _ _ (by
        intro i j; refine ⟨((!![2, 1; 3, 2] : Matrix (Fin 2) (Fin 2) ℤ) i j : ℝ), mat_val _ i j, (mat_val _ i j).trans ?_⟩; fin_cases i <;> fin_cases j <;> norm_num)
        (scaled_vec (a := ![2, -3]) (b := ![16, -24]) 3 (by decide)) 0).1
      (hn 1 (hd ![2, -3] (m_R !![2, 1; 3, 2])) (by decide +kernel) (by decide +kernel) (by decide) (by decide +kernel) (by decide +kernel) (by decide))
      (hn 32 (hd ![16, -24] (m_R !![8, 4; 12, 8])) (by decide +kernel) (by decide +kernel) (by decide) (by decide +kernel) (by decide +kernel) (by decide))
  · exact fin (C117_directions (φ := Fmt.f64) (k := 0) _ _ 0 0 _ _ (fun i j => ⟨((!![2, 1; 3, 2] : Matrix (Fin 2) (Fin 2) ℤ) i j : ℝ), mat_val _ i j, (mat_val _ i j).trans (by simp)⟩)
        (scaled_vec (a := ![2, 1]) (b := ![16, 8]) 3 (by decide)) 0).2
      (hn 1 (hd ![2, 1] hi) (by decide +kernel) (by decide +kernel) (by decide) (by decide +kernel) (by decide +kernel) (by decide))
      (hn 8 (hd ![16, 8] hi) (by decide +kernel) (by decide +kernel) (by decide) (by decide +kernel) (by decide +kernel) (by decide))
/-- The derivative of `z ↦ (2 z + 3) / (2 z - 2 + i)` at `1 - i` along `10 + 2 i`, and in other units; the result points along the real axis. -/
example : (∃ r : ℝ, (Transform.deriv (Moebius.new (c 2 0) (c 3 0) (c 2 0) (c (-2) 1)) (c 1 (-1)) (c 10 2)).re.toReal? = some r ∧
      (Transform.deriv (Moebius.new (c 2 0) (c 6 0) (c 1 0) (c (-2) 1)) (c 2 (-2)) (c (2 ^ 3 * 10) (2 ^ 3 * 2))).re.toReal? = some (2 ^ ((1 : ℤ) - 1 - 0 + (3 : ℕ)) * r)) ∧
    ∃ r : ℝ, (Directional.applyDir (Moebius.new (c 2 0) (c 3 0) (c 2 0) (c (-2) 1)) (c 1 (-1)) (c 10 2)).re.toReal? = some r ∧
      (Directional.applyDir (Moebius.new (c 2 0) (c 6 0) (c 1 0) (c (-2) 1)) (c 2 (-2)) (c (2 ^ 3 * 10) (2 ^ 3 * 2))).re.toReal? = some (2 ^ (0 : ℤ) * r) := by
  have hr := BInt.opRel E
  have hv : ∀ a b p q d e x y v w : ℤ, Transform.deriv (mapMo (mapC strict) (Moebius.new (c a b) (c p 0) (c q 0) (c d e))) (mapC strict (c x y)) (mapC strict (c v w)) =
      ((mapC strict (c a b) * (mapC strict (c q 0) * mapC strict (c x y) + mapC strict (c d e)) -
        (mapC strict (c a b) * mapC strict (c x y) + mapC strict (c p 0)) * mapC strict (c q 0)) *
      ((mapC strict (c q 0) * mapC strict (c x y) + mapC strict (c d e)) * (mapC strict (c q 0) * mapC strict (c x y) + mapC strict (c d e))).inv) * mapC strict (c v w) := fun a b p q d e x y v w => by
    obtain ⟨ea, eb, ec, ed⟩ := mapMo_abcd (mapC strict) (Moebius.new (c a b) (c p 0) (c q 0) (c d e))
    show (mapMo (mapC strict) _).deriv (mapC strict (c x y)) * mapC strict (c v w) = _
    unfold Moebius.deriv
    rw [ea, eb, ec, ed]; rfl
  have cSub : ∀ {z z' : Cpx BInt} {w w' : Cpx (Fl (normal Fmt.f64))}, RelC (BInt.R (2 ^ 53)) z w → RelC (BInt.R (2 ^ 53)) z' w' → RelC (BInt.R (2 ^ 53)) (z - z') (w - w') := fun h h' =>
    ⟨by simpa using hr.sub h.1 h'.1, by simpa using hr.sub h.2 h'.2⟩
  have h := C117_moebius_directions (φ := Fmt.f64) (m := 1) (s := 1) (t := 0) (l := (3 : ℕ)) (Moebius.new (c 2 0) (c 3 0) (c 2 0) (c (-2) 1)) (Moebius.new (c 2 0) (c 6 0) (c 1 0) (c (-2) 1)) (c 1 (-1)) (c 2 (-2)) _ _
    ⟨scaled_lit (by norm_num), scaled_lit (by norm_num)⟩ (c_S 3 10 2) ⟨scaled_lit (by norm_num), scaled_lit (by norm_num)⟩ ⟨scaled_lit (by norm_num), scaled_lit (by norm_num)⟩
    ⟨scaled_lit (by norm_num), scaled_lit (by norm_num)⟩ ⟨scaled_lit (by norm_num), scaled_lit (by norm_num)⟩
  have hd := fun q x y => hr.cAdd (hr.cMul (c_R q 0) (c_R x y)) (c_R (-2) 1)
  have hn := fun p q x y => cSub (hr.cMul (c_R 2 0) (hd q x y)) (hr.cMul (hr.cAdd (hr.cMul (c_R 2 0) (c_R x y)) (c_R p 0)) (c_R q 0))
  have hi : ∀ q x y : ℤ, _ → _ → _ → _ → _ → _ → RelC _ _ _ := fun q x y h1 h2 h3 h4 h5 h6 => cInv_R (x := -1) (y := 0)
    ⟨BInt.of_R (ev (hr.cMul (hd q x y) (hd q x y)).1 (-1) h1 h2), BInt.of_R (ev (hr.cMul (hd q x y) (hd q x y)).2 0 h3 h4)⟩
    (ev (hr.cNormSqr (hr.cMul (hd q x y) (hd q x y))) 1 h5 h6) (by decide) (by decide) (by decide) (by decide)
  have i1 := hi 2 1 (-1) (by decide +kernel) (by decide +kernel) (by decide +kernel) (by decide +kernel) (by decide +kernel) (by decide +kernel)
  have i2 := hi 1 2 (-2) (by decide +kernel) (by decide +kernel) (by decide +kernel) (by decide +kernel) (by decide +kernel) (by decide +kernel)
  have h1 := hr.cMul (hr.cMul (hn 3 2 1 (-1)) i1) (c_R 10 2)
  have h2 := hr.cMul (hr.cMul (hn 6 1 2 (-2)) i2) (c_R (2 ^ 3 * 10) (2 ^ 3 * 2))
  rw [← hv] at h1 h2
  have nr : ∀ z : Cpx (Fl (normal Fmt.f64)), z.normalize.re = z.re / FloatOps.sqrt z.normSqr := fun z => by simp [Cpx.normalize]; rfl
  refine ⟨fin h.1.1 (h1.1.eval (by decide +kernel)) (h2.1.eval (by decide +kernel)), fin h.2.1.1 (r := ((1 : ℤ) : ℝ)) (s := ((1 : ℤ) : ℝ)) ?_ ?_⟩
  · exact (congrArg Fl.val (nr _)).trans (div1 (m := (104 : ℕ)) (ev h1.1 _ (by decide +kernel) (by decide +kernel)) (sqrt1 (hr.cNormSqr h1) 104 (by decide +kernel) (by decide +kernel) (by decide)) (by decide) (by decide))
  · exact (congrArg Fl.val (nr _)).trans (div1 (m := (832 : ℕ)) (ev h2.1 _ (by decide +kernel) (by decide +kernel)) (sqrt1 (hr.cNormSqr h2) 832 (by decide +kernel) (by decide +kernel) (by decide)) (by decide) (by decide))
/-- The derivative of `q ↦ (2 q + 3) / (q - 2 i)` at `2 i + k` along `3 + 4 i`, and of eight times this map along four times this direction. -/
example : (∃ r : ℝ, (Transform.deriv (Moebius.new (c 2 0) (c 3 0) (c 1 0) (c 0 (-2))) (q 0 2 0 1) (q 3 4 0 0)).w.toReal? = some r ∧
      (Transform.deriv (Moebius.new (c 16 0) (c 24 0) (c 1 0) (c 0 (-2))) (q 0 2 0 1) (q (2 ^ 2 * 3) (2 ^ 2 * 4) (2 ^ 2 * 0) (2 ^ 2 * 0))).w.toReal? = some (2 ^ ((3 : ℤ) - 0 - 0 + (2 : ℕ)) * r)) ∧
    ∃ r : ℝ, (Directional.applyDir (Moebius.new (c 2 0) (c 3 0) (c 1 0) (c 0 (-2))) (q 0 2 0 1) (q 3 4 0 0)).w.toReal? = some r ∧
      (Directional.applyDir (Moebius.new (c 16 0) (c 24 0) (c 1 0) (c 0 (-2))) (q 0 2 0 1) (q (2 ^ 2 * 3) (2 ^ 2 * 4) (2 ^ 2 * 0) (2 ^ 2 * 0))).w.toReal? = some (2 ^ (0 : ℤ) * r) := by
  have hr := BInt.opRel E
  have hv : ∀ a b : ℤ, ∀ v : Quat (Ieee Fmt.f64), Transform.deriv (mapMo (mapC strict) (Moebius.new (c a 0) (c b 0) (c 1 0) (c 0 (-2)))) (mapQ strict (q 0 2 0 1)) (mapQ strict v) =
      (mapC strict (c a 0) * mapQ strict v : Quat (Fl (normal Fmt.f64))) * (mapC strict (c 1 0) * mapQ strict (q 0 2 0 1) + mapC strict (c 0 (-2)) : Quat (Fl (normal Fmt.f64))).conj.divS (mapC strict (c 1 0) * mapQ strict (q 0 2 0 1) + mapC strict (c 0 (-2)) : Quat (Fl (normal Fmt.f64))).normSqr +
        (mapC strict (c a 0) * mapQ strict (q 0 2 0 1) + mapC strict (c b 0) : Quat (Fl (normal Fmt.f64))) * ((mapC strict (c 1 0) * mapQ strict v : Quat (Fl (normal Fmt.f64))).conj -
          (mapC strict (c 1 0) * mapQ strict (q 0 2 0 1) + mapC strict (c 0 (-2)) : Quat (Fl (normal Fmt.f64))).conj.mulS ((mapC strict (c 1 0) * mapQ strict (q 0 2 0 1) + mapC strict (c 0 (-2)) : Quat (Fl (normal Fmt.f64))).vec.dot (mapC strict (c 1 0) * mapQ strict v : Quat (Fl (normal Fmt.f64))).vec * NumConst.two / (mapC strict (c 1 0) * mapQ strict (q 0 2 0 1) + mapC strict (c 0 (-2)) : Quat (Fl (normal Fmt.f64))).normSqr)).divS (mapC strict (c 1 0) * mapQ strict (q 0 2 0 1) + mapC strict (c 0 (-2)) : Quat (Fl (normal Fmt.f64))).normSqr := fun a b v => by
    obtain ⟨ea, eb, ec, ed⟩ := mapMo_abcd (mapC strict) (Moebius.new (c a 0) (c b 0) (c 1 0) (c 0 (-2)))
    show (mapMo (mapC strict) _).derivDir (mapQ strict (q 0 2 0 1)) (mapQ strict v) = _
    unfold Moebius.derivDir
    rw [ea, eb, ec, ed]; rfl
  have hd := relQ_addC' hr (c_R 0 (-2)) (relQ_cMul' hr (c_R 1 0) (q_R 0 2 0 1))
  have hu := fun a b => relQ_addC' hr (c_R b 0) (relQ_cMul' hr (c_R a 0) (q_R 0 2 0 1))
  have n1 := ev (hr.qNormSqr hd) 1 (by decide +kernel) (by decide +kernel)
  have d1 : ∀ {z : Quat BInt} {w : Quat (Fl (normal Fmt.f64))} {e : Fl (normal Fmt.f64)}, RelQ (BInt.R (2 ^ 53)) z w → e.val = some ((1 : ℤ) : ℝ) →
      z.w.b ≤ 2 ^ 53 ∧ z.x.b ≤ 2 ^ 53 ∧ z.y.b ≤ 2 ^ 53 ∧ z.z.b ≤ 2 ^ 53 → z.w.n.natAbs ≤ 2 ^ 53 ∧ z.x.n.natAbs ≤ 2 ^ 53 ∧ z.y.n.natAbs ≤ 2 ^ 53 ∧ z.z.n.natAbs ≤ 2 ^ 53 →
      RelQ (BInt.R (2 ^ 53)) (CompEx.qi z.w.n z.x.n z.y.n z.z.n) (w.divS e) := fun {z w e} h he hb hn => by
    have k : ∀ {x : BInt} {y : Fl (normal Fmt.f64)}, BInt.R (2 ^ 53) x y → x.b ≤ 2 ^ 53 → x.n.natAbs ≤ 2 ^ 53 → BInt.R (2 ^ 53) (BInt.of x.n) (y / e) := fun {x y} h hb hn =>
      BInt.of_R (div1 (m := 1) (ev h (x.n * 1) hb (mul_one _).symm) he (by decide) hn)
    refine ⟨?_, ?_, ?_, ?_⟩
    · rw [show (w.divS e).w = w.w / e by simp]; exact k h.1 hb.1 hn.1
    · rw [show (w.divS e).x = w.x / e by simp]; exact k h.2.1 hb.2.1 hn.2.1
    · rw [show (w.divS e).y = w.y / e by simp]; exact k h.2.2.1 hb.2.2.1 hn.2.2.1
    · rw [show (w.divS e).z = w.z / e by simp]; exact k h.2.2.2 hb.2.2.2 hn.2.2.2
  have qMulS : ∀ {z : Quat BInt} {w : Quat (Fl (normal Fmt.f64))} {a : BInt} {b : Fl (normal Fmt.f64)}, RelQ (BInt.R (2 ^ 53)) z w → BInt.R (2 ^ 53) a b → RelQ (BInt.R (2 ^ 53)) (z.mulS a) (w.mulS b) := fun h h' =>
    ⟨by simpa using hr.mul h.1 h', by simpa using hr.mul h.2.1 h', by simpa using hr.mul h.2.2.1 h', by simpa using hr.mul h.2.2.2 h'⟩
  have qAdd : ∀ {z z' : Quat BInt} {w w' : Quat (Fl (normal Fmt.f64))}, RelQ (BInt.R (2 ^ 53)) z w → RelQ (BInt.R (2 ^ 53)) z' w' → RelQ (BInt.R (2 ^ 53)) (z + z') (w + w') := fun h h' =>
    ⟨by simpa using hr.add h.1 h'.1, by simpa using hr.add h.2.1 h'.2.1, by simpa using hr.add h.2.2.1 h'.2.2.1, by simpa using hr.add h.2.2.2 h'.2.2.2⟩
  have qSub : ∀ {z z' : Quat BInt} {w w' : Quat (Fl (normal Fmt.f64))}, RelQ (BInt.R (2 ^ 53)) z w → RelQ (BInt.R (2 ^ 53)) z' w' → RelQ (BInt.R (2 ^ 53)) (z - z') (w - w') := fun h h' =>
    ⟨by simpa using hr.sub h.1 h'.1, by simpa using hr.sub h.2.1 h'.2.1, by simpa using hr.sub h.2.2.1 h'.2.2.1, by simpa using hr.sub h.2.2.2 h'.2.2.2⟩
  have qVec : ∀ {z : Quat BInt} {w : Quat (Fl (normal Fmt.f64))}, RelQ (BInt.R (2 ^ 53)) z w → RelV (BInt.R (2 ^ 53)) z.vec w.vec := fun h i hi => by
    match i, hi with
    | 0, _ => simpa using h.1
    | 1, _ => simpa using h.2.1
    | 2, _ => simpa using h.2.2.1
    | 3, _ => simpa using h.2.2.2
  have two : BInt.R (2 ^ 53) (BInt.of 2) (NumConst.two : Fl (normal Fmt.f64)) := BInt.of_R (by simp [NumConst.two])
  have hi := d1 (hr.qConj hd) n1 (by decide +kernel) (by decide +kernel)
  have hg := fun a b x y : ℤ => relQ_cMul' hr (c_R 1 0) (q_R a b x y)
  have h22 : ∀ a b x y : ℤ, _ → _ → RelQ _ _ _ := fun a b x y h1 h2 =>
    qMulS (hr.qConj hd) (BInt.of_R (B := 2 ^ 53) (n := 0) (div1 (m := 1) (ev (hr.mul (hr.vDot (qVec hd) (qVec (hg a b x y))) two) _ h1 h2) n1 (by decide) (by decide)))
  have k1 := qSub (hr.qConj (hg 3 4 0 0)) (h22 3 4 0 0 (by decide +kernel) (by decide +kernel))
  have k2 := qSub (hr.qConj (hg (2 ^ 2 * 3) (2 ^ 2 * 4) (2 ^ 2 * 0) (2 ^ 2 * 0))) (h22 (2 ^ 2 * 3) (2 ^ 2 * 4) (2 ^ 2 * 0) (2 ^ 2 * 0) (by decide +kernel) (by decide +kernel))
  have h1 := qAdd (hr.qMul (relQ_cMul' hr (c_R 2 0) (q_R 3 4 0 0)) hi) (hr.qMul (hu 2 3) (d1 k1 n1 (by decide +kernel) (by decide +kernel)))
  have h2 := qAdd (hr.qMul (relQ_cMul' hr (c_R 16 0) (q_R (2 ^ 2 * 3) (2 ^ 2 * 4) (2 ^ 2 * 0) (2 ^ 2 * 0))) hi) (hr.qMul (hu 16 24) (d1 k2 n1 (by decide +kernel) (by decide +kernel)))
  rw [← hv] at h1 h2
  have h := C117_moebius_quaternion_directions (φ := Fmt.f64) (m := 0) (s := 3) (t := 0) (l := (2 : ℕ)) (Moebius.new (c 2 0) (c 3 0) (c 1 0) (c 0 (-2))) (Moebius.new (c 16 0) (c 24 0) (c 1 0) (c 0 (-2))) (q 0 2 0 1) (q 0 2 0 1) _ _
    ⟨scaled_lit (by norm_num), scaled_lit (by norm_num), scaled_lit (by norm_num), scaled_lit (by norm_num)⟩ (q_S 2 3 4 0 0) ⟨scaled_lit (by norm_num), scaled_lit (by norm_num)⟩
    ⟨scaled_lit (by norm_num), scaled_lit (by norm_num)⟩ ⟨scaled_lit (by norm_num), scaled_lit (by norm_num)⟩ ⟨scaled_lit (by norm_num), scaled_lit (by norm_num)⟩
  have nr : ∀ z : Quat (Fl (normal Fmt.f64)), z.normalize.w = z.w / FloatOps.sqrt z.normSqr := fun z => by simp [Quat.normalize]; rfl
  refine ⟨fin h.1.1 (h1.1.eval (by decide +kernel)) (h2.1.eval (by decide +kernel)), fin h.2.1.1 (r := ((1 : ℤ) : ℝ)) (s := ((1 : ℤ) : ℝ)) ?_ ?_⟩
  · exact (congrArg Fl.val (nr _)).trans (div1 (m := (25 : ℕ)) (ev h1.1 _ (by decide +kernel) (by decide +kernel)) (sqrt1 (hr.qNormSqr h1) 25 (by decide +kernel) (by decide +kernel) (by decide)) (by decide) (by decide))
  · exact (congrArg Fl.val (nr _)).trans (div1 (m := (800 : ℕ)) (ev h2.1 _ (by decide +kernel) (by decide +kernel)) (sqrt1 (hr.qNormSqr h2) 800 (by decide +kernel) (by decide +kernel) (by decide)) (by decide) (by decide))
end Vecmat
