import Verif.Lemmas.Ieee
import Verif.Lemmas.IeeeEx
import Verif.Lemmas.Rel
import Verif.Model.Transforms
import Verif.Lemmas.Square
/-!
# C80: symmetries that survive rounding
Scalars are IEEE-754 floats (`Ieee φ`, any binary format `φ`, with NaN, infinities, signed zeros and subnormals).  The identities hold
exactly, for every input; where the sign of a zero result can differ, `Spec.Same` (equal up to the sign of a zero) is used.
-/
namespace Vecmat
open Spec Ieee
variable {φ : Fmt} {L M N : Nat}

/-! ## commutativity -/
theorem C80_dot_comm (v w : Vec (Ieee φ) N) : v.dotR w = w.dotR v := by
  unfold Vec.dotR; congr 1; ext i hi; simpa using imul_comm _ _
theorem C80_add_comm (v w : Vec (Ieee φ) N) : v + w = w + v := by ext i hi; simpa using iadd_comm _ _
theorem C80_mul_comm (v w : Vec (Ieee φ) N) : v * w = w * v := by ext i hi; simpa using imul_comm _ _
theorem C80_complex_mul_comm (z w : Cpx (Ieee φ)) : z * w = w * z := by
  apply Cpx.ext'
  · simp [imul_comm]
  · rw [Cpx.im_mul, Cpx.im_mul, iadd_comm, imul_comm, imul_comm z.re]
theorem C80_quaternion_dot_comm (p q : Quat (Ieee φ)) : p.dot q = q.dot p := by
  unfold Quat.dot Vec.dot; congr 1; ext i hi; simpa using imul_comm _ _

/-! ## transposition -/
theorem dot_comm_pure [NeZero N] (v w : Vec (Ieee φ) N) : v.dot w = w.dot v := by
  unfold Vec.dot; congr 1; ext i hi; simpa using imul_comm _ _
/-- `(A·B)ᵀ = Bᵀ·Aᵀ`. -/
theorem C80_transpose_mul [NeZero M] (A : Mat (Ieee φ) L M) (B : Mat (Ieee φ) M N) :
    ∃ X, A.dotMR B = .ok X ∧ B.transpose.dotMR A.transpose = .ok X.transpose := by
  refine ⟨_, Mat.dotMR_get A B, ?_⟩
  rw [Mat.dotMR_get]
  congr 1
  ext i hi j hj
  simp only [Mat.getElem_transpose, Mat.getElem_mk, Vec.getElem_mk, Vector.getElem_ofFn]
  rw [dot_comm_pure]
  congr 1 <;> ext k hk <;> simp
/-- `A·v = v·Aᵀ`. -/
theorem C80_transpose_vec [NeZero N] (A : Mat (Ieee φ) M N) (v : Vec (Ieee φ) N) : A.dotVR v = Mat.vDotR v A.transpose := by
  rw [Mat.dotVR_get, Mat.vDotR_get]
  congr 1
  ext i hi
  simp only [Vec.getElem_mk, Vector.getElem_ofFn]
  rw [dot_comm_pure]
  congr 1; ext k hk; simp
/-- Gram matrices `A·Aᵀ` are symmetric. -/
theorem C80_gram [NeZero N] (A : Mat (Ieee φ) M N) : ∃ X, A.dotMR A.transpose = .ok X ∧ X.transpose = X := by
  obtain ⟨X, h1, h2⟩ := C80_transpose_mul A A.transpose
  refine ⟨X, h1, ?_⟩
  rw [show A.transpose.transpose = A by ext i hi j hj; simp, h1] at h2
  exact (Except.ok.inj h2).symm

/-! ## negation -/
theorem C80_neg_length (v : Vec (Ieee φ) N) : (-v).lengthR = v.lengthR ∧ (-v).squareLengthR = v.squareLengthR ∧
    (-v).normL1R = v.normL1R ∧ (-v).normL2R = v.normL2R ∧ (-v).normLInfR = v.normLInfR := by
  have h : (-v).map (fun x => x * x) = v.map fun x => x * x := by ext i hi; simpa using ineg_mul_neg _ _
  have habs : ∀ a : Ieee φ, (-a).abs = a.abs := by intro a; cases a <;> simp [neg_def, Ieee.neg, Ieee.abs]
  have h1 : (-v).map ScalarNorm.normL1 = v.map ScalarNorm.normL1 := by ext i hi; simp only [Vec.getElem_map, Vec.getElem_neg]; exact habs _
  have h2 : (-v).map ScalarNorm.normLInf = v.map ScalarNorm.normLInf := by ext i hi; simp only [Vec.getElem_map, Vec.getElem_neg]; exact habs _
  refine ⟨?_, ?_, ?_, ?_, ?_⟩ <;> simp only [Vec.lengthR, Vec.squareLengthR, Vec.normL1R, Vec.normL2R, Vec.normL2SqrR, Vec.normLInfR, h, h1, h2]
theorem C80_neg_normalize [NeZero N] (v : Vec (Ieee φ) N) : (-v).normalize = -v.normalize := by
  have h : (-v).length = v.length := by
    unfold Vec.length Vec.squareLength; congr 2; ext i hi; simpa using ineg_mul_neg _ _
  unfold Vec.normalize
  rw [h]; ext i hi; simpa using ineg_div _ _
theorem C80_neg_dot [NeZero N] (v w : Vec (Ieee φ) N) : Same ((-v).dot w) (-(v.dot w)) ∧ (-v).dot (-w) = v.dot w := by
  constructor
  · refine Vec.foldFirst_rel (r := fun a b => Same a (-b)) (f := fun x y => x + y) (g := fun x y => x + y)
      (fun h h' => (h.add h').trans (neg_add_same _ _).symm) ?_
    intro i hi; simp [ineg_mul, Same.refl]
  · unfold Vec.dot; congr 1; ext i hi; simpa using ineg_mul_neg _ _
theorem C80_neg_sub (v w : Vec (Ieee φ) N) (i : Nat) (hi : i < N) : Same (v - w)[i] (-(w - v))[i] := by
  simpa using (neg_sub_same _ _).symm
/-- A vector minus itself is exactly zero when it is finite. -/
theorem C80_sub_self (v : Vec (Ieee φ) N) (h : ∀ i (hi : i < N), Finite v[i]) : v - v = 0 := by
  ext i hi
  have := h i hi
  rw [Vec.getElem_sub, Vec.getElem_zero]
  rcases hv : v[i] with _ | s | s | ⟨x, hx⟩
  · exact absurd hv this.1
  · exact absurd hv (this.2 s)
  · rw [sub_def, neg_def, add_def]; simp only [neg, add]; show zero (s && !s) = zero false; simp
  · rw [sub_def, neg_def, add_def]; simp only [neg, add]; rw [if_pos (by ring)]; rfl

/-! ## cross product -/
theorem C80_cross2 (v w : Vec (Ieee φ) 2) : Same (w.cross2 v) (-(v.cross2 w)) := by
  simp only [Vec.cross2, Vec.x_eq, Vec.y_eq]
  rw [imul_comm w[0], imul_comm w[1]]
  exact (neg_sub_same _ _).symm
theorem C80_cross3 (v w : Vec (Ieee φ) 3) (i : Nat) (hi : i < 3) : Same (w.cross3 v)[i] (-(v.cross3 w))[i] := by
  match i, hi with
  | 0, _ => simpa [Vec.cross3, Vec.fromArray, imul_comm] using (neg_sub_same (v[1] * w[2]) (v[2] * w[1])).symm
  | 1, _ => simpa [Vec.cross3, Vec.fromArray, imul_comm] using (neg_sub_same (v[2] * w[0]) (v[0] * w[2])).symm
  | 2, _ => simpa [Vec.cross3, Vec.fromArray, imul_comm] using (neg_sub_same (v[0] * w[1]) (v[1] * w[0])).symm
/-- The cross product of a vector with itself is exactly zero or (on overflow or non-finite input) NaN. -/
theorem C80_cross_self (v : Vec (Ieee φ) 3) (i : Nat) (hi : i < 3) : (v.cross3 v)[i] = 0 ∨ (v.cross3 v)[i] = .nan := by
  have key : ∀ a : Ieee φ, a - a = 0 ∨ a - a = .nan := by
    intro a
    rcases a with _ | s | s | ⟨x, hx⟩ <;> rw [sub_def, neg_def, add_def] <;> simp only [neg, add]
    · simp
    · right; cases s <;> simp
    · left; show zero (s && !s) = zero false; simp
    · left; rw [if_pos (by ring)]; rfl
  match i, hi with
  | 0, _ => simpa [Vec.cross3, Vec.fromArray, imul_comm] using key (v[1] * v[2])
  | 1, _ => simpa [Vec.cross3, Vec.fromArray, imul_comm] using key (v[2] * v[0])
  | 2, _ => simpa [Vec.cross3, Vec.fromArray, imul_comm] using key (v[0] * v[1])

/-! ## complex numbers, quaternions and rotations -/
theorem C80_conj (z : Cpx (Ieee φ)) : z.conj.conj = z ∧ z.conj.normSqr = z.normSqr ∧ z.conj.norm = z.norm ∧ (-z).norm = z.norm := by
  have h : z.conj.normSqr = z.normSqr := by
    unfold Cpx.normSqr Vec.squareLength; congr 1; ext i hi
    match i, hi with
    | 0, _ => simp
    | 1, _ => simpa using ineg_mul_neg _ _
  have h' : (-z).normSqr = z.normSqr := by
    unfold Cpx.normSqr Vec.squareLength; congr 1; ext i hi
    match i, hi with
    | 0, _ => simpa using ineg_mul_neg _ _
    | 1, _ => simpa using ineg_mul_neg _ _
  refine ⟨Cpx.ext' (by simp) (by simp [ineg_neg]), h, ?_, ?_⟩
  · exact congrArg FloatOps.sqrt h
  · exact congrArg FloatOps.sqrt h'
theorem C80_conj_mul (z w : Cpx (Ieee φ)) :
    (z.conj * w.conj).re = (z * w).conj.re ∧ Same (z.conj * w.conj).im (z * w).conj.im := by
  constructor
  · simp [ineg_mul_neg]
  · rw [Cpx.im_conj, Cpx.im_mul, Cpx.im_mul]
    simp only [Cpx.re_conj, Cpx.im_conj, imul_neg, ineg_mul]
    exact (neg_add_same _ _).symm
theorem C80_quaternion_conj (q : Quat (Ieee φ)) :
    q.conj.conj = q ∧ q.conj.normSqr = q.normSqr ∧ q.conj.norm = q.norm ∧ (-q).norm = q.norm := by
  have h : q.conj.normSqr = q.normSqr := by
    unfold Quat.normSqr Vec.squareLength; congr 1; ext i hi
    match i, hi with
    | 0, _ => simp
    | 1, _ => simpa using ineg_mul_neg _ _
    | 2, _ => simpa using ineg_mul_neg _ _
    | 3, _ => simpa using ineg_mul_neg _ _
  have h' : (-q).normSqr = q.normSqr := by
    unfold Quat.normSqr Vec.squareLength; congr 1; ext i hi
    match i, hi with
    | 0, _ => simpa using ineg_mul_neg _ _
    | 1, _ => simpa using ineg_mul_neg _ _
    | 2, _ => simpa using ineg_mul_neg _ _
    | 3, _ => simpa using ineg_mul_neg _ _
  refine ⟨Quat.ext' (by simp) (by simp [ineg_neg]) (by simp [ineg_neg]) (by simp [ineg_neg]), h, ?_, ?_⟩
  · exact congrArg FloatOps.sqrt h
  · exact congrArg FloatOps.sqrt h'
/-- `q` and `-q` are the same rotation, also after rounding: the matrix is the same. -/
theorem C80_rotation3_to_linear (q : Quat (Ieee φ)) : (Rotation3.mk (-q)).toLinear = (Rotation3.mk q).toLinear := by
  simp [Rotation3.toLinear, ineg_mul, imul_neg, ineg_neg]
/-- ... and so is the rotated vector, up to the sign of zero components. -/
theorem C80_rotation3_apply (q : Quat (Ieee φ)) (v : Vec (Ieee φ) 3) (i : Nat) (hi : i < 3) :
    Same (Transform.apply (Rotation3.mk (-q)) v)[i] (Transform.apply (Rotation3.mk q) v)[i] := by
  have nadd : ∀ {a b c d : Ieee φ}, Same a (-b) → Same c (-d) → Same (a + c) (-(b + d)) :=
    fun h h' => (h.add h').trans (neg_add_same _ _).symm
  have nsub : ∀ {a b c d : Ieee φ}, Same a (-b) → Same c (-d) → Same (a - c) (-(b - d)) :=
    fun h h' => nadd h h'.neg
  have n1 : ∀ a b : Ieee φ, Same (-a * b) (-(a * b)) := fun a b => by rw [ineg_mul]; exact .refl _
  have hmul : ∀ p : Quat (Ieee φ), Same (-q * p).w (-(q * p).w) ∧ Same (-q * p).x (-(q * p).x) ∧ Same (-q * p).y (-(q * p).y) ∧
      Same (-q * p).z (-(q * p).z) := by
    intro p
    simp only [Quat.w_mul, Quat.x_mul, Quat.y_mul, Quat.z_mul, Quat.w_neg, Quat.x_neg, Quat.y_neg, Quat.z_neg]
    exact ⟨nsub (nsub (nsub (n1 _ _) (n1 _ _)) (n1 _ _)) (n1 _ _), nsub (nadd (nadd (n1 _ _) (n1 _ _)) (n1 _ _)) (n1 _ _),
      nadd (nadd (nsub (n1 _ _) (n1 _ _)) (n1 _ _)) (n1 _ _), nadd (nsub (nadd (n1 _ _) (n1 _ _)) (n1 _ _)) (n1 _ _)⟩
  have hw := hmul (Quat.fromScalarAndVector3 0 v)
  have two : ∀ {a b : Ieee φ} (c : Ieee φ), Same a (-b) → Same (a * -c) (b * c) := fun {a b} c h => by
    have := h.mul (.refl (-c)); rwa [ineg_mul_neg] at this
  have e : ∀ r : Quat (Ieee φ), (Transform.apply (Rotation3.mk r) v) =
      Vec.fromArray #v[(r * Quat.fromScalarAndVector3 0 v * r.conj).x, (r * Quat.fromScalarAndVector3 0 v * r.conj).y,
        (r * Quat.fromScalarAndVector3 0 v * r.conj).z] := by
    intro r; show (Rotation3.mk r).applyFn v = _
    simp only [Rotation3.applyFn, Quat.intoScalarAndVector3]
    simp only [Vec.intoTuple4_eq, Quat.x_eq, Quat.y_eq, Quat.z_eq]
  rw [e, e]
  have c1 : (-q).conj.w = -q.conj.w := by simp
  have c2 : (-q).conj.x = -q.conj.x := by simp
  have c3 : (-q).conj.y = -q.conj.y := by simp
  have c4 : (-q).conj.z = -q.conj.z := by simp
  match i, hi with
  | 0, _ =>
    simp only [Quat.x_mul, c1, c2, c3, c4, Vec.fromArray]
    exact (((two _ hw.1).add (two _ hw.2.1)).add (two _ hw.2.2.1)).sub (two _ hw.2.2.2)
  | 1, _ =>
    simp only [Quat.y_mul, c1, c2, c3, c4, Vec.fromArray]
    exact (((two _ hw.1).sub (two _ hw.2.1)).add (two _ hw.2.2.1)).add (two _ hw.2.2.2)
  | 2, _ =>
    simp only [Quat.z_mul, c1, c2, c3, c4, Vec.fromArray]
    exact (((two _ hw.1).add (two _ hw.2.1)).sub (two _ hw.2.2.1)).add (two _ hw.2.2.2)

/-! ## what does not survive
The formats are inhabited by the numbers used here, and the identities above are not vacuous: `0.1`-like sums do round. -/

/-- Addition is not associative: `(1 + u) + u ≠ 1 + (u + u)` for `u = 2^-p`, so identities that reorder sums (such as
`det Aᵀ = det A` or `conj (p q) = conj q conj p` for quaternions) are not claimed. -/
theorem C80_add_not_assoc (hφ : WF φ) : ∃ a b c : Ieee φ, Datum a ∧ Datum b ∧ Datum c ∧ (a + b) + c ≠ a + (b + c) := by
  have hp := hφ.1
  have hr := hφ.2
  have hpm : φ.emin + φ.p ≤ 1 + φ.p + 0 := by omega
  have u0 : (2:ℝ) ^ (-(φ.p:ℤ)) ≠ 0 := by positivity
  have upos : (0:ℝ) < 2 ^ (-(φ.p:ℤ)) := by positivity
  by_cases hu : φ.emin - φ.p + 1 ≤ -(φ.p:ℤ)
  swap
  · omega
  have hU : Representable φ (2 ^ (-(φ.p:ℤ))) := rep_pow hφ hu (by omega)
  have ulpos : (0:ℝ) < 2 ^ (1 - (φ.p:ℤ)) := by positivity
  have e2 : (2:ℝ) ^ (1 - (φ.p:ℤ)) = 2 * 2 ^ (-(φ.p:ℤ)) := by rw [sub_eq_add_neg, zpow_add₀ (by norm_num)]; simp
  have ep : (2:ℝ) ^ ((φ.p:ℤ) - 1) * 2 ^ (1 - (φ.p:ℤ)) = 1 := by rw [← zpow_add₀ (by norm_num)]; simp
  have le1 : (2:ℝ) ^ (1 - (φ.p:ℤ)) ≤ 1 / 2 := by
    have : (2:ℝ) ^ (1 - (φ.p:ℤ)) ≤ 2 ^ (-1 : ℤ) := zpow_le_zpow_right₀ (by norm_num) (by omega)
    simpa using this
  have ulp1 : φ.ulp (1 + 2 ^ (-(φ.p:ℤ))) = 2 ^ (1 - (φ.p:ℤ)) := by
    rw [Fmt.ulp_eq (e := 0), show (0 - (φ.p:ℤ) + 1) = 1 - φ.p by ring]
    · rw [abs_of_pos (by linarith)]; simp
    · rw [abs_of_pos (by linarith), show ((2:ℝ) ^ ((0:ℤ) + 1)) = 2 by norm_num]; linarith
    · omega
  have n1 : φ.near (1 + 2 ^ (-(φ.p:ℤ))) = 1 := by
    unfold Fmt.near
    rw [ulp1]
    have hq : (1 + 2 ^ (-(φ.p:ℤ))) / (2:ℝ) ^ (1 - (φ.p:ℤ)) = ((2 ^ (φ.p - 1) : ℤ) : ℝ) + 1 / 2 := by
      rw [div_eq_iff ulpos.ne']
      have : ((2 ^ (φ.p - 1) : ℤ) : ℝ) = 2 ^ ((φ.p:ℤ) - 1) := by
        push_cast; rw [← zpow_natCast]; push_cast [show 1 ≤ φ.p by omega]; rfl
      rw [this, add_mul, ep, e2]; ring
    have hfl : ⌊((2 ^ (φ.p - 1) : ℤ) : ℝ) + 1 / 2⌋ = 2 ^ (φ.p - 1) := by
      rw [Int.floor_eq_iff]; constructor <;> linarith
    have hev : Even ((2:ℤ) ^ (φ.p - 1)) := (even_two).pow_of_ne_zero (by omega)
    rw [hq]
    unfold roundEven
    rw [hfl, if_neg (by linarith), if_neg (by linarith), if_pos hev]
    push_cast
    rw [← ep, ← zpow_natCast]; push_cast [show 1 ≤ φ.p by omega]; rfl
  have r1 : Representable φ 1 := by simpa using rep_pow hφ (e := 0) (by omega) (by omega)
  have s1 : (rnd (1 + 2 ^ (-(φ.p:ℤ))) : Ieee φ) = num 1 one_ne_zero := by
    unfold rnd ofReal
    rw [n1, if_neg (not_le.mpr (rep_lt r1)), dif_neg one_ne_zero]
  have r2 : Representable φ (1 + 2 ^ (1 - (φ.p:ℤ))) := by
    refine ⟨2 ^ (φ.p - 1) + 1, 1 - φ.p, ?_, ?_, by omega, by omega⟩
    · have : ((2 ^ (φ.p - 1) : ℤ) : ℝ) = 2 ^ ((φ.p:ℤ) - 1) := by
        push_cast; rw [← zpow_natCast]; push_cast [show 1 ≤ φ.p by omega]; rfl
      rw [Int.cast_add, this, add_mul, ep]; simp
    · obtain ⟨q, hq⟩ : ∃ q, φ.p = q + 2 := ⟨φ.p - 2, by omega⟩
      rw [abs_of_pos (by positivity), hq, show q + 2 - 1 = q + 1 by omega, pow_succ, pow_succ, pow_succ]
      have : (0:ℤ) < 2 ^ q := by positivity
      omega
  have r2' : Representable φ (2 ^ (1 - (φ.p:ℤ))) := rep_pow hφ (by omega) (by omega)
  have ne2 : (1 + (2:ℝ) ^ (1 - (φ.p:ℤ))) ≠ 0 := by positivity
  refine ⟨num 1 one_ne_zero, num _ u0, num _ u0, r1, hU, hU, ?_⟩
  have l1 : (num 1 one_ne_zero + num _ u0 : Ieee φ) = num 1 one_ne_zero := by
    show (if (1:ℝ) + 2 ^ (-(φ.p:ℤ)) = 0 then zero false else rnd _) = _
    rw [if_neg (by positivity), s1]
  have l2 : (num _ u0 + num _ u0 : Ieee φ) = num (2 ^ (1 - (φ.p:ℤ))) (by positivity) := by
    show (if (2:ℝ) ^ (-(φ.p:ℤ)) + 2 ^ (-(φ.p:ℤ)) = 0 then zero false else rnd _) = _
    rw [if_neg (by positivity), ← two_mul, ← e2]; exact rnd_rep _ r2'
  have l3 : (num 1 one_ne_zero + num (2 ^ (1 - (φ.p:ℤ))) ulpos.ne' : Ieee φ) = num _ ne2 := by
    show (if (1:ℝ) + 2 ^ (1 - (φ.p:ℤ)) = 0 then zero false else rnd _) = _
    rw [if_neg ne2]; exact rnd_rep _ r2
  rw [l1, l1, l2, l3]
  intro h
  have := Ieee.num.inj h
  linarith

/-- `f32` and `f64` are formats in the sense of the specification. -/
theorem C80_formats : WF Fmt.f32 ∧ WF Fmt.f64 := by
  constructor <;> refine ⟨by decide, by decide, by decide⟩
example : ∃ a b c : Ieee Fmt.f64, Datum a ∧ Datum b ∧ Datum c ∧ (a + b) + c ≠ a + (b + c) := C80_add_not_assoc C80_formats.2

/-! ## further cases: the hypotheses are satisfiable -/
example := C80_sub_self (IeeeEx.vec fun i => ((![1, -2, 3] : Fin 3 → ℤ) i : ℝ)) fun i hi => (IeeeEx.vec_ok _ (by decide) i hi).2

end Vecmat
