import Verif.Lemmas.NormErrInst
/-!
# C86: rounding errors along compositions of any length and bracketing
`Spec.Bracketing α` is a sequence of items together with the order in which a binary operation combines them.
-/
namespace Vecmat
open Spec
variable {F : ℝ → Option ℝ} {u : ℝ} {N : Nat}

namespace Spec.Bracketing
variable {α β : Type}
theorem items_map (f : α → β) (t : Bracketing α) : (t.map f).items = t.items.map f := by
  induction t with
  | one a => rfl
  | two l r hl hr => simp [map, items, hl, hr]
theorem eval_map {f : α → β} {op : α → α → α} {op' : β → β → β} (h : ∀ a b, f (op a b) = op' (f a) (f b)) (t : Bracketing α) :
    f (t.eval op) = (t.map f).eval op' := by
  induction t with
  | one a => rfl
  | two l r hl hr => simp [map, eval, h, hl, hr]
theorem eval_assoc {op : α → α → α} (h : ∀ a b c, op (op a b) c = op a (op b c)) {e : α} (he : ∀ a, op a e = a) (he' : ∀ a, op e a = a) (t : Bracketing α) :
    t.eval op = t.items.foldr op e := by
  have key : ∀ (l : List α) (x : α), l.foldr op x = op (l.foldr op e) x := by
    intro l x
    induction l with
    | nil => simp [he']
    | cons a l ih => simp only [List.foldr_cons]; rw [ih, h]
  induction t with
  | one a => simp [eval, items, he]
  | two l r hl hr => simp only [eval, items, List.foldr_append]; rw [key, hl, hr]
end Spec.Bracketing

/-! ## products of rotations, complex numbers, quaternions -/

/-- A composition of `n` spatial rotations, in any bracketing: at most `n - 1` times the relative error `2 ((1+u)^4 - 1)`. -/
theorem C86_rotation3 (hF : Rounding u F) (t : Bracketing (Rotation3 (Fl F))) (Q : List (Quaternion ℝ))
    (hQ : List.Forall₂ (fun r q => r.intoQuaternion.HasVal q) t.items Q) {V : Quaternion ℝ}
    (hV : (t.eval (Transform.chain (Vec (Fl F) 3))).intoQuaternion.HasVal V) :
    ‖V - Q.prod‖ ≤ gam (2 * gam u 4) (Q.length - 1) * (Q.map norm).prod := by
  have h1 := Spec.Bracketing.eval_map (f := Rotation3.intoQuaternion) (op := Transform.chain (Vec (Fl F) 3)) (op' := (· * ·)) (fun _ _ => rfl) t
  rw [h1] at hV
  exact (NErr.prod (Quat.approx hF) (t.map Rotation3.intoQuaternion) Q (by
    rw [Spec.Bracketing.items_map, List.forall₂_map_left_iff]; exact hQ)).1.2 V hV

theorem norm_list_prod {A : Type} [NormedDivisionRing A] (l : List A) : ‖l.prod‖ = (l.map norm).prod := by
  induction l with
  | nil => simp
  | cons a l ih => simp [ih]

/-- The length of the composed quaternion drifts away from the product of the lengths by a relative amount that depends only on the
number of compositions. -/
theorem C86_rotation3_drift (hF : Rounding u F) (t : Bracketing (Rotation3 (Fl F))) (Q : List (Quaternion ℝ))
    (hQ : List.Forall₂ (fun r q => r.intoQuaternion.HasVal q) t.items Q) {V : Quaternion ℝ}
    (hV : (t.eval (Transform.chain (Vec (Fl F) 3))).intoQuaternion.HasVal V) (h1 : ∀ q ∈ Q, ‖q‖ = 1) :
    |‖V‖ - 1| ≤ gam (2 * gam u 4) (Q.length - 1) := by
  have h2 := C86_rotation3 hF t Q hQ hV
  have h3 : (Q.map norm).prod = 1 := List.prod_eq_one (by simpa using h1)
  rw [h3, mul_one] at h2
  have h4 := abs_norm_sub_norm_le V Q.prod
  rw [norm_list_prod, h3] at h4
  exact h4.trans h2

/-- A composition of `n` plane rotations. -/
theorem C86_rotation2 (hF : Rounding u F) (t : Bracketing (Rotation2 (Fl F))) (Z : List ℂ)
    (hZ : List.Forall₂ (fun r z => r.intoComplex.HasVal z) t.items Z) {V : ℂ}
    (hV : (t.eval (Transform.chain (Vec (Fl F) 2))).intoComplex.HasVal V) :
    ‖V - Z.prod‖ ≤ gam (Real.sqrt 2 * gam u 2) (Z.length - 1) * (Z.map norm).prod := by
  have h1 := Spec.Bracketing.eval_map (f := Rotation2.intoComplex) (op := Transform.chain (Vec (Fl F) 2)) (op' := (· * ·)) (fun _ _ => rfl) t
  rw [h1] at hV
  exact (NErr.prod (Cpx.approx hF) (t.map Rotation2.intoComplex) Z (by
    rw [Spec.Bracketing.items_map, List.forall₂_map_left_iff]; exact hZ)).1.2 V hV

theorem C86_rotation2_drift (hF : Rounding u F) (t : Bracketing (Rotation2 (Fl F))) (Z : List ℂ)
    (hZ : List.Forall₂ (fun r z => r.intoComplex.HasVal z) t.items Z) {V : ℂ}
    (hV : (t.eval (Transform.chain (Vec (Fl F) 2))).intoComplex.HasVal V) (h1 : ∀ z ∈ Z, ‖z‖ = 1) :
    |‖V‖ - 1| ≤ gam (Real.sqrt 2 * gam u 2) (Z.length - 1) := by
  have h2 := C86_rotation2 hF t Z hZ hV
  have h3 : (Z.map norm).prod = 1 := List.prod_eq_one (by simpa using h1)
  rw [h3, mul_one] at h2
  have h4 := abs_norm_sub_norm_le V Z.prod
  rw [norm_list_prod, h3] at h4
  exact h4.trans h2

/-- Products of complex numbers, quaternions. -/
theorem C86_complex_prod (hF : Rounding u F) (t : Bracketing (Cpx (Fl F))) (Z : List ℂ) (hZ : List.Forall₂ Cpx.HasVal t.items Z) {V : ℂ}
    (hV : (t.eval (· * ·)).HasVal V) : ‖V - Z.prod‖ ≤ gam (Real.sqrt 2 * gam u 2) (Z.length - 1) * (Z.map norm).prod :=
  (NErr.prod (Cpx.approx hF) t Z hZ).1.2 V hV
theorem C86_quaternion_prod (hF : Rounding u F) (t : Bracketing (Quat (Fl F))) (Q : List (Quaternion ℝ)) (hQ : List.Forall₂ Quat.HasVal t.items Q)
    {V : Quaternion ℝ} (hV : (t.eval (· * ·)).HasVal V) : ‖V - Q.prod‖ ≤ gam (2 * gam u 4) (Q.length - 1) * (Q.map norm).prod :=
  (NErr.prod (Quat.approx hF) t Q hQ).1.2 V hV

/-! ## shifts, scalings, linear maps, Moebius transformations -/

/-- A composition of `n` translations: component `i`. -/
theorem C86_shift (hF : Rounding u F) (t : Bracketing (Shift (Fl F) N)) (X : List (Fin N → ℝ))
    (hX : List.Forall₂ (fun s x => ∀ i : Fin N, s.intoVector[i.1].val = some (x i)) t.items X) (i : Fin N) {r : ℝ}
    (hr : (t.eval (Transform.chain (Vec (Fl F) N))).intoVector[i.1].val = some r) :
    |r - (X.map fun x => x i).sum| ≤ gam u (X.length - 1) * (X.map fun x => |x i|).sum := by
  have h1 := Spec.Bracketing.eval_map (f := fun s : Shift (Fl F) N => s.intoVector[i.1]) (op := Transform.chain (Vec (Fl F) N)) (op' := (· + ·))
    (fun a b => by simp [Transform.chain, Shift.intoVector]) t
  rw [h1] at hr
  have := (NErr.sum (Fl.approx hF) (t.map fun s : Shift (Fl F) N => s.intoVector[i.1]) (X.map fun x => x i) (by
    rw [Spec.Bracketing.items_map, List.forall₂_map_left_iff, List.forall₂_map_right_iff]
    exact hX.imp fun _ _ h => h i)).1.2 r hr
  simpa [Function.comp_def, Real.norm_eq_abs] using this

/-- A composition of `n` scalings. -/
theorem C86_scale [Inv (Fl F)] (hF : Rounding u F) (t : Bracketing (Scale (Fl F))) (X : List ℝ)
    (hX : List.Forall₂ (fun s x => s.intoMag.val = some x) t.items X) {r : ℝ}
    (hr : (t.eval (Transform.chain (Vec (Fl F) N))).intoMag.val = some r) :
    |r - X.prod| ≤ gam u (X.length - 1) * |X.prod| := by
  have h1 := Spec.Bracketing.eval_map (f := fun s : Scale (Fl F) => s.intoMag) (op := Transform.chain (Vec (Fl F) N)) (op' := (· * ·))
    (fun a b => rfl) t
  rw [h1] at hr
  have := (NErr.prod (Fl.approx hF) (t.map fun s : Scale (Fl F) => s.intoMag) X (by
    rw [Spec.Bracketing.items_map, List.forall₂_map_left_iff]; exact hX)).1.2 r hr
  rwa [← norm_list_prod] at this

/-- A composition of `n` linear maps: every entry is within `((1+u)^((n-1)N) - 1)` times the entry of the product of the matrices of
absolute values. -/
theorem C86_linear [NeZero N] (hF : Rounding u F) (t : Bracketing (Linear (Fl F) N)) (X : List (Matrix (Fin N) (Fin N) ℝ))
    (hX : List.Forall₂ (fun l x => ∀ i j : Fin N, l.intoMatrix[i.1][j.1].val = some (x i j)) t.items X) (i j : Fin N) {r : ℝ}
    (hr : (t.eval (Transform.chain (Vec (Fl F) N))).intoMatrix[i.1][j.1].val = some r) :
    |r - X.prod i j| ≤ gam u ((X.length - 1) * N) * (X.map fun x => x.map abs).prod i j := by
  have h1 := Spec.Bracketing.eval_map (f := fun s : Linear (Fl F) N => s.intoMatrix) (op := Transform.chain (Vec (Fl F) N)) (op' := Mat.dotM)
    (fun a b => rfl) t
  have hr : Fl.HasVal ((t.map fun s => s.intoMatrix).eval Mat.dotM)[i.1][j.1] r := by rw [← h1]; exact hr
  exact ((Mat.NErr.prod (Fl.approx hF) (t.map fun s => s.intoMatrix) X (by
    rw [Spec.Bracketing.items_map, List.forall₂_map_left_iff]; exact hX)).1 i j).2 r hr

/-- Products of `n` square matrices. -/
theorem C86_matrix_prod [NeZero N] (hF : Rounding u F) (t : Bracketing (Mat (Fl F) N N)) (X : List (Matrix (Fin N) (Fin N) ℝ))
    (hX : List.Forall₂ (fun l x => ∀ i j : Fin N, l[i.1][j.1].val = some (x i j)) t.items X) (i j : Fin N) {r : ℝ}
    (hr : (t.eval Mat.dotM)[i.1][j.1].val = some r) :
    |r - X.prod i j| ≤ gam u ((X.length - 1) * N) * (X.map fun x => x.map abs).prod i j :=
  ((Mat.NErr.prod (Fl.approx hF) t X hX).1 i j).2 r hr

/-- A composition of `n` complex Moebius transformations: entries of the coefficient matrix. -/
theorem C86_moebius (hF : Rounding u F) (t : Bracketing (Moebius (Cpx (Fl F)))) (X : List (Matrix (Fin 2) (Fin 2) ℂ))
    (hX : List.Forall₂ (fun l x => ∀ i j : Fin 2, l.intoMatrix[i.1][j.1].HasVal (x i j)) t.items X) (i j : Fin 2) {V : ℂ}
    (hV : (t.eval (Transform.chain (Cpx (Fl F)))).intoMatrix[i.1][j.1].HasVal V) :
    ‖V - X.prod i j‖ ≤ gam (Real.sqrt 2 * gam u 2) ((X.length - 1) * 2) * (X.map fun x => x.map norm).prod i j := by
  have h1 : (t.eval (Transform.chain (Cpx (Fl F)))).intoMatrix = (t.map Moebius.intoMatrix).eval Mat.dotM := Spec.Bracketing.eval_map (f := Moebius.intoMatrix) (fun a b => rfl) t
  have hV : Cpx.HasVal ((t.map Moebius.intoMatrix).eval Mat.dotM)[i.1][j.1] V := by rw [← h1]; exact hV
  have h2 := (Mat.NErr.prod (Cpx.approx hF) (t.map Moebius.intoMatrix) X (by
    rw [Spec.Bracketing.items_map, List.forall₂_map_left_iff]; exact hX)).1 i j
  exact h2.2 V hV

/-! ## affine maps -/

theorem affMul_assoc (f g h : Matrix (Fin N) (Fin N) ℝ × (Fin N → ℝ)) : affMul (affMul f g) h = affMul f (affMul g h) := by
  simp [affMul, Matrix.mul_assoc, Matrix.mulVec_add, add_assoc]
theorem affProd_append (l m : List (Matrix (Fin N) (Fin N) ℝ × (Fin N → ℝ))) : affProd (l ++ m) = affMul (affProd l) (affProd m) := by
  induction l with
  | nil => simp [affProd, affMul]
  | cons a l ih => simp only [affProd, List.cons_append, List.foldr_cons] at *; rw [ih, affMul_assoc]

theorem affine_nerr [NeZero N] (hF : Rounding u F) (t : Bracketing (Affine (Fl F) N)) (X : List (Matrix (Fin N) (Fin N) ℝ × (Fin N → ℝ)))
    (hX : List.Forall₂ (fun f x => (∀ i j : Fin N, f.linear.intoMatrix[i.1][j.1].val = some (x.1 i j)) ∧
      ∀ i : Fin N, f.shift.intoVector[i.1].val = some (x.2 i)) t.items X) :
    0 < X.length ∧ Mat.NErr u Fl.HasVal ((X.length - 1) * N) (affProd (X.map affAbs)).1 (t.eval (Transform.chain (Vec (Fl F) N))).linear.intoMatrix (affProd X).1 ∧
    ∀ i : Fin N, NErr u Fl.HasVal ((X.length - 1) * (N + 1)) ((affProd (X.map affAbs)).2 i)
      (t.eval (Transform.chain (Vec (Fl F) N))).shift.intoVector[i.1] ((affProd X).2 i) := by
  have hV := Fl.approx hF
  induction t generalizing X with
  | one a =>
    cases hX with
    | cons h h' =>
      cases h'
      refine ⟨by simp, ?_, ?_⟩
      · simpa [Mat.NErr, Bracketing.eval, affProd, affMul, affAbs, Real.norm_eq_abs] using fun i j => NErr.of_val hV (h.1 i j)
      · simpa [Bracketing.eval, affProd, affMul, affAbs, Real.norm_eq_abs] using fun i => NErr.of_val hV (h.2 i)
  | two l r hl hr =>
    obtain ⟨x1, x2, h1, h2, rfl⟩ := forall₂_append_left hX
    obtain ⟨p1, a1, b1⟩ := hl x1 h1
    obtain ⟨p2, a2, b2⟩ := hr x2 h2
    rw [List.map_append, affProd_append, affProd_append, List.length_append]
    have e : x1.length + x2.length - 1 = x1.length - 1 + (x2.length - 1) + 1 := by omega
    refine ⟨by omega, ?_, fun i => ?_⟩
    · have := a1.dotM hV a2
      rw [e, Nat.add_mul, Nat.add_mul, one_mul]
      exact this
    · have h3 := (Mat.NErr.dotV hV a1 b2 i)
      have h4 := (b1 i).add hV h3
      have h5 := h4.mono hF.1 (l := (x1.length + x2.length - 1) * (N + 1)) (by rw [e]; ring_nf; omega) le_rfl
      simp only [affMul, Pi.add_apply]
      rw [add_comm (((affProd x1).1.mulVec (affProd x2).2) i), add_comm (((affProd (x1.map affAbs)).1.mulVec (affProd (x2.map affAbs)).2) i)]
      have e2 : (Bracketing.eval (Transform.chain (Vec (Fl F) N)) (l.two r)).shift.intoVector[i.1] =
          (l.eval (Transform.chain (Vec (Fl F) N))).shift.intoVector[i.1] +
          ((l.eval (Transform.chain (Vec (Fl F) N))).linear.intoMatrix.dotV (r.eval (Transform.chain (Vec (Fl F) N))).shift.intoVector)[i.1] := by
        simp only [Bracketing.eval]
        rw [← Vec.getElem_add]; rfl
      rw [e2]
      exact h5

/-- A composition of `n` affine maps: the linear part. -/
theorem C86_affine_linear [NeZero N] (hF : Rounding u F) (t : Bracketing (Affine (Fl F) N)) (X : List (Matrix (Fin N) (Fin N) ℝ × (Fin N → ℝ)))
    (hX : List.Forall₂ (fun f x => (∀ i j : Fin N, f.linear.intoMatrix[i.1][j.1].val = some (x.1 i j)) ∧
      ∀ i : Fin N, f.shift.intoVector[i.1].val = some (x.2 i)) t.items X) (i j : Fin N) {r : ℝ}
    (hr : (t.eval (Transform.chain (Vec (Fl F) N))).linear.intoMatrix[i.1][j.1].val = some r) :
    |r - (affProd X).1 i j| ≤ gam u ((X.length - 1) * N) * (affProd (X.map affAbs)).1 i j :=
  ((affine_nerr hF t X hX).2.1 i j).2 r hr
/-- A composition of `n` affine maps: the translation. -/
theorem C86_affine_shift [NeZero N] (hF : Rounding u F) (t : Bracketing (Affine (Fl F) N)) (X : List (Matrix (Fin N) (Fin N) ℝ × (Fin N → ℝ)))
    (hX : List.Forall₂ (fun f x => (∀ i j : Fin N, f.linear.intoMatrix[i.1][j.1].val = some (x.1 i j)) ∧
      ∀ i : Fin N, f.shift.intoVector[i.1].val = some (x.2 i)) t.items X) (i : Fin N) {r : ℝ}
    (hr : (t.eval (Transform.chain (Vec (Fl F) N))).shift.intoVector[i.1].val = some r) :
    |r - (affProd X).2 i| ≤ gam u ((X.length - 1) * (N + 1)) * (affProd (X.map affAbs)).2 i :=
  ((affine_nerr hF t X hX).2.2 i).2 r hr

/-! ## applying one map after another -/

/-- `n` linear maps applied in sequence (the last of the list first) to a point. -/
theorem C86_linear_apply [NeZero N] (hF : Rounding u F) (l : List (Linear (Fl F) N)) (v : Vec (Fl F) N) (X : List (Matrix (Fin N) (Fin N) ℝ)) (x : Fin N → ℝ)
    (hX : List.Forall₂ (fun l x => ∀ i j : Fin N, l.intoMatrix[i.1][j.1].val = some (x i j)) l X) (hv : ∀ i : Fin N, v[i.1].val = some (x i))
    (i : Fin N) {r : ℝ} (hr : (l.foldr Transform.apply v : Vec (Fl F) N)[i.1].val = some r) :
    |r - X.prod.mulVec x i| ≤ gam u (X.length * N) * (X.map fun A : Matrix (Fin N) (Fin N) ℝ => A.map abs).prod.mulVec (fun i => |x i|) i := by
  have hV := Fl.approx hF
  suffices h : ∀ i : Fin N, NErr u Fl.HasVal (X.length * N) ((X.map fun A : Matrix (Fin N) (Fin N) ℝ => A.map abs).prod.mulVec (fun i => |x i|) i)
      (l.foldr Transform.apply v : Vec (Fl F) N)[i.1] (X.prod.mulVec x i) from (h i).2 r hr
  clear hr i
  induction hX with
  | nil => intro i; simpa using NErr.of_val hV (hv i)
  | cons h h' ih =>
    intro i
    rename_i a A as As
    have h1 : Mat.NErr u Fl.HasVal 0 (A.map abs) a.lin A := fun i j => NErr.of_val hV (h i j)
    have := h1.dotV hV ih i
    simp only [List.map_cons, List.prod_cons, List.length_cons, ← Matrix.mulVec_mulVec]
    rw [Nat.add_mul, one_mul]
    rw [zero_add, Matrix.mulVec_mulVec, Matrix.mulVec_mulVec] at this
    rw [Matrix.mulVec_mulVec, Matrix.mulVec_mulVec]
    exact this

theorem Quat.operands_of_x {p q : Quat (Fl F)} {r : ℝ} (h : (p * q).x.val = some r) : ∃ P Q, p.HasVal P ∧ q.HasVal Q := by
  rw [Quat.x_mul] at h
  obtain ⟨_, _, d0, d3, -⟩ := Fl.sub_val h
  obtain ⟨_, _, d0, d2, -⟩ := Fl.add_val d0
  obtain ⟨_, _, d0, d1, -⟩ := Fl.add_val d0
  obtain ⟨x0, y0, a0, b0, -⟩ := Fl.mul_val d0
  obtain ⟨x1, y1, a1, b1, -⟩ := Fl.mul_val d1
  obtain ⟨x2, y2, a2, b2, -⟩ := Fl.mul_val d2
  obtain ⟨x3, y3, a3, b3, -⟩ := Fl.mul_val d3
  exact ⟨⟨x0, x1, x2, x3⟩, ⟨y1, y0, y3, y2⟩, ⟨a0, a1, a2, a3⟩, ⟨b1, b0, b3, b2⟩⟩

/-- Rotating a point: error in norm. -/
theorem rotation3_step (hF : Rounding u F) (R : Rotation3 (Fl F)) (v : Vec (Fl F) 3) (Q V : Quaternion ℝ) (hQ : R.quat.HasVal Q) (hV0 : V.re = 0)
    (h0 : (Transform.apply R v : Vec (Fl F) 3)[0].val = some V.imI) (h1 : (Transform.apply R v : Vec (Fl F) 3)[1].val = some V.imJ)
    (h2 : (Transform.apply R v : Vec (Fl F) 3)[2].val = some V.imK) :
    ∃ X : Quaternion ℝ, X.re = 0 ∧ (v[0].val = some X.imI ∧ v[1].val = some X.imJ ∧ v[2].val = some X.imK) ∧
      ‖V - Q * X * star Q‖ ≤ 4 * gam u 8 * (‖Q‖ ^ 2 * ‖X‖) := by
  have hx : (R.quat * Quat.fromScalarAndVector3 0 v * R.quat.conj).x.val = some V.imI := h0
  obtain ⟨P, _, hP, -⟩ := Quat.operands_of_x hx
  obtain ⟨_, X, -, hX⟩ := Quat.operands_of_x hP.2.1
  have e0 : X.re = 0 := by
    have h : (0 : Fl F).val = some X.re := by simpa [Quat.fromScalarAndVector3] using hX.1
    exact (Option.some.inj h).symm
  have e1 : v[0].val = some X.imI := by simpa [Quat.fromScalarAndVector3] using hX.2.1
  have e2 : v[1].val = some X.imJ := by simpa [Quat.fromScalarAndVector3] using hX.2.2.1
  have e3 : v[2].val = some X.imK := by simpa [Quat.fromScalarAndVector3] using hX.2.2.2
  refine ⟨X, e0, ⟨e1, e2, e3⟩, ?_⟩
  obtain ⟨a, b, c⟩ := C70_rotation3 hF R v Q X hQ e0 e1 e2 e3
  have := quaternion_norm_le (Q := V - Q * X * star Q) (b := 2 * gam u 8 * (‖Q‖ ^ 2 * ‖X‖)) ?_ (a _ h0) (b _ h1) (c _ h2)
  · linarith
  · have : (Q * X * star Q).re = 0 := by simp [e0]; ring
    rw [Quaternion.re_sub, hV0, this]; simp
    have := gam_nonneg hF.1 8
    positivity

/-- `n` rotations applied in sequence (the last of the list first) to a point, written as a purely imaginary quaternion. -/
theorem C86_rotation3_apply (hF : Rounding u F) (l : List (Rotation3 (Fl F))) (v : Vec (Fl F) 3) (Q : List (Quaternion ℝ)) (X : Quaternion ℝ)
    (hQ : List.Forall₂ (fun r q => r.intoQuaternion.HasVal q) l Q) (h0 : X.re = 0)
    (hv : v[0].val = some X.imI ∧ v[1].val = some X.imJ ∧ v[2].val = some X.imK) {V : Quaternion ℝ} (hV0 : V.re = 0)
    (hV : (l.foldr Transform.apply v : Vec (Fl F) 3)[0].val = some V.imI ∧ (l.foldr Transform.apply v : Vec (Fl F) 3)[1].val = some V.imJ ∧
      (l.foldr Transform.apply v : Vec (Fl F) 3)[2].val = some V.imK) :
    ‖V - Q.prod * X * star Q.prod‖ ≤ gam (4 * gam u 8) Q.length * ((Q.map norm).prod ^ 2 * ‖X‖) := by
  have hε : 0 ≤ 4 * gam u 8 := by have := gam_nonneg hF.1 8; positivity
  generalize hε' : 4 * gam u 8 = ε at hε ⊢
  induction hQ generalizing V with
  | nil =>
    have e : V = X := by
      ext
      · rw [hV0, h0]
      · exact Option.some.inj (hV.1.symm.trans hv.1)
      · exact Option.some.inj (hV.2.1.symm.trans hv.2.1)
      · exact Option.some.inj (hV.2.2.symm.trans hv.2.2)
    simp [e, gam]
  | cons h h' ih =>
    rename_i a A as As
    obtain ⟨Y, y0, hy, hstep⟩ := rotation3_step hF a (as.foldr Transform.apply v) A V h hV0 hV.1 hV.2.1 hV.2.2
    have ih := ih (V := Y) y0 hy
    rw [hε'] at hstep
    simp only [List.map_cons, List.prod_cons, List.length_cons, StarMul.star_mul]
    have eP : ‖As.prod‖ = (As.map norm).prod := norm_list_prod As
    generalize As.prod = P at *
    rw [← eP] at ih ⊢
    have t1 : ‖V - A * P * X * (star P * star A)‖ ≤ ‖V - A * Y * star A‖ + ‖A‖ * ‖Y - P * X * star P‖ * ‖A‖ := by
      rw [show V - A * P * X * (star P * star A) = (V - A * Y * star A) + A * (Y - P * X * star P) * star A by noncomm_ring]
      refine (norm_add_le _ _).trans ?_
      rw [norm_mul, norm_mul, norm_star]
    have t2 : ‖Y‖ ≤ ‖Y - P * X * star P‖ + ‖P‖ ^ 2 * ‖X‖ := by
      have := norm_add_le (Y - P * X * star P) (P * X * star P)
      simp only [sub_add_cancel, norm_mul, norm_star] at this
      linarith
    have hm : 0 ≤ ‖P‖ ^ 2 * ‖X‖ := by positivity
    generalize hmm : ‖P‖ ^ 2 * ‖X‖ = m at *
    have hA := norm_nonneg A
    have hd := norm_nonneg (Y - P * X * star P)
    generalize ‖Y - P * X * star P‖ = d at *
    have t3 : ‖A‖ * d * ‖A‖ ≤ ‖A‖ ^ 2 * (gam ε As.length * m) := by
      rw [show ‖A‖ * d * ‖A‖ = ‖A‖ ^ 2 * d by ring]
      exact mul_le_mul_of_nonneg_left ih (by positivity)
    have t4 : ε * (‖A‖ ^ 2 * ‖Y‖) ≤ ε * (‖A‖ ^ 2 * (gam ε As.length * m + m)) := by
      gcongr; linarith
    have goal : ‖V - A * P * X * (star P * star A)‖ ≤ ‖A‖ ^ 2 * (gam ε (As.length + 1) * m) := by
      have : gam ε (As.length + 1) = gam ε As.length + ε * (gam ε As.length + 1) := by unfold gam; rw [pow_succ]; ring
      rw [this]
      nlinarith
    refine goal.trans_eq ?_
    rw [← hmm]; ring


/-! ## the hypotheses are met by `f64` computations -/
namespace CompEx
open FlEx
theorem dotM_rel {T S : Type} [Add T] [Sub T] [Neg T] [Mul T] [Zero T] [One T] [Add S] [Sub S] [Neg S] [Mul S] [Zero S] [One S]
    {R : T → S → Prop} (hR : OpRel T S R) {A A' : Mat T N N} {B B' : Mat S N N} [NeZero N] (h : RelM R A B) (h' : RelM R A' B') :
    RelM R (A.dotM A') (B.dotM B') := by
  intro i hi j hj
  rw [Mat.getElem_dotM _ _ _ hi _ hj, Mat.getElem_dotM _ _ _ hi _ hj]
  exact hR.vDot (h i hi) (fun k hk => by simpa using h' k hk j hj)
theorem dotM_R {A A' : Mat BInt N N} {B B' : Mat (Fl D) N N} [NeZero N] (h : RelM (BInt.R (2 ^ 53)) A B) (h' : RelM (BInt.R (2 ^ 53)) A' B') :
    RelM (BInt.R (2 ^ 53)) (A.dotM A') (B.dotM B') := dotM_rel (BInt.opRel dI) h h'
theorem cpxRel : OpRel (Cpx BInt) (Cpx (Fl D)) (RelC (BInt.R (2 ^ 53))) where
  add := (BInt.opRel dI).cAdd
  mul := (BInt.opRel dI).cMul
  sub := fun h h' => ⟨by simpa using (BInt.opRel dI).sub h.1 h'.1, by simpa using (BInt.opRel dI).sub h.2 h'.2⟩
  neg := fun h => ⟨by simpa using (BInt.opRel dI).neg h.1, by simpa using (BInt.opRel dI).neg h.2⟩
  zero := ⟨(BInt.opRel dI).zero, (BInt.opRel dI).zero⟩
  one := ⟨(BInt.opRel dI).one, (BInt.opRel dI).zero⟩
theorem dotV_R {A : Mat BInt N N} {B : Mat (Fl D) N N} {v : Vec BInt N} {w : Vec (Fl D) N} [NeZero N] (h : RelM (BInt.R (2 ^ 53)) A B)
    (h' : RelV (BInt.R (2 ^ 53)) v w) : RelV (BInt.R (2 ^ 53)) (A.dotV v) (B.dotV w) := by
  intro i hi
  rw [Mat.getElem_dotV _ _ _ hi, Mat.getElem_dotV _ _ _ hi]
  exact (BInt.opRel dI).vDot (h i hi) h'
/-- A quaternion with integer components. -/
noncomputable def q (w x y z : ℤ) : Quat (Fl D) := Quat.new (.of w) (.of x) (.of y) (.of z)
def qi (w x y z : ℤ) : Quat BInt := Quat.new (.of w) (.of x) (.of y) (.of z)
theorem q_R (w x y z : ℤ) : RelQ (BInt.R (2 ^ 53)) (qi w x y z) (q w x y z) :=
  ⟨BInt.of_R rfl, BInt.of_R rfl, BInt.of_R rfl, BInt.of_R rfl⟩
theorem q_val (w x y z : ℤ) : (q w x y z).HasVal ⟨w, x, y, z⟩ := ⟨rfl, rfl, rfl, rfl⟩
theorem q_eval {p : Quat BInt} {r : Quat (Fl D)} (h : RelQ (BInt.R (2 ^ 53)) p r) (hb : p.w.b ≤ 2 ^ 53 ∧ p.x.b ≤ 2 ^ 53 ∧ p.y.b ≤ 2 ^ 53 ∧ p.z.b ≤ 2 ^ 53) :
    r.HasVal ⟨p.w.n, p.x.n, p.y.n, p.z.n⟩ := ⟨h.1.eval hb.1, h.2.1.eval hb.2.1, h.2.2.1.eval hb.2.2.1, h.2.2.2.eval hb.2.2.2⟩
/-- A complex number with integer components. -/
noncomputable def c (x y : ℤ) : Cpx (Fl D) := Cpx.new (.of x) (.of y)
def ci (x y : ℤ) : Cpx BInt := Cpx.new (.of x) (.of y)
theorem c_R (x y : ℤ) : RelC (BInt.R (2 ^ 53)) (ci x y) (c x y) := ⟨BInt.of_R rfl, BInt.of_R rfl⟩
theorem c_val (x y : ℤ) : (c x y).HasVal ⟨x, y⟩ := ⟨rfl, rfl⟩
theorem c_eval {p : Cpx BInt} {r : Cpx (Fl D)} (h : RelC (BInt.R (2 ^ 53)) p r) (hb : p.re.b ≤ 2 ^ 53 ∧ p.im.b ≤ 2 ^ 53) :
    r.HasVal ⟨p.re.n, p.im.n⟩ := ⟨h.1.eval hb.1, h.2.eval hb.2⟩
/-- Three rotations, composed as `a (b c)`. -/
noncomputable def rot3 (a b c : Quat (Fl D)) : Spec.Bracketing (Rotation3 (Fl D)) :=
  .two (.one (.fromQuaternion a)) (.two (.one (.fromQuaternion b)) (.one (.fromQuaternion c)))
/-- Three rotations, composed as `(a b) c`. -/
noncomputable def rot2 (a b c : Cpx (Fl D)) : Spec.Bracketing (Rotation2 (Fl D)) :=
  .two (.two (.one (.fromComplex a)) (.one (.fromComplex b))) (.one (.fromComplex c))
theorem rot_R {p : Quat BInt} {r : Quat (Fl D)} {v : Vec BInt 3} {w : Vec (Fl D) 3} (h : RelQ (BInt.R (2 ^ 53)) p r) (h' : RelV (BInt.R (2 ^ 53)) v w) :
    RelV (BInt.R (2 ^ 53)) ((Rotation3.fromQuaternion p).applyFn v) (Transform.apply (Rotation3.fromQuaternion r) w) := by
  have h1 := (BInt.opRel dI).qMul ((BInt.opRel dI).qMul h (p' := Quat.fromScalarAndVector3 0 v) (q' := Quat.fromScalarAndVector3 0 w)
    ⟨by simpa [Quat.fromScalarAndVector3] using (BInt.opRel dI).zero, by simpa [Quat.fromScalarAndVector3] using h' 0 (by decide),
      by simpa [Quat.fromScalarAndVector3] using h' 1 (by decide), by simpa [Quat.fromScalarAndVector3] using h' 2 (by decide)⟩) ((BInt.opRel dI).qConj h)
  intro i hi
  match i, hi with
  | 0, _ => exact h1.2.1
  | 1, _ => exact h1.2.2.1
  | 2, _ => exact h1.2.2.2
theorem rot_eval {v : Vec BInt 3} {w : Vec (Fl D) 3} (h : RelV (BInt.R (2 ^ 53)) v w) (hb : v[0].b ≤ 2 ^ 53 ∧ v[1].b ≤ 2 ^ 53 ∧ v[2].b ≤ 2 ^ 53) :
    w[0].val = some (v[0].n : ℝ) ∧ w[1].val = some (v[1].n : ℝ) ∧ w[2].val = some (v[2].n : ℝ) :=
  ⟨(h 0 (by decide)).eval hb.1, (h 1 (by decide)).eval hb.2.1, (h 2 (by decide)).eval hb.2.2⟩
end CompEx
section
open FlEx CompEx
example := C86_rotation3 dR (rot3 (q 1 2 3 4) (q 5 6 7 (-8)) (q 0 1 0 1)) [⟨(1 : ℤ), (2 : ℤ), (3 : ℤ), (4 : ℤ)⟩, ⟨(5 : ℤ), (6 : ℤ), (7 : ℤ), (-8 : ℤ)⟩, ⟨(0 : ℤ), (1 : ℤ), (0 : ℤ), (1 : ℤ)⟩]
  (.cons (q_val 1 2 3 4) (.cons (q_val 5 6 7 (-8)) (.cons (q_val 0 1 0 1) .nil)))
  (q_eval ((BInt.opRel dI).qMul (q_R 1 2 3 4) ((BInt.opRel dI).qMul (q_R 5 6 7 (-8)) (q_R 0 1 0 1))) (by decide +kernel))
example := C86_rotation3_drift dR (rot3 (q 0 1 0 0) (q 0 0 (-1) 0) (q 0 0 0 1)) [⟨(0 : ℤ), (1 : ℤ), (0 : ℤ), (0 : ℤ)⟩, ⟨(0 : ℤ), (0 : ℤ), (-1 : ℤ), (0 : ℤ)⟩, ⟨(0 : ℤ), (0 : ℤ), (0 : ℤ), (1 : ℤ)⟩]
  (.cons (q_val 0 1 0 0) (.cons (q_val 0 0 (-1) 0) (.cons (q_val 0 0 0 1) .nil)))
  (q_eval ((BInt.opRel dI).qMul (q_R 0 1 0 0) ((BInt.opRel dI).qMul (q_R 0 0 (-1) 0) (q_R 0 0 0 1))) (by decide +kernel))
  (by
    intro q hq
    rcases List.mem_cons.1 hq with rfl | hq
    · exact (quat_norm _).trans (by simp)
    rcases List.mem_cons.1 hq with rfl | hq
    · exact (quat_norm _).trans (by simp)
    rcases List.mem_cons.1 hq with rfl | hq
    · exact (quat_norm _).trans (by simp)
    cases hq)
example := C86_rotation2 dR (rot2 (c 1 2) (c 3 (-4)) (c 5 6)) [⟨(1 : ℤ), (2 : ℤ)⟩, ⟨(3 : ℤ), (-4 : ℤ)⟩, ⟨(5 : ℤ), (6 : ℤ)⟩]
  (.cons (c_val 1 2) (.cons (c_val 3 (-4)) (.cons (c_val 5 6) .nil)))
  (c_eval ((BInt.opRel dI).cMul ((BInt.opRel dI).cMul (c_R 1 2) (c_R 3 (-4))) (c_R 5 6)) (by decide +kernel))
example := C86_rotation2_drift dR (rot2 (c 0 1) (c 0 (-1)) (c (-1) 0)) [⟨(0 : ℤ), (1 : ℤ)⟩, ⟨(0 : ℤ), (-1 : ℤ)⟩, ⟨(-1 : ℤ), (0 : ℤ)⟩]
  (.cons (c_val 0 1) (.cons (c_val 0 (-1)) (.cons (c_val (-1) 0) .nil)))
  (c_eval ((BInt.opRel dI).cMul ((BInt.opRel dI).cMul (c_R 0 1) (c_R 0 (-1))) (c_R (-1) 0)) (by decide +kernel))
  (by simp [Complex.norm_eq_sqrt_sq_add_sq])
example := C86_complex_prod dR (.two (.one (c 1 2)) (.one (c 3 4))) [⟨(1 : ℤ), (2 : ℤ)⟩, ⟨(3 : ℤ), (4 : ℤ)⟩]
  (.cons (c_val 1 2) (.cons (c_val 3 4) .nil)) (c_eval ((BInt.opRel dI).cMul (c_R 1 2) (c_R 3 4)) (by decide +kernel))
example := C86_quaternion_prod dR (.two (.one (q 1 2 3 4)) (.one (q 3 4 5 6))) [⟨(1 : ℤ), (2 : ℤ), (3 : ℤ), (4 : ℤ)⟩, ⟨(3 : ℤ), (4 : ℤ), (5 : ℤ), (6 : ℤ)⟩]
  (.cons (q_val 1 2 3 4) (.cons (q_val 3 4 5 6) .nil)) (q_eval ((BInt.opRel dI).qMul (q_R 1 2 3 4) (q_R 3 4 5 6)) (by decide +kernel))
example := C86_shift (N := 3) dR (.two (.one (.fromVector (vec ![1, 2, 3]))) (.two (.one (.fromVector (vec ![4, 5, 6]))) (.one (.fromVector (vec ![7, -8, 9])))))
  [_, _, _] (.cons (vec_val ![1, 2, 3]) (.cons (vec_val ![4, 5, 6]) (.cons (vec_val ![7, -8, 9]) .nil))) 1
  (((BInt.opRel dI).vAdd (vec_R ![1, 2, 3]) ((BInt.opRel dI).vAdd (vec_R ![4, 5, 6]) (vec_R ![7, -8, 9])) 1 (by decide)).eval (by decide +kernel))
example [Inv (Fl D)] := C86_scale (N := 3) dR (.two (.one (.fromMag (.of (3 : ℤ)))) (.one (.fromMag (.of (-5 : ℤ))))) [(3 : ℤ), (-5 : ℤ)] (.cons rfl (.cons rfl .nil))
  (((BInt.opRel dI).mul (BInt.of_R (n := 3) rfl) (BInt.of_R (n := -5) rfl)).eval (by decide +kernel))
example := C86_linear (N := 2) dR (.two (.one (.fromMatrix (mat !![1, 2; 3, 4]))) (.one (.fromMatrix (mat !![5, 6; 7, 8])))) [_, _]
  (.cons (mat_val !![1, 2; 3, 4]) (.cons (mat_val !![5, 6; 7, 8]) .nil)) 0 1
  ((dotM_R (mat_R !![1, 2; 3, 4]) (mat_R !![5, 6; 7, 8]) 0 (by decide) 1 (by decide)).eval (by decide +kernel))
example := C86_matrix_prod (N := 2) dR (.two (.one (mat !![1, 2; 3, 4])) (.one (mat !![5, 6; 7, 8]))) [_, _] (.cons (mat_val !![1, 2; 3, 4]) (.cons (mat_val !![5, 6; 7, 8]) .nil)) 0 1
  ((dotM_R (mat_R !![1, 2; 3, 4]) (mat_R !![5, 6; 7, 8]) 0 (by decide) 1 (by decide)).eval (by decide +kernel))
example := C86_linear_apply (N := 2) dR [.fromMatrix (mat !![1, 2; 3, 4]), .fromMatrix (mat !![5, 6; 7, 8])] (vec ![1, -1]) [_, _] _
  (.cons (mat_val !![1, 2; 3, 4]) (.cons (mat_val !![5, 6; 7, 8]) .nil)) (vec_val _) 1
  ((dotV_R (mat_R !![1, 2; 3, 4]) (dotV_R (mat_R !![5, 6; 7, 8]) (vec_R ![1, -1])) 1 (by decide)).eval (by decide +kernel))
/-- The affine maps `x ↦ A x + a`, `x ↦ B x + b`. -/
noncomputable def CompEx.aff : Spec.Bracketing (Affine (Fl D) 2) :=
  .two (.one (Chain.new (.fromVector (vec ![1, 2])) (.fromMatrix (mat !![1, 2; 3, 4])))) (.one (Chain.new (.fromVector (vec ![5, -6])) (.fromMatrix (mat !![5, 6; 7, 8]))))
theorem CompEx.aff_val : List.Forall₂ (fun (f : Affine (Fl D) 2) (x : Matrix (Fin 2) (Fin 2) ℝ × (Fin 2 → ℝ)) =>
    (∀ i j : Fin 2, f.linear.intoMatrix[i.1][j.1].val = some (x.1 i j)) ∧ ∀ i : Fin 2, f.shift.intoVector[i.1].val = some (x.2 i)) CompEx.aff.items
    [(fun i j => ((!![1, 2; 3, 4] : Matrix (Fin 2) (Fin 2) ℤ) i j : ℝ), fun i => ((![1, 2] : Fin 2 → ℤ) i : ℝ)),
     (fun i j => ((!![5, 6; 7, 8] : Matrix (Fin 2) (Fin 2) ℤ) i j : ℝ), fun i => ((![5, -6] : Fin 2 → ℤ) i : ℝ))] :=
  .cons ⟨mat_val _, vec_val _⟩ (.cons ⟨mat_val _, vec_val _⟩ .nil)
example := C86_affine_linear dR aff _ aff_val 0 1
  ((dotM_R (mat_R !![1, 2; 3, 4]) (mat_R !![5, 6; 7, 8]) 0 (by decide) 1 (by decide)).eval (by decide +kernel))
example := C86_affine_shift dR aff _ aff_val 1
  (((BInt.opRel dI).vAdd (vec_R ![1, 2]) (dotV_R (mat_R !![1, 2; 3, 4]) (vec_R ![5, -6])) 1 (by decide)).eval (by decide +kernel))
/-- A complex 2×2 matrix with integer parts. -/
noncomputable def CompEx.cm (a b : Matrix (Fin 2) (Fin 2) ℤ) : Mat (Cpx (Fl D)) 2 2 := ⟨⟨Vector.ofFn fun i => ⟨Vector.ofFn fun j => c (a i j) (b i j)⟩⟩⟩
def CompEx.cmi (a b : Matrix (Fin 2) (Fin 2) ℤ) : Mat (Cpx BInt) 2 2 := ⟨⟨Vector.ofFn fun i => ⟨Vector.ofFn fun j => ci (a i j) (b i j)⟩⟩⟩
theorem CompEx.cm_val (a b : Matrix (Fin 2) (Fin 2) ℤ) (i j : Fin 2) : (cm a b)[i.1][j.1].HasVal ⟨a i j, b i j⟩ := by
  rw [show (cm a b)[i.1][j.1] = c (a i j) (b i j) by simp [cm]]; exact c_val _ _
theorem CompEx.cm_R (a b : Matrix (Fin 2) (Fin 2) ℤ) : RelM (RelC (BInt.R (2 ^ 53))) (cmi a b) (cm a b) := by
  intro i hi j hj
  rw [show (cm a b)[i][j] = c (a ⟨i, hi⟩ ⟨j, hj⟩) (b ⟨i, hi⟩ ⟨j, hj⟩) by simp [cm], show (cmi a b)[i][j] = ci (a ⟨i, hi⟩ ⟨j, hj⟩) (b ⟨i, hi⟩ ⟨j, hj⟩) by simp [cmi]]
  exact c_R _ _
example := C86_moebius dR (.two (.one (.fromMatrix (cm !![1, 2; 3, 4] !![0, 1; -1, 2]))) (.one (.fromMatrix (cm !![5, 6; 7, 8] !![1, 1; 0, 3])))) [_, _]
  (.cons (cm_val !![1, 2; 3, 4] !![0, 1; -1, 2]) (.cons (cm_val !![5, 6; 7, 8] !![1, 1; 0, 3]) .nil)) 0 1
  (show ((cm !![1, 2; 3, 4] !![0, 1; -1, 2]).dotM (cm !![5, 6; 7, 8] !![1, 1; 0, 3]))[0][1].HasVal _ from
    c_eval (dotM_rel cpxRel (cm_R !![1, 2; 3, 4] !![0, 1; -1, 2]) (cm_R !![5, 6; 7, 8] !![1, 1; 0, 3]) 0 (by decide) 1 (by decide)) (by decide +kernel))
/-- A point written as an imaginary quaternion, rotated twice. -/
example := C86_rotation3_apply dR [.fromQuaternion (q 1 2 3 4), .fromQuaternion (q 0 1 0 (-1))] (vec ![1, 2, 3])
  [⟨(1 : ℤ), (2 : ℤ), (3 : ℤ), (4 : ℤ)⟩, ⟨(0 : ℤ), (1 : ℤ), (0 : ℤ), (-1 : ℤ)⟩] ⟨0, (1 : ℤ), (2 : ℤ), (3 : ℤ)⟩
  (.cons (q_val 1 2 3 4) (.cons (q_val 0 1 0 (-1)) .nil)) rfl ⟨vec_val ![1, 2, 3] 0, vec_val ![1, 2, 3] 1, vec_val ![1, 2, 3] 2⟩ (V := ⟨0, _, _, _⟩) rfl
  (rot_eval (rot_R (q_R 1 2 3 4) (rot_R (q_R 0 1 0 (-1)) (vec_R ![1, 2, 3]))) (by decide +kernel))
end
end Vecmat
