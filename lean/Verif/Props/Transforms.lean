import Verif.Lemmas.Transforms
import Verif.Props.VectorOps
import Mathlib.Analysis.Calculus.FDeriv.Comp
import Mathlib.Analysis.Calculus.FDeriv.Add
import Mathlib.Analysis.Calculus.FDeriv.Linear
import Mathlib.Topology.Algebra.Module.FiniteDimension
/-!
# C52, C53, C58–C61: shifts, scalings, linear transformations, chains, derivatives and normals
-/
namespace Vecmat
open Spec
variable {T A B X : Type} {N : Nat}

/-! ## C52 `Shift` and `Scale` -/

theorem C52_shift_apply [AddCommGroup T] (s : Shift T N) (x : Vec T N) (i : Nat) (h : i < N) :
    (Transform.apply s x)[i] = x[i] + s.intoVector[i] := by
  show (x + s.pos)[i] = _; simp [Shift.intoVector]
theorem C52_shift_group [AddCommGroup T] : IdentityOk (Shift T N) (Vec T N) ∧
    (∀ s t : Shift T N, ChainOk (X := Vec T N) s t) ∧ (∀ s : Shift T N, InverseOk (Vec T N) s) ∧
    ∀ s t u : Shift T N, Transform.chain (Vec T N) (Transform.chain (Vec T N) s t) u =
      Transform.chain (Vec T N) s (Transform.chain (Vec T N) t u) := by
  refine ⟨fun x => ?_, fun s t x => ?_, fun s x => ⟨?_, ?_⟩, fun s t u => ?_⟩
  · show x + 0 = x; apply Vec.ext_getElem; simp
  · show x + (s.pos + t.pos) = (x + t.pos) + s.pos; apply Vec.ext_getElem; intros; simp; abel
  · show (x + s.pos) + -s.pos = x; apply Vec.ext_getElem; simp
  · show (x + -s.pos) + s.pos = x; apply Vec.ext_getElem; simp
  · apply Shift.ext; show (s.pos + t.pos) + u.pos = s.pos + (t.pos + u.pos); apply Vec.ext_getElem; intros; simp; abel
theorem C52_scale_apply [Field T] (s : Scale T) (x : Vec T N) (i : Nat) (h : i < N) :
    (Transform.apply s x)[i] = x[i] * s.intoMag := by
  show (x.mulS s.mag)[i] = _; simp [Scale.intoMag]
theorem C52_scale_group [Field T] : IdentityOk (Scale T) (Vec T N) ∧
    (∀ s t : Scale T, ChainOk (X := Vec T N) s t) ∧ (∀ s : Scale T, s.intoMag ≠ 0 → InverseOk (Vec T N) s) ∧
    ∀ s t u : Scale T, Transform.chain (Vec T N) (Transform.chain (Vec T N) s t) u =
      Transform.chain (Vec T N) s (Transform.chain (Vec T N) t u) := by
  refine ⟨fun x => ?_, fun s t x => ?_, fun s h x => ⟨?_, ?_⟩, fun s t u => ?_⟩
  · show x.mulS 1 = x; apply Vec.ext_getElem; simp
  · show x.mulS (s.mag * t.mag) = (x.mulS t.mag).mulS s.mag; apply Vec.ext_getElem; intros; simp; ring
  · show (x.mulS s.mag).mulS s.mag⁻¹ = x
    apply Vec.ext_getElem; intros; simp; rw [mul_assoc, mul_inv_cancel₀ (show s.mag ≠ 0 from h), mul_one]
  · show (x.mulS s.mag⁻¹).mulS s.mag = x
    apply Vec.ext_getElem; intros; simp; rw [mul_assoc, inv_mul_cancel₀ (show s.mag ≠ 0 from h), mul_one]
  · apply Scale.ext; show (s.mag * t.mag) * u.mag = s.mag * (t.mag * u.mag); ring
/-- The condition `mag ≠ 0` is needed: a zero scaling has no inverse. -/
theorem C52_scale_zero [Field T] (hN : 0 < N) : ¬ InverseOk (Vec T N) (Scale.fromMag (0 : T)) := by
  intro h
  have h1 := (h (Vec.fill 1)).1
  have h2 := Vec.getElem_congr_vec h1 0 hN
  have h3 : (Transform.apply (Transform.inv (Vec T N) (Scale.fromMag (0 : T)))
      (Transform.apply (Scale.fromMag (0 : T)) (Vec.fill 1 : Vec T N)))[0] = 0 := by
    show (((Vec.fill 1 : Vec T N).mulS 0).mulS _)[0] = 0; simp
  rw [h3] at h2
  simp at h2

/-! ## C53 `Linear` -/

theorem C53_linear_apply [Field T] (l : Linear T N) (x : Vec T N) (i : Nat) (h : i < N) :
    (Transform.apply l x)[i] = ∑ k : Fin N, l.intoMatrix[i][k.1] * x[k.1] := Mat.getElem_dotV_sum l.lin x i h
theorem C53_linear_group [Field T] : IdentityOk (Linear T N) (Vec T N) ∧
    (∀ l m : Linear T N, ChainOk (X := Vec T N) l m) ∧ (∀ l : Linear T N, l.intoMatrix.det ≠ 0 → InverseOk (Vec T N) l) ∧
    ∀ l m k : Linear T N, Transform.chain (Vec T N) (Transform.chain (Vec T N) l m) k =
      Transform.chain (Vec T N) l (Transform.chain (Vec T N) m k) := by
  refine ⟨fun x => Mat.one_dotV x, fun l m x => Mat.dotV_dotM l.lin m.lin x, fun l h x => ⟨?_, ?_⟩, fun l m k => ?_⟩
  · show l.lin.inv.dotV (l.lin.dotV x) = x
    rw [← Mat.dotV_dotM, (Mat.inv_dotM l.lin h).1, Mat.one_dotV]
  · show l.lin.dotV (l.lin.inv.dotV x) = x
    rw [← Mat.dotV_dotM, (Mat.inv_dotM l.lin h).2, Mat.one_dotV]
  · apply Linear.ext; apply Mat.toMatrix_inj
    show ((l.lin.dotM m.lin).dotM k.lin).toMatrix = (l.lin.dotM (m.lin.dotM k.lin)).toMatrix
    simp only [Mat.toMatrix_dotM, Matrix.mul_assoc]
theorem C53_linear_additive [Field T] (l : Linear T N) (x y : Vec T N) (s : T) :
    Transform.apply l (x + y) = Transform.apply l x + Transform.apply l y ∧
    Transform.apply l (x.mulS s) = (Transform.apply l x).mulS s ∧ Transform.apply l (0 : Vec T N) = 0 := by
  refine ⟨Mat.dotV_add l.lin x y, Mat.dotV_mulS l.lin x s, ?_⟩
  apply Vec.coords_inj
  show coords (l.lin.dotV 0) = _
  rw [Mat.coords_dotV, Vec.coords_zero, Matrix.mulVec_zero]
/-- Every additive and homogeneous map is some `Linear`: its matrix has the images of the unit vectors as columns. -/
theorem C53_linear_complete [Field T] (f : Vec T N → Vec T N) (ha : ∀ x y, f (x + y) = f x + f y)
    (hs : ∀ x s, f (x.mulS s) = (f x).mulS s) : ∃ l : Linear T N, ∀ x, Transform.apply l x = f x := by
  let L : (Fin N → T) →ₗ[T] (Fin N → T) :=
    { toFun := fun x => coords (f (ofCoords x))
      map_add' := fun x y => by
        rw [← Vec.coords_add, ← ha]
        congr 2
        apply Vec.coords_inj; rw [Vec.coords_add]; simp
      map_smul' := fun s x => by
        rw [RingHom.id_apply, ← Vec.coords_mulS, ← hs]
        congr 2
        apply Vec.coords_inj; rw [Vec.coords_mulS]; simp }
  let A : Mat T N N := ⟨⟨Vector.ofFn fun i => ⟨Vector.ofFn fun j => LinearMap.toMatrix' L i j⟩⟩⟩
  refine ⟨⟨A⟩, fun x => Vec.coords_inj ?_⟩
  have hA : A.toMatrix = LinearMap.toMatrix' L := by
    ext i j
    show ((Vector.ofFn fun i => Vec.mk (Vector.ofFn fun j => LinearMap.toMatrix' L i j))[i.1]).data[j.1] = _
    simp
  show coords (A.dotV x) = _
  rw [Mat.coords_dotV, hA, LinearMap.toMatrix'_mulVec]
  show coords (f (ofCoords (coords x))) = _
  rw [Vec.ofCoords_coords]

/-! ## C58 `Reorder` and `Chain` -/

/-- `a.reorder(b)` returns `(b', a')` with `a(b(x)) = b'(a'(x))` for every `x`. -/
def ReorderOk (X : Type) [Transform A X] [Transform B X] [Reorder A B X] (a : A) (b : B) : Prop :=
  ∀ x : X, Transform.apply a (Transform.apply b x) =
    Transform.apply (Reorder.reorder X a b).1 (Transform.apply (Reorder.reorder X a b).2 x)

theorem C58_reorder_linear [Field T] (s : Shift T N) (l : Linear T N) :
    ReorderOk (Vec T N) l s ∧ (l.intoMatrix.det ≠ 0 → ReorderOk (Vec T N) s l) := by
  refine ⟨fun x => Mat.dotV_add l.lin x s.pos, fun h x => ?_⟩
  show l.lin.dotV x + s.pos = l.lin.dotV (x + l.lin.inv.dotV s.pos)
  rw [Mat.dotV_add, ← Mat.dotV_dotM, (Mat.inv_dotM l.lin h).2, Mat.one_dotV]
theorem C58_reorder_scale [Field T] (s : Shift T N) (m : Scale T) :
    ReorderOk (Vec T N) m s ∧ (m.intoMag ≠ 0 → ReorderOk (Vec T N) s m) := by
  refine ⟨fun x => ?_, fun h x => ?_⟩
  · show (x + s.pos).mulS m.mag = x.mulS m.mag + s.pos.mulS m.mag
    apply Vec.ext_getElem; intros; simp; ring
  · show x.mulS m.mag + s.pos = (x + s.pos.mulS m.mag⁻¹).mulS m.mag
    apply Vec.ext_getElem; intros; simp only [Vec.getElem_add, Vec.getElem_mulS]
    rw [add_mul, mul_assoc s.pos[_], inv_mul_cancel₀ (show m.mag ≠ 0 from h), mul_one]

/-- Generic: whatever the two parts are, if their own `chain`s compose and the two middle parts can be reordered, then
`chain` of two `Chain`s is composition. -/
theorem C58_chain_composition [Transform A X] [Transform B X] [Reorder B A X] (c d : Chain A B X)
    (hA : ∀ a a' : A, ChainOk (X := X) a a') (hB : ∀ b b' : B, ChainOk (X := X) b b') (hr : ReorderOk X c.inner d.outer) :
    ChainOk (X := X) c d := by
  intro x
  show Transform.apply (Transform.chain X c.outer (Reorder.reorder X c.inner d.outer).1)
    (Transform.apply (Transform.chain X (Reorder.reorder X c.inner d.outer).2 d.inner) x) =
    Transform.apply c.outer (Transform.apply c.inner (Transform.apply d.outer (Transform.apply d.inner x)))
  rw [hA, hB, ← hr]
theorem C58_chain_identity [Transform A X] [Transform B X] [Reorder B A X] (hA : IdentityOk A X) (hB : IdentityOk B X) :
    IdentityOk (Chain A B X) X := by
  intro x
  show Transform.apply (Transform.identity X : A) (Transform.apply (Transform.identity X : B) x) = x
  rw [hB, hA]
theorem C58_chain_inverse [Transform A X] [Transform B X] [Reorder B A X] (c : Chain A B X)
    (hA : InverseOk X c.outer) (hB : InverseOk X c.inner)
    (hr : ReorderOk X (Transform.inv X c.inner) (Transform.inv X c.outer)) : InverseOk X c := by
  intro x
  have e : ∀ y, Transform.apply (Transform.inv X c) y =
      Transform.apply (Transform.inv X c.inner) (Transform.apply (Transform.inv X c.outer) y) := fun y => (hr y).symm
  rw [e, e]
  exact ⟨by rw [show Transform.apply c x = Transform.apply c.outer (Transform.apply c.inner x) from rfl, (hA _).1, (hB _).1],
    by rw [show ∀ y, Transform.apply c y = Transform.apply c.outer (Transform.apply c.inner y) from fun _ => rfl,
      (hB _).2, (hA _).2]⟩

/-- Affine transformations: `apply` is `L x + s`, `identity`, `chain` and (for `det ≠ 0`) `inv` are right. -/
theorem C58_affine_group [Field T] : IdentityOk (Affine T N) (Vec T N) ∧
    (∀ a b : Affine T N, ChainOk (X := Vec T N) a b) ∧
    (∀ a : Affine T N, a.linear.intoMatrix.det ≠ 0 → InverseOk (Vec T N) a) ∧
    ∀ (a : Affine T N) (x : Vec T N), Transform.apply a x = Transform.apply a.linear x + a.shift.intoVector := by
  refine ⟨C58_chain_identity C52_shift_group.1 C53_linear_group.1, fun a b => ?_, fun a h => ?_, fun a x => rfl⟩
  · exact C58_chain_composition a b C52_shift_group.2.1 C53_linear_group.2.1 (C58_reorder_linear _ _).1
  · exact C58_chain_inverse a (C52_shift_group.2.2.1 _) (C53_linear_group.2.2.1 _ h) (C58_reorder_linear _ _).1
/-- `Chain<Shift, Scale>` (similarities without rotation). -/
theorem C58_shift_scale_group [Field T] : IdentityOk (Chain (Shift T N) (Scale T) (Vec T N)) (Vec T N) ∧
    (∀ a b : Chain (Shift T N) (Scale T) (Vec T N), ChainOk (X := Vec T N) a b) ∧
    ∀ a : Chain (Shift T N) (Scale T) (Vec T N), a.inner.intoMag ≠ 0 → InverseOk (Vec T N) a :=
  ⟨C58_chain_identity C52_shift_group.1 C52_scale_group.1,
    fun a b => C58_chain_composition a b C52_shift_group.2.1 C52_scale_group.2.1 (C58_reorder_scale _ _).1,
    fun a h => C58_chain_inverse a (C52_shift_group.2.2.1 _) (C52_scale_group.2.2.1 _ h) (C58_reorder_scale _ _).1⟩
/-- The other order, `Chain<Linear, Shift>` (shift first): `chain` needs the outer part of the *second* operand to be
invertible, because the shift has to be moved through it. -/
theorem C58_linear_shift_group [Field T] : IdentityOk (Chain (Linear T N) (Shift T N) (Vec T N)) (Vec T N) ∧
    (∀ a b : Chain (Linear T N) (Shift T N) (Vec T N), b.outer.intoMatrix.det ≠ 0 → ChainOk (X := Vec T N) a b) ∧
    ∀ a : Chain (Linear T N) (Shift T N) (Vec T N), a.outer.intoMatrix.det ≠ 0 → InverseOk (Vec T N) a := by
  refine ⟨C58_chain_identity C53_linear_group.1 C52_shift_group.1,
    fun a b h => C58_chain_composition a b C53_linear_group.2.1 C52_shift_group.2.1 ((C58_reorder_linear _ _).2 h),
    fun a h => C58_chain_inverse a (C53_linear_group.2.2.1 _ h) (C52_shift_group.2.2.1 _) ((C58_reorder_linear _ _).2 ?_)⟩
  show a.outer.lin.inv.det ≠ 0
  rw [Mat.det_eq, Mat.toMatrix_inv, Matrix.det_nonsing_inv]
  rw [show a.outer.intoMatrix.det = a.outer.lin.toMatrix.det from Mat.det_eq _] at h
  simpa [Ring.inverse_eq_inv'] using h
/-- … and it fails without that condition: with the zero matrix in the second operand the first operand's shift is lost. -/
theorem C58_linear_shift_singular_refuted : ∃ a b : Chain (Linear ℚ 1) (Shift ℚ 1) (Vec ℚ 1), ¬ ChainOk (X := Vec ℚ 1) a b := by
  refine ⟨⟨⟨1⟩, ⟨Vec.fill 1⟩⟩, ⟨⟨0⟩, ⟨0⟩⟩, fun h => ?_⟩
  have h0 := h 0
  have e : Transform.apply (Transform.chain (Vec ℚ 1) (⟨⟨1⟩, ⟨Vec.fill 1⟩⟩ : Chain (Linear ℚ 1) (Shift ℚ 1) (Vec ℚ 1)) ⟨⟨0⟩, ⟨0⟩⟩)
      (0 : Vec ℚ 1) = ((1 : Mat ℚ 1 1).dotM 0).dotV (0 + ((0 : Mat ℚ 1 1).inv.dotV (Vec.fill 1) + 0)) := rfl
  have e2 : Transform.apply (⟨⟨1⟩, ⟨Vec.fill 1⟩⟩ : Chain (Linear ℚ 1) (Shift ℚ 1) (Vec ℚ 1)) (Transform.apply
      (⟨⟨0⟩, ⟨0⟩⟩ : Chain (Linear ℚ 1) (Shift ℚ 1) (Vec ℚ 1)) (0 : Vec ℚ 1)) =
      (1 : Mat ℚ 1 1).dotV ((0 : Mat ℚ 1 1).dotV (0 + 0) + Vec.fill 1) := rfl
  rw [e, e2, Mat.one_dotV, Mat.dotV_dotM, Mat.one_dotV] at h0
  have hz : ∀ v : Vec ℚ 1, (0 : Mat ℚ 1 1).dotV v = 0 := by
    intro v; apply Vec.ext_getElem; intro i hi; rw [Mat.getElem_dotV_sum]; simp
  rw [hz, hz] at h0
  have := Vec.getElem_congr_vec h0 0 (by omega)
  simp at this

/-! ## C59 derivatives -/

theorem C59_exact_difference [Field T] (p v : Vec T N) (s : Shift T N) (m : Scale T) (l : Linear T N) :
    Transform.apply s (p + v) = Transform.apply s p + Transform.deriv s p v ∧
    Transform.apply m (p + v) = Transform.apply m p + Transform.deriv m p v ∧
    Transform.apply l (p + v) = Transform.apply l p + Transform.deriv l p v := by
  refine ⟨?_, ?_, Mat.dotV_add l.lin p v⟩
  · show (p + v) + s.pos = (p + s.pos) + v
    apply Vec.ext_getElem; intros; simp; ring
  · show (p + v).mulS m.mag = p.mulS m.mag + v.mulS m.mag
    apply Vec.ext_getElem; intros; simp; ring
/-- The exact formula survives chaining, whatever the two parts are. -/
theorem C59_exact_difference_chain [Add X] [Transform A X] [Transform B X] [Reorder B A X] (c : Chain A B X)
    (hA : ∀ p v : X, Transform.apply c.outer (p + v) = Transform.apply c.outer p + Transform.deriv c.outer p v)
    (hB : ∀ p v : X, Transform.apply c.inner (p + v) = Transform.apply c.inner p + Transform.deriv c.inner p v) (p v : X) :
    Transform.apply c (p + v) = Transform.apply c p + Transform.deriv c p v := by
  show Transform.apply c.outer (Transform.apply c.inner (p + v)) = Transform.apply c.outer (Transform.apply c.inner p) +
    Transform.deriv c.outer (Transform.apply c.inner p) (Transform.deriv c.inner p v)
  rw [hB, hA]

/-! ## further cases: the hypotheses are satisfiable -/
example := C52_scale_zero (T := ℚ) (N := 3) (by decide)
/-- The projection `(x, y) ↦ (x, 0)` is additive and homogeneous, so it is a `Linear`. -/
example := C53_linear_complete (T := ℚ) (N := 2) (fun v => v * (⟨#v[1, 0]⟩ : Vec ℚ 2))
  (fun x y => by ext i h; simp [add_mul]) (fun x s => by ext i h; simp [mul_right_comm])
/-- Affine maps of the plane are such chains. -/
def Ex.aff : Affine ℚ 2 := ⟨Shift.fromVector ⟨#v[5, 6]⟩, Linear.fromMatrix (Mat.fromArrArr #v[#v[1, 2], #v[3, 4]])⟩
theorem Ex.aff_det : (Transform.inv (Vec ℚ 2) Ex.aff.inner).intoMatrix.det ≠ 0 ∧ Ex.aff.inner.intoMatrix.det ≠ 0 := by decide +kernel
example := C58_chain_identity (A := Shift ℚ 2) (B := Linear ℚ 2) (X := Vec ℚ 2) C52_shift_group.1 C53_linear_group.1
example := C58_chain_composition Ex.aff Ex.aff C52_shift_group.2.1 C53_linear_group.2.1 (C58_reorder_linear _ _).1
example := C58_chain_inverse Ex.aff (C52_shift_group.2.2.1 _) (C53_linear_group.2.2.1 _ Ex.aff_det.2) (C58_reorder_linear _ _).1
theorem Ex.add_right_comm_vec (p v w : Vec ℚ 2) : p + v + w = p + w + v := by
  apply Vec.ext_getElem; intros; simp; ring
example := C59_exact_difference_chain Ex.aff (fun p v => Ex.add_right_comm_vec p v _) (fun p v => Mat.dotV_add _ p v)

end Vecmat
