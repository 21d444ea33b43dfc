import Verif.Props.Rotation
import Mathlib.Analysis.Calculus.FDeriv.Comp
import Mathlib.Analysis.Calculus.FDeriv.Add
import Mathlib.Analysis.Calculus.FDeriv.Linear
import Mathlib.Topology.Algebra.Module.FiniteDimension
/-!
# C59–C61: derivatives, directions and normals
-/
namespace Vecmat
open Spec
variable {T A B X : Type} {N : Nat}

/-! ## C59 `deriv` is the derivative of `apply` -/

theorem C59_exact_difference_rotation [CommRing T] (r : Rotation2 T) (q : Rotation3 T) (p v : Vec T 2) (p' v' : Vec T 3) :
    Transform.apply r (p + v) = Transform.apply r p + Transform.deriv r p v ∧
    Transform.apply q (p' + v') = Transform.apply q p' + Transform.deriv q p' v' :=
  ⟨Rotation2.apply_add r p v, Rotation3.apply_add q p' v'⟩

/-- At every point `p` the map `v ↦ a.deriv(p, v)` is linear and is the Fréchet derivative of `x ↦ a.apply(x)` at `p`
(real vectors read as coordinate tuples; in finite dimension the norm does not matter). -/
def FrechetOk [Transform A (Vec ℝ N)] (a : A) (p : Vec ℝ N) : Prop :=
  ∃ L : (Fin N → ℝ) →L[ℝ] (Fin N → ℝ), (∀ v : Vec ℝ N, L (coords v) = coords (Transform.deriv a p v)) ∧
    HasFDerivAt (fun x => coords (Transform.apply a (ofCoords x))) L (coords p)

private theorem frechet_of_exact [Transform A (Vec ℝ N)] (a : A) (p : Vec ℝ N)
    (hex : ∀ v, Transform.apply a (p + v) = Transform.apply a p + Transform.deriv a p v)
    (hadd : ∀ v w, Transform.deriv a p (v + w) = Transform.deriv a p v + Transform.deriv a p w)
    (hsm : ∀ v s, Transform.deriv a p (v.mulS s) = (Transform.deriv a p v).mulS s) : FrechetOk a p := by
  let L : (Fin N → ℝ) →ₗ[ℝ] (Fin N → ℝ) :=
    { toFun := fun x => coords (Transform.deriv a p (ofCoords x))
      map_add' := fun x y => by
        rw [← Vec.coords_add, ← hadd]
        congr 2
        apply Vec.coords_inj; rw [Vec.coords_add]; simp
      map_smul' := fun s x => by
        rw [RingHom.id_apply, ← Vec.coords_mulS, ← hsm]
        congr 2
        apply Vec.coords_inj; rw [Vec.coords_mulS]; simp }
  refine ⟨LinearMap.toContinuousLinearMap L, fun v => ?_, ?_⟩
  · show coords (Transform.deriv a p (ofCoords (coords v))) = _
    rw [Vec.ofCoords_coords]
  · have h := ((LinearMap.toContinuousLinearMap L).hasFDerivAt (x := coords p)).const_add (coords (Transform.apply a p) - L (coords p))
    refine h.congr_of_eventuallyEq (Filter.Eventually.of_forall fun x => ?_)
    show coords (Transform.apply a (ofCoords x)) = coords (Transform.apply a p) - L (coords p) + L x
    have e : (ofCoords x : Vec ℝ N) = p + (ofCoords x - p) := by
      apply Vec.ext_getElem; simp
    have e2 : L x = L (coords p) + coords (Transform.deriv a p (ofCoords x - p)) := by
      have : coords (Transform.deriv a p (ofCoords x - p)) = L (coords (ofCoords x - p)) := by
        show _ = coords (Transform.deriv a p (ofCoords (coords (ofCoords x - p)))); rw [Vec.ofCoords_coords]
      rw [this, ← map_add]; congr 1
      rw [Vec.coords_sub, Vec.coords_ofCoords]; abel
    rw [e2, e, hex, Vec.coords_add]
    rw [← e]
    abel

theorem C59_frechet (s : Shift ℝ N) (m : Scale ℝ) (l : Linear ℝ N) (p : Vec ℝ N) :
    FrechetOk s p ∧ FrechetOk m p ∧ FrechetOk l p := by
  refine ⟨frechet_of_exact s p (fun v => (C59_exact_difference p v s m l).1) (fun _ _ => rfl) (fun _ _ => rfl),
    frechet_of_exact m p (fun v => (C59_exact_difference p v s m l).2.1) (fun v w => ?_) (fun v t => ?_),
    frechet_of_exact l p (fun v => (C59_exact_difference p v s m l).2.2) (fun v w => Mat.dotV_add l.lin v w)
      (fun v t => Mat.dotV_mulS l.lin v t)⟩
  · show (v + w).mulS m.mag = v.mulS m.mag + w.mulS m.mag
    apply Vec.ext_getElem; intros; simp; ring
  · show (v.mulS t).mulS m.mag = (v.mulS m.mag).mulS t
    apply Vec.ext_getElem; intros; simp; ring
theorem C59_frechet_rotation (r : Rotation2 ℝ) (q : Rotation3 ℝ) (p : Vec ℝ 2) (p' : Vec ℝ 3) :
    FrechetOk r p ∧ FrechetOk q p' :=
  ⟨frechet_of_exact r p (Rotation2.apply_add r p) (Rotation2.apply_add r) (Rotation2.apply_mulS r),
    frechet_of_exact q p' (Rotation3.apply_add q p') (Rotation3.apply_add q) (Rotation3.apply_mulS q)⟩
/-- The chain rule: whatever the parts are, if their `deriv`s are derivatives then so is that of the chain. -/
theorem C59_frechet_chain [Transform A (Vec ℝ N)] [Transform B (Vec ℝ N)] [Reorder B A (Vec ℝ N)] (c : Chain A B (Vec ℝ N))
    (p : Vec ℝ N) (hB : FrechetOk c.inner p) (hA : FrechetOk c.outer (Transform.apply c.inner p)) : FrechetOk c p := by
  obtain ⟨LB, hB1, hB2⟩ := hB
  obtain ⟨LA, hA1, hA2⟩ := hA
  refine ⟨LA.comp LB, fun v => ?_, ?_⟩
  · show LA (LB (coords v)) = _
    rw [hB1, hA1]; rfl
  · have hA2' : HasFDerivAt (fun x => coords (Transform.apply c.outer (ofCoords x))) LA
        ((fun x => coords (Transform.apply c.inner (ofCoords x))) (coords p)) := by
      simpa using hA2
    refine (HasFDerivAt.comp (coords p) hA2' hB2).congr_of_eventuallyEq (Filter.Eventually.of_forall fun x => ?_)
    simp only [Function.comp]
    rw [Vec.ofCoords_coords]; rfl
/-- For example for affine transformations and rigid motions. -/
theorem C59_frechet_affine (a : Affine ℝ N) (p : Vec ℝ N) : FrechetOk a p :=
  C59_frechet_chain a p (C59_frechet a.outer ⟨1⟩ a.inner p).2.2 (C59_frechet a.outer ⟨1⟩ a.inner _).1
theorem C59_frechet_rigid (a : Chain (Shift ℝ 3) (Rotation3 ℝ) (Vec ℝ 3)) (p : Vec ℝ 3) : FrechetOk a p :=
  C59_frechet_chain a p (C59_frechet_rotation ⟨1⟩ a.inner 0 p).2 (C59_frechet a.outer ⟨1⟩ ⟨1⟩ _).1

/-! ## C60 normals -/

/-- `n ↦ apply_normal(p, n)` keeps scalar products with transported tangents up to the positive factor `k`: tangents
orthogonal to `n` stay orthogonal, and the side of the surface the normal points to is kept. -/
def NormalOk [NeZero N] [Directional A (Vec ℝ N)] (a : A) (p n : Vec ℝ N) : Prop :=
  ∃ k : ℝ, 0 < k ∧ ∀ t : Vec ℝ N, (Directional.applyNormal a p n).dot (Transform.deriv a p t) = k * n.dot t

theorem Vec.normalize_dot [NeZero N] (v w : Vec ℝ N) : v.normalize.dot w = v.dot w / v.length := by
  rw [Vec.dot_eq_sum, Vec.dot_eq_sum, Finset.sum_div]
  refine Finset.sum_congr rfl fun i _ => ?_
  simp only [Vec.normalize, Vec.getElem_divS]; ring

theorem C60_linear [NeZero N] (l : Linear ℝ N) (hl : l.intoMatrix.det ≠ 0) (p n : Vec ℝ N) (hn : n ≠ 0) :
    NormalOk l p n ∧ (Directional.applyNormal l p n).length = 1 ∧
    ∀ t : Vec ℝ N, n.dot t = 0 → (Directional.applyNormal l p n).dot (Transform.deriv l p t) = 0 := by
  have hd : IsUnit l.lin.toMatrix.det := by rw [← Mat.det_eq]; exact (show l.lin.det ≠ 0 from hl).isUnit
  let m : Vec ℝ N := Transform.apply l.normalTransform n
  have hm : coords m = (l.lin.toMatrix⁻¹).transpose.mulVec (coords n) := by
    show coords (l.lin.inv.transpose.dotV n) = _
    rw [Mat.coords_dotV, Mat.toMatrix_transpose, Mat.toMatrix_inv]
  have hmn : m ≠ 0 := by
    intro e
    rw [e, Vec.coords_zero] at hm
    have : l.lin.toMatrix.transpose.mulVec ((l.lin.toMatrix⁻¹).transpose.mulVec (coords n)) = coords n := by
      rw [Matrix.mulVec_mulVec, ← Matrix.transpose_mul, Matrix.nonsing_inv_mul _ hd, Matrix.transpose_one, Matrix.one_mulVec]
    rw [← hm, Matrix.mulVec_zero] at this
    exact hn (Vec.coords_inj (by rw [← this, Vec.coords_zero]))
  have hlen := (C20_length_pos m).2 hmn
  have hdot : ∀ t, m.dot (l.lin.dotV t) = n.dot t := by
    intro t
    rw [Vec.dot_coords, Vec.dot_coords, hm, Mat.coords_dotV, Matrix.mulVec_transpose, ← Matrix.dotProduct_mulVec,
      Matrix.mulVec_mulVec, Matrix.nonsing_inv_mul _ hd, Matrix.one_mulVec]
  have hk : ∀ t, (Directional.applyNormal l p n).dot (Transform.deriv l p t) = 1 / m.length * n.dot t := by
    intro t
    show m.normalize.dot (l.lin.dotV t) = _
    rw [Vec.normalize_dot, hdot]; ring
  exact ⟨⟨1 / m.length, by positivity, hk⟩, (C20_normalize m hmn).1, fun t ht => by rw [hk, ht, mul_zero]⟩
/-- Shifts and unit rotations keep normals and their lengths. -/
theorem C60_shift_rotation (s : Shift ℝ N) (r : Rotation2 ℝ) (q : Rotation3 ℝ) [NeZero N]
    (hr : r.intoComplex.normSqr = 1) (hq : q.intoQuaternion.normSqr = 1) (p n : Vec ℝ N) (p2 n2 : Vec ℝ 2) (p3 n3 : Vec ℝ 3) :
    NormalOk s p n ∧ NormalOk r p2 n2 ∧ NormalOk q p3 n3 ∧
    (Directional.applyNormal s p n).length = n.length ∧ (Directional.applyNormal r p2 n2).length = n2.length ∧
    (Directional.applyNormal q p3 n3).length = n3.length :=
  ⟨⟨1, one_pos, fun t => (one_mul _).symm⟩,
    ⟨1, one_pos, fun t => ((C54_orthogonal r hr n2 t).1).trans (one_mul _).symm⟩,
    ⟨1, one_pos, fun t => ((C55_orthogonal q hq n3 t).1).trans (one_mul _).symm⟩,
    rfl, C54_length r hr n2, C55_length q hq n3⟩
/-- `Scale` leaves normals alone: right for positive magnitudes; for negative ones tangents stay orthogonal but the side flips. -/
theorem C60_scale [NeZero N] (m : Scale ℝ) (p n : Vec ℝ N) :
    (0 < m.intoMag → NormalOk m p n) ∧
    (∀ t : Vec ℝ N, n.dot t = 0 → (Directional.applyNormal m p n).dot (Transform.deriv m p t) = 0) ∧
    (m.intoMag < 0 → n ≠ 0 → ¬ NormalOk m p n) := by
  have hk : ∀ t : Vec ℝ N, (Directional.applyNormal m p n).dot (Transform.deriv m p t) = m.mag * n.dot t := by
    intro t
    show n.dot (t.mulS m.mag) = _
    rw [Vec.dot_eq_sum, Vec.dot_eq_sum, Finset.mul_sum]
    exact Finset.sum_congr rfl fun i _ => by simp; ring
  refine ⟨fun h => ⟨m.mag, h, hk⟩, fun t ht => by rw [hk, ht, mul_zero], ?_⟩
  rintro h hn ⟨k, hk0, hk1⟩
  have := (hk n).symm.trans (hk1 n)
  have hpos : 0 < n.dot n := by
    rw [(C19_dot_self n).1, (C19_dot_self n).2.1]
    exact pow_pos ((C20_length_pos n).2 hn) 2
  have : m.mag = k := mul_right_cancel₀ (ne_of_gt hpos) this
  have h' : m.mag < 0 := h
  linarith
/-- Chains of transformations that treat normals correctly treat normals correctly. -/
theorem C60_chain [NeZero N] [Directional A (Vec ℝ N)] [Directional B (Vec ℝ N)] [Reorder B A (Vec ℝ N)]
    (c : Chain A B (Vec ℝ N)) (p n : Vec ℝ N) (hB : NormalOk c.inner p n)
    (hA : NormalOk c.outer (Transform.apply c.inner p) (Directional.applyNormal c.inner p n)) : NormalOk c p n := by
  obtain ⟨kB, hB0, hB1⟩ := hB
  obtain ⟨kA, hA0, hA1⟩ := hA
  refine ⟨kA * kB, mul_pos hA0 hB0, fun t => ?_⟩
  rw [mul_assoc, ← hB1, ← hA1]; rfl
theorem C60_affine [NeZero N] (a : Affine ℝ N) (h : a.linear.intoMatrix.det ≠ 0) (p n : Vec ℝ N) (hn : n ≠ 0) :
    NormalOk a p n ∧ (Directional.applyNormal a p n).length = 1 := by
  obtain ⟨h1, h2, -⟩ := C60_linear a.linear h p n hn
  exact ⟨C60_chain a p n h1 ⟨1, one_pos, fun t => (one_mul _).symm⟩, h2⟩
/-- For orthogonal transformations `apply_normal` and `apply_dir` are the same. -/
theorem C60_conformal (s : Shift T N) [CommRing T] [Inv T] (m : Scale T) (r : Rotation2 T) (q : Rotation3 T) (p d : Vec T N)
    (p2 d2 : Vec T 2) (p3 d3 : Vec T 3) :
    Directional.applyNormal s p d = Directional.applyDir s p d ∧ Directional.applyNormal m p d = Directional.applyDir m p d ∧
    Directional.applyNormal r p2 d2 = Directional.applyDir r p2 d2 ∧ Directional.applyNormal q p3 d3 = Directional.applyDir q p3 d3 :=
  ⟨rfl, rfl, rfl, rfl⟩
/-- For a linear transformation that is not conformal they differ: transporting a normal like a direction would be wrong. -/
theorem C60_dir_is_not_normal_refuted : ∃ (l : Linear ℝ 2) (p n t : Vec ℝ 2), l.intoMatrix.det ≠ 0 ∧ n ≠ 0 ∧ n.dot t = 0 ∧
    (Directional.applyDir l p n).dot (Transform.deriv l p t) ≠ 0 := by
  have key : ∀ (l : Linear ℝ 2) (n t : Vec ℝ 2), l = ⟨Mat.fromArrArr #v[#v[2, 0], #v[0, 1]]⟩ → n = Vec.fromArray #v[1, 1] →
      t = Vec.fromArray #v[1, -1] → l.intoMatrix.det ≠ 0 ∧ n ≠ 0 ∧ n.dot t = 0 ∧
        (Directional.applyDir l 0 n).dot (Transform.deriv l 0 t) ≠ 0 := by
    intro l n t hl hn ht
    have hm : l.lin.toMatrix = !![2, 0; 0, 1] := by rw [hl]; ext i j; fin_cases i <;> fin_cases j <;> rfl
    have hn0 : n[0] = 1 := by rw [hn]; rfl
    have hn1 : n[1] = 1 := by rw [hn]; rfl
    have ht0 : t[0] = 1 := by rw [ht]; rfl
    have ht1 : t[1] = -1 := by rw [ht]; rfl
    have hap : ∀ v : Vec ℝ 2, (l.lin.dotV v)[0] = (2 : ℝ) * (v[0] : ℝ) ∧ (l.lin.dotV v)[1] = v[1] := by
      intro v
      have h0 := congrFun (Mat.coords_dotV l.lin v) 0
      have h1 := congrFun (Mat.coords_dotV l.lin v) 1
      rw [hm] at h0 h1
      simp [-Mat.getElem_dotV, Matrix.mulVec, dotProduct, Fin.sum_univ_two, coords] at h0 h1
      exact ⟨h0, h1⟩
    refine ⟨?_, ?_, ?_, ?_⟩
    · rw [show l.intoMatrix = l.lin from rfl, Mat.det_eq, hm, Matrix.det_fin_two_of]; norm_num
    · intro e; rw [e] at hn0; simp at hn0
    · rw [Vec.dot2, hn0, hn1, ht0, ht1]; norm_num
    · show (l.lin.dotV n).normalize.dot (l.lin.dotV t) ≠ 0
      rw [Vec.normalize_dot]
      have hne : l.lin.dotV n ≠ 0 := by
        intro e
        have := (hap n).1
        rw [e, hn0] at this; simp at this
      have hpos := (C20_length_pos _).2 hne
      rw [Vec.dot2, (hap n).1, (hap n).2, (hap t).1, (hap t).2, hn0, hn1, ht0, ht1]
      apply div_ne_zero _ (ne_of_gt hpos)
      norm_num
  exact ⟨_, 0, _, _, key _ _ _ rfl rfl rfl⟩

/-! ## C61 directions -/

/-- `apply_dir(p, d)` is the unit vector in the direction of `deriv(p, d)`. -/
def DirOk [NeZero N] [Directional A (Vec ℝ N)] (a : A) (p d : Vec ℝ N) : Prop :=
  Directional.applyDir a p d = (Transform.deriv a p d).normalize

theorem Vec.normalize_mulS [NeZero N] (v : Vec ℝ N) (s : ℝ) (hs : 0 < s) : (v.mulS s).normalize = v.normalize := by
  have hl : (v.mulS s).length = v.length * s := by
    show Real.sqrt _ = Real.sqrt _ * s
    rw [Vec.squareLength_eq_sum, Vec.squareLength_eq_sum]
    simp only [Vec.getElem_mulS]
    rw [show ∑ i : Fin N, v[i.1] * s * (v[i.1] * s) = (∑ i : Fin N, v[i.1] * v[i.1]) * s ^ 2 by
      rw [Finset.sum_mul]; exact Finset.sum_congr rfl fun i _ => by ring]
    rw [Real.sqrt_mul' _ (sq_nonneg s), Real.sqrt_sq hs.le]
  apply Vec.ext_getElem; intro i hi
  simp only [Vec.normalize, Vec.getElem_divS, Vec.getElem_mulS, hl]
  rw [mul_div_mul_right _ _ (ne_of_gt hs)]

theorem C61_direction [NeZero N] (s : Shift ℝ N) (m : Scale ℝ) (l : Linear ℝ N) (p d : Vec ℝ N) (hd : d.length = 1) :
    DirOk s p d ∧ (0 < m.intoMag → DirOk m p d) ∧ DirOk l p d := by
  refine ⟨(C20_normalize_unit d hd).symm, fun h => ?_, rfl⟩
  show d = (d.mulS m.mag).normalize
  rw [Vec.normalize_mulS _ _ (show 0 < m.mag from h), C20_normalize_unit d hd]
theorem C61_direction_rotation (r : Rotation2 ℝ) (q : Rotation3 ℝ) (hr : r.intoComplex.normSqr = 1)
    (hq : q.intoQuaternion.normSqr = 1) (p d : Vec ℝ 2) (hd : d.length = 1) (p' d' : Vec ℝ 3) (hd' : d'.length = 1) :
    DirOk r p d ∧ DirOk q p' d' :=
  ⟨(C20_normalize_unit _ ((C54_length r hr d).trans hd)).symm, (C20_normalize_unit _ ((C55_length q hq d').trans hd')).symm⟩
/-- For negative magnitudes `Scale::apply_dir` returns the wrong direction for every unit vector (it should be `-d`). -/
theorem C61_scale_negative_refuted [NeZero N] (m : Scale ℝ) (hm : m.intoMag < 0) (p d : Vec ℝ N) (hd : d.length = 1) :
    ¬ DirOk m p d ∧ (Transform.deriv m p d).normalize = -d := by
  have e : (Transform.deriv m p d).normalize = -d := by
    show (d.mulS m.mag).normalize = -d
    have h1 : d.mulS m.mag = (-d).mulS (-m.mag) := by apply Vec.ext_getElem; simp
    rw [h1, Vec.normalize_mulS _ _ (by have : m.mag < 0 := hm; linarith), C20_normalize_unit]
    rw [← hd]; show Real.sqrt _ = Real.sqrt _
    rw [Vec.squareLength_eq_sum, Vec.squareLength_eq_sum]; simp
  refine ⟨fun h => ?_, e⟩
  rw [DirOk, e] at h
  have h' : d = -d := h
  have hz : d = 0 := by
    apply Vec.ext_getElem; intro i hi
    have := Vec.getElem_congr_vec h' i hi
    simp at this ⊢; linarith
  rw [hz] at hd
  simp [Vec.length, Vec.squareLength_eq_sum] at hd
/-- Chains: if the inner part is right at `d`, the outer part is right at unit vectors and its `deriv` is homogeneous, the
chain is right, wherever no direction is annihilated. -/
theorem C61_chain [NeZero N] [Directional A (Vec ℝ N)] [Directional B (Vec ℝ N)] [Reorder B A (Vec ℝ N)]
    (c : Chain A B (Vec ℝ N)) (p d : Vec ℝ N) (hB : DirOk c.inner p d) (hn : Transform.deriv c.inner p d ≠ 0)
    (hA : ∀ q e : Vec ℝ N, e.length = 1 → DirOk c.outer q e)
    (hs : ∀ (q v : Vec ℝ N) (s : ℝ), Transform.deriv c.outer q (v.mulS s) = (Transform.deriv c.outer q v).mulS s) :
    DirOk c p d := by
  obtain ⟨hl, -, hm⟩ := C20_normalize _ hn
  have hp := (C20_length_pos _).2 hn
  show Directional.applyDir c.outer (Transform.apply c.inner p) (Directional.applyDir c.inner p d) =
    (Transform.deriv c.outer (Transform.apply c.inner p) (Transform.deriv c.inner p d)).normalize
  rw [hB, hA _ _ hl]
  conv_rhs => rw [← hm, hs, Vec.normalize_mulS _ _ hp]
theorem C61_affine [NeZero N] (a : Affine ℝ N) (h : a.linear.intoMatrix.det ≠ 0) (p d : Vec ℝ N) (hd : d.length = 1) :
    DirOk a p d ∧ (Directional.applyDir a p d).length = 1 := by
  have hne : d ≠ 0 := by
    rintro rfl; simp [Vec.length, Vec.squareLength_eq_sum] at hd
  have hn : Transform.deriv a.linear p d ≠ 0 := by
    intro e
    have e' : a.linear.lin.dotV d = 0 := e
    have : d = 0 := by
      rw [← Mat.one_dotV d, ← (Mat.inv_dotM a.linear.lin h).1, Mat.dotV_dotM, e']
      apply Vec.coords_inj
      rw [Mat.coords_dotV, Vec.coords_zero, Matrix.mulVec_zero]
    exact hne this
  have hk := C61_chain a p d rfl hn (fun q e he => (C61_direction a.outer ⟨1⟩ a.inner q e he).1) (fun _ _ _ => rfl)
  refine ⟨hk, ?_⟩
  rw [hk]
  exact (C20_normalize _ hn).1

theorem Ex.lin_det : (Linear.fromMatrix (Mat.fromArrArr #v[#v[2, 0], #v[0, 1]]) : Linear ℝ 2).intoMatrix.det ≠ 0 := by
  have hm : (Mat.fromArrArr #v[#v[(2 : ℝ), 0], #v[0, 1]]).toMatrix = !![2, 0; 0, 1] := by
    ext i j; fin_cases i <;> fin_cases j <;> rfl
  rw [show (Linear.fromMatrix (Mat.fromArrArr #v[#v[(2 : ℝ), 0], #v[0, 1]]) : Linear ℝ 2).intoMatrix = Mat.fromArrArr #v[#v[2, 0], #v[0, 1]]
    from rfl, Mat.det_eq, hm, Matrix.det_fin_two_of]; norm_num

/-! ## further cases: the hypotheses are satisfiable -/
noncomputable def Ex.affR : Affine ℝ 2 := ⟨Shift.fromVector ⟨#v[5, 6]⟩, Linear.fromMatrix (Mat.fromArrArr #v[#v[2, 0], #v[0, 1]])⟩
noncomputable def Ex.d2 : Vec ℝ 2 := Vec.fromTuple2 (3 / 5, 4 / 5)
theorem Ex.d2_0 : Ex.d2[0] = 3 / 5 := rfl
theorem Ex.d2_1 : Ex.d2[1] = 4 / 5 := rfl
theorem Ex.d2_unit : Ex.d2.length = 1 := by
  show Real.sqrt (Vec.squareLength _) = 1
  rw [Vec.squareLength2, Ex.d2_0, Ex.d2_1]; norm_num
theorem Ex.d2_ne : Ex.d2 ≠ 0 := fun h => by
  have := Vec.getElem_congr_vec h 0 (by omega)
  rw [Ex.d2_0] at this; norm_num at this
example := C59_frechet_chain Ex.affR ⟨#v[1, 2]⟩ (C59_frechet ⟨0⟩ ⟨1⟩ _ _).2.2 (C59_frechet _ ⟨1⟩ ⟨1⟩ _).1
example := C60_linear (Linear.fromMatrix (Mat.fromArrArr #v[#v[2, 0], #v[0, 1]]) : Linear ℝ 2) Ex.lin_det ⟨#v[1, 2]⟩ Ex.d2 Ex.d2_ne
example := C60_affine Ex.affR Ex.lin_det ⟨#v[1, 2]⟩ Ex.d2 Ex.d2_ne
example := C60_shift_rotation (Shift.fromVector ⟨#v[5, 6]⟩) Ex.r2 Ex.r3 Ex.r2_unit Ex.r3_unit ⟨#v[1, 2]⟩ Ex.d2 ⟨#v[1, 2]⟩ Ex.d2 ⟨#v[1, 2, 3]⟩ Ex.k
example := C60_chain Ex.affR ⟨#v[1, 2]⟩ Ex.d2 (C60_linear _ Ex.lin_det _ _ Ex.d2_ne).1
  (C60_shift_rotation _ Ex.r2 Ex.r3 Ex.r2_unit Ex.r3_unit _ _ Ex.d2 Ex.d2 Ex.k Ex.k).1
example := C61_direction (Shift.fromVector ⟨#v[5, 6]⟩) (Scale.fromMag 3) (Linear.fromMatrix (Mat.fromArrArr #v[#v[2, 0], #v[0, 1]])) ⟨#v[1, 2]⟩ Ex.d2 Ex.d2_unit
example := C61_direction_rotation Ex.r2 Ex.r3 Ex.r2_unit Ex.r3_unit ⟨#v[1, 2]⟩ Ex.d2 Ex.d2_unit ⟨#v[1, 2, 3]⟩ Ex.k Ex.k_unit
example := C61_affine Ex.affR Ex.lin_det ⟨#v[1, 2]⟩ Ex.d2 Ex.d2_unit
example := C61_scale_negative_refuted (Scale.fromMag (-3)) (by norm_num [Scale.fromMag, Scale.intoMag]) ⟨#v[1, 2]⟩ Ex.d2 Ex.d2_unit
example := C61_chain Ex.affR ⟨#v[1, 2]⟩ Ex.d2 (C61_direction (Shift.fromVector ⟨#v[5, 6]⟩) (Scale.fromMag 3) _ _ _ Ex.d2_unit).2.2
  (fun h => by
    have := Vec.getElem_congr_vec h 1 (by omega)
    have e : (Transform.deriv Ex.affR.inner (⟨#v[1, 2]⟩ : Vec ℝ 2) Ex.d2)[1] = (0 : ℝ) * Ex.d2[0] + (1 : ℝ) * Ex.d2[1] :=
      (Mat.getElem_dotV_sum (Mat.fromArrArr #v[#v[2, 0], #v[0, 1]]) Ex.d2 1 (by omega)).trans (Fin.sum_univ_two _)
    rw [e, Ex.d2_0, Ex.d2_1] at this
    norm_num at this)
  (fun q e he => (C61_direction _ (Scale.fromMag 3) (Linear.fromMatrix 1) q e he).1) (fun _ _ _ => rfl)

end Vecmat
