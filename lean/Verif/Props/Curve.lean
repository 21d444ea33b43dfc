import Verif.Spec.Curve
import Verif.Props.Rotation
import Mathlib.Analysis.Calculus.Deriv.Add
import Mathlib.Analysis.Calculus.Deriv.Mul
import Mathlib.Analysis.Calculus.Deriv.Inv
import Mathlib.Analysis.SpecialFunctions.Sqrt
import Mathlib.Analysis.SpecialFunctions.Trigonometric.Deriv
/-!
# C90: rules of differentiation
-/
namespace Vecmat
open Spec
variable {M N : Nat} {t : ℝ}

/-- Moving along a straight line (`p + v * s`) has velocity `v`: the rules below contain the directional derivatives. -/
theorem C90_line (t : ℝ) :
    (∀ {N : Nat} (p v : Vec ℝ N), VelV (fun s => p + v.mulS s) v t) ∧ (∀ {M N : Nat} (A B : Mat ℝ M N), VelM (fun s => A + B.mulS s) B t) ∧
    (∀ z w : Cpx ℝ, VelC (fun s => z + w.mulS s) w t) ∧ ∀ q u : Quat ℝ, VelQ (fun s => q + u.mulS s) u t := by
  have h : ∀ a b : ℝ, HasDerivAt (fun s => a + b * s) b t := fun a b => by
    simpa using ((hasDerivAt_id t).const_mul b).const_add a
  refine ⟨fun p v i => ?_, fun A B i j => ?_, fun z w => ⟨?_, ?_⟩, fun q u => ⟨?_, ?_, ?_, ?_⟩⟩
  · simpa [coords] using h p[i.1] v[i.1]
  · simpa using h A[i.1][j.1] B[i.1][j.1]
  · simpa using h z.re w.re
  · simpa using h z.im w.im
  · simpa using h q.w u.w
  · simpa using h q.x u.x
  · simpa using h q.y u.y
  · simpa using h q.z u.z

/-! ## Vectors -/

theorem C90_vector [NeZero N] {v w : ℝ → Vec ℝ N} {v' w' : Vec ℝ N} {a : ℝ → ℝ} {a' : ℝ} (hv : VelV v v' t) (hw : VelV w w' t) (ha : HasDerivAt a a' t) :
    VelV (fun s => v s + w s) (v' + w') t ∧ VelV (fun s => v s - w s) (v' - w') t ∧ VelV (fun s => -v s) (-v') t ∧
    VelV (fun s => v s * w s) (v' * w t + v t * w') t ∧ VelV (fun s => (v s).mulS (a s)) (v'.mulS (a t) + (v t).mulS a') t ∧
    (a t ≠ 0 → VelV (fun s => (v s).divS (a s)) ((v'.mulS (a t) - (v t).mulS a').divS (a t * a t)) t) ∧
    HasDerivAt (fun s => (v s).sum) v'.sum t ∧ HasDerivAt (fun s => (v s).dot (w s)) (v'.dot (w t) + (v t).dot w') t ∧
    HasDerivAt (fun s => (v s).squareLength) (2 * (v t).dot v') t := by
  have hdot : ∀ {v w : ℝ → Vec ℝ N} {v' w' : Vec ℝ N}, VelV v v' t → VelV w w' t → HasDerivAt (fun s => (v s).dot (w s)) (v'.dot (w t) + (v t).dot w') t := by
    intro v w v' w' hv hw
    simp only [Vec.dot_eq_sum]
    rw [← Finset.sum_add_distrib]
    exact HasDerivAt.fun_sum fun i _ => (hv i).fun_mul (hw i)
  refine ⟨fun i => ?_, fun i => ?_, fun i => ?_, fun i => ?_, fun i => ?_, fun h i => ?_, ?_, hdot hv hw, ?_⟩
  · simpa [coords] using (hv i).fun_add (hw i)
  · simpa [coords] using (hv i).fun_sub (hw i)
  · simpa [coords] using (hv i).fun_neg
  · simpa [coords] using (hv i).fun_mul (hw i)
  · simpa [coords] using (hv i).fun_mul ha
  · simpa [coords, sq] using (hv i).fun_div ha h
  · simp only [Vec.sum_eq_sum]
    exact HasDerivAt.fun_sum fun i _ => hv i
  · have e : ∀ u : Vec ℝ N, u.squareLength = u.dot u := fun u => by rw [Vec.squareLength_eq_sum, Vec.dot_eq_sum]
    simp only [e]
    convert hdot hv hv using 1
    rw [two_mul]; congr 1
    rw [Vec.dot_eq_sum, Vec.dot_eq_sum]
    exact Finset.sum_congr rfl fun i _ => mul_comm _ _

/-- Component-wise quotients. -/
theorem C90_vector_quotient {N : Nat} {v w : ℝ → Vec ℝ N} {v' w' : Vec ℝ N} (hv : VelV v v' t) (hw : VelV w w' t) (h0 : ∀ i : Fin N, coords (w t) i ≠ 0) :
    VelV (fun s => v s / w s) ((v' * w t - v t * w') / (w t * w t)) t := by
  intro i
  simpa [coords, sq] using (hv i).fun_div (hw i) (h0 i)

/-- The speed of the length is the component of the velocity along the vector; the normalized vector moves with the component across, divided by the length. -/
theorem C90_length [NeZero N] {v : ℝ → Vec ℝ N} {v' : Vec ℝ N} (hv : VelV v v' t) (h0 : v t ≠ 0) :
    HasDerivAt (fun s => (v s).length) ((v t).normalize.dot v') t ∧
    VelV (fun s => (v s).normalize) ((v' - (v t).normalize.mulS ((v t).normalize.dot v')).divS (v t).length) t := by
  have hp := (C20_length_pos (v t)).2 h0
  have hq : (v t).squareLength ≠ 0 := by
    intro h
    have : (v t).length = Real.sqrt (v t).squareLength := rfl
    rw [this, h, Real.sqrt_zero] at hp
    exact lt_irrefl _ hp
  have h1 : HasDerivAt (fun s => (v s).length) ((v t).normalize.dot v') t := by
    have h2 := ((C90_vector hv hv (hasDerivAt_const t (1 : ℝ))).2.2.2.2.2.2.2.2).sqrt hq
    refine h2.congr_deriv ?_
    have e : (v t).normalize.dot v' = (v t).dot v' / (v t).length := by
      rw [Vec.dot_eq_sum, Vec.dot_eq_sum, Finset.sum_div]
      refine Finset.sum_congr rfl fun i _ => ?_
      simp only [Vec.normalize, Vec.getElem_divS]; ring
    rw [e]
    show _ = _ / Real.sqrt (v t).squareLength
    rw [mul_div_mul_left _ _ two_ne_zero]
  refine ⟨h1, fun i => ?_⟩
  have h3 := (C90_vector hv hv h1).2.2.2.2.2.1 hp.ne' i
  refine h3.congr_deriv ?_
  have h4 := hp.ne'
  simp only [coords, Vec.normalize, Vec.getElem_divS, Vec.getElem_sub, Vec.getElem_mulS]
  field_simp

/-- Products of vectors in the plane and in space. -/
theorem C90_cross {v w : ℝ → Vec ℝ 2} {v' w' : Vec ℝ 2} {p q : ℝ → Vec ℝ 3} {p' q' : Vec ℝ 3}
    (hv : VelV v v' t) (hw : VelV w w' t) (hp : VelV p p' t) (hq : VelV q q' t) :
    HasDerivAt (fun s => (v s).cross2 (w s)) (v'.cross2 (w t) + (v t).cross2 w') t ∧
    VelV (fun s => (p s).cross3 (q s)) (p'.cross3 (q t) + (p t).cross3 q') t := by
  have e2 : ∀ a b : Vec ℝ 2, a.cross2 b = coords a 0 * coords b 1 - coords a 1 * coords b 0 := fun a b => by simp [Vec.cross2, coords]
  have e30 : ∀ a b : Vec ℝ 3, coords (a.cross3 b) 0 = coords a 1 * coords b 2 - coords a 2 * coords b 1 := fun a b => Vec.cross3_0 a b
  have e31 : ∀ a b : Vec ℝ 3, coords (a.cross3 b) 1 = coords a 2 * coords b 0 - coords a 0 * coords b 2 := fun a b => Vec.cross3_1 a b
  have e32 : ∀ a b : Vec ℝ 3, coords (a.cross3 b) 2 = coords a 0 * coords b 1 - coords a 1 * coords b 0 := fun a b => Vec.cross3_2 a b
  have h : ∀ i j : Fin 3, HasDerivAt (fun s => coords (p s) i * coords (q s) j - coords (p s) j * coords (q s) i)
      (coords p' i * coords (q t) j + coords (p t) i * coords q' j - (coords p' j * coords (q t) i + coords (p t) j * coords q' i)) t :=
    fun i j => ((hp i).fun_mul (hq j)).fun_sub ((hp j).fun_mul (hq i))
  refine ⟨?_, fun i => ?_⟩
  · simp only [e2]
    exact (((hv 0).fun_mul (hw 1)).fun_sub ((hv 1).fun_mul (hw 0))).congr_deriv (by ring)
  · match i with
    | 0 => simp only [e30, Vec.coords_add, Pi.add_apply]; exact (h 1 2).congr_deriv (by ring)
    | 1 => simp only [e31, Vec.coords_add, Pi.add_apply]; exact (h 2 0).congr_deriv (by ring)
    | 2 => simp only [e32, Vec.coords_add, Pi.add_apply]; exact (h 0 1).congr_deriv (by ring)

/-! ## Complex numbers and quaternions -/

/-- The formula for the velocity of a reciprocal, without using commutativity, and the form that uses only conjugates. -/
theorem C90_inverse_formula (z z' : Cpx ℝ) (q q' : Quat ℝ) (hz : z ≠ 0) (hq : q ≠ 0) :
    -(z.inv * z' * z.inv) = (z'.conj - Cpx.sMul (2 * z.dot z' / z.normSqr) z.conj).divS z.normSqr ∧
    -(q.inv * q' * q.inv) = (q'.conj - Quat.sMul (2 * q.dot q' / q.normSqr) q.conj).divS q.normSqr := by
  have nz : z.normSqr ≠ 0 := fun h => hz ((Cpx.normSqr_eq_zero z).1 h)
  have nq : q.normSqr ≠ 0 := fun h => hq ((Quat.normSqr_eq_zero q).1 h)
  constructor
  · have hd := Cpx.dot_eq z z'
    have hn := Cpx.normSqr_eq z
    unfold Cpx.inv
    generalize z.dot z' = d at *
    generalize z.normSqr = n at *
    apply Cpx.ext' <;> simp [Cpx.sMul] <;> field_simp <;> rw [hd, hn] <;> ring
  · have hd := Quat.dot_eq q q'
    have hn := Quat.normSqr_eq q
    unfold Quat.inv
    generalize q.dot q' = d at *
    generalize q.normSqr = n at *
    apply Quat.ext' <;> simp [Quat.sMul] <;> field_simp <;> rw [hd, hn] <;> ring

theorem C90_complex {z w : ℝ → Cpx ℝ} {z' w' : Cpx ℝ} {a : ℝ → ℝ} {a' : ℝ} (hz : VelC z z' t) (hw : VelC w w' t) (ha : HasDerivAt a a' t) :
    VelC (fun s => z s + w s) (z' + w') t ∧ VelC (fun s => z s - w s) (z' - w') t ∧ VelC (fun s => -z s) (-z') t ∧
    VelC (fun s => (z s).conj) z'.conj t ∧ VelC (fun s => (z s).mulS (a s)) (z'.mulS (a t) + (z t).mulS a') t ∧
    VelC (fun s => z s * w s) (z' * w t + z t * w') t ∧
    HasDerivAt (fun s => (z s).dot (w s)) (z'.dot (w t) + (z t).dot w') t ∧ HasDerivAt (fun s => (z s).normSqr) (2 * (z t).dot z') t ∧
    (z t ≠ 0 → VelC (fun s => (z s).inv) (-((z t).inv * z' * (z t).inv)) t ∧ HasDerivAt (fun s => (z s).norm) ((z t).dot z' / (z t).norm) t) ∧
    (w t ≠ 0 → VelC (fun s => z s / w s) ((z' - z t / w t * w') / w t) t) := by
  have hmul : ∀ {z w : ℝ → Cpx ℝ} {z' w' : Cpx ℝ}, VelC z z' t → VelC w w' t → VelC (fun s => z s * w s) (z' * w t + z t * w') t := fun {z w z' w'} hz hw => by
    constructor
    · simp only [Cpx.re_mul, Cpx.re_add]
      exact ((hz.re.fun_mul hw.re).fun_sub (hz.im.fun_mul hw.im)).congr_deriv (by ring)
    · simp only [Cpx.im_mul, Cpx.im_add]
      exact ((hz.re.fun_mul hw.im).fun_add (hz.im.fun_mul hw.re)).congr_deriv (by ring)
  have hdot : ∀ {z w : ℝ → Cpx ℝ} {z' w' : Cpx ℝ}, VelC z z' t → VelC w w' t → HasDerivAt (fun s => (z s).dot (w s)) (z'.dot (w t) + (z t).dot w') t := fun {z w z' w'} hz hw => by
    simp only [Cpx.dot_eq]
    exact ((hz.re.fun_mul hw.re).fun_add (hz.im.fun_mul hw.im)).congr_deriv (by ring)
  have hnsq : ∀ {z : ℝ → Cpx ℝ} {z' : Cpx ℝ}, VelC z z' t → HasDerivAt (fun s => (z s).normSqr) (2 * (z t).dot z') t := fun {z z'} hz => by
    have e : ∀ u : Cpx ℝ, u.normSqr = u.dot u := fun u => by rw [Cpx.normSqr_eq, Cpx.dot_eq]
    simp only [e]
    exact (hdot hz hz).congr_deriv (by simp only [Cpx.dot_eq]; ring)
  have hinv : ∀ {z : ℝ → Cpx ℝ} {z' : Cpx ℝ}, VelC z z' t → z t ≠ 0 → VelC (fun s => (z s).inv) (-((z t).inv * z' * (z t).inv)) t := fun {z z'} hz h0 => by
    have n0 : (z t).normSqr ≠ 0 := fun h => h0 ((Cpx.normSqr_eq_zero _).1 h)
    rw [(C90_inverse_formula (z t) z' 1 1 h0 one_ne_zero).1]
    constructor
    · simp only [Cpx.inv, Cpx.re_divS, Cpx.re_conj, Cpx.re_sub, Cpx.sMul, Cpx.re_mulS]
      exact (hz.re.fun_div (hnsq hz) n0).congr_deriv (by field_simp)
    · simp only [Cpx.inv, Cpx.im_divS, Cpx.im_conj, Cpx.im_sub, Cpx.sMul, Cpx.im_mulS]
      exact (hz.im.fun_neg.fun_div (hnsq hz) n0).congr_deriv (by field_simp)
  refine ⟨⟨?_, ?_⟩, ⟨?_, ?_⟩, ⟨?_, ?_⟩, ⟨?_, ?_⟩, ⟨?_, ?_⟩, hmul hz hw, hdot hz hw, hnsq hz, fun h0 => ⟨hinv hz h0, ?_⟩, fun h0 => ?_⟩
  · simpa using hz.re.fun_add hw.re
  · simpa using hz.im.fun_add hw.im
  · simpa using hz.re.fun_sub hw.re
  · simpa using hz.im.fun_sub hw.im
  · simpa using hz.re.fun_neg
  · simpa using hz.im.fun_neg
  · simpa using hz.re
  · simpa using hz.im.fun_neg
  · simpa using hz.re.fun_mul ha
  · simpa using hz.im.fun_mul ha
  · have n0 : (z t).normSqr ≠ 0 := fun h => h0 ((Cpx.normSqr_eq_zero _).1 h)
    refine ((hnsq hz).sqrt n0).congr_deriv ?_
    rw [mul_div_mul_left _ _ two_ne_zero]; rfl
  · have := hmul hz (hinv hw h0)
    have e : z' * (w t).inv + z t * -((w t).inv * w' * (w t).inv) = (z' - z t / w t * w') / w t := by
      rw [Cpx.div_def, Cpx.div_def]; ring
    rw [e] at this; exact this

theorem C90_quaternion {p q : ℝ → Quat ℝ} {p' q' : Quat ℝ} {a : ℝ → ℝ} {a' : ℝ} (hp : VelQ p p' t) (hq : VelQ q q' t) (ha : HasDerivAt a a' t) :
    VelQ (fun s => p s + q s) (p' + q') t ∧ VelQ (fun s => p s - q s) (p' - q') t ∧ VelQ (fun s => -p s) (-p') t ∧
    VelQ (fun s => (p s).conj) p'.conj t ∧ VelQ (fun s => (p s).mulS (a s)) (p'.mulS (a t) + (p t).mulS a') t ∧
    VelQ (fun s => p s * q s) (p' * q t + p t * q') t ∧
    HasDerivAt (fun s => (p s).dot (q s)) (p'.dot (q t) + (p t).dot q') t ∧ HasDerivAt (fun s => (p s).normSqr) (2 * (p t).dot p') t ∧
    (p t ≠ 0 → VelQ (fun s => (p s).inv) (-((p t).inv * p' * (p t).inv)) t ∧ HasDerivAt (fun s => (p s).norm) ((p t).dot p' / (p t).norm) t) ∧
    (q t ≠ 0 → VelQ (fun s => p s / q s) ((p' - p t / q t * q') / q t) t) := by
  have hmul : ∀ {z w : ℝ → Quat ℝ} {z' w' : Quat ℝ}, VelQ z z' t → VelQ w w' t → VelQ (fun s => z s * w s) (z' * w t + z t * w') t := fun {z w z' w'} hz hw => by
    constructor
    · simp only [Quat.w_mul, Quat.w_add]
      exact ((((hz.w.fun_mul hw.w).fun_sub (hz.x.fun_mul hw.x)).fun_sub (hz.y.fun_mul hw.y)).fun_sub (hz.z.fun_mul hw.z)).congr_deriv (by ring)
    · simp only [Quat.x_mul, Quat.x_add]
      exact ((((hz.w.fun_mul hw.x).fun_add (hz.x.fun_mul hw.w)).fun_add (hz.y.fun_mul hw.z)).fun_sub (hz.z.fun_mul hw.y)).congr_deriv (by ring)
    · simp only [Quat.y_mul, Quat.y_add]
      exact ((((hz.w.fun_mul hw.y).fun_sub (hz.x.fun_mul hw.z)).fun_add (hz.y.fun_mul hw.w)).fun_add (hz.z.fun_mul hw.x)).congr_deriv (by ring)
    · simp only [Quat.z_mul, Quat.z_add]
      exact ((((hz.w.fun_mul hw.z).fun_add (hz.x.fun_mul hw.y)).fun_sub (hz.y.fun_mul hw.x)).fun_add (hz.z.fun_mul hw.w)).congr_deriv (by ring)
  have hdot : ∀ {z w : ℝ → Quat ℝ} {z' w' : Quat ℝ}, VelQ z z' t → VelQ w w' t → HasDerivAt (fun s => (z s).dot (w s)) (z'.dot (w t) + (z t).dot w') t := fun {z w z' w'} hz hw => by
    simp only [Quat.dot_eq]
    exact ((((hz.w.fun_mul hw.w).fun_add (hz.x.fun_mul hw.x)).fun_add (hz.y.fun_mul hw.y)).fun_add (hz.z.fun_mul hw.z)).congr_deriv (by ring)
  have hnsq : ∀ {z : ℝ → Quat ℝ} {z' : Quat ℝ}, VelQ z z' t → HasDerivAt (fun s => (z s).normSqr) (2 * (z t).dot z') t := fun {z z'} hz => by
    have e : ∀ u : Quat ℝ, u.normSqr = u.dot u := fun u => by rw [Quat.normSqr_eq, Quat.dot_eq]
    simp only [e]
    exact (hdot hz hz).congr_deriv (by simp only [Quat.dot_eq]; ring)
  have hinv : ∀ {z : ℝ → Quat ℝ} {z' : Quat ℝ}, VelQ z z' t → z t ≠ 0 → VelQ (fun s => (z s).inv) (-((z t).inv * z' * (z t).inv)) t := fun {z z'} hz h0 => by
    have n0 : (z t).normSqr ≠ 0 := fun h => h0 ((Quat.normSqr_eq_zero _).1 h)
    rw [(C90_inverse_formula 1 1 (z t) z' one_ne_zero h0).2]
    constructor
    · simp only [Quat.inv, Quat.w_divS, Quat.w_conj, Quat.w_sub, Quat.sMul, Quat.w_mulS]
      exact (hz.w.fun_div (hnsq hz) n0).congr_deriv (by field_simp)
    · simp only [Quat.inv, Quat.x_divS, Quat.x_conj, Quat.x_sub, Quat.sMul, Quat.x_mulS]
      exact (hz.x.fun_neg.fun_div (hnsq hz) n0).congr_deriv (by field_simp)
    · simp only [Quat.inv, Quat.y_divS, Quat.y_conj, Quat.y_sub, Quat.sMul, Quat.y_mulS]
      exact (hz.y.fun_neg.fun_div (hnsq hz) n0).congr_deriv (by field_simp)
    · simp only [Quat.inv, Quat.z_divS, Quat.z_conj, Quat.z_sub, Quat.sMul, Quat.z_mulS]
      exact (hz.z.fun_neg.fun_div (hnsq hz) n0).congr_deriv (by field_simp)
  refine ⟨⟨?_, ?_, ?_, ?_⟩, ⟨?_, ?_, ?_, ?_⟩, ⟨?_, ?_, ?_, ?_⟩, ⟨?_, ?_, ?_, ?_⟩, ⟨?_, ?_, ?_, ?_⟩, hmul hp hq, hdot hp hq, hnsq hp, fun h0 => ⟨hinv hp h0, ?_⟩, fun h0 => ?_⟩
  · simpa using hp.w.fun_add hq.w
  · simpa using hp.x.fun_add hq.x
  · simpa using hp.y.fun_add hq.y
  · simpa using hp.z.fun_add hq.z
  · simpa using hp.w.fun_sub hq.w
  · simpa using hp.x.fun_sub hq.x
  · simpa using hp.y.fun_sub hq.y
  · simpa using hp.z.fun_sub hq.z
  · simpa using hp.w.fun_neg
  · simpa using hp.x.fun_neg
  · simpa using hp.y.fun_neg
  · simpa using hp.z.fun_neg
  · simpa using hp.w
  · simpa using hp.x.fun_neg
  · simpa using hp.y.fun_neg
  · simpa using hp.z.fun_neg
  · simpa using hp.w.fun_mul ha
  · simpa using hp.x.fun_mul ha
  · simpa using hp.y.fun_mul ha
  · simpa using hp.z.fun_mul ha
  · have n0 : (p t).normSqr ≠ 0 := fun h => h0 ((Quat.normSqr_eq_zero _).1 h)
    refine ((hnsq hp).sqrt n0).congr_deriv ?_
    rw [mul_div_mul_left _ _ two_ne_zero]; rfl
  · have := hmul hp (hinv hq h0)
    have e : p' * (q t).inv + p t * -((q t).inv * q' * (q t).inv) = (p' - p t / q t * q') / q t := by
      rw [Quat.div_def, Quat.div_def]; noncomm_ring
    rw [e] at this; exact this

/-! ## Matrices -/
namespace Curve
open Matrix
/-- The derivative of a determinant (Jacobi's formula) for Mathlib matrices. -/
theorem det_deriv {A : ℝ → Matrix (Fin N) (Fin N) ℝ} {A' : Matrix (Fin N) (Fin N) ℝ} (h : ∀ i j, HasDerivAt (fun s => A s i j) (A' i j) t) :
    HasDerivAt (fun s => (A s).det) (∑ j, ∑ i, (A t).adjugate j i * A' i j) t := by
  have h1 : HasDerivAt (fun s => (A s).det)
      (∑ σ : Equiv.Perm (Fin N), (Equiv.Perm.sign σ : ℝ) * ∑ i, (∏ j ∈ Finset.univ.erase i, A t (σ j) j) • A' (σ i) i) t := by
    simp only [Matrix.det_apply']
    exact HasDerivAt.fun_sum fun σ _ => (HasDerivAt.fun_finsetProd fun i _ => h (σ i) i).const_mul _
  refine h1.congr_deriv ?_
  simp only [Finset.mul_sum]
  rw [Finset.sum_comm]
  refine Finset.sum_congr rfl fun j _ => ?_
  have h2 : ∑ i, (A t).adjugate j i * A' i j = ((A t).updateCol j (fun i => A' i j)).det := by
    rw [← Matrix.cramer_apply, Matrix.cramer_eq_adjugate_mulVec]; rfl
  rw [h2, Matrix.det_apply']
  refine Finset.sum_congr rfl fun σ _ => ?_
  congr 1
  rw [← Finset.mul_prod_erase _ _ (Finset.mem_univ j), Matrix.updateCol_self, smul_eq_mul, mul_comm]
  congr 1
  exact Finset.prod_congr rfl fun x hx => by rw [Matrix.updateCol_ne (Finset.ne_of_mem_erase hx)]
theorem adj_diff {A : ℝ → Matrix (Fin N) (Fin N) ℝ} (h : ∀ i j, DifferentiableAt ℝ (fun s => A s i j) t) (i j : Fin N) :
    DifferentiableAt ℝ (fun s => (A s).adjugate i j) t := by
  have h1 : ∀ a b, HasDerivAt (fun s => ((A s).updateRow j (Pi.single i 1)) a b) (if a = j then 0 else deriv (fun s => A s a b) t) t := fun a b => by
    by_cases e : a = j
    · subst e; simpa [Matrix.updateRow_self] using hasDerivAt_const t _
    · simpa [e, Matrix.updateRow_ne] using (h a b).hasDerivAt
  simp only [Matrix.adjugate_apply]
  exact (det_deriv (A := fun s => (A s).updateRow j (Pi.single i 1)) (A' := fun a b => if a = j then 0 else deriv (fun s => A s a b) t) h1).differentiableAt
theorem inv_deriv {A : ℝ → Matrix (Fin N) (Fin N) ℝ} {A' : Matrix (Fin N) (Fin N) ℝ} (h : ∀ i j, HasDerivAt (fun s => A s i j) (A' i j) t) (h0 : (A t).det ≠ 0) (i j : Fin N) :
    HasDerivAt (fun s => (A s)⁻¹ i j) ((-((A t)⁻¹ * A' * (A t)⁻¹)) i j) t := by
  have hd := det_deriv h
  have hdiff : ∀ i j, DifferentiableAt ℝ (fun s => (A s)⁻¹ i j) t := fun i j => by
    simp only [Matrix.inv_def, Ring.inverse_eq_inv', Matrix.smul_apply, smul_eq_mul]
    exact (hd.differentiableAt.inv h0).mul (adj_diff (fun i j => (h i j).differentiableAt) i j)
  let D : Matrix (Fin N) (Fin N) ℝ := fun i j => deriv (fun s => (A s)⁻¹ i j) t
  have hD : ∀ i j, HasDerivAt (fun s => (A s)⁻¹ i j) (D i j) t := fun i j => (hdiff i j).hasDerivAt
  have hev : ∀ᶠ s in nhds t, (A s).det ≠ 0 := hd.continuousAt.eventually_ne h0
  have hz : A' * (A t)⁻¹ + A t * D = 0 := by
    ext i j
    have h1 : HasDerivAt (fun s => (A s * (A s)⁻¹) i j) ((A' * (A t)⁻¹ + A t * D) i j) t := by
      simp only [Matrix.mul_apply, Matrix.add_apply]
      rw [← Finset.sum_add_distrib]
      exact HasDerivAt.fun_sum fun k _ => (h i k).fun_mul (hD k j)
    have h2 : HasDerivAt (fun s => (A s * (A s)⁻¹) i j) 0 t := by
      refine (hasDerivAt_const t ((1 : Matrix (Fin N) (Fin N) ℝ) i j)).congr_of_eventuallyEq (hev.mono fun s hs => ?_)
      show (A s * (A s)⁻¹) i j = _
      rw [Matrix.mul_nonsing_inv _ (isUnit_iff_ne_zero.mpr hs)]
    exact h1.unique h2
  have e : D = -((A t)⁻¹ * A' * (A t)⁻¹) := by
    have h3 : (A t)⁻¹ * (A' * (A t)⁻¹ + A t * D) = 0 := by rw [hz, mul_zero]
    rw [mul_add, ← mul_assoc, ← mul_assoc, Matrix.nonsing_inv_mul _ (isUnit_iff_ne_zero.mpr h0), one_mul] at h3
    exact eq_neg_of_add_eq_zero_right h3
  rw [← e]; exact hD i j
end Curve

/-- Products, determinants (Jacobi's formula) and inverses of moving square matrices. -/
theorem C90_matrix {A B : ℝ → Mat ℝ N N} {A' B' : Mat ℝ N N} {v : ℝ → Vec ℝ N} {v' : Vec ℝ N} (hA : VelM A A' t) (hB : VelM B B' t) (hv : VelV v v' t) :
    VelM (fun s => A s + B s) (A' + B') t ∧ VelM (fun s => (A s).transpose) A'.transpose t ∧
    VelV (fun s => (A s).dotV (v s)) (A'.dotV (v t) + (A t).dotV v') t ∧ VelV (fun s => Mat.vDot (v s) (A s)) (Mat.vDot v' (A t) + Mat.vDot (v t) A') t ∧
    VelM (fun s => (A s).dotM (B s)) (A'.dotM (B t) + (A t).dotM B') t ∧
    HasDerivAt (fun s => (A s).det) (∑ i : Fin N, ((A t).adj.dotM A')[i.1][i.1]) t ∧
    ((A t).det ≠ 0 → VelM (fun s => (A s).inv) (-((A t).inv.dotM (A'.dotM (A t).inv))) t) := by
  refine ⟨fun i j => ?_, fun i j => ?_, fun i => ?_, fun i => ?_, fun i j => ?_, ?_, fun h0 i j => ?_⟩
  · simpa using (hA i j).fun_add (hB i j)
  · simpa using hA j i
  · simp only [coords, Mat.getElem_dotV_sum, Vec.getElem_add]
    rw [← Finset.sum_add_distrib]
    exact HasDerivAt.fun_sum fun k _ => (hA i k).fun_mul (hv k)
  · simp only [coords, Mat.getElem_vDot_sum, Vec.getElem_add]
    rw [← Finset.sum_add_distrib]
    exact HasDerivAt.fun_sum fun k _ => (hv k).fun_mul (hA k i)
  · simp only [Mat.getElem_dotM_sum, Mat.getElem_add]
    rw [← Finset.sum_add_distrib]
    exact HasDerivAt.fun_sum fun k _ => (hA i k).fun_mul (hB k j)
  · simp only [Mat.det_eq]
    refine (Curve.det_deriv (A := fun s => (A s).toMatrix) (A' := A'.toMatrix) hA).congr_deriv ?_
    refine Finset.sum_congr rfl fun j _ => ?_
    rw [Mat.getElem_dotM_sum]
    refine Finset.sum_congr rfl fun i _ => ?_
    rw [← Mat.toMatrix_adj]; rfl
  · have := Curve.inv_deriv (A := fun s => (A s).toMatrix) (A' := A'.toMatrix) hA (by rwa [← Mat.det_eq]) i j
    have e : ∀ B : Mat ℝ N N, B[i.1][j.1] = B.toMatrix i j := fun _ => rfl
    simp only [e, Mat.toMatrix_inv]
    refine this.congr_deriv ?_
    rw [← e, Mat.getElem_neg, e, Mat.toMatrix_dotM, Mat.toMatrix_dotM, Mat.toMatrix_inv, ← mul_assoc]; rfl

/-! ## Moving transformations -/

/-- A moving affine map applied to a moving point. -/
theorem C90_affine {l : ℝ → Linear ℝ N} {l' : Mat ℝ N N} {p : ℝ → Shift ℝ N} {p' : Vec ℝ N} {x : ℝ → Vec ℝ N} {x' : Vec ℝ N}
    (hl : VelM (fun s => (l s).intoMatrix) l' t) (hp : VelV (fun s => (p s).intoVector) p' t) (hx : VelV x x' t) :
    VelV (fun s => Transform.apply (Chain.new (p s) (l s) : Affine ℝ N) (x s)) (l'.dotV (x t) + Transform.deriv (l t) (x t) x' + p') t := fun i => by
  have h1 := (C90_matrix hl hl hx).2.2.1 i
  have h2 := h1.fun_add (hp i)
  have e : ∀ a b : Vec ℝ N, coords (a + b) i = coords a i + coords b i := fun a b => by rw [Vec.coords_add]; rfl
  rw [e]
  exact h2.congr_of_eventuallyEq (Filter.Eventually.of_forall fun s => e _ _)

/-- A moving rotation of the plane has an angular velocity: the rate at which it turns every point, a quarter turn ahead of the point. -/
theorem C90_rotation2 {r : ℝ → Rotation2 ℝ} {c' : Cpx ℝ} {x : ℝ → Vec ℝ 2} {x' : Vec ℝ 2} (hr : VelC (fun s => (r s).intoComplex) c' t)
    (hu : ∀ s, (r s).intoComplex.normSqr = 1) (hx : VelV x x' t) :
    (c' * (r t).intoComplex.conj).re = 0 ∧
    VelV (fun s => Transform.apply (r s) (x s))
      ((Vec.fromTuple2 (-(coords (Transform.apply (r t) (x t)) 1), coords (Transform.apply (r t) (x t)) 0)).mulS (c' * (r t).intoComplex.conj).im +
        Transform.deriv (r t) (x t) x') t := by
  have hd : c'.re * (r t).intoComplex.re + c'.im * (r t).intoComplex.im = 0 := by
    have h1 := (C90_complex hr hr (hasDerivAt_const t (0 : ℝ))).2.2.2.2.2.2.2.1
    have h2 : HasDerivAt (fun s => (r s).intoComplex.normSqr) 0 t := by simp only [hu]; exact hasDerivAt_const t _
    have := h1.unique h2
    rw [Cpx.dot_eq] at this; linarith
  have hn := hu t
  rw [Cpx.normSqr_eq] at hn
  have hr1 := hr.re
  have hi1 := hr.im
  simp only [Rotation2.intoComplex] at hd hn hr1 hi1 ⊢
  have e0 : ∀ (q : Rotation2 ℝ) (u : Vec ℝ 2), coords (Transform.apply q u) 0 = coords u 0 * q.comp.re - coords u 1 * q.comp.im := Rotation2.apply_0
  have e1 : ∀ (q : Rotation2 ℝ) (u : Vec ℝ 2), coords (Transform.apply q u) 1 = coords u 0 * q.comp.im + coords u 1 * q.comp.re := Rotation2.apply_1
  have f0 : ∀ a b : ℝ, coords (Vec.fromTuple2 (a, b)) 0 = a := fun _ _ => rfl
  have f1 : ∀ a b : ℝ, coords (Vec.fromTuple2 (a, b)) 1 = b := fun _ _ => rfl
  have g : ∀ (u : Vec ℝ 2) (a : ℝ) (i : Fin 2), coords (u.mulS a) i = coords u i * a := fun u a i => by simp [coords]
  refine ⟨by simpa using hd, fun i => ?_⟩
  match i with
  | 0 =>
    simp only [Vec.coords_add, Pi.add_apply, Rotation2.deriv_eq, e0, e1, f0, g, Cpx.im_mul, Cpx.re_conj, Cpx.im_conj]
    refine (((hx 0).fun_mul hr1).fun_sub ((hx 1).fun_mul hi1)).congr_deriv ?_
    generalize (r t).comp.re = a at *
    generalize (r t).comp.im = b at *
    linear_combination (-(coords (x t) 0) * c'.re + coords (x t) 1 * c'.im) * hn + (coords (x t) 0 * a - coords (x t) 1 * b) * hd
  | 1 =>
    simp only [Vec.coords_add, Pi.add_apply, Rotation2.deriv_eq, e0, e1, f1, g, Cpx.im_mul, Cpx.re_conj, Cpx.im_conj]
    refine (((hx 0).fun_mul hi1).fun_add ((hx 1).fun_mul hr1)).congr_deriv ?_
    generalize (r t).comp.re = a at *
    generalize (r t).comp.im = b at *
    linear_combination (-(coords (x t) 0) * c'.im - coords (x t) 1 * c'.re) * hn + (coords (x t) 0 * b + coords (x t) 1 * a) * hd

/-- A moving rotation of space has an angular velocity `ω`, the vector part of `2 q' q*`: every point moves with velocity `ω × (its position)`. -/
theorem C90_rotation3 {r : ℝ → Rotation3 ℝ} {q' : Quat ℝ} {x : ℝ → Vec ℝ 3} {x' : Vec ℝ 3} (hr : VelQ (fun s => (r s).intoQuaternion) q' t)
    (hu : ∀ s, (r s).intoQuaternion.normSqr = 1) (hx : VelV x x' t) :
    (q' * (r t).intoQuaternion.conj).w = 0 ∧
    VelV (fun s => Transform.apply (r s) (x s))
      (((q' * (r t).intoQuaternion.conj).xyz.mulS 2).cross3 (Transform.apply (r t) (x t)) + Transform.deriv (r t) (x t) x') t := by
  have hd : (q' * (r t).intoQuaternion.conj).w = 0 := by
    have h1 := (C90_quaternion hr hr (hasDerivAt_const t (0 : ℝ))).2.2.2.2.2.2.2.1
    have h2 : HasDerivAt (fun s => (r s).intoQuaternion.normSqr) 0 t := by simp only [hu]; exact hasDerivAt_const t _
    have := h1.unique h2
    rw [Quat.dot_eq] at this
    simp; linarith
  refine ⟨hd, ?_⟩
  have pure' : ∀ {u : ℝ → Vec ℝ 3} {u' : Vec ℝ 3}, VelV u u' t → VelQ (fun s => Quat.fromScalarAndVector3 0 (u s)) (Quat.fromScalarAndVector3 0 u') t := fun {u u'} h => by
    constructor
    · simpa using hasDerivAt_const t (0 : ℝ)
    · simpa [coords] using h 0
    · simpa [coords] using h 1
    · simpa [coords] using h 2
  have cj := (C90_quaternion hr hr (hasDerivAt_const t (0 : ℝ))).2.2.2.1
  have h1 := (C90_quaternion hr (pure' hx) (hasDerivAt_const t (0 : ℝ))).2.2.2.2.2.1
  have h2 := (C90_quaternion h1 cj (hasDerivAt_const t (0 : ℝ))).2.2.2.2.2.1
  simp only [← C55_sandwich] at h2
  -- the velocity as a pure quaternion
  have hqq : (r t).intoQuaternion.conj * (r t).intoQuaternion = 1 := by rw [Quat.conj_mul, hu]; rfl
  have key : (q' * Quat.fromScalarAndVector3 0 (x t) + (r t).intoQuaternion * Quat.fromScalarAndVector3 0 x') * (r t).intoQuaternion.conj +
      (r t).intoQuaternion * Quat.fromScalarAndVector3 0 (x t) * q'.conj =
      (q' * (r t).intoQuaternion.conj) * Quat.fromScalarAndVector3 0 (Transform.apply (r t) (x t)) +
        Quat.fromScalarAndVector3 0 (Transform.apply (r t) (x t)) * (q' * (r t).intoQuaternion.conj).conj + Quat.fromScalarAndVector3 0 (Transform.apply (r t) x') := by
    have cc : (q' * (r t).intoQuaternion.conj).conj = (r t).intoQuaternion * q'.conj := by apply Quat.ext' <;> simp <;> ring
    rw [C55_sandwich, C55_sandwich, cc]
    generalize Quat.fromScalarAndVector3 0 (x t) = X
    generalize Quat.fromScalarAndVector3 0 x' = X'
    generalize (r t).intoQuaternion.conj = Qc at hqq ⊢
    generalize (r t).intoQuaternion = Q at hqq ⊢
    have a1 : q' * Qc * (Q * X * Qc) = q' * X * Qc := by
      rw [show q' * Qc * (Q * X * Qc) = q' * (Qc * Q) * X * Qc by noncomm_ring, hqq, mul_one]
    have a2 : Q * X * Qc * (Q * q'.conj) = Q * X * q'.conj := by
      rw [show Q * X * Qc * (Q * q'.conj) = Q * X * (Qc * Q) * q'.conj by noncomm_ring, hqq, mul_one]
    rw [a1, a2]; noncomm_ring
  rw [key] at h2
  generalize q' * (r t).intoQuaternion.conj = O at hd h2 ⊢
  generalize Transform.apply (r t) (x t) = P at h2 ⊢
  have e30 : ∀ a b : Vec ℝ 3, coords (a.cross3 b) 0 = coords a 1 * coords b 2 - coords a 2 * coords b 1 := fun a b => Vec.cross3_0 a b
  have e31 : ∀ a b : Vec ℝ 3, coords (a.cross3 b) 1 = coords a 2 * coords b 0 - coords a 0 * coords b 2 := fun a b => Vec.cross3_1 a b
  have e32 : ∀ a b : Vec ℝ 3, coords (a.cross3 b) 2 = coords a 0 * coords b 1 - coords a 1 * coords b 0 := fun a b => Vec.cross3_2 a b
  have g : ∀ (u : Vec ℝ 3) (a : ℝ) (i : Fin 3), coords (u.mulS a) i = coords u i * a := fun u a i => by simp [coords]
  have o0 : coords O.xyz 0 = O.x := Quat.sv_0 O
  have o1 : coords O.xyz 1 = O.y := Quat.sv_1 O
  have o2 : coords O.xyz 2 = O.z := Quat.sv_2 O
  have hx2 := h2.x
  have hy2 := h2.y
  have hz2 := h2.z
  simp only [Quat.x_add, Quat.y_add, Quat.z_add, Quat.x_mul, Quat.y_mul, Quat.z_mul, Quat.w_conj, Quat.x_conj, Quat.y_conj, Quat.z_conj, hd,
    Quat.w_fsv, Quat.x_fsv, Quat.y_fsv, Quat.z_fsv] at hx2 hy2 hz2
  intro i
  match i with
  | 0 =>
    simp only [Vec.coords_add, Pi.add_apply, e30, g, o1, o2]
    exact hx2.congr_deriv (by simp only [coords, Rotation3.deriv_eq]; simp; ring)
  | 1 =>
    simp only [Vec.coords_add, Pi.add_apply, e31, g, o0, o2]
    exact hy2.congr_deriv (by simp only [coords, Rotation3.deriv_eq]; simp; ring)
  | 2 =>
    simp only [Vec.coords_add, Pi.add_apply, e32, g, o0, o1]
    exact hz2.congr_deriv (by simp only [coords, Rotation3.deriv_eq]; simp; ring)

/-- Turning about a unit axis `k` with a moving angle: the angular velocity is the axis times the rate of the angle. -/
theorem C90_axis_angle (k : Vec ℝ 3) (hk : k.length = 1) {a : ℝ → ℝ} {a' : ℝ} (ha : HasDerivAt a a' t) (v : Vec ℝ 3) :
    VelV (fun s => Transform.apply (Rotation3.new k (a s)) v) ((k.mulS a').cross3 (Transform.apply (Rotation3.new k (a t)) v)) t := by
  have hc : HasDerivAt (fun s => Real.cos (a s / 2)) (-Real.sin (a t / 2) * (a' / 2)) t := (ha.div_const 2).cos
  have hs : HasDerivAt (fun s => Real.sin (a s / 2)) (Real.cos (a t / 2) * (a' / 2)) t := (ha.div_const 2).sin
  have hq : VelQ (fun s => (Rotation3.new k (a s)).intoQuaternion) (Quat.fromScalarAndVector3 (-Real.sin (a t / 2) * (a' / 2)) (k.mulS (Real.cos (a t / 2) * (a' / 2)))) t := by
    have hn := fun s => Rotation3.quat_new k (a s)
    constructor
    · simp only [Rotation3.intoQuaternion, (hn _).1]; simpa using hc
    · simp only [Rotation3.intoQuaternion, (hn _).2.1]; simpa using hs.const_mul _
    · simp only [Rotation3.intoQuaternion, (hn _).2.2.1]; simpa using hs.const_mul _
    · simp only [Rotation3.intoQuaternion, (hn _).2.2.2]; simpa using hs.const_mul _
  have h0 : VelV (fun _ : ℝ => v) 0 t := fun i => by
    have := hasDerivAt_const t (coords v i)
    simpa [coords] using this
  have h1 := (C90_rotation3 hq (fun s => C56_unit k (a s) hk) h0).2
  have e1 : Transform.deriv (Rotation3.new k (a t)) v 0 = 0 := by
    rw [Rotation3.deriv_eq]
    apply Vec.ext3 <;> simp [Rotation3.apply_0, Rotation3.apply_1, Rotation3.apply_2]
  have e2 : (Quat.fromScalarAndVector3 (-Real.sin (a t / 2) * (a' / 2)) (k.mulS (Real.cos (a t / 2) * (a' / 2))) * (Rotation3.new k (a t)).intoQuaternion.conj).xyz.mulS 2 = k.mulS a' := by
    obtain ⟨nw, nx, ny, nz⟩ := Rotation3.quat_new k (a t)
    have h2 := Real.sin_sq_add_cos_sq (a t / 2)
    have sv := fun q : Quat ℝ => And.intro (Quat.sv_0 q) (And.intro (Quat.sv_1 q) (Quat.sv_2 q))
    apply Vec.ext3
    · rw [Vec.getElem_mulS, Quat.xyz, (sv _).1]
      simp [Rotation3.intoQuaternion, nw, nx, ny, nz]
      linear_combination (k[0] * a') * h2
    · rw [Vec.getElem_mulS, Quat.xyz, (sv _).2.1]
      simp [Rotation3.intoQuaternion, nw, nx, ny, nz]
      linear_combination (k[1] * a') * h2
    · rw [Vec.getElem_mulS, Quat.xyz, (sv _).2.2]
      simp [Rotation3.intoQuaternion, nw, nx, ny, nz]
      linear_combination (k[2] * a') * h2
  rw [e1, e2] at h1
  intro i
  have := h1 i
  simpa [coords] using this

/-! ## Witnesses -/
section
private def p3 : Vec ℝ 3 := Vec.fromArray #v[1, 2, 3]
private def v3 : Vec ℝ 3 := Vec.fromArray #v[0, 1, -1]
private def p2 : Vec ℝ 2 := Vec.fromArray #v[1, 2]
private def v2 : Vec ℝ 2 := Vec.fromArray #v[3, 4]
private def m2 : Mat ℝ 2 2 := Mat.fromArrArr #v[#v[1, 2], #v[3, 4]]
private theorem hp3 : VelV (fun s => p3 + v3.mulS s) v3 0 := (C90_line 0).1 p3 v3
private theorem hp2 : VelV (fun s => p2 + v2.mulS s) v2 0 := (C90_line 0).1 p2 v2
private theorem hz1 : VelC (fun s => Cpx.new 1 2 + (Cpx.new 3 4).mulS s) (Cpx.new (3 : ℝ) 4) 0 := (C90_line 0).2.2.1 _ _
private theorem hq1 : VelQ (fun s => Quat.new 1 2 3 4 + (Quat.new 0 1 0 1).mulS s) (Quat.new (0 : ℝ) 1 0 1) 0 := (C90_line 0).2.2.2 _ _
private theorem hm1 : VelM (fun s => 1 + m2.mulS s) m2 0 := (C90_line 0).2.1 1 m2
private theorem z0 : Cpx.new (1 : ℝ) 2 + (Cpx.new 3 4).mulS 0 ≠ 0 := fun h => by simpa using congrArg Cpx.re h
private theorem q0 : Quat.new (1 : ℝ) 2 3 4 + (Quat.new 0 1 0 1).mulS 0 ≠ 0 := fun h => by simpa using congrArg Quat.w h
example := C90_vector hp3 hp3 (hasDerivAt_id (0 : ℝ))
example := C90_vector_quotient (t := 3) (v := fun s => Vec.fromTuple3 ((1:ℝ), s, 2)) (w := fun s => Vec.fromTuple3 ((1:ℝ), s, 2))
    (v' := Vec.fromTuple3 ((0:ℝ), 1, 0)) (w' := Vec.fromTuple3 ((0:ℝ), 1, 0))
    (fun i => by fin_cases i; exacts [hasDerivAt_const _ _, hasDerivAt_id _, hasDerivAt_const _ _])
    (fun i => by fin_cases i; exacts [hasDerivAt_const _ _, hasDerivAt_id _, hasDerivAt_const _ _])
    (fun i => by fin_cases i; exacts [one_ne_zero, three_ne_zero, two_ne_zero])
example := C90_length hp3 (fun h => by simpa [p3, v3, Vec.fromArray, coords] using congrFun (congrArg coords h) 0)
example := C90_cross hp2 hp2 hp3 hp3
example := C90_inverse_formula _ (Cpx.new 3 4) _ (Quat.new 0 1 0 1) z0 q0
/-- The directional derivatives sampled by the tests: of `p * p` and of `p.inv()`. -/
example := (C90_complex hz1 hz1 (hasDerivAt_id (0 : ℝ))).2.2.2.2.2.2.2.2.1 z0
example (p v : Quat ℝ) : VelQ (fun s => (p + v.mulS s) * (p + v.mulS s)) (v * p + p * v) 0 := by
  have h := (C90_line 0).2.2.2 p v
  have e : p + v.mulS 0 = p := by apply Quat.ext' <;> simp
  simpa [e] using (C90_quaternion h h (hasDerivAt_id (0 : ℝ))).2.2.2.2.2.1
example := (C90_quaternion hq1 hq1 (hasDerivAt_id (0 : ℝ))).2.2.2.2.2.2.2.2.1 q0
example := C90_matrix hm1 hm1 hp2
example := C90_affine (l := fun s => Linear.fromMatrix (1 + m2.mulS s))
  (p := fun s => Shift.fromVector (p2 + v2.mulS s)) hm1 hp2 hp2
/-- The plane turning with unit speed. -/
example := C90_rotation2 (t := 0) (r := fun s => Rotation2.new s) (c' := Cpx.new (-Real.sin 0) (Real.cos 0))
  ⟨by simpa [Rotation2.intoComplex, Rotation2.new] using Real.hasDerivAt_cos 0, by simpa [Rotation2.intoComplex, Rotation2.new] using Real.hasDerivAt_sin 0⟩
  (fun s => by
    have := Real.sin_sq_add_cos_sq s
    rw [Cpx.normSqr_eq]; simp [Rotation2.intoComplex, Rotation2.new]; linarith) hp2
/-- Space turning about the `z` axis with unit speed. -/
example := C90_axis_angle (Vec.fromArray #v[0, 0, 1]) (by
  show Real.sqrt _ = 1
  rw [Vec.squareLength_eq_sum]; simp [Fin.sum_univ_three, Vec.fromArray]) (hasDerivAt_id (0 : ℝ)) p3
/-- A rotation at rest; `C90_axis_angle` above is proved from a moving instance. -/
example := C90_rotation3 (t := 0) (r := fun _ => Rotation3.fromQuaternion 1) (q' := 0)
  ⟨by simpa [Rotation3.intoQuaternion] using hasDerivAt_const (0 : ℝ) _, by simpa [Rotation3.intoQuaternion] using hasDerivAt_const (0 : ℝ) _,
    by simpa [Rotation3.intoQuaternion] using hasDerivAt_const (0 : ℝ) _, by simpa [Rotation3.intoQuaternion] using hasDerivAt_const (0 : ℝ) _⟩
  (fun s => by rw [Quat.normSqr_eq]; simp [Rotation3.intoQuaternion, Rotation3.fromQuaternion]) hp3
end
end Vecmat
