import Verif.Lemmas.FloatEval
import Verif.Lemmas.Transforms
import Verif.Props.IeeeError
/-!
# C85: IEEE arithmetic without exceptions, and integers in floats
`Fl (trapping φ)` (`Model/Float.lean`, `trapping` in `Spec/Ieee.lean`) is the same arithmetic with the exceptions *overflow*, *underflow* (a tiny result that is not exact
enough), *division by zero* and *invalid* trapped. Where no trap is taken, the run on the complete IEEE semantics computes the same
numbers, so the bounds of C70 and C71 and the exactness of C72 hold for it.
-/
namespace Vecmat
open Spec Ieee
variable {φ : Fmt} {L M N : Nat}

namespace Ieee
/-- `a` has the value computed by the trapping arithmetic, unless a trap was taken. -/
def Sim (a : Ieee φ) (b : Fl (trapping φ)) : Prop := ∀ x, b.val = some x → Val a x
theorem trapping_some {x y : ℝ} : trapping φ x = some y ↔ y = φ.near x ∧ |φ.near x - x| ≤ roundoff φ * |x| ∧ |φ.near x| < huge φ := by
  unfold trapping; split
  · next h => simp [h, eq_comm]
  · next h => simp [h]
theorem rounding_trapping : Rounding (roundoff φ) (trapping φ) :=
  ⟨u_pos.le, fun x y h => by obtain ⟨rfl, h1, -⟩ := trapping_some.1 h; exact h1⟩
theorem sim_trap (a : Ieee φ) : Sim a a.trap := fun _ h => h
theorem opRel_sim : OpRel (Ieee φ) (Fl (trapping φ)) Sim where
  add := by
    intro a b c d h h' x hx
    simp only [HAdd.hAdd, Add.add, Fl.lift2, Option.bind_eq_some_iff] at hx
    obtain ⟨y, hy, z, hz, hx⟩ := hx
    obtain ⟨rfl, -, h3⟩ := trapping_some.1 hx
    exact val_add_iff.2 ⟨y, z, h y hy, h' z hz, rfl, h3⟩
  sub := by
    intro a b c d h h' x hx
    simp only [HSub.hSub, Sub.sub, Fl.lift2, Option.bind_eq_some_iff] at hx
    obtain ⟨y, hy, z, hz, hx⟩ := hx
    obtain ⟨rfl, -, h3⟩ := trapping_some.1 hx
    exact val_sub_iff.2 ⟨y, z, h y hy, h' z hz, rfl, h3⟩
  mul := by
    intro a b c d h h' x hx
    simp only [HMul.hMul, Mul.mul, Fl.lift2, Option.bind_eq_some_iff] at hx
    obtain ⟨y, hy, z, hz, hx⟩ := hx
    obtain ⟨rfl, -, h3⟩ := trapping_some.1 hx
    exact val_mul_iff.2 ⟨y, z, h y hy, h' z hz, rfl, h3⟩
  neg := by
    intro a b h x hx
    simp only [Neg.neg, Option.map_eq_some_iff] at hx
    obtain ⟨y, hy, rfl⟩ := hx
    exact val_neg (h y hy)
  zero := by intro x hx; cases hx; exact val_zero'
  one := by intro x hx; cases hx; exact val_one
theorem sim_sqrt {a : Ieee φ} {b : Fl (trapping φ)} (h : Sim a b) : Sim (FloatOps.sqrt a) (FloatOps.sqrt b) := by
  intro x hx
  simp only [FloatOps.sqrt, Option.bind_eq_some_iff] at hx
  obtain ⟨y, hy, hx⟩ := hx
  split at hx
  · cases hx
  · next h0 =>
    obtain ⟨rfl, -, h3⟩ := trapping_some.1 hx
    exact val_sqrt_iff.2 ⟨y, h y hy, not_lt.1 h0, rfl, h3⟩
theorem sim_div {a c : Ieee φ} {b d : Fl (trapping φ)} (h : Sim a b) (h' : Sim c d) : Sim (a / c) (b / d) := by
  intro x hx
  simp only [HDiv.hDiv, Div.div, Option.bind_eq_some_iff] at hx
  obtain ⟨y, hy, z, hz, hx⟩ := hx
  split at hx
  · cases hx
  · next h0 =>
    obtain ⟨rfl, -, h3⟩ := trapping_some.1 hx
    exact val_div_iff.2 (.inl ⟨y, z, h y hy, h' z hz, h0, rfl, h3⟩)
theorem simV (v : Vec (Ieee φ) N) : RelV Sim v (v.map trap) := fun i hi => by rw [Vec.getElem_map]; exact sim_trap _
theorem simM (A : Mat (Ieee φ) M N) : RelM Sim A (A.map trap) := fun i hi j hj => by rw [Mat.getElem_map]; exact sim_trap _
theorem rep_int (hφ : WF φ) (he : (φ.p : ℤ) ≤ φ.emax) {n : ℤ} (hn : n.natAbs ≤ 2 ^ φ.p) : Representable φ n := by
  obtain ⟨hp, h1, h2⟩ := id hφ
  rcases lt_or_eq_of_le hn with h | h
  · refine ⟨n, 0, by simp, ?_, by omega, by omega⟩
    rw [Int.abs_eq_natAbs]; exact_mod_cast h
  · have key : Representable φ ((2:ℝ) ^ (φ.p : ℤ)) := rep_pow hφ (by omega) he
    rcases Int.natAbs_eq n with e | e
    · rw [e, h]; push_cast; rw [← zpow_natCast]; exact key
    · rw [e, h]; push_cast; rw [← zpow_natCast]; exact rep_neg key
theorem exact_trapping (hφ : WF φ) (he : (φ.p : ℤ) ≤ φ.emax) : ExactInts (2 ^ φ.p) (trapping φ) := by
  intro n hn
  have hr := rep_int hφ he hn
  rw [trapping_some, Fmt.near_rep hr]
  exact ⟨rfl, by simpa using mul_nonneg u_pos.le (abs_nonneg _), rep_lt hr⟩
end Ieee

/-! ## runs without a trap -/
/-- `f32` and `f64` satisfy the conditions on the format used here and in C84. -/
theorem C85_formats : ((Fmt.f32.p : ℤ) ≤ Fmt.f32.emax ∧ (Fmt.f32.p : ℤ) ≤ 1 - Fmt.f32.emin) ∧
    ((Fmt.f64.p : ℤ) ≤ Fmt.f64.emax ∧ (Fmt.f64.p : ℤ) ≤ 1 - Fmt.f64.emin) := by decide
/-- Determinant. -/
theorem C85_det (A : Mat (Ieee φ) N N) (a : Matrix (Fin N) (Fin N) ℝ) (ha : ∀ i j : Fin N, A[i.1][j.1].toReal? = some (a i j))
    {r : ℝ} (hr : (A.map trap).det.val = some r) :
    ∃ d, A.detR = .ok d ∧ d.toReal? = some r ∧ |r - a.det| ≤ gam (roundoff φ) (N * (N + 3) / 2) * (a.map abs).permanent :=
  ⟨_, Res.ok_get A.detR (Mat.detR_ok A), opRel_sim.det (simM A) r hr, C70_det rounding_trapping _ a (fun i j => by simpa [trap] using ha i j) hr⟩
/-- Adjugate. -/
theorem C85_adj {n : Nat} (A : Mat (Ieee φ) (n + 1) (n + 1)) (a : Matrix (Fin (n + 1)) (Fin (n + 1)) ℝ)
    (ha : ∀ i j : Fin (n + 1), A[i.1][j.1].toReal? = some (a i j)) (i j : Fin (n + 1)) {r : ℝ} (hr : (A.map trap).adj[i.1][j.1].val = some r) :
    A.adj[i.1][j.1].toReal? = some r ∧
      |r - a.adjugate i j| ≤ gam (roundoff φ) (n * (n + 3) / 2) * ((a.map abs).submatrix j.succAbove i.succAbove).permanent :=
  ⟨opRel_sim.adj (simM A) i.1 i.2 j.1 j.2 r hr, C70_adj rounding_trapping _ a (fun i j => by simpa [trap] using ha i j) i j hr⟩
theorem roundoff_lt_one (hφ : WF φ) : roundoff φ < 1 := by
  unfold roundoff; rw [div_lt_one (by positivity)]; exact one_lt_pow₀ (by norm_num) (by have := hφ.1; omega)
/-- Length. -/
theorem C85_length (hφ : WF φ) [NeZero N] (v : Vec (Ieee φ) N) (x : Fin N → ℝ) (hx : ∀ i : Fin N, v[i.1].toReal? = some (x i)) {r : ℝ}
    (hr : (v.map trap).length.val = some r) : ∃ d, v.lengthR = .ok d ∧ d.toReal? = some r ∧
      RelClose (roundoff φ) ((N + 1) / 2 + 1) r (Real.sqrt (∑ i, x i ^ 2)) :=
  ⟨_, Vec.length_ok v, sim_sqrt (opRel_sim.vSquareLength (simV v)) r hr,
    C71_length rounding_trapping (roundoff_lt_one hφ) _ x (fun i => by simpa [trap] using hx i) hr⟩
/-- Normalisation. -/
theorem C85_normalize (hφ : WF φ) [NeZero N] (v : Vec (Ieee φ) N) (x : Fin N → ℝ) (hx : ∀ i : Fin N, v[i.1].toReal? = some (x i)) (i : Fin N)
    {r : ℝ} (hr : (v.map trap).normalize[i.1].val = some r) : ∃ w, v.normalizeR = .ok w ∧ w[i.1].toReal? = some r ∧
      RelClose (roundoff φ) ((N + 1) / 2 + 2) r (x i / Real.sqrt (∑ i, x i ^ 2)) := by
  refine ⟨_, Vec.normalize_ok v, ?_, C71_normalize rounding_trapping (roundoff_lt_one hφ) _ x (fun i => by simpa [trap] using hx i) i hr⟩
  rw [Vec.normalize, Vec.getElem_divS] at hr ⊢
  exact sim_div (simV v i.1 i.2) (sim_sqrt (opRel_sim.vSquareLength (simV v))) r hr
/-- Rotation in space. -/
theorem C85_rotation3 (t : Rotation3 (Ieee φ)) (v : Vec (Ieee φ) 3) (Q X : Quaternion ℝ)
    (hQ : t.quat.w.toReal? = some Q.re ∧ t.quat.x.toReal? = some Q.imI ∧ t.quat.y.toReal? = some Q.imJ ∧ t.quat.z.toReal? = some Q.imK)
    (h0 : X.re = 0) (hx : v[0].toReal? = some X.imI) (hy : v[1].toReal? = some X.imJ) (hz : v[2].toReal? = some X.imK)
    (t' : Rotation3 (Fl (trapping φ))) (ht : t' = ⟨Quat.new t.quat.w.trap t.quat.x.trap t.quat.y.trap t.quat.z.trap⟩) :
    (∀ r, (Transform.apply t' (v.map trap))[0].val = some r →
      (Transform.apply t v)[0].toReal? = some r ∧ |r - (Q * X * star Q).imI| ≤ 2 * gam (roundoff φ) 8 * (‖Q‖ ^ 2 * ‖X‖)) ∧
    (∀ r, (Transform.apply t' (v.map trap))[1].val = some r →
      (Transform.apply t v)[1].toReal? = some r ∧ |r - (Q * X * star Q).imJ| ≤ 2 * gam (roundoff φ) 8 * (‖Q‖ ^ 2 * ‖X‖)) ∧
    (∀ r, (Transform.apply t' (v.map trap))[2].val = some r →
      (Transform.apply t v)[2].toReal? = some r ∧ |r - (Q * X * star Q).imK| ≤ 2 * gam (roundoff φ) 8 * (‖Q‖ ^ 2 * ‖X‖)) := by
  subst ht
  obtain ⟨b0, b1, b2⟩ := C70_rotation3 rounding_trapping ⟨Quat.new t.quat.w.trap t.quat.x.trap t.quat.y.trap t.quat.z.trap⟩ (v.map trap) Q X
    (by simpa [Quat.HasVal, trap] using hQ) h0 (by simpa [trap] using hx) (by simpa [trap] using hy) (by simpa [trap] using hz)
  have hq : RelQ Sim t.quat (Quat.new t.quat.w.trap t.quat.x.trap t.quat.y.trap t.quat.z.trap) := by
    refine ⟨?_, ?_, ?_, ?_⟩ <;> exact sim_trap _
  have hv : RelQ Sim (Quat.fromScalarAndVector3 0 v) (Quat.fromScalarAndVector3 0 (v.map trap)) := by
    refine ⟨?_, ?_, ?_, ?_⟩
    · exact opRel_sim.zero
    · rw [Quat.x_fsv, Quat.x_fsv]; exact simV v 0 (by omega)
    · rw [Quat.y_fsv, Quat.y_fsv]; exact simV v 1 (by omega)
    · rw [Quat.z_fsv, Quat.z_fsv]; exact simV v 2 (by omega)
  have h := opRel_sim.qMul (opRel_sim.qMul hq hv) (opRel_sim.qConj hq)
  refine ⟨fun r hr => ⟨h.2.1 r hr, b0 r hr⟩, fun r hr => ⟨h.2.2.1 r hr, b1 r hr⟩, fun r hr => ⟨h.2.2.2 r hr, b2 r hr⟩⟩

/-! ## integers in floats -/
/-- A dot product of integer-valued vectors is exact when the sum of the magnitudes of the products is at most `2^p` (`2^53` for `f64`). -/
theorem C85_int_dot (hφ : WF φ) (he : (φ.p : ℤ) ≤ φ.emax) (hN : 0 < N) (v w : Vec (Ieee φ) N) (a b : Fin N → ℤ)
    (ha : ∀ i : Fin N, v[i.1].toReal? = some (a i : ℝ)) (hb : ∀ i : Fin N, w[i.1].toReal? = some (b i : ℝ))
    (hB : ∑ i, (a i * b i).natAbs ≤ 2 ^ φ.p) : ∃ d, v.dotR w = .ok d ∧ d.toReal? = some ((∑ i, a i * b i : ℤ) : ℝ) := by
  have : NeZero N := ⟨by omega⟩
  exact ⟨_, Vec.dot_ok v w, opRel_sim.vDot (simV v) (simV w) _ (C72_dot (exact_trapping hφ he) _ _ a b
    (fun i => by simpa [trap] using ha i) (fun i => by simpa [trap] using hb i) hB)⟩
theorem C85_int_mat_mat (hφ : WF φ) (he : (φ.p : ℤ) ≤ φ.emax) (hM : 0 < M) (A : Mat (Ieee φ) L M) (C : Mat (Ieee φ) M N)
    (a : Matrix (Fin L) (Fin M) ℤ) (c : Matrix (Fin M) (Fin N) ℤ) (ha : ∀ (i : Fin L) (j : Fin M), A[i.1][j.1].toReal? = some (a i j : ℝ))
    (hc : ∀ (i : Fin M) (j : Fin N), C[i.1][j.1].toReal? = some (c i j : ℝ)) (hB : ∀ i j, ∑ k, (a i k * c k j).natAbs ≤ 2 ^ φ.p) :
    ∃ X, A.dotMR C = .ok X ∧ ∀ (i : Fin L) (j : Fin N), X[i.1][j.1].toReal? = some (((a * c) i j : ℤ) : ℝ) := by
  have : NeZero M := ⟨by omega⟩
  refine ⟨_, Mat.dotMR_get A C, fun i j => ?_⟩
  obtain ⟨d, h1, h2⟩ := C85_int_dot hφ he hM A[i.1] (C.colOf j.1 j.2) (a i) (fun k => c k j) (ha i) (fun k => by simpa using hc k j) (hB i j)
  rw [Vec.dot_ok] at h1; cases h1
  simpa [Matrix.mul_apply] using h2
theorem C85_int_cross3 (hφ : WF φ) (he : (φ.p : ℤ) ≤ φ.emax) (v w : Vec (Ieee φ) 3) (a b : Fin 3 → ℤ)
    (ha : ∀ i : Fin 3, v[i.1].toReal? = some (a i : ℝ)) (hb : ∀ i : Fin 3, w[i.1].toReal? = some (b i : ℝ))
    (hB : ∀ i, (a (i + 1) * b (i + 2)).natAbs + (a (i + 2) * b (i + 1)).natAbs ≤ 2 ^ φ.p) (i : Fin 3) :
    (v.cross3 w)[i.1].toReal? = some ((a (i + 1) * b (i + 2) - a (i + 2) * b (i + 1) : ℤ) : ℝ) :=
  opRel_sim.cross3 (simV v) (simV w) i.1 i.2 _ (C72_cross3 (exact_trapping hφ he) _ _ a b
    (fun i => by simpa [trap] using ha i) (fun i => by simpa [trap] using hb i) hB i)
theorem C85_int_det (hφ : WF φ) (he : (φ.p : ℤ) ≤ φ.emax) {c : ℕ} (hc : 1 ≤ c) (A : Mat (Ieee φ) N N) (a : Matrix (Fin N) (Fin N) ℤ)
    (ha : ∀ i j : Fin N, A[i.1][j.1].toReal? = some (a i j : ℝ)) (hb : ∀ i j, (a i j).natAbs ≤ c) (hB : N.factorial * c ^ N ≤ 2 ^ φ.p) :
    ∃ d, A.detR = .ok d ∧ d.toReal? = some (a.det : ℝ) :=
  ⟨_, Res.ok_get A.detR (Mat.detR_ok A), opRel_sim.det (simM A) _ (C72_det hc (exact_trapping hφ he) _ a (fun i j => by simpa [trap] using ha i j) hb hB)⟩

/-! ## the hypotheses are satisfiable -/
open IeeeEx
theorem IeeeEx.exact64 : ExactInts (2 ^ 53) (trapping Fmt.f64) := exact_trapping (φ := Fmt.f64) C80_formats.2 (by decide)
theorem IeeeEx.trap_vec (x : Fin N → ℤ) (i : Fin N) : ((vec fun i => (x i : ℝ)).map trap)[i.1].val = some (x i : ℝ) := by
  rw [Vec.getElem_map]; exact vec_val _ i
theorem IeeeEx.trap_mat (a : Matrix (Fin M) (Fin N) ℤ) (i : Fin M) (j : Fin N) :
    ((mat fun i j => (a i j : ℝ)).map trap)[i.1][j.1].val = some (a i j : ℝ) := by
  rw [Mat.getElem_map]; exact mat_val _ i j
/-- No trap in the determinant of an `f64` matrix of small integers. -/
example := C85_det (mat fun i j => ((!![2, 3, 1; 4, 5, -1; 0, 2, 7] : Matrix (Fin 3) (Fin 3) ℤ) i j : ℝ)) _ (mat_val _)
  (((BInt.opRel exact64).det (BInt.mat_R (trap_mat !![2, 3, 1; 4, 5, -1; 0, 2, 7]))).eval (by decide +kernel))
example := C85_adj (mat fun i j => ((!![2, 3, 1; 4, 5, -1; 0, 2, 7] : Matrix (Fin 3) (Fin 3) ℤ) i j : ℝ)) _ (mat_val _) 1 2
  (((BInt.opRel exact64).adj (BInt.mat_R (trap_mat !![2, 3, 1; 4, 5, -1; 0, 2, 7])) 1 (by decide) 2 (by decide)).eval (by decide +kernel))
/-- The length of `[3, 4]`. -/
theorem IeeeEx.trap_length : ((vec fun i => ((![3, 4] : Fin 2 → ℤ) i : ℝ)).map trap).length.val = some 5 := by
  have h := ((BInt.opRel exact64).vSquareLength (BInt.vec_R (trap_vec ![3, 4]))).eval (by decide +kernel)
  rw [show (BInt.vec ![3, 4]).squareLength.n = 25 by decide +kernel] at h
  show (Option.bind _ fun x : ℝ => if x < 0 then none else trapping Fmt.f64 (Real.sqrt x)) = some 5
  rw [h]
  have := exact64 5 (by norm_num)
  have h5 : Real.sqrt 25 = 5 := by rw [show (25:ℝ) = 5 ^ 2 by norm_num]; exact Real.sqrt_sq (by norm_num)
  norm_num [h5] at this ⊢; exact this
example := C85_length C80_formats.2 (vec fun i => ((![3, 4] : Fin 2 → ℤ) i : ℝ)) _ (vec_val _) trap_length
/-- The first component of `[10, 0].normalize()`: the length is `10`, the quotient `1`. -/
example := C85_normalize (r := 1) C80_formats.2 (vec fun i => ((![10, 0] : Fin 2 → ℤ) i : ℝ)) _ (vec_val _) 0 (by
  have h := ((BInt.opRel exact64).vSquareLength (BInt.vec_R (trap_vec ![10, 0]))).eval (by decide +kernel)
  rw [show (BInt.vec ![10, 0]).squareLength.n = 100 by decide +kernel] at h
  have h10 : Real.sqrt 100 = 10 := by rw [show (100:ℝ) = 10 ^ 2 by norm_num]; exact Real.sqrt_sq (by norm_num)
  have hl : ((vec fun i => ((![10, 0] : Fin 2 → ℤ) i : ℝ)).map trap).length.val = some 10 := by
    show (Option.bind _ fun x : ℝ => if x < 0 then none else trapping Fmt.f64 (Real.sqrt x)) = some 10
    rw [h]
    have := exact64 10 (by norm_num)
    norm_num [h10] at this ⊢; exact this
  rw [Vec.normalize, Vec.getElem_divS]
  show (Option.bind _ fun x : ℝ => Option.bind _ fun y => if y = 0 then none else trapping Fmt.f64 (x / y)) = some 1
  have h0 : ((vec fun i => ((![10, 0] : Fin 2 → ℤ) i : ℝ)).map trap)[0].val = some (10 : ℝ) := by simpa using trap_vec ![10, 0] 0
  rw [hl]; refine (congrArg (Option.bind · _) h0).trans ?_
  have := exact64 1 (by norm_num)
  norm_num at this ⊢; exact this)
/-- A quarter turn scaled by four, of an integer vector. -/
example := C85_rotation3 (Rotation3.fromQuaternion (Quat.new (lit 1) (lit 1) (lit 1) (lit (-1)))) (vec ![1, 2, 3]) ⟨1, 1, 1, -1⟩ ⟨0, 1, 2, 3⟩
  ⟨lit_val _, lit_val _, lit_val _, lit_val _⟩ rfl (vec_val _ 0) (vec_val _ 1) (vec_val _ 2) _ rfl
/-- The `x` component of this rotation is computed without a trap. -/
example : ∃ r, (Transform.apply (⟨Quat.new (lit 1).trap (lit 1).trap (lit 1).trap (lit (-1)).trap⟩ : Rotation3 (Fl (trapping Fmt.f64)))
    ((vec fun i => ((![1, 2, 3] : Fin 3 → ℤ) i : ℝ)).map trap))[0].val = some r := by
  have hq : RelQ (BInt.R (2 ^ 53)) (Quat.new (.of 1) (.of 1) (.of 1) (.of (-1)))
      (Quat.new (lit 1).trap (lit 1).trap (lit 1).trap (lit (-1)).trap : Quat (Fl (trapping Fmt.f64))) :=
    ⟨BInt.of_R (by simpa [trap] using lit_val _), BInt.of_R (by simpa [trap] using lit_val _), BInt.of_R (by simpa [trap] using lit_val _), BInt.of_R (by simpa [trap] using lit_val _)⟩
  have hv : RelQ (BInt.R (2 ^ 53)) (Quat.new 0 (.of 1) (.of 2) (.of 3))
      (Quat.fromScalarAndVector3 0 ((vec fun i => ((![1, 2, 3] : Fin 3 → ℤ) i : ℝ)).map trap) : Quat (Fl (trapping Fmt.f64))) := by
    refine ⟨(BInt.opRel exact64).zero, ?_, ?_, ?_⟩
    · rw [Quat.x_fsv]; exact BInt.of_R (trap_vec ![1, 2, 3] 0)
    · rw [Quat.y_fsv]; exact BInt.of_R (trap_vec ![1, 2, 3] 1)
    · rw [Quat.z_fsv]; exact BInt.of_R (trap_vec ![1, 2, 3] 2)
  have h := (BInt.opRel exact64).qMul ((BInt.opRel exact64).qMul hq hv) ((BInt.opRel exact64).qConj hq)
  exact ⟨_, h.2.1.eval (by decide +kernel)⟩
example := C85_int_dot C80_formats.2 (by decide) (by norm_num) (vec fun i => ((![1, 2, 3] : Fin 3 → ℤ) i : ℝ))
  (vec fun i => ((![4, -5, 1000000] : Fin 3 → ℤ) i : ℝ)) _ _ (vec_val _) (vec_val _) (by decide +kernel)
example := C85_int_mat_mat C80_formats.2 (by decide) (by norm_num) (mat fun i j => ((!![2, 3; 4, 5; -1, 0] : Matrix (Fin 3) (Fin 2) ℤ) i j : ℝ))
  (mat fun i j => ((!![7, 3; 1, 5] : Matrix (Fin 2) (Fin 2) ℤ) i j : ℝ)) _ _ (mat_val _) (mat_val _) (by decide +kernel)
example := C85_int_cross3 C80_formats.2 (by decide) (vec fun i => ((![1, 2, 3] : Fin 3 → ℤ) i : ℝ))
  (vec fun i => ((![4, -5, 1000000] : Fin 3 → ℤ) i : ℝ)) _ _ (vec_val _) (vec_val _) (by decide +kernel) 2
example := C85_int_det C80_formats.2 (by decide) (c := 10000) (by norm_num)
  (mat fun i j => ((!![2, 3, 10000; 4, 5, -1; 0, 2, 7] : Matrix (Fin 3) (Fin 3) ℤ) i j : ℝ)) _ (mat_val _) (by decide) (by decide)
end Vecmat
