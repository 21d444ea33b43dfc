import Verif.Props.IeeeTrap
import Verif.Props.Quotient
import Verif.Spec.IeeeVal
/-!
# C91: IEEE arithmetic without exceptions along compositions, inverses and quotients
As in C85, `trap` replaces the arithmetic by one that stops at overflow, inexact underflow, division by zero and invalid operations.
Whenever the run with traps delivers a number, the run on the complete IEEE semantics delivers the same number, and the bounds of C86
and C87 hold for it.
-/
namespace Vecmat
open Spec Ieee
variable {φ : Fmt} {N : Nat}

namespace Spec.Bracketing
variable {α β : Type}
theorem eval_rel {R : α → β → Prop} {f : α → β} {op : α → α → α} {op' : β → β → β} (hf : ∀ a, R a (f a))
    (h : ∀ {a b c d}, R a b → R c d → R (op a c) (op' b d)) (t : Bracketing α) : R (t.eval op) ((t.map f).eval op') := by
  induction t with
  | one a => exact hf a
  | two l r hl hr => exact h hl hr
end Spec.Bracketing

namespace Ieee
theorem simC (z : Cpx (Ieee φ)) : RelC Sim z (mapC trap z) := by
  refine ⟨?_, ?_⟩ <;> simpa [mapC] using sim_trap _
theorem simQ (z : Quat (Ieee φ)) : RelQ Sim z (mapQ trap z) := by
  refine ⟨?_, ?_, ?_, ?_⟩ <;> simpa [mapQ] using sim_trap _
theorem isC {z : Cpx (Ieee φ)} {w : Cpx (Fl (trapping φ))} {V : ℂ} (h : RelC Sim z w) (hV : w.HasVal V) : IsC z V := ⟨h.1 _ hV.1, h.2 _ hV.2⟩
theorem isQ {z : Quat (Ieee φ)} {w : Quat (Fl (trapping φ))} {V : Quaternion ℝ} (h : RelQ Sim z w) (hV : w.HasVal V) : IsQ z V :=
  ⟨h.1 _ hV.1, h.2.1 _ hV.2.1, h.2.2.1 _ hV.2.2.1, h.2.2.2 _ hV.2.2.2⟩
theorem val_mapC {z : Cpx (Ieee φ)} {Z : ℂ} (h : IsC z Z) : (mapC trap z).HasVal Z := by
  refine ⟨?_, ?_⟩
  · simpa [mapC, trap] using h.1
  · simpa [mapC, trap] using h.2
theorem val_mapQ {z : Quat (Ieee φ)} {Z : Quaternion ℝ} (h : IsQ z Z) : (mapQ trap z).HasVal Z := by
  refine ⟨?_, ?_, ?_, ?_⟩
  · simpa [mapQ, trap] using h.1
  · simpa [mapQ, trap] using h.2.1
  · simpa [mapQ, trap] using h.2.2.1
  · simpa [mapQ, trap] using h.2.2.2
theorem relC_inv {z : Cpx (Ieee φ)} {w : Cpx (Fl (trapping φ))} (h : RelC Sim z w) : RelC Sim z.inv w.inv := by
  have hn := opRel_sim.cNormSqr h
  exact ⟨by simpa [Cpx.inv] using sim_div h.1 hn, by simpa [Cpx.inv] using sim_div (opRel_sim.neg h.2) hn⟩
theorem relC_div {z z' : Cpx (Ieee φ)} {w w' : Cpx (Fl (trapping φ))} (h : RelC Sim z w) (h' : RelC Sim z' w') : RelC Sim (z / z') (w / w') := by
  rw [Cpx.div_def, Cpx.div_def]; exact opRel_sim.cMul h (relC_inv h')
theorem relQ_inv {z : Quat (Ieee φ)} {w : Quat (Fl (trapping φ))} (h : RelQ Sim z w) : RelQ Sim z.inv w.inv := by
  have hn := opRel_sim.qNormSqr h
  obtain ⟨a, b, c, d⟩ := h
  exact ⟨by simpa [Quat.inv] using sim_div a hn, by simpa [Quat.inv] using sim_div (opRel_sim.neg b) hn,
    by simpa [Quat.inv] using sim_div (opRel_sim.neg c) hn, by simpa [Quat.inv] using sim_div (opRel_sim.neg d) hn⟩
theorem relQ_div {z z' : Quat (Ieee φ)} {w w' : Quat (Fl (trapping φ))} (h : RelQ Sim z w) (h' : RelQ Sim z' w') : RelQ Sim (z / z') (w / w') := by
  rw [Quat.div_def, Quat.div_def]; exact opRel_sim.qMul h (relQ_inv h')
section
variable {T S : Type} [Add T] [Sub T] [Neg T] [Mul T] [Zero T] [One T] [Add S] [Sub S] [Neg S] [Mul S] [Zero S] [One S] {R : T → S → Prop}
theorem relQ_cMul' (hr : OpRel T S R) {c : Cpx T} {c' : Cpx S} {q : Quat T} {q' : Quat S} (h : RelC R c c') (h' : RelQ R q q') : RelQ R (c * q) (c' * q') := by
  obtain ⟨a, b⟩ := h
  obtain ⟨w, x, y, t⟩ := h'
  refine ⟨?_, ?_, ?_, ?_⟩
  · show R (Quat.cMul c q).w (Quat.cMul c' q').w
    simpa [Quat.cMul] using hr.sub (hr.mul a w) (hr.mul b x)
  · show R (Quat.cMul c q).x (Quat.cMul c' q').x
    simpa [Quat.cMul] using hr.add (hr.mul a x) (hr.mul b w)
  · show R (Quat.cMul c q).y (Quat.cMul c' q').y
    simpa [Quat.cMul] using hr.sub (hr.mul a y) (hr.mul b t)
  · show R (Quat.cMul c q).z (Quat.cMul c' q').z
    simpa [Quat.cMul] using hr.add (hr.mul a t) (hr.mul b y)
theorem relQ_addC' (hr : OpRel T S R) {c : Cpx T} {c' : Cpx S} {q : Quat T} {q' : Quat S} (h : RelC R c c') (h' : RelQ R q q') : RelQ R (q + c) (q' + c') := by
  obtain ⟨a, b⟩ := h
  obtain ⟨w, x, y, t⟩ := h'
  refine ⟨?_, ?_, ?_, ?_⟩
  · show R (Quat.addC q c).w (Quat.addC q' c').w
    simpa [Quat.addC] using hr.add w a
  · show R (Quat.addC q c).x (Quat.addC q' c').x
    simpa [Quat.addC] using hr.add x b
  · show R (Quat.addC q c).y (Quat.addC q' c').y
    simpa [Quat.addC] using y
  · show R (Quat.addC q c).z (Quat.addC q' c').z
    simpa [Quat.addC] using t
end
theorem relQ_cMul {c : Cpx (Ieee φ)} {c' : Cpx (Fl (trapping φ))} {q : Quat (Ieee φ)} {q' : Quat (Fl (trapping φ))} (h : RelC Sim c c') (h' : RelQ Sim q q') :
    RelQ Sim (c * q) (c' * q') := relQ_cMul' opRel_sim h h'
theorem relQ_addC {c : Cpx (Ieee φ)} {c' : Cpx (Fl (trapping φ))} {q : Quat (Ieee φ)} {q' : Quat (Fl (trapping φ))} (h : RelC Sim c c') (h' : RelQ Sim q q') :
    RelQ Sim (q + c) (q' + c') := relQ_addC' opRel_sim h h'
theorem relM_dotM [NeZero N] {A A' : Mat (Ieee φ) N N} {B B' : Mat (Fl (trapping φ)) N N} (h : RelM Sim A B) (h' : RelM Sim A' B') :
    RelM Sim (A.dotM A') (B.dotM B') := CompEx.dotM_rel opRel_sim h h'
theorem relV_dotV [NeZero N] {A : Mat (Ieee φ) N N} {B : Mat (Fl (trapping φ)) N N} {v : Vec (Ieee φ) N} {w : Vec (Fl (trapping φ)) N}
    (h : RelM Sim A B) (h' : RelV Sim v w) : RelV Sim (A.dotV v) (B.dotV w) := by
  intro i hi
  rw [Mat.getElem_dotV _ _ _ hi, Mat.getElem_dotV _ _ _ hi]
  exact opRel_sim.vDot (h i hi) h'
end Ieee

/-! ## compositions in any bracketing -/

/-- Rotations in space. -/
theorem C91_rotation3 (t : Bracketing (Rotation3 (Ieee φ))) (Q : List (Quaternion ℝ)) (hQ : List.Forall₂ (fun r q => IsQ r.intoQuaternion q) t.items Q)
    {V : Quaternion ℝ} (hV : ((t.map (mapRot3 trap)).eval (Transform.chain (Vec (Fl (trapping φ)) 3))).intoQuaternion.HasVal V) :
    IsQ (t.eval (Transform.chain (Vec (Ieee φ) 3))).intoQuaternion V ∧
      ‖V - Q.prod‖ ≤ gam (2 * gam (roundoff φ) 4) (Q.length - 1) * (Q.map norm).prod := by
  refine ⟨isQ (Spec.Bracketing.eval_rel (R := fun (a : Rotation3 (Ieee φ)) (b : Rotation3 (Fl (trapping φ))) => RelQ Sim a.intoQuaternion b.intoQuaternion)
    (fun a => simQ a.intoQuaternion) (fun h h' => opRel_sim.qMul h h') t) hV, C86_rotation3 rounding_trapping _ Q ?_ hV⟩
  rw [Spec.Bracketing.items_map, List.forall₂_map_left_iff]
  exact hQ.imp fun _ _ h => val_mapQ h
theorem gam_le {ε : ℝ} (hε : 0 ≤ ε) {n : ℕ} (hn : n * ε ≤ 1) : gam ε n ≤ n * ε * (1 + n * ε) := by
  suffices h : ∀ k ≤ n, (1 + ε) ^ k ≤ 1 + k * ε + (k * ε) ^ 2 by have := h n le_rfl; unfold gam; nlinarith
  intro k
  induction k with
  | zero => simp
  | succ k ih =>
    intro hk
    have h1 := ih (by omega)
    have h2 : (k : ℝ) * ε ≤ 1 := le_trans (by gcongr; omega) hn
    have h3 : (0 : ℝ) ≤ k * ε := by positivity
    have h4 := mul_le_mul_of_nonneg_left h2 h3
    have h5 := mul_le_mul_of_nonneg_left h4 hε
    rw [pow_succ]
    refine (mul_le_mul_of_nonneg_right h1 (by linarith)).trans ?_
    push_cast
    nlinarith [mul_nonneg hε hε]
/-- In `f64`, up to `2^45` unit quaternions: the composition is off by at most `9 n` units of roundoff, and so is its length. -/
theorem C91_f64_rotation3 (t : Bracketing (Rotation3 (Ieee Fmt.f64))) (Q : List (Quaternion ℝ)) (hQ : List.Forall₂ (fun r q => IsQ r.intoQuaternion q) t.items Q)
    (h1 : ∀ q ∈ Q, ‖q‖ = 1) (hn : Q.length ≤ 2 ^ 45)
    {V : Quaternion ℝ} (hV : ((t.map (mapRot3 trap)).eval (Transform.chain (Vec (Fl (trapping Fmt.f64)) 3))).intoQuaternion.HasVal V) :
    IsQ (t.eval (Transform.chain (Vec (Ieee Fmt.f64) 3))).intoQuaternion V ∧
      ‖V - Q.prod‖ ≤ 9 * Q.length / 2 ^ 53 ∧ |‖V‖ - 1| ≤ 9 * Q.length / 2 ^ 53 := by
  obtain ⟨hv, hb⟩ := C91_rotation3 t Q hQ hV
  have h3 : (Q.map norm).prod = 1 := List.prod_eq_one (by simpa using h1)
  rw [h3, mul_one] at hb
  have h4 := abs_norm_sub_norm_le V Q.prod
  rw [norm_list_prod, h3] at h4
  have key : gam (2 * gam (roundoff Fmt.f64) 4) (Q.length - 1) ≤ 9 * Q.length / 2 ^ 53 := by
    have e : roundoff Fmt.f64 = 1 / 2 ^ 53 := rfl
    rw [e]
    have g : 2 * gam (1 / 2 ^ 53) 4 ≤ 17 / 2 ^ 54 := by unfold gam; norm_num
    have g0 : 0 ≤ 2 * gam (1 / 2 ^ 53) 4 := by have := gam_nonneg (u := 1 / 2 ^ 53) (by norm_num) 4; linarith
    have m : gam (2 * gam (1 / 2 ^ 53) 4) (Q.length - 1) ≤ gam (17 / 2 ^ 54) Q.length := by
      unfold gam at *
      have a1 : (1 + 2 * ((1 + 1 / 2 ^ 53 : ℝ) ^ 4 - 1)) ^ (Q.length - 1) ≤ (1 + 17 / 2 ^ 54) ^ (Q.length - 1) := by gcongr
      have a2 : (1 + 17 / 2 ^ 54 : ℝ) ^ (Q.length - 1) ≤ (1 + 17 / 2 ^ 54) ^ Q.length := pow_le_pow_right₀ (by norm_num) (by omega)
      linarith
    have hn' : (Q.length : ℝ) ≤ 2 ^ 45 := by exact_mod_cast hn
    have b := gam_le (ε := 17 / 2 ^ 54) (by norm_num) (n := Q.length) (by nlinarith)
    have h0 : (0 : ℝ) ≤ Q.length := by positivity
    nlinarith
  exact ⟨hv, hb.trans key, (h4.trans hb).trans key⟩
/-- Rotations of the plane. -/
theorem C91_rotation2 (t : Bracketing (Rotation2 (Ieee φ))) (Z : List ℂ) (hZ : List.Forall₂ (fun r z => IsC r.intoComplex z) t.items Z)
    {V : ℂ} (hV : ((t.map (mapRot2 trap)).eval (Transform.chain (Vec (Fl (trapping φ)) 2))).intoComplex.HasVal V) :
    IsC (t.eval (Transform.chain (Vec (Ieee φ) 2))).intoComplex V ∧
      ‖V - Z.prod‖ ≤ gam (Real.sqrt 2 * gam (roundoff φ) 2) (Z.length - 1) * (Z.map norm).prod := by
  refine ⟨isC (Spec.Bracketing.eval_rel (R := fun (a : Rotation2 (Ieee φ)) (b : Rotation2 (Fl (trapping φ))) => RelC Sim a.intoComplex b.intoComplex)
    (fun a => simC a.intoComplex) (fun h h' => opRel_sim.cMul h h') t) hV, C86_rotation2 rounding_trapping _ Z ?_ hV⟩
  rw [Spec.Bracketing.items_map, List.forall₂_map_left_iff]
  exact hZ.imp fun _ _ h => val_mapC h
/-- Linear maps. -/
theorem C91_linear [NeZero N] (t : Bracketing (Linear (Ieee φ) N)) (X : List (Matrix (Fin N) (Fin N) ℝ))
    (hX : List.Forall₂ (fun l x => ∀ i j : Fin N, l.intoMatrix[i.1][j.1].toReal? = some (x i j)) t.items X) (i j : Fin N) {r : ℝ}
    (hr : ((t.map (mapLinear trap)).eval (Transform.chain (Vec (Fl (trapping φ)) N))).intoMatrix[i.1][j.1].val = some r) :
    (t.eval (Transform.chain (Vec (Ieee φ) N))).intoMatrix[i.1][j.1].toReal? = some r ∧
      |r - X.prod i j| ≤ gam (roundoff φ) ((X.length - 1) * N) * (X.map fun x => x.map abs).prod i j := by
  have h1 := Spec.Bracketing.eval_rel (R := fun (a : Linear (Ieee φ) N) (b : Linear (Fl (trapping φ)) N) => RelM Sim a.intoMatrix b.intoMatrix)
    (f := mapLinear trap) (op := Transform.chain (Vec (Ieee φ) N)) (op' := Transform.chain (Vec (Fl (trapping φ)) N)) (fun a => simM a.intoMatrix)
    (fun h h' => relM_dotM h h') t
  refine ⟨h1 i.1 i.2 j.1 j.2 r hr, C86_linear rounding_trapping _ X ?_ i j hr⟩
  rw [Spec.Bracketing.items_map, List.forall₂_map_left_iff]
  exact hX.imp fun _ _ h i j => by simpa [mapLinear, Linear.intoMatrix, Linear.fromMatrix, trap] using h i j
/-- Affine maps: the linear part and the translation. -/
theorem C91_affine [NeZero N] (t : Bracketing (Affine (Ieee φ) N)) (X : List (Matrix (Fin N) (Fin N) ℝ × (Fin N → ℝ)))
    (hX : List.Forall₂ (fun f x => (∀ i j : Fin N, f.linear.intoMatrix[i.1][j.1].toReal? = some (x.1 i j)) ∧
      ∀ i : Fin N, f.shift.intoVector[i.1].toReal? = some (x.2 i)) t.items X) {t' : Affine (Fl (trapping φ)) N}
    (ht : t' = (t.map (mapAffine trap)).eval (Transform.chain (Vec (Fl (trapping φ)) N))) :
    (∀ (i j : Fin N) r, t'.linear.intoMatrix[i.1][j.1].val = some r →
      (t.eval (Transform.chain (Vec (Ieee φ) N))).linear.intoMatrix[i.1][j.1].toReal? = some r ∧
        |r - (affProd X).1 i j| ≤ gam (roundoff φ) ((X.length - 1) * N) * (affProd (X.map affAbs)).1 i j) ∧
    (∀ (i : Fin N) r, t'.shift.intoVector[i.1].val = some r →
      (t.eval (Transform.chain (Vec (Ieee φ) N))).shift.intoVector[i.1].toReal? = some r ∧
        |r - (affProd X).2 i| ≤ gam (roundoff φ) ((X.length - 1) * (N + 1)) * (affProd (X.map affAbs)).2 i) := by
  subst ht
  have hr := Spec.Bracketing.eval_rel (R := fun (a : Affine (Ieee φ) N) (b : Affine (Fl (trapping φ)) N) =>
      RelM Sim a.linear.intoMatrix b.linear.intoMatrix ∧ RelV Sim a.shift.intoVector b.shift.intoVector) (f := mapAffine trap)
    (op := Transform.chain (Vec (Ieee φ) N)) (op' := Transform.chain (Vec (Fl (trapping φ)) N))
    (fun a => ⟨simM a.linear.intoMatrix, simV a.shift.intoVector⟩)
    (fun h h' => ⟨relM_dotM h.1 h'.1, opRel_sim.vAdd h.2 (relV_dotV h.1 h'.2)⟩) t
  have hX' : List.Forall₂ (fun f x => (∀ i j : Fin N, f.linear.intoMatrix[i.1][j.1].val = some (x.1 i j)) ∧
      ∀ i : Fin N, f.shift.intoVector[i.1].val = some (x.2 i)) (t.map (mapAffine trap)).items X := by
    rw [Spec.Bracketing.items_map, List.forall₂_map_left_iff]
    refine hX.imp fun a x h => ⟨fun i j => ?_, fun i => ?_⟩
    · have := h.1 i j
      show (a.linear.intoMatrix.map trap)[i.1][j.1].val = _
      simpa [trap] using this
    · have := h.2 i
      show (a.shift.intoVector.map trap)[i.1].val = _
      simpa [trap] using this
  exact ⟨fun i j r h => ⟨hr.1 i.1 i.2 j.1 j.2 r h, C86_affine_linear rounding_trapping _ X hX' i j h⟩,
    fun i r h => ⟨hr.2 i.1 i.2 r h, C86_affine_shift rounding_trapping _ X hX' i h⟩⟩

theorem simCpx : OpRel (Cpx (Ieee φ)) (Cpx (Fl (trapping φ))) (RelC Sim) where
  add := opRel_sim.cAdd
  mul := opRel_sim.cMul
  sub := fun h h' => ⟨by simpa using opRel_sim.sub h.1 h'.1, by simpa using opRel_sim.sub h.2 h'.2⟩
  neg := fun h => ⟨by simpa using opRel_sim.neg h.1, by simpa using opRel_sim.neg h.2⟩
  zero := ⟨opRel_sim.zero, opRel_sim.zero⟩
  one := ⟨opRel_sim.one, opRel_sim.zero⟩
/-- Complex Moebius transformations: entries of the coefficient matrix. -/
theorem C91_moebius (t : Bracketing (Moebius (Cpx (Ieee φ)))) (X : List (Matrix (Fin 2) (Fin 2) ℂ))
    (hX : List.Forall₂ (fun l x => ∀ i j : Fin 2, IsC l.intoMatrix[i.1][j.1] (x i j)) t.items X) (i j : Fin 2) {V : ℂ}
    (hV : ((t.map (mapMo (mapC trap))).eval (Transform.chain (Cpx (Fl (trapping φ))))).intoMatrix[i.1][j.1].HasVal V) :
    IsC (t.eval (Transform.chain (Cpx (Ieee φ)))).intoMatrix[i.1][j.1] V ∧
      ‖V - X.prod i j‖ ≤ gam (Real.sqrt 2 * gam (roundoff φ) 2) ((X.length - 1) * 2) * (X.map fun x => x.map norm).prod i j := by
  have em : ∀ m : Moebius (Cpx (Ieee φ)), (mapMo (mapC trap) m).intoMatrix = m.intoMatrix.map (mapC trap) := by
    intro m
    apply Mat.ext_getElem; intro i hi j hj
    rw [Mat.getElem_map]
    match i, hi, j, hj with
    | 0, _, 0, _ => simp [mapMo, Moebius.new, Moebius.fromArray, Moebius.intoMatrix, Moebius.fromMatrix, Mat.fromArrArr, Mat.fromVecVec, Vec.fromArray]
    | 0, _, 1, _ => simp [mapMo, Moebius.new, Moebius.fromArray, Moebius.intoMatrix, Moebius.fromMatrix, Mat.fromArrArr, Mat.fromVecVec, Vec.fromArray]
    | 1, _, 0, _ => simp [mapMo, Moebius.new, Moebius.fromArray, Moebius.intoMatrix, Moebius.fromMatrix, Mat.fromArrArr, Mat.fromVecVec, Vec.fromArray]
    | 1, _, 1, _ => simp [mapMo, Moebius.new, Moebius.fromArray, Moebius.intoMatrix, Moebius.fromMatrix, Mat.fromArrArr, Mat.fromVecVec, Vec.fromArray]
  have h1 := Spec.Bracketing.eval_rel (R := fun (a : Moebius (Cpx (Ieee φ))) (b : Moebius (Cpx (Fl (trapping φ)))) => RelM (RelC Sim) a.intoMatrix b.intoMatrix)
    (f := mapMo (mapC trap)) (op := Transform.chain (Cpx (Ieee φ))) (op' := Transform.chain (Cpx (Fl (trapping φ))))
    (fun a i hi j hj => by rw [Mat.getElem_congr_mat (em a) i hi j hj, Mat.getElem_map]; exact simC _)
    (fun {a b c d} h h' => by
      have := CompEx.dotM_rel simCpx (A := a.mat) (B := b.mat) (A' := c.mat) (B' := d.mat) h h'
      exact this) t
  refine ⟨isC (h1 i.1 i.2 j.1 j.2) hV, C86_moebius rounding_trapping _ X ?_ i j hV⟩
  rw [Spec.Bracketing.items_map, List.forall₂_map_left_iff]
  refine hX.imp fun a x h i j => ?_
  have e2 : (mapMo (mapC trap) a).intoMatrix[i.1][j.1] = mapC trap a.intoMatrix[i.1][j.1] := by
    rw [Mat.getElem_congr_mat (em a) i.1 i.2 j.1 j.2, Mat.getElem_map]
  rw [e2]; exact val_mapC (h i j)

/-! ## inverses and quotients -/

theorem C91_complex_inv (hφ : WF φ) (z : Cpx (Ieee φ)) (Z : ℂ) (hz : IsC z Z) {V : ℂ} (hV : (mapC trap z).inv.HasVal V) :
    IsC z.inv V ∧ ‖V - Z⁻¹‖ ≤ (((1 - roundoff φ) ^ 3)⁻¹ - 1) * ‖Z⁻¹‖ :=
  ⟨isC (relC_inv (simC z)) hV, C87_complex_inv rounding_trapping (roundoff_lt_one hφ) _ Z (val_mapC hz) hV⟩
theorem C91_complex_div (hφ : WF φ) (z w : Cpx (Ieee φ)) (Z W : ℂ) (hz : IsC z Z) (hw : IsC w W) {V : ℂ} (hV : (mapC trap z / mapC trap w).HasVal V) :
    IsC (z / w) V ∧ ‖V - Z / W‖ ≤ ((1 + Real.sqrt 2 * gam (roundoff φ) 2) * ((1 - roundoff φ) ^ 3)⁻¹ - 1) * ‖Z / W‖ :=
  ⟨isC (relC_div (simC z) (simC w)) hV, C87_complex_div rounding_trapping (roundoff_lt_one hφ) _ _ Z W (val_mapC hz) (val_mapC hw) hV⟩
theorem C91_quaternion_inv (hφ : WF φ) (q : Quat (Ieee φ)) (Q : Quaternion ℝ) (hq : IsQ q Q) {V : Quaternion ℝ} (hV : (mapQ trap q).inv.HasVal V) :
    IsQ q.inv V ∧ ‖V - Q⁻¹‖ ≤ (((1 - roundoff φ) ^ 5)⁻¹ - 1) * ‖Q⁻¹‖ :=
  ⟨isQ (relQ_inv (simQ q)) hV, C87_quaternion_inv rounding_trapping (roundoff_lt_one hφ) _ Q (val_mapQ hq) hV⟩
theorem C91_quaternion_div (hφ : WF φ) (p q : Quat (Ieee φ)) (P Q : Quaternion ℝ) (hp : IsQ p P) (hq : IsQ q Q) {V : Quaternion ℝ}
    (hV : (mapQ trap p / mapQ trap q).HasVal V) :
    IsQ (p / q) V ∧ ‖V - P / Q‖ ≤ ((1 + 2 * gam (roundoff φ) 4) * ((1 - roundoff φ) ^ 5)⁻¹ - 1) * ‖P / Q‖ :=
  ⟨isQ (relQ_div (simQ p) (simQ q)) hV, C87_quaternion_div rounding_trapping (roundoff_lt_one hφ) _ _ P Q (val_mapQ hp) (val_mapQ hq) hV⟩

theorem mapMo_abcd {T S : Type} (f : T → S) (m : Moebius T) : (mapMo f m).a = f m.a ∧ (mapMo f m).b = f m.b ∧ (mapMo f m).c = f m.c ∧ (mapMo f m).d = f m.d := by
  refine ⟨?_, ?_, ?_, ?_⟩ <;> simp [mapMo]
/-- A Moebius transformation applied to a complex point. -/
theorem C91_moebius_apply (hφ : WF φ) (m : Moebius (Cpx (Ieee φ))) (z : Cpx (Ieee φ)) (a b c d Z : ℂ) (ha : IsC m.a a) (hb : IsC m.b b) (hc : IsC m.c c)
    (hd : IsC m.d d) (hz : IsC z Z) (h0 : c * Z + d ≠ 0) {ρ : ℝ} (hρ : ρ < 1)
    (hρ' : gam (Real.sqrt 2 * gam (roundoff φ) 2) 2 * (‖c‖ * ‖Z‖ + ‖d‖) ≤ ρ * ‖c * Z + d‖) {V : ℂ} (hV : ((mapMo (mapC trap) m).apply (mapC trap z)).HasVal V)
    {τ : ℝ} (hτ : τ = (1 + Real.sqrt 2 * gam (roundoff φ) 2) * ((1 - roundoff φ) ^ 3)⁻¹ - 1) :
    IsC (m.apply z) V ∧ ‖V - (a * Z + b) / (c * Z + d)‖ ≤
      (1 + τ) * ((gam (Real.sqrt 2 * gam (roundoff φ) 2) 2 * (‖a‖ * ‖Z‖ + ‖b‖) / ‖c * Z + d‖ + ρ * ‖(a * Z + b) / (c * Z + d)‖) / (1 - ρ)) +
        τ * ‖(a * Z + b) / (c * Z + d)‖ := by
  obtain ⟨ea, eb, ec, ed⟩ := mapMo_abcd (mapC trap) m
  refine ⟨?_, C87_moebius_apply rounding_trapping (roundoff_lt_one hφ) _ _ a b c d Z (by rw [ea]; exact val_mapC ha) (by rw [eb]; exact val_mapC hb)
    (by rw [ec]; exact val_mapC hc) (by rw [ed]; exact val_mapC hd) (val_mapC hz) h0 hρ hρ' hV hτ⟩
  refine isC (w := (mapMo (mapC trap) m).apply (mapC trap z)) ?_ hV
  show RelC Sim ((m.a * z + m.b) / (m.c * z + m.d)) (((mapMo (mapC trap) m).a * mapC trap z + (mapMo (mapC trap) m).b) / ((mapMo (mapC trap) m).c * mapC trap z + (mapMo (mapC trap) m).d))
  rw [ea, eb, ec, ed]
  exact relC_div (opRel_sim.cAdd (opRel_sim.cMul (simC _) (simC _)) (simC _)) (opRel_sim.cAdd (opRel_sim.cMul (simC _) (simC _)) (simC _))
/-- … and to a quaternion point. -/
theorem C91_moebius_apply_quaternion (hφ : WF φ) (m : Moebius (Cpx (Ieee φ))) (q : Quat (Ieee φ)) (a b c d : ℂ) (Q : Quaternion ℝ) (ha : IsC m.a a)
    (hb : IsC m.b b) (hc : IsC m.c c) (hd : IsC m.d d) (hq : IsQ q Q) (h0 : (c : Quaternion ℝ) * Q + d ≠ 0) {ρ : ℝ} (hρ : ρ < 1)
    (hρ' : gam (2 * gam (roundoff φ) 2) 2 * (‖c‖ * ‖Q‖ + ‖d‖) ≤ ρ * ‖(c : Quaternion ℝ) * Q + d‖) {V : Quaternion ℝ}
    (hV : ((mapMo (mapC trap) m).apply (mapQ trap q)).HasVal V) {τ : ℝ} (hτ : τ = (1 + 2 * gam (roundoff φ) 4) * ((1 - roundoff φ) ^ 5)⁻¹ - 1) :
    IsQ (m.apply q) V ∧ ‖V - ((a : Quaternion ℝ) * Q + b) / (c * Q + d)‖ ≤
      (1 + τ) * ((gam (2 * gam (roundoff φ) 2) 2 * (‖a‖ * ‖Q‖ + ‖b‖) / ‖(c : Quaternion ℝ) * Q + d‖ + ρ * ‖((a : Quaternion ℝ) * Q + b) / (c * Q + d)‖) / (1 - ρ)) +
        τ * ‖((a : Quaternion ℝ) * Q + b) / (c * Q + d)‖ := by
  obtain ⟨ea, eb, ec, ed⟩ := mapMo_abcd (mapC trap) m
  refine ⟨?_, C87_moebius_apply_quaternion rounding_trapping (roundoff_lt_one hφ) _ _ a b c d Q (by rw [ea]; exact val_mapC ha) (by rw [eb]; exact val_mapC hb)
    (by rw [ec]; exact val_mapC hc) (by rw [ed]; exact val_mapC hd) (val_mapQ hq) h0 hρ hρ' hV hτ⟩
  refine isQ (w := (mapMo (mapC trap) m).apply (mapQ trap q)) ?_ hV
  show RelQ Sim ((m.a * q + m.b : Quat (Ieee φ)) / (m.c * q + m.d)) (((mapMo (mapC trap) m).a * mapQ trap q + (mapMo (mapC trap) m).b : Quat (Fl (trapping φ))) / ((mapMo (mapC trap) m).c * mapQ trap q + (mapMo (mapC trap) m).d))
  rw [ea, eb, ec, ed]
  exact relQ_div (relQ_addC (simC _) (relQ_cMul (simC _) (simQ _))) (relQ_addC (simC _) (relQ_cMul (simC _) (simQ _)))
/-- Entries of the inverse of a matrix. -/
theorem C91_inverse {n : Nat} (A : Mat (Ieee φ) (n + 1) (n + 1)) (a : Matrix (Fin (n + 1)) (Fin (n + 1)) ℝ)
    (ha : ∀ i j : Fin (n + 1), A[i.1][j.1].toReal? = some (a i j)) (h0 : a.det ≠ 0) {ρ : ℝ} (hρ : ρ < 1)
    (hρ' : gam (roundoff φ) ((n + 1) * (n + 4) / 2) * (a.map abs).permanent ≤ ρ * |a.det|) (i j : Fin (n + 1)) {r : ℝ}
    (hr : (A.map trap).inv[i.1][j.1].val = some r) :
    A.inv[i.1][j.1].toReal? = some r ∧
    |r - a⁻¹ i j| ≤ (1 + roundoff φ) * ((gam (roundoff φ) (n * (n + 3) / 2) * ((a.map abs).submatrix j.succAbove i.succAbove).permanent / |a.det| +
      ρ * |a⁻¹ i j|) / (1 - ρ)) + roundoff φ * |a⁻¹ i j| := by
  refine ⟨?_, C87_inverse rounding_trapping _ a (fun i j => by simpa [trap] using ha i j) h0 hρ hρ' i j hr⟩
  rw [Mat.getElem_congr_mat (Mat.inv_eq _) i i.2 j j.2, Mat.getElem_divS] at hr ⊢
  exact sim_div (opRel_sim.adj (simM A) i.1 i.2 j.1 j.2) (opRel_sim.det (simM A)) r hr

/-! ## the hypotheses are met by `f64` computations -/
namespace TrapEx
open IeeeEx
/-- A quaternion of `f64` integers. -/
noncomputable def q (w x y z : ℤ) : Quat (Ieee Fmt.f64) := Quat.new (lit w) (lit x) (lit y) (lit z)
theorem q_is (w x y z : ℤ) : IsQ (q w x y z) ⟨w, x, y, z⟩ := by refine ⟨?_, ?_, ?_, ?_⟩ <;> simp [q, lit_val]
theorem q_R (w x y z : ℤ) : RelQ (BInt.R (2 ^ 53)) (CompEx.qi w x y z) (mapQ trap (q w x y z)) := by
  have := val_mapQ (q_is w x y z)
  exact ⟨BInt.of_R this.1, BInt.of_R this.2.1, BInt.of_R this.2.2.1, BInt.of_R this.2.2.2⟩
theorem q_eval {p : Quat BInt} {r : Quat (Fl (trapping Fmt.f64))} (h : RelQ (BInt.R (2 ^ 53)) p r) (hb : p.w.b ≤ 2 ^ 53 ∧ p.x.b ≤ 2 ^ 53 ∧ p.y.b ≤ 2 ^ 53 ∧ p.z.b ≤ 2 ^ 53) :
    r.HasVal ⟨p.w.n, p.x.n, p.y.n, p.z.n⟩ := ⟨h.1.eval hb.1, h.2.1.eval hb.2.1, h.2.2.1.eval hb.2.2.1, h.2.2.2.eval hb.2.2.2⟩
/-- A complex number of `f64` integers. -/
noncomputable def c (x y : ℤ) : Cpx (Ieee Fmt.f64) := Cpx.new (lit x) (lit y)
theorem c_is (x y : ℤ) : IsC (c x y) ⟨x, y⟩ := by refine ⟨?_, ?_⟩ <;> simp [c, lit_val]
theorem c_R (x y : ℤ) : RelC (BInt.R (2 ^ 53)) (CompEx.ci x y) (mapC trap (c x y)) := by
  have := val_mapC (c_is x y)
  exact ⟨BInt.of_R this.1, BInt.of_R this.2⟩
theorem c_eval {p : Cpx BInt} {r : Cpx (Fl (trapping Fmt.f64))} (h : RelC (BInt.R (2 ^ 53)) p r) (hb : p.re.b ≤ 2 ^ 53 ∧ p.im.b ≤ 2 ^ 53) :
    r.HasVal ⟨p.re.n, p.im.n⟩ := ⟨h.1.eval hb.1, h.2.eval hb.2⟩
theorem m_R (a : Matrix (Fin N) (Fin N) ℤ) : RelM (BInt.R (2 ^ 53)) (BInt.mat a) ((mat fun i j => (a i j : ℝ)).map trap) := BInt.mat_R (trap_mat a)
theorem v_R (a : Fin N → ℤ) : RelV (BInt.R (2 ^ 53)) (BInt.vec a) ((vec fun i => (a i : ℝ)).map trap) := BInt.vec_R (trap_vec a)
theorem div1 {a b : Fl (trapping Fmt.f64)} {n : ℤ} (ha : a.val = some (n : ℝ)) (hb : b.val = some ((1 : ℤ) : ℝ)) (hn : n.natAbs ≤ 2 ^ 53) : (a / b).val = some (n : ℝ) :=
  FlEx.div_val exact64 (m := 1) (by simpa using ha) hb (by decide) hn
theorem neg1 {a : Fl (trapping Fmt.f64)} {n : ℤ} (ha : a.val = some (n : ℝ)) : (-a).val = some ((-n : ℤ) : ℝ) := by
  show a.val.map (fun x => -x) = _; rw [ha]; simp
/-- The inverse of a complex unit. -/
theorem inv_c {z : Cpx (Fl (trapping Fmt.f64))} {x y : ℤ} (hz : z.HasVal ⟨x, y⟩) (hn : z.normSqr.val = some ((1 : ℤ) : ℝ)) (hx : x.natAbs ≤ 2 ^ 53) (hy : y.natAbs ≤ 2 ^ 53) :
    z.inv.HasVal ⟨x, (-y : ℤ)⟩ := by
  refine ⟨?_, ?_⟩
  · rw [show z.inv.re = z.re / z.normSqr by simp [Cpx.inv]]; exact div1 hz.1 hn hx
  · rw [show z.inv.im = -z.im / z.normSqr by simp [Cpx.inv]]; exact div1 (neg1 hz.2) hn (by simpa using hy)
/-- The inverse of a quaternion unit. -/
theorem inv_q {r : Quat (Fl (trapping Fmt.f64))} {w x y z : ℤ} (hr : r.HasVal ⟨w, x, y, z⟩) (hn : r.normSqr.val = some ((1 : ℤ) : ℝ)) (hw : w.natAbs ≤ 2 ^ 53)
    (hx : x.natAbs ≤ 2 ^ 53) (hy : y.natAbs ≤ 2 ^ 53) (hz : z.natAbs ≤ 2 ^ 53) : r.inv.HasVal ⟨w, (-x : ℤ), (-y : ℤ), (-z : ℤ)⟩ := by
  refine ⟨?_, ?_, ?_, ?_⟩
  · rw [show r.inv.w = r.w / r.normSqr by simp [Quat.inv]]; exact div1 hr.1 hn hw
  · rw [show r.inv.x = -r.x / r.normSqr by simp [Quat.inv]]; exact div1 (neg1 hr.2.1) hn (by simpa using hx)
  · rw [show r.inv.y = -r.y / r.normSqr by simp [Quat.inv]]; exact div1 (neg1 hr.2.2.1) hn (by simpa using hy)
  · rw [show r.inv.z = -r.z / r.normSqr by simp [Quat.inv]]; exact div1 (neg1 hr.2.2.2) hn (by simpa using hz)
theorem inv_i : (mapC trap (c 0 (-1))).inv.HasVal ⟨(0 : ℤ), (-(-1) : ℤ)⟩ :=
  inv_c (val_mapC (c_is 0 (-1))) (((BInt.opRel exact64).cNormSqr (c_R 0 (-1))).eval (by decide +kernel)) (by decide) (by decide)
theorem div_i : ∃ V, (mapC trap (c 3 4) / mapC trap (c 0 (-1))).HasVal V := by
  have h : RelC (BInt.R (2 ^ 53)) (CompEx.ci 0 1) (mapC trap (c 0 (-1))).inv := ⟨BInt.of_R inv_i.1, BInt.of_R inv_i.2⟩
  exact ⟨_, c_eval ((BInt.opRel exact64).cMul (c_R 3 4) h) (by decide +kernel)⟩
theorem inv_j : (mapQ trap (q 0 0 (-1) 0)).inv.HasVal ⟨(0 : ℤ), (-0 : ℤ), (-(-1) : ℤ), (-0 : ℤ)⟩ :=
  inv_q (val_mapQ (q_is 0 0 (-1) 0)) (((BInt.opRel exact64).qNormSqr (q_R 0 0 (-1) 0)).eval (by decide +kernel)) (by decide) (by decide) (by decide) (by decide)
theorem div_j : ∃ V, (mapQ trap (q 1 2 3 4) / mapQ trap (q 0 0 (-1) 0)).HasVal V := by
  have h : RelQ (BInt.R (2 ^ 53)) (CompEx.qi 0 0 1 0) (mapQ trap (q 0 0 (-1) 0)).inv := ⟨BInt.of_R inv_j.1, BInt.of_R inv_j.2.1, BInt.of_R inv_j.2.2.1, BInt.of_R inv_j.2.2.2⟩
  exact ⟨_, q_eval ((BInt.opRel exact64).qMul (q_R 1 2 3 4) h) (by decide +kernel)⟩
theorem inv_m : ((mat fun i j => ((!![2, 3; 1, 2] : Matrix (Fin 2) (Fin 2) ℤ) i j : ℝ)).map trap).inv[0][1].val = some ((-3 : ℤ) : ℝ) := by
  rw [Mat.getElem_congr_mat (Mat.inv_eq _) 0 (by decide) 1 (by decide), Mat.getElem_divS]
  have h1 := ((BInt.opRel exact64).adj (m_R !![2, 3; 1, 2]) 0 (by decide) 1 (by decide)).eval (by decide +kernel)
  have h2 := ((BInt.opRel exact64).det (m_R !![2, 3; 1, 2])).eval (by decide +kernel)
  rw [show ((BInt.mat !![2, 3; 1, 2]).adj[0][1]).n = -3 by decide +kernel] at h1
  rw [show ((BInt.mat !![2, 3; 1, 2]).det).n = 1 by decide +kernel] at h2
  exact div1 h1 h2 (by decide)
/-- The transformation `z ↦ (2 z + 3) / (z + i)`, applied to `1 - i`, where the denominator is 1. -/
noncomputable def moe : Moebius (Cpx (Ieee Fmt.f64)) := Moebius.new (c 2 0) (c 3 0) (c 1 0) (c 0 1)
theorem moe_val : ∃ V, ((mapMo (mapC trap) moe).apply (mapC trap (c 1 (-1)))).HasVal V := by
  have hr := BInt.opRel exact64
  have hn := hr.cAdd (hr.cMul (c_R 2 0) (c_R 1 (-1))) (c_R 3 0)
  have hd := hr.cAdd (hr.cMul (c_R 1 0) (c_R 1 (-1))) (c_R 0 1)
  have hi := inv_c (c_eval hd (by decide +kernel)) ((hr.cNormSqr hd).eval (by decide +kernel)) (by decide +kernel) (by decide +kernel)
  have hi' : RelC (BInt.R (2 ^ 53)) (CompEx.ci _ _) (mapC trap (c 1 0) * mapC trap (c 1 (-1)) + mapC trap (c 0 1)).inv := ⟨BInt.of_R hi.1, BInt.of_R hi.2⟩
  have := c_eval (hr.cMul hn hi') (by decide +kernel)
  obtain ⟨ea, eb, ec, ed⟩ := mapMo_abcd (mapC trap) moe
  have e : (mapMo (mapC trap) moe).apply (mapC trap (c 1 (-1))) = (mapC trap (c 2 0) * mapC trap (c 1 (-1)) + mapC trap (c 3 0)) *
      (mapC trap (c 1 0) * mapC trap (c 1 (-1)) + mapC trap (c 0 1)).inv := by
    unfold Moebius.apply
    rw [ea, eb, ec, ed]; rfl
  rw [e]; exact ⟨_, this⟩
/-- The transformation `z ↦ (2 z + 3) / (z - 2 i)`, applied to `2 i + k`, where the denominator is `k`. -/
noncomputable def moeQ : Moebius (Cpx (Ieee Fmt.f64)) := Moebius.new (c 2 0) (c 3 0) (c 1 0) (c 0 (-2))
theorem cMul_R {z : Cpx BInt} {z' : Cpx (Fl (trapping Fmt.f64))} {p : Quat BInt} {p' : Quat (Fl (trapping Fmt.f64))} (h : RelC (BInt.R (2 ^ 53)) z z')
    (h' : RelQ (BInt.R (2 ^ 53)) p p') : RelQ (BInt.R (2 ^ 53)) (z * p) (z' * p') := relQ_cMul' (BInt.opRel exact64) h h'
theorem addC_R {z : Cpx BInt} {z' : Cpx (Fl (trapping Fmt.f64))} {p : Quat BInt} {p' : Quat (Fl (trapping Fmt.f64))} (h : RelC (BInt.R (2 ^ 53)) z z')
    (h' : RelQ (BInt.R (2 ^ 53)) p p') : RelQ (BInt.R (2 ^ 53)) (p + z) (p' + z') := relQ_addC' (BInt.opRel exact64) h h'
theorem moeQ_val : ∃ V, ((mapMo (mapC trap) moeQ).apply (mapQ trap (q 0 2 0 1))).HasVal V := by
  have hr := BInt.opRel exact64
  have hn := addC_R (c_R 3 0) (cMul_R (c_R 2 0) (q_R 0 2 0 1))
  have hd := addC_R (c_R 0 (-2)) (cMul_R (c_R 1 0) (q_R 0 2 0 1))
  have hi := inv_q (q_eval hd (by decide +kernel)) ((hr.qNormSqr hd).eval (by decide +kernel)) (by decide +kernel) (by decide +kernel) (by decide +kernel) (by decide +kernel)
  have hi' : RelQ (BInt.R (2 ^ 53)) (CompEx.qi _ _ _ _) (mapC trap (c 1 0) * mapQ trap (q 0 2 0 1) + mapC trap (c 0 (-2)) : Quat (Fl (trapping Fmt.f64))).inv :=
    ⟨BInt.of_R hi.1, BInt.of_R hi.2.1, BInt.of_R hi.2.2.1, BInt.of_R hi.2.2.2⟩
  have := q_eval (hr.qMul hn hi') (by decide +kernel)
  obtain ⟨ea, eb, ec, ed⟩ := mapMo_abcd (mapC trap) moeQ
  have e : (mapMo (mapC trap) moeQ).apply (mapQ trap (q 0 2 0 1)) = (mapC trap (c 2 0) * mapQ trap (q 0 2 0 1) + mapC trap (c 3 0) : Quat (Fl (trapping Fmt.f64))) *
      (mapC trap (c 1 0) * mapQ trap (q 0 2 0 1) + mapC trap (c 0 (-2)) : Quat (Fl (trapping Fmt.f64))).inv := by
    unfold Moebius.apply
    rw [ea, eb, ec, ed]; rfl
  rw [e]; exact ⟨_, this⟩
end TrapEx
section
open IeeeEx TrapEx
example := C91_rotation3 (.two (.one (.fromQuaternion (q 1 2 3 4))) (.two (.one (.fromQuaternion (q 5 6 7 8))) (.one (.fromQuaternion (q 1 (-1) 2 0)))))
  [⟨(1 : ℤ), (2 : ℤ), (3 : ℤ), (4 : ℤ)⟩, ⟨(5 : ℤ), (6 : ℤ), (7 : ℤ), (8 : ℤ)⟩, ⟨(1 : ℤ), (-1 : ℤ), (2 : ℤ), (0 : ℤ)⟩]
  (.cons (q_is _ _ _ _) (.cons (q_is _ _ _ _) (.cons (q_is _ _ _ _) .nil)))
  (q_eval ((BInt.opRel exact64).qMul (q_R 1 2 3 4) ((BInt.opRel exact64).qMul (q_R 5 6 7 8) (q_R 1 (-1) 2 0))) (by decide +kernel))
example := C91_f64_rotation3 (.two (.one (.fromQuaternion (q 0 1 0 0))) (.two (.one (.fromQuaternion (q 0 0 (-1) 0))) (.one (.fromQuaternion (q 0 0 0 1)))))
  [⟨(0 : ℤ), (1 : ℤ), (0 : ℤ), (0 : ℤ)⟩, ⟨(0 : ℤ), (0 : ℤ), (-1 : ℤ), (0 : ℤ)⟩, ⟨(0 : ℤ), (0 : ℤ), (0 : ℤ), (1 : ℤ)⟩]
  (.cons (q_is _ _ _ _) (.cons (q_is _ _ _ _) (.cons (q_is _ _ _ _) .nil)))
  (by
    intro q hq
    rcases List.mem_cons.1 hq with rfl | hq
    · exact (quat_norm _).trans (by simp)
    rcases List.mem_cons.1 hq with rfl | hq
    · exact (quat_norm _).trans (by simp)
    rcases List.mem_cons.1 hq with rfl | hq
    · exact (quat_norm _).trans (by simp)
    cases hq) (by decide)
  (q_eval ((BInt.opRel exact64).qMul (q_R 0 1 0 0) ((BInt.opRel exact64).qMul (q_R 0 0 (-1) 0) (q_R 0 0 0 1))) (by decide +kernel))
example := C91_rotation2 (.two (.one (.fromComplex (c 1 2))) (.one (.fromComplex (c 3 (-4))))) [⟨(1 : ℤ), (2 : ℤ)⟩, ⟨(3 : ℤ), (-4 : ℤ)⟩]
  (.cons (c_is _ _) (.cons (c_is _ _) .nil)) (c_eval ((BInt.opRel exact64).cMul (c_R 1 2) (c_R 3 (-4))) (by decide +kernel))
example := C91_linear (.two (.one (.fromMatrix (mat fun i j => ((!![1, 2; 3, 4] : Matrix (Fin 2) (Fin 2) ℤ) i j : ℝ)))) (.one (.fromMatrix (mat fun i j => ((!![5, 6; 7, 8] : Matrix (Fin 2) (Fin 2) ℤ) i j : ℝ)))))
  [_, _] (.cons (mat_val _) (.cons (mat_val _) .nil)) 0 1
  ((CompEx.dotM_rel (BInt.opRel exact64) (m_R !![1, 2; 3, 4]) (m_R !![5, 6; 7, 8]) 0 (by decide) 1 (by decide)).eval (by decide +kernel))
/-- Two affine maps of the plane with integer coefficients; no trap in the first component of the translation. -/
noncomputable def TrapEx.aff (a : Matrix (Fin 2) (Fin 2) ℤ) (b : Fin 2 → ℤ) : Affine (Ieee Fmt.f64) 2 :=
  Chain.new (.fromVector (vec fun i => (b i : ℝ))) (.fromMatrix (mat fun i j => (a i j : ℝ)))
/-- Their composition. -/
noncomputable def TrapEx.aff2 : Bracketing (Affine (Ieee Fmt.f64) 2) := .two (.one (aff !![1, 2; 3, 4] ![5, 6])) (.one (aff !![0, -1; 1, 0] ![7, 8]))
theorem TrapEx.aff2_val : ∃ r, ((aff2.map (mapAffine trap)).eval (Transform.chain (Vec (Fl (trapping Fmt.f64)) 2))).shift.intoVector[0].val = some r := by
  have h1 : RelV (BInt.R (2 ^ 53)) ((BInt.mat !![1, 2; 3, 4]).dotV (BInt.vec ![7, 8]))
      (((mat fun i j => ((!![1, 2; 3, 4] : Matrix (Fin 2) (Fin 2) ℤ) i j : ℝ)).map trap).dotV ((vec fun i => ((![7, 8] : Fin 2 → ℤ) i : ℝ)).map trap)) := by
    intro i hi
    rw [Mat.getElem_dotV _ _ _ hi, Mat.getElem_dotV _ _ _ hi]
    exact (BInt.opRel exact64).vDot (m_R !![1, 2; 3, 4] i hi) (v_R ![7, 8])
  exact ⟨_, ((BInt.opRel exact64).vAdd (v_R ![5, 6]) h1 0 (by decide)).eval (by decide +kernel)⟩
example : ∃ r b, (aff2.eval (Transform.chain (Vec (Ieee Fmt.f64) 2))).shift.intoVector[0].toReal? = some r ∧ |r - 28| ≤ b := by
  obtain ⟨r, h⟩ := aff2_val
  have := (C91_affine aff2
    [(fun i j => ((!![1, 2; 3, 4] : Matrix (Fin 2) (Fin 2) ℤ) i j : ℝ), fun i => ((![5, 6] : Fin 2 → ℤ) i : ℝ)),
     (fun i j => ((!![0, -1; 1, 0] : Matrix (Fin 2) (Fin 2) ℤ) i j : ℝ), fun i => ((![7, 8] : Fin 2 → ℤ) i : ℝ))]
    (.cons ⟨mat_val _, vec_val _⟩ (.cons ⟨mat_val _, vec_val _⟩ .nil)) rfl).2 0 _ h
  refine ⟨r, _, this.1, le_of_eq_of_le ?_ this.2⟩
  congr 2
  simp [affProd, affMul, Matrix.mulVec, dotProduct, Fin.sum_univ_two]; norm_num
theorem TrapEx.moe2_val : ∃ V, (((Bracketing.two (.one moe) (.one moeQ)).map (mapMo (mapC trap))).eval (Transform.chain (Cpx (Fl (trapping Fmt.f64))))).intoMatrix[0][1].HasVal V := by
  have hr := BInt.opRel exact64
  have h := hr.cAdd (hr.cMul (c_R 2 0) (c_R 3 0)) (hr.cMul (c_R 3 0) (c_R 0 (-2)))
  have := c_eval h (by decide +kernel)
  have e : (((Bracketing.two (.one moe) (.one moeQ)).map (mapMo (mapC trap))).eval (Transform.chain (Cpx (Fl (trapping Fmt.f64))))).intoMatrix[0][1] =
      mapC trap (c 2 0) * mapC trap (c 3 0) + mapC trap (c 3 0) * mapC trap (c 0 (-2)) := by
    show ((mapMo (mapC trap) moe).mat.dotM (mapMo (mapC trap) moeQ).mat)[0][1] = _
    rw [Mat.getElem_dotM _ _ 0 (by decide) 1 (by decide)]
    rfl
  rw [e]; exact ⟨_, this⟩
example : ∃ V b, IsC ((Bracketing.two (.one moe) (.one moeQ)).eval (Transform.chain (Cpx (Ieee Fmt.f64)))).intoMatrix[0][1] V ∧ ‖V - ⟨6, -6⟩‖ ≤ b := by
  obtain ⟨V, h⟩ := moe2_val
  have := C91_moebius (Bracketing.two (.one moe) (.one moeQ)) [!![⟨(2 : ℤ), (0 : ℤ)⟩, ⟨(3 : ℤ), (0 : ℤ)⟩; ⟨(1 : ℤ), (0 : ℤ)⟩, ⟨(0 : ℤ), (1 : ℤ)⟩],
      !![⟨(2 : ℤ), (0 : ℤ)⟩, ⟨(3 : ℤ), (0 : ℤ)⟩; ⟨(1 : ℤ), (0 : ℤ)⟩, ⟨(0 : ℤ), (-2 : ℤ)⟩]]
    (.cons (fun i j => by fin_cases i <;> fin_cases j; exacts [c_is _ _, c_is _ _, c_is _ _, c_is _ _])
      (.cons (fun i j => by fin_cases i <;> fin_cases j; exacts [c_is _ _, c_is _ _, c_is _ _, c_is _ _]) .nil)) 0 1 h
  refine ⟨V, _, this.1, le_of_eq_of_le ?_ this.2⟩
  congr 2
  apply Complex.ext <;> simp [Matrix.mul_apply, Fin.sum_univ_two] <;> norm_num
example := C91_complex_inv C80_formats.2 (c 0 (-1)) _ (c_is 0 (-1)) inv_i
example : ∃ V b, IsC (c 3 4 / c 0 (-1)) V ∧ ‖V - ⟨(3 : ℤ), (4 : ℤ)⟩ / ⟨(0 : ℤ), (-1 : ℤ)⟩‖ ≤ b :=
  div_i.imp fun _ h => ⟨_, C91_complex_div C80_formats.2 (c 3 4) (c 0 (-1)) _ _ (c_is 3 4) (c_is 0 (-1)) h⟩
example := C91_quaternion_inv C80_formats.2 (q 0 0 (-1) 0) _ (q_is 0 0 (-1) 0) inv_j
example : ∃ V b, IsQ (q 1 2 3 4 / q 0 0 (-1) 0) V ∧ ‖V - QuotEx.Q 1 2 3 4 / QuotEx.Q 0 0 (-1) 0‖ ≤ b :=
  div_j.imp fun _ h => ⟨_, C91_quaternion_div C80_formats.2 (q 1 2 3 4) (q 0 0 (-1) 0) _ _ (q_is 1 2 3 4) (q_is 0 0 (-1) 0) h⟩
end
section
open IeeeEx TrapEx
example : ∃ V b, IsC (moe.apply (c 1 (-1))) V ∧ ‖V - (⟨(2 : ℤ), (0 : ℤ)⟩ * ⟨(1 : ℤ), (-1 : ℤ)⟩ + ⟨(3 : ℤ), (0 : ℤ)⟩) / (⟨(1 : ℤ), (0 : ℤ)⟩ * ⟨(1 : ℤ), (-1 : ℤ)⟩ + ⟨(0 : ℤ), (1 : ℤ)⟩)‖ ≤ b := by
  obtain ⟨V, hV⟩ := moe_val
  have e : (⟨(1 : ℤ), (0 : ℤ)⟩ * ⟨(1 : ℤ), (-1 : ℤ)⟩ + ⟨(0 : ℤ), (1 : ℤ)⟩ : ℂ) = 1 := by apply Complex.ext <;> norm_num
  have s2 : Real.sqrt 2 ≤ 2 := by rw [Real.sqrt_le_left (by norm_num)]; norm_num
  refine ⟨V, _, C91_moebius_apply C80_formats.2 moe (c 1 (-1)) _ _ _ _ _ (by simpa [moe] using c_is 2 0) (by simpa [moe] using c_is 3 0) (by simpa [moe] using c_is 1 0)
    (by simpa [moe] using c_is 0 1) (c_is 1 (-1)) (by rw [e]; exact one_ne_zero) (ρ := 1 / 2) (by norm_num) ?_ hV rfl⟩
  rw [e, norm_one, Complex.norm_eq_sqrt_sq_add_sq, Complex.norm_eq_sqrt_sq_add_sq, Complex.norm_eq_sqrt_sq_add_sq, show roundoff Fmt.f64 = 1 / 2 ^ 53 from rfl]
  have h1 : Real.sqrt (((1 : ℤ) : ℝ) ^ 2 + ((0 : ℤ) : ℝ) ^ 2) * Real.sqrt (((1 : ℤ) : ℝ) ^ 2 + ((-1 : ℤ) : ℝ) ^ 2) + Real.sqrt (((0 : ℤ) : ℝ) ^ 2 + ((1 : ℤ) : ℝ) ^ 2) ≤ 3 := by
    norm_num; linarith
  have h2 : gam (Real.sqrt 2 * gam (1 / 2 ^ 53) 2) 2 ≤ 1 / 6 := by
    have : gam (1 / 2 ^ 53) 2 ≤ 1 / 100 := by unfold gam; norm_num
    have g0 : 0 ≤ gam (1 / 2 ^ 53) 2 := gam_nonneg (by norm_num) 2
    have : Real.sqrt 2 * gam (1 / 2 ^ 53) 2 ≤ 1 / 50 := by nlinarith [Real.sqrt_nonneg 2]
    have : 0 ≤ Real.sqrt 2 * gam (1 / 2 ^ 53) 2 := by positivity
    generalize Real.sqrt 2 * gam (1 / 2 ^ 53) 2 = t at *
    unfold gam; nlinarith
  exact (mul_le_mul h2 h1 (by positivity) (by norm_num)).trans (by norm_num)
example : ∃ V b, IsQ (moeQ.apply (q 0 2 0 1)) V ∧ ‖V - (((⟨(2 : ℤ), (0 : ℤ)⟩ : ℂ) : Quaternion ℝ) * QuotEx.Q 0 2 0 1 + (⟨(3 : ℤ), (0 : ℤ)⟩ : ℂ)) /
    (((⟨(1 : ℤ), (0 : ℤ)⟩ : ℂ) : Quaternion ℝ) * QuotEx.Q 0 2 0 1 + (⟨(0 : ℤ), (-2 : ℤ)⟩ : ℂ))‖ ≤ b := by
  obtain ⟨V, hV⟩ := moeQ_val
  have e : (((⟨(1 : ℤ), (0 : ℤ)⟩ : ℂ) : Quaternion ℝ) * QuotEx.Q 0 2 0 1 + (⟨(0 : ℤ), (-2 : ℤ)⟩ : ℂ)) = QuotEx.Q 0 0 0 1 := by
    ext <;> simp only [Quaternion.re_add, Quaternion.imI_add, Quaternion.imJ_add, Quaternion.imK_add, Quaternion.re_mul, Quaternion.imI_mul, Quaternion.imJ_mul, Quaternion.imK_mul,
      Quaternion.re_coeComplex, Quaternion.imI_coeComplex, Quaternion.imJ_coeComplex, Quaternion.imK_coeComplex] <;> simp only [QuotEx.Q] <;> norm_num
  have n1 : ‖QuotEx.Q 0 0 0 1‖ = 1 := by rw [quat_norm]; simp [QuotEx.Q]
  refine ⟨V, _, C91_moebius_apply_quaternion C80_formats.2 moeQ (q 0 2 0 1) _ _ _ _ _ (by simpa [moeQ] using c_is 2 0) (by simpa [moeQ] using c_is 3 0)
    (by simpa [moeQ] using c_is 1 0) (by simpa [moeQ] using c_is 0 (-2)) (q_is 0 2 0 1)
    (by rw [show (⟨(0 : ℤ), (2 : ℤ), (0 : ℤ), (1 : ℤ)⟩ : Quaternion ℝ) = QuotEx.Q 0 2 0 1 from rfl, e]; intro h; rw [h, norm_zero] at n1; exact zero_ne_one n1) (ρ := 1 / 2) (by norm_num) ?_ hV rfl⟩
  rw [show (⟨(0 : ℤ), (2 : ℤ), (0 : ℤ), (1 : ℤ)⟩ : Quaternion ℝ) = QuotEx.Q 0 2 0 1 from rfl, e, n1, Complex.norm_eq_sqrt_sq_add_sq, Complex.norm_eq_sqrt_sq_add_sq, quat_norm, show roundoff Fmt.f64 = 1 / 2 ^ 53 from rfl]
  have s5 : Real.sqrt 5 ≤ 3 := by rw [Real.sqrt_le_left (by norm_num)]; norm_num
  have s4 : Real.sqrt 4 ≤ 2 := by rw [Real.sqrt_le_left (by norm_num)]; norm_num
  have h1 : Real.sqrt (((1 : ℤ) : ℝ) ^ 2 + ((0 : ℤ) : ℝ) ^ 2) * Real.sqrt ((QuotEx.Q 0 2 0 1).re ^ 2 + (QuotEx.Q 0 2 0 1).imI ^ 2 + (QuotEx.Q 0 2 0 1).imJ ^ 2 + (QuotEx.Q 0 2 0 1).imK ^ 2) +
      Real.sqrt (((0 : ℤ) : ℝ) ^ 2 + ((-2 : ℤ) : ℝ) ^ 2) ≤ 5 := by
    simp only [QuotEx.Q]; norm_num; linarith
  have h2 : gam (2 * gam (1 / 2 ^ 53) 2) 2 ≤ 1 / 10 := by unfold gam; norm_num
  exact (mul_le_mul h2 h1 (by positivity) (by norm_num)).trans (by norm_num)
example := C91_inverse (mat fun i j => ((!![2, 3; 1, 2] : Matrix (Fin 2) (Fin 2) ℤ) i j : ℝ)) !![2, 3; 1, 2] (fun i j => (mat_val (fun i j => ((!![2, 3; 1, 2] : Matrix (Fin 2) (Fin 2) ℤ) i j : ℝ)) i j).trans (by fin_cases i <;> fin_cases j <;> simp))
  (by rw [Matrix.det_fin_two]; norm_num) (ρ := 1 / 2) (by norm_num)
  (by
    have hp : (Matrix.map (!![2, 3; 1, 2] : Matrix (Fin 2) (Fin 2) ℝ) abs).permanent = 7 := by
      rw [Matrix.permanent, show (Finset.univ : Finset (Equiv.Perm (Fin 2))) = {1, Equiv.swap 0 1} by decide, Finset.sum_pair (by decide)]
      simp [Fin.prod_univ_two]; norm_num
    rw [hp, Matrix.det_fin_two, show roundoff Fmt.f64 = 1 / 2 ^ 53 from rfl]
    unfold gam; norm_num) 0 1 inv_m
end
end Vecmat
