import Verif.Props.Law
/-!
# C73: laws of the samplers of transformations and of the other types
-/
namespace Vecmat
open Spec MeasureTheory ProbabilityTheory
open scoped ENNReal
variable {N : Nat}

/-- What is computed from the numbers before position `m` is independent of what is computed from the rest. -/
theorem Law.indep_split (m : ℕ) (E F : Set (ℕ → ℝ)) (hE : MeasurableSet E) (hF : MeasurableSet F)
    (hdE : ∀ ω ω' : ℕ → ℝ, (∀ i < m, ω i = ω' i) → (ω ∈ E ↔ ω' ∈ E))
    (hdF : ∀ ω ω' : ℕ → ℝ, (∀ i ≥ m, ω i = ω' i) → (ω ∈ F ↔ ω' ∈ F)) : randomness {ω | ω ∈ E ∧ ω ∈ F} = randomness E * randomness F := by
  have hi : iIndepFun (fun (i : ℕ) (ω : ℕ → ℝ) => ω i) randomness := iIndepFun_infinitePi (P := fun _ : ℕ => unif) (fun _ => measurable_id)
  have h2 := indep_iSup_of_disjoint (m := fun i : ℕ => MeasurableSpace.comap (fun ω : ℕ → ℝ => ω i) inferInstance)
    (fun i => (measurable_pi_apply i).comap_le) hi (S := {i | i < m}) (T := {i | m ≤ i})
    (by rw [Set.disjoint_left]; intro i h1 h2; simp only [Set.mem_ofPred_eq] at h1 h2; omega)
  rw [Indep_iff] at h2
  have key : ∀ (S : Set ℕ) [DecidablePred (· ∈ S)] (G : Set (ℕ → ℝ)), MeasurableSet G →
      (∀ ω ω' : ℕ → ℝ, (∀ i ∈ S, ω i = ω' i) → (ω ∈ G ↔ ω' ∈ G)) →
      MeasurableSet[⨆ i ∈ S, MeasurableSpace.comap (fun ω : ℕ → ℝ => ω i) inferInstance] G := by
    intro S _ G hG hdep
    let r : (ℕ → ℝ) → ℕ → ℝ := fun ω i => if i ∈ S then ω i else 0
    have hr : Measurable[⨆ i ∈ S, MeasurableSpace.comap (fun ω : ℕ → ℝ => ω i) inferInstance] r := by
      refine @measurable_pi_lambda _ _ _ (_) _ _ fun i => ?_
      by_cases h : i ∈ S
      · simp only [r, if_pos h]
        intro B hB
        exact (le_iSup₂_of_le (f := fun i (_ : i ∈ S) => MeasurableSpace.comap (fun ω : ℕ → ℝ => ω i) inferInstance) i h le_rfl) _ ⟨B, hB, rfl⟩
      · simp only [r, if_neg h]; exact @measurable_const _ _ _ (_) _
    have e : r ⁻¹' G = G := by
      ext ω
      refine hdep _ _ fun i hi => ?_
      simp only [r, if_pos hi]
    rw [← e]
    exact hr hG
  classical
  exact h2 E F (key {i | i < m} E hE hdE) (key {i | m ≤ i} F hF hdF)

theorem Law.gauss_congr {p : ℕ} {ω ω' : ℕ → ℝ} (h : ∀ i ≥ p, ω i = ω' i) (j : ℕ) : Law.gauss p ω j = Law.gauss p ω' j := by
  unfold Law.gauss; rw [h _ (by omega), h _ (by omega)]
theorem Law.gauss_congr_lt {p m : ℕ} {ω ω' : ℕ → ℝ} (h : ∀ i < p + 2 * m, ω i = ω' i) (j : ℕ) (hj : j < m) : Law.gauss p ω j = Law.gauss p ω' j := by
  unfold Law.gauss; rw [h _ (by omega), h _ (by omega)]

/-- A vector of normals followed by any sampler that reads only the rest of the source: independent. -/
theorem Law.vector_then (p : ℕ) (B : Set (Fin N → ℝ)) (hB : MeasurableSet B) (F : Set (ℕ → ℝ)) (hF : MeasurableSet F)
    (hdF : ∀ ω ω' : ℕ → ℝ, (∀ i ≥ p + 2 * N, ω i = ω' i) → (ω ∈ F ↔ ω' ∈ F)) :
    randomness {ω | (fun i : Fin N => Law.gauss p ω i) ∈ B ∧ ω ∈ F} = gaussians (Fin N) B * randomness F := by
  rw [← Law.gaussians_of_inj p (fun i : Fin N => i.1) Fin.val_injective B hB]
  have hm : Measurable fun ω : ℕ → ℝ => fun i : Fin N => Law.gauss p ω i := by
    have := Law.measurable_gauss p
    exact measurable_pi_lambda _ fun i => (measurable_pi_apply _).comp this
  refine Law.indep_split (p + 2 * N) {ω | (fun i : Fin N => Law.gauss p ω i) ∈ B} F (hm hB) hF (fun ω ω' h => ?_) hdF
  simp only [Set.mem_ofPred_eq]
  have : (fun i : Fin N => Law.gauss p ω i) = fun i : Fin N => Law.gauss p ω' i := by
    funext i; exact Law.gauss_congr_lt h i i.2
  rw [this]

theorem Law.affine_exec (ω : ℕ → ℝ) (p : ℕ) (Y : Eff ℕ (Linear ℝ N)) (a : Affine ℝ N) (p' : ℕ) :
    (do let s ← Distr.shiftNormal (N := N) (Distr.normal (uniformOf ω)); let l ← Y; pure (Chain.new s l) : Eff ℕ (Affine ℝ N)).exec p = (.ok a, p') ↔
      a.outer = ⟨⟨Vector.ofFn fun i => Law.gauss p ω i⟩⟩ ∧ Y.exec (p + 2 * N) = (.ok a.inner, p') := by
  have h : (Distr.vector (N := N) (Distr.normal (uniformOf ω))).exec p = (.ok ⟨Vector.ofFn fun i : Fin N => Law.gauss p ω i⟩, p + 2 * N) := by
    have := Law.vector_exec (N := N) ω p 0
    simpa only [Nat.zero_mul, Nat.mul_zero, Nat.add_zero, Nat.zero_add, Nat.one_mul] using this
  rw [exec_bind, Distr.shiftNormal, exec_map, h]
  show (match (Y >>= fun l => pure (Chain.new (Shift.fromVector _) l) : Eff ℕ (Affine ℝ N)).exec (p + 2 * N) with | r => r) = _ ↔ _
  rw [exec_bind]
  generalize Y.exec (p + 2 * N) = y
  rcases y with ⟨e | l, q⟩
  · simp
  · simp only [exec_pure, Prod.mk.injEq, Except.ok.injEq]
    constructor
    · rintro ⟨rfl, rfl⟩; exact ⟨rfl, rfl, rfl⟩
    · rintro ⟨h1, rfl, rfl⟩
      refine ⟨?_, rfl⟩
      apply Chain.ext
      · exact h1.symm
      · rfl

/-- `Normal` affine transformations: the shift and the linear part are independent, with standard Gaussian components. -/
theorem C73_affine (p : ℕ) (B : Set (Fin N → ℝ)) (hB : MeasurableSet B) (C : Set (Fin N × Fin N → ℝ)) (hC : MeasurableSet C) :
    prob (fun ω => Distr.affineNormal (Distr.normal (uniformOf ω))) p {a : Affine ℝ N |
        (fun i : Fin N => a.outer.intoVector[i.1]) ∈ B ∧ (fun i : Fin N × Fin N => a.inner.intoMatrix[i.1.1][i.2.1]) ∈ C} =
      gaussians (Fin N) B * gaussians (Fin N × Fin N) C := by
  have hx : ∀ ω, (Distr.matrix (M := N) (N := N) (Distr.normal (uniformOf ω))).exec (p + 2 * N) = _ := fun ω => by
    have := Law.matrix_exec (M := N) (N := N) ω (p + 2 * N) 0
    simpa only [Nat.zero_mul, Nat.mul_zero, Nat.add_zero, Nat.zero_add] using this
  have h2 := C73_matrix (M := N) (N := N) (p + 2 * N) C hC
  rw [Law.prob_eq hx] at h2
  rw [← h2, ← Law.vector_then p B hB]
  · unfold prob
    congr 1
    ext ω
    simp only [Set.mem_ofPred_eq, Distr.affineNormal, Law.affine_exec, Distr.linearNormal, exec_map, hx]
    constructor
    · rintro ⟨a, p', ⟨h1, h2⟩, h3, h4⟩
      have h5 := Except.ok.inj (Prod.mk.inj h2).1
      rw [h1] at h3
      rw [← h5] at h4
      exact ⟨by simpa [Shift.intoVector] using h3, h4⟩
    · rintro ⟨h3, h4⟩
      refine ⟨Chain.new _ _, _, ⟨rfl, rfl⟩, by simpa [Shift.intoVector, Chain.new] using h3, h4⟩
  · have hm : Measurable fun ω : ℕ → ℝ => fun i : Fin N × Fin N => Law.gauss (p + 2 * N) ω (i.1.1 * N + i.2.1) := by
      have := Law.measurable_gauss (p + 2 * N)
      exact measurable_pi_lambda _ fun i => (measurable_pi_apply _).comp this
    convert hm hC using 1
    ext ω; simp
  · intro ω ω' h
    simp [Law.gauss_congr h]

/-- `Invertible` affine transformations: the shift is standard Gaussian and independent of the linear part, which has the law of
`Invertible` matrices. -/
theorem C73_affine_invertible (p fuel : ℕ) (B : Set (Fin N → ℝ)) (hB : MeasurableSet B) (C : Set (Fin N × Fin N → ℝ)) (hC : MeasurableSet C) :
    prob (fun ω => Distr.affineInvertible ScalarNorm.normL1 (Distr.normal (uniformOf ω)) fuel) p {a : Affine ℝ N |
        (fun i : Fin N => a.outer.intoVector[i.1]) ∈ B ∧ (fun i : Fin N × Fin N => a.inner.intoMatrix[i.1.1][i.2.1]) ∈ C} =
      gaussians (Fin N) B * prob (fun ω => Distr.invertible ScalarNorm.normL1 (Distr.normal (uniformOf ω)) fuel) p
        {A : Mat ℝ N N | (fun i : Fin N × Fin N => A[i.1.1][i.2.1]) ∈ C} := by
  rw [C73_invertible p fuel C hC, ← C73_invertible (p + 2 * N) fuel C hC]
  unfold prob
  rw [← Law.vector_then p B hB]
  · congr 1
    ext ω
    simp only [Set.mem_ofPred_eq, Distr.affineInvertible, Law.affine_exec, Distr.linearInvertible, exec_map]
    generalize (Distr.invertible (N := N) ScalarNorm.normL1 (Distr.normal (uniformOf ω)) fuel).exec (p + 2 * N) = y
    rcases y with ⟨e | l, q⟩
    · simp
    · constructor
      · rintro ⟨a, p', ⟨h1, h2⟩, h3, h4⟩
        have h5 := Except.ok.inj (Prod.mk.inj h2).1
        rw [h1] at h3
        rw [← h5] at h4
        exact ⟨by simpa [Shift.intoVector] using h3, l, q, rfl, h4⟩
      · rintro ⟨h3, l', q', h4, h5⟩
        simp only [Prod.mk.injEq, Except.ok.injEq] at h4
        obtain ⟨rfl, rfl⟩ := h4
        exact ⟨Chain.new _ _, _, ⟨rfl, rfl⟩, by simpa [Shift.intoVector, Chain.new] using h3, h5⟩
  · have hS := Law.measurable_reject (X := Fin N × Fin N → ℝ) (A := {x | (FloatOps.epsilon : ℝ) < |(Matrix.of fun i j => x (i, j)).det|}) (B := C)
      measurable_accDet hC fuel
    have hm : Measurable fun ω : ℕ → ℝ => fun (k : ℕ) (i : Fin N × Fin N) => Law.gauss (p + 2 * N) ω (k * (N * N) + i.1.1 * N + i.2.1) := by
      have := Law.measurable_gauss (p + 2 * N)
      exact measurable_pi_lambda _ fun k => measurable_pi_lambda _ fun i => (measurable_pi_apply _).comp this
    convert hm hS using 1
    ext ω
    simp only [Set.mem_ofPred_eq, Law.invertible_exec, Set.mem_preimage]
    constructor
    · rintro ⟨x, p', ⟨k, hk, _, rfl, h1, h2⟩, h3⟩
      exact ⟨k, hk, h1, h2, by simpa using h3⟩
    · rintro ⟨k, hk, h1, h2, h3⟩
      exact ⟨_, _, ⟨k, hk, rfl, rfl, h1, h2⟩, by simpa using h3⟩
  · intro ω ω' h
    simp only [Set.mem_ofPred_eq, Law.invertible_exec, Law.gauss_congr h]

/-- The other types are sampled as the vector or matrix they are made of. -/
theorem C73_other_types (p fuel : ℕ) :
    (∀ B, MeasurableSet B → prob (fun ω => Distr.scaleNormal (Distr.normal (uniformOf ω))) p {s | s.intoMag ∈ B} = gaussianReal 0 1 B) ∧
    (∀ B : Set (Fin N → ℝ), MeasurableSet B → prob (fun ω => Distr.shiftNormal (Distr.normal (uniformOf ω))) p
      {s : Shift ℝ N | (fun i : Fin N => s.intoVector[i.1]) ∈ B} = gaussians (Fin N) B) ∧
    (∀ B : Set (Fin N × Fin N → ℝ), MeasurableSet B → prob (fun ω => Distr.linearNormal (Distr.normal (uniformOf ω))) p
      {s : Linear ℝ N | (fun i : Fin N × Fin N => s.intoMatrix[i.1.1][i.2.1]) ∈ B} = gaussians (Fin N × Fin N) B) ∧
    (∀ B : Set (Fin 2 → ℝ), MeasurableSet B → prob (fun ω => Distr.complexNormal (Distr.normal (uniformOf ω))) p
      {z | ![z.re, z.im] ∈ B} = gaussians (Fin 2) B) ∧
    (∀ B : Set (Fin 4 → ℝ), MeasurableSet B → prob (fun ω => Distr.quaternionNormal (Distr.normal (uniformOf ω))) p
      {q | ![q.w, q.x, q.y, q.z] ∈ B} = gaussians (Fin 4) B) ∧
    (∀ B : Set (Fin N × Fin N → ℝ), prob (fun ω => Distr.linearInvertible ScalarNorm.normL1 (Distr.normal (uniformOf ω)) fuel) p
      {s : Linear ℝ N | (fun i : Fin N × Fin N => s.intoMatrix[i.1.1][i.2.1]) ∈ B} =
      prob (fun ω => Distr.invertible ScalarNorm.normL1 (Distr.normal (uniformOf ω)) fuel) p
        {A : Mat ℝ N N | (fun i : Fin N × Fin N => A[i.1.1][i.2.1]) ∈ B}) ∧
    (∀ B : Set (Fin 2 × Fin 2 → ℝ), prob (fun ω => Distr.moebiusInvertible ScalarNorm.normL1 (Distr.normal (uniformOf ω)) fuel) p
      {m : Moebius ℝ | (fun i : Fin 2 × Fin 2 => m.intoMatrix[i.1.1][i.2.1]) ∈ B} =
      prob (fun ω => Distr.invertible ScalarNorm.normL1 (Distr.normal (uniformOf ω)) fuel) p
        {A : Mat ℝ 2 2 | (fun i : Fin 2 × Fin 2 => A[i.1.1][i.2.1]) ∈ B}) := by
  refine ⟨fun B hB => ?_, fun B hB => ?_, fun B hB => ?_, fun B hB => ?_, fun B hB => ?_, fun B => ?_, fun B => ?_⟩
  · rw [← (C73_normal p).2 B hB]; unfold Distr.scaleNormal; rw [Law.prob_map]; rfl
  · rw [← C73_vector p B hB]; unfold Distr.shiftNormal; rw [Law.prob_map]; rfl
  · rw [← C73_matrix p B hB]; unfold Distr.linearNormal; rw [Law.prob_map]; rfl
  · rw [← C73_vector p B hB]; unfold Distr.complexNormal; rw [Law.prob_map]
    congr 1; ext v
    simp only [Set.mem_preimage, Set.mem_ofPred_eq]
    rw [iff_iff_eq]; congr 1; funext i; fin_cases i <;> rfl
  · rw [← C73_vector p B hB]; unfold Distr.quaternionNormal; rw [Law.prob_map]
    congr 1; ext v
    simp only [Set.mem_preimage, Set.mem_ofPred_eq]
    rw [iff_iff_eq]; congr 1; funext i; fin_cases i <;> rfl
  · unfold Distr.linearInvertible; rw [Law.prob_map]; rfl
  · unfold Distr.moebiusInvertible; rw [Law.prob_map]; rfl

/-! ## further cases: the hypotheses are satisfiable -/
example := C73_affine (N := 2) 0 _ (LawEx.ev _) _ (LawEx.ev _)
example := C73_affine_invertible (N := 2) 0 5 _ (LawEx.ev _) _ (LawEx.ev _)

end Vecmat
