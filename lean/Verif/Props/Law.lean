import Verif.Lemmas.Law
import Verif.Props.Distr
import Mathlib.Probability.Independence.InfinitePi
import Mathlib.MeasureTheory.Integral.IntervalIntegral.Periodic
/-!
# C73: the laws of the random samplers
The random source is ideal: independent uniform numbers (`Spec.randomness`), over the exact reals.
-/
namespace Vecmat
open Spec MeasureTheory ProbabilityTheory
open scoped ENNReal
variable {σ α T : Type} {M N : Nat}

/-! ## running samplers on a source -/

theorem Law.callN_seq {f : Eff σ T} {g : ℕ → T} {st : ℕ → σ} (h : ∀ i, f.exec (st i) = (.ok (g i), st (i + 1))) (n i : ℕ) :
    (callN f n).exec (st i) = (.ok (List.ofFn fun j : Fin n => g (i + j)), st (i + n)) := by
  induction n generalizing i with
  | zero => simp [callN]
  | succ n ih =>
    rw [callN, exec_bind, h]
    simp only [exec_bind]
    rw [ih]
    simp only [exec_pure, List.ofFn_succ, Fin.val_zero, Fin.val_succ, Nat.add_zero, Prod.mk.injEq, Except.ok.injEq,
      List.cons.injEq, true_and]
    constructor
    · congr 1; funext j; congr 1; omega
    · congr 1; omega

theorem Law.initM_seq {f : Eff σ T} {g : ℕ → T} {st : ℕ → σ} (h : ∀ i, f.exec (st i) = (.ok (g i), st (i + 1))) (i : ℕ) :
    (Vec.initM (N := N) f).exec (st i) = (.ok ⟨Vector.ofFn fun j => g (i + j)⟩, st (i + N)) := by
  obtain ⟨hl, he⟩ := Vec.exec_initM_of_ok (N := N) (Law.callN_seq h N i)
  rw [he]
  simp only [Prod.mk.injEq, Except.ok.injEq, and_true]
  apply Vec.ext_getElem
  intro j hj
  simp

theorem Law.mat_initM_seq {f : Eff σ T} {g : ℕ → T} {st : ℕ → σ} (h : ∀ i, f.exec (st i) = (.ok (g i), st (i + 1))) (i : ℕ) :
    (Mat.initM (M := M) (N := N) f).exec (st i) =
      (.ok ⟨⟨Vector.ofFn fun r => ⟨Vector.ofFn fun c => g (i + r * N + c)⟩⟩⟩, st (i + M * N)) := by
  have h1 := Law.initM_seq (N := M) (f := Vec.initM (N := N) f) (st := fun k => st (i + k * N))
    (g := fun k => (⟨Vector.ofFn fun c => g (i + k * N + c)⟩ : Vec T N))
    (fun k => by rw [Law.initM_seq h]; congr 2; ring) 0
  simp only [Nat.zero_mul, Nat.add_zero, Nat.zero_add] at h1
  rw [Mat.initM, exec_bind, h1]
  rfl

theorem Law.loop_seq {draw : Eff σ α} {accept : α → Res Bool} {g : ℕ → α} {st : ℕ → σ}
    (h : ∀ i, draw.exec (st i) = (.ok (g i), st (i + 1))) (ha : ∀ x, ∃ b, accept x = .ok b) (fuel i : ℕ) (x : α) (s' : σ) :
    (Distr.loopUntil draw accept fuel).exec (st i) = (.ok x, s') ↔
      ∃ k < fuel, s' = st (i + k + 1) ∧ x = g (i + k) ∧ (∀ j < k, accept (g (i + j)) ≠ .ok true) ∧ accept (g (i + k)) = .ok true := by
  induction fuel generalizing i with
  | zero => simp [Distr.loopUntil]
  | succ fuel ih =>
    obtain ⟨b, hb⟩ := ha (g i)
    rw [Distr.loopUntil, exec_bind, h]
    simp only [exec_bind, hb, liftRes_ok, exec_pure]
    cases b with
    | true =>
      simp only [if_true, exec_pure, Prod.mk.injEq, Except.ok.injEq]
      constructor
      · rintro ⟨rfl, rfl⟩
        exact ⟨0, by omega, rfl, rfl, by simp, hb⟩
      · rintro ⟨k, _, rfl, rfl, h2, _⟩
        cases k with
        | zero => exact ⟨rfl, rfl⟩
        | succ k => exact absurd hb (h2 0 (by omega))
    | false =>
      simp only [Bool.false_eq_true, if_false]
      rw [ih]
      constructor
      · rintro ⟨k, h1, h2, h3, h4, h5⟩
        refine ⟨k + 1, by omega, ?_, ?_, ?_, ?_⟩
        · rw [h2]; congr 1; omega
        · rw [h3]; congr 1; omega
        · intro j hj
          cases j with
          | zero => rw [Nat.add_zero, hb]; simp
          | succ j => rw [show i + (j + 1) = i + 1 + j by omega]; exact h4 j (by omega)
        · rw [show i + (k + 1) = i + 1 + k by omega]; exact h5
      · rintro ⟨k, h1, h2, h3, h4, h5⟩
        cases k with
        | zero => rw [Nat.add_zero, hb] at h5; simp at h5
        | succ k =>
          refine ⟨k, by omega, ?_, ?_, ?_, ?_⟩
          · rw [h2]; congr 1; omega
          · rw [h3]; congr 1; omega
          · intro j hj
            rw [show i + 1 + j = i + (j + 1) by omega]; exact h4 (j + 1) (by omega)
          · rw [show i + 1 + k = i + (k + 1) by omega]; exact h5

theorem Law.normal_exec (ω : ℕ → ℝ) (p : ℕ) :
    (Distr.normal (uniformOf ω)).exec p = (.ok (Law.bm (ω p) (ω (p + 1))), p + 2) := by
  rw [C63_formula]
  refine ⟨ω p, Real.pi * ω (p + 1), p + 1, ?_, ?_, rfl⟩ <;> simp [uniformOf]
theorem Law.normal_seq (ω : ℕ → ℝ) (p i : ℕ) :
    (Distr.normal (uniformOf ω)).exec (p + 2 * i) = (.ok (Law.gauss p ω i), p + 2 * (i + 1)) := Law.normal_exec ω _

theorem Law.prob_eq {X : (ℕ → ℝ) → Eff ℕ α} {p : ℕ} {x : (ℕ → ℝ) → α} {s : (ℕ → ℝ) → ℕ}
    (h : ∀ ω, (X ω).exec p = (.ok (x ω), s ω)) (B : Set α) : prob X p B = randomness {ω | x ω ∈ B} := by
  unfold prob
  congr 1
  ext ω
  simp [h ω]

/-! ## C73 -/

/-- `Normal` never fails, uses two numbers of the source, and its value is standard Gaussian. -/
theorem C73_normal (p : ℕ) : (∀ ω, ∃ x, (Distr.normal (uniformOf ω)).exec p = (.ok x, p + 2)) ∧
    ∀ B, MeasurableSet B → prob (fun ω => Distr.normal (uniformOf ω)) p B = gaussianReal 0 1 B := by
  refine ⟨fun ω => ⟨_, Law.normal_exec ω p⟩, fun B hB => ?_⟩
  have := congrArg (fun m => m.map (fun g : ℕ → ℝ => g 0)) (Law.map_gauss p)
  rw [Measure.map_map (by fun_prop) (Law.measurable_gauss p), Measure.infinitePi_map_eval] at this
  rw [Law.prob_eq (fun ω => Law.normal_exec ω p), ← this,
    Measure.map_apply ((measurable_pi_apply 0).comp (Law.measurable_gauss p)) hB]
  rfl

theorem Law.gaussians_of_inj {θ : Type} [Fintype θ] (p : ℕ) (e : θ → ℕ) (he : Function.Injective e) (B : Set (θ → ℝ))
    (hB : MeasurableSet B) : randomness {ω | (fun i => Law.gauss p ω (e i)) ∈ B} = gaussians θ B := by
  have h := Law.map_reindex (gaussianReal 0 1) e he
  rw [← Law.map_gauss p, Measure.map_map (by fun_prop) (Law.measurable_gauss p), Measure.infinitePi_eq_pi] at h
  unfold gaussians
  rw [← h, Measure.map_apply (by have := Law.measurable_gauss p; fun_prop) hB]
  rfl

theorem Law.vector_exec (ω : ℕ → ℝ) (p k : ℕ) : (Distr.vector (N := N) (Distr.normal (uniformOf ω))).exec (p + 2 * (k * N)) =
    (.ok ⟨Vector.ofFn fun i => Law.gauss p ω (k * N + i)⟩, p + 2 * ((k + 1) * N)) := by
  have := Law.initM_seq (N := N) (st := fun i => p + 2 * i) (Law.normal_seq ω p) (k * N)
  rw [Distr.vector, this]
  congr 1; ring
theorem Law.matrix_exec (ω : ℕ → ℝ) (p k : ℕ) : (Distr.matrix (M := M) (N := N) (Distr.normal (uniformOf ω))).exec (p + 2 * (k * (M * N))) =
    (.ok ⟨⟨Vector.ofFn fun r => ⟨Vector.ofFn fun c => Law.gauss p ω (k * (M * N) + r * N + c)⟩⟩⟩, p + 2 * ((k + 1) * (M * N))) := by
  have := Law.mat_initM_seq (M := M) (N := N) (st := fun i => p + 2 * i) (Law.normal_seq ω p) (k * (M * N))
  rw [Distr.matrix, this]
  congr 1; ring

/-- The components of a `Normal` vector are independent standard Gaussians. -/
theorem C73_vector (p : ℕ) (B : Set (Fin N → ℝ)) (hB : MeasurableSet B) :
    prob (fun ω => Distr.vector (Distr.normal (uniformOf ω))) p {v : Vec ℝ N | (fun i : Fin N => v[i.1]) ∈ B} = gaussians (Fin N) B := by
  have h : ∀ ω, (Distr.vector (N := N) (Distr.normal (uniformOf ω))).exec p = _ := fun ω => by
    have := Law.vector_exec (N := N) ω p 0
    simpa only [Nat.zero_mul, Nat.mul_zero, Nat.add_zero, Nat.zero_add] using this
  rw [Law.prob_eq h, ← Law.gaussians_of_inj p (fun i : Fin N => i.1) Fin.val_injective B hB]
  congr 1; ext ω; simp
/-- In particular the components fall into given sets with the product of the individual probabilities. -/
theorem C73_independent (p : ℕ) (B : Fin N → Set ℝ) (hB : ∀ i, MeasurableSet (B i)) :
    prob (fun ω => Distr.vector (Distr.normal (uniformOf ω))) p {v : Vec ℝ N | ∀ i : Fin N, v[i.1] ∈ B i} = ∏ i, gaussianReal 0 1 (B i) := by
  have := C73_vector (N := N) p (Set.univ.pi B) (.univ_pi hB)
  rw [gaussians, Measure.pi_pi] at this
  rw [← this]
  congr 1; ext v; simp

/-- The entries of a `Normal` matrix are independent standard Gaussians. -/
theorem C73_matrix (p : ℕ) (B : Set (Fin M × Fin N → ℝ)) (hB : MeasurableSet B) :
    prob (fun ω => Distr.matrix (Distr.normal (uniformOf ω))) p {A : Mat ℝ M N | (fun i : Fin M × Fin N => A[i.1.1][i.2.1]) ∈ B} =
      gaussians (Fin M × Fin N) B := by
  have h : ∀ ω, (Distr.matrix (M := M) (N := N) (Distr.normal (uniformOf ω))).exec p = _ := fun ω => by
    have := Law.matrix_exec (M := M) (N := N) ω p 0
    simpa only [Nat.zero_mul, Nat.mul_zero, Nat.add_zero, Nat.zero_add] using this
  rw [Law.prob_eq h, ← Law.gaussians_of_inj p (fun i : Fin M × Fin N => i.1.1 * N + i.2.1) ?_ B hB]
  · congr 1; ext ω
    simp only [Set.mem_ofPred_eq]
    rw [iff_iff_eq]; congr 1
    funext i
    simp only [Mat.getElem_mk, Vec.getElem_mk, Vector.getElem_ofFn]
  · rintro ⟨i, j⟩ ⟨i', j'⟩ h
    simp only at h
    have hj := j.2; have hj' := j'.2
    have h1 : i.1 = i'.1 := by
      have h1 : (i.1 * N + j.1) / N = i.1 := by rw [Nat.add_comm, Nat.add_mul_div_right _ _ (by omega), Nat.div_eq_of_lt hj, Nat.zero_add]
      have h2 : (i'.1 * N + j'.1) / N = i'.1 := by rw [Nat.add_comm, Nat.add_mul_div_right _ _ (by omega), Nat.div_eq_of_lt hj', Nat.zero_add]
      rw [← h1, ← h2, h]
    ext
    · exact h1
    · rw [h1] at h; simpa using h

/-- The probability that an `N`-vector of standard Gaussians is too short (length at most epsilon). -/
noncomputable def tooShort (N : ℕ) : ℝ≥0∞ := gaussians (Fin N) {x | Real.sqrt (∑ i, x i ^ 2) ≤ FloatOps.epsilon}

private theorem measurable_len : Measurable fun x : Fin N → ℝ => Real.sqrt (∑ i, x i ^ 2) := by fun_prop
private theorem measurable_acc : MeasurableSet {x : Fin N → ℝ | (FloatOps.epsilon : ℝ) < Real.sqrt (∑ i, x i ^ 2)} :=
  measurableSet_lt measurable_const measurable_len
private theorem tooShort_eq : tooShort N = gaussians (Fin N) {x : Fin N → ℝ | (FloatOps.epsilon : ℝ) < Real.sqrt (∑ i, x i ^ 2)}ᶜ := by
  unfold tooShort
  congr 1; ext x; simp

private theorem eps_lt_one : (FloatOps.epsilon : ℝ) < 1 := by
  show (1 / 2 ^ 52 : ℝ) < 1
  norm_num

theorem Law.nonzero_exec (hN : 0 < N) (ω : ℕ → ℝ) (p fuel p' : ℕ) (x : Vec ℝ N) :
    (Distr.nonZero (Distr.normal (uniformOf ω)) fuel).exec p = (.ok x, p') ↔
      ∃ k < fuel, p' = p + 2 * ((k + 1) * N) ∧ x = ⟨Vector.ofFn fun i => Law.gauss p ω (k * N + i)⟩ ∧
        (∀ j < k, ¬ (FloatOps.epsilon : ℝ) < Real.sqrt (∑ i : Fin N, Law.gauss p ω (j * N + i) ^ 2)) ∧
        (FloatOps.epsilon : ℝ) < Real.sqrt (∑ i : Fin N, Law.gauss p ω (k * N + i) ^ 2) := by
  have : NeZero N := ⟨by omega⟩
  have acc : ∀ x : Vec ℝ N, ((do let l ← x.lengthR; pure (rgt l FloatOps.epsilon) : Res Bool) = .ok true) ↔
      (FloatOps.epsilon : ℝ) < Real.sqrt (∑ i : Fin N, x[i.1] ^ 2) := by
    intro x
    rw [Vec.length_ok, Vec.length, Vec.squareLength_eq_sum]
    simp only [Res.bind_ok, Res.pure_eq, Except.ok.injEq]
    rw [rgt_iff]
    simp [sq]
  have h := Law.loop_seq (draw := Distr.vector (N := N) (Distr.normal (uniformOf ω))) (st := fun k => p + 2 * (k * N))
    (accept := fun x => do let l ← x.lengthR; pure (rgt l FloatOps.epsilon))
    (g := fun k => ⟨Vector.ofFn fun i => Law.gauss p ω (k * N + i)⟩) (Law.vector_exec ω p)
    (fun x => ⟨_, by rw [Vec.length_ok]; rfl⟩) fuel 0 x p'
  simp only [Nat.zero_mul, Nat.mul_zero, Nat.add_zero, Nat.zero_add] at h
  rw [Distr.nonZero, h]
  simp only [ne_eq, acc]
  simp

private theorem blocks_inj (hN : 0 < N) : Function.Injective fun q : ℕ × Fin N => q.1 * N + q.2.1 := by
  rintro ⟨i, j⟩ ⟨i', j'⟩ h
  simp only at h
  have h1 : i = i' := by
    have h1 : (i * N + j.1) / N = i := by rw [Nat.add_comm, Nat.add_mul_div_right _ _ hN, Nat.div_eq_of_lt j.2, Nat.zero_add]
    have h2 : (i' * N + j'.1) / N = i' := by rw [Nat.add_comm, Nat.add_mul_div_right _ _ hN, Nat.div_eq_of_lt j'.2, Nat.zero_add]
    rw [← h1, ← h2, h]
  subst h1
  have h2 : j = j' := Fin.ext (by omega)
  rw [h2]

theorem Law.blocks_event {θ : Type} [Fintype θ] (p : ℕ) (e : ℕ → θ → ℕ) (he : Function.Injective fun q : ℕ × θ => e q.1 q.2)
    (S : Set (ℕ → θ → ℝ)) (hS : MeasurableSet S) :
    randomness {ω | (fun k i => Law.gauss p ω (e k i)) ∈ S} = (Measure.infinitePi fun _ : ℕ => gaussians θ) S := by
  rw [← Law.map_gauss_blocks p e he, Measure.map_apply ?_ hS]
  · rfl
  · have := Law.measurable_gauss p; fun_prop

theorem Law.measurable_reject {X : Type} [MeasurableSpace X] {A B : Set X} (hA : MeasurableSet A) (hB : MeasurableSet B) (fuel : ℕ) :
    MeasurableSet {ξ : ℕ → X | ∃ k < fuel, (∀ j < k, ξ j ∉ A) ∧ ξ k ∈ A ∧ ξ k ∈ B} := by
  have : {ξ : ℕ → X | ∃ k < fuel, (∀ j < k, ξ j ∉ A) ∧ ξ k ∈ A ∧ ξ k ∈ B} =
      ⋃ k, ⋃ _ : k < fuel, (⋂ j, ⋂ _ : j < k, {ξ | ξ j ∉ A}) ∩ ({ξ | ξ k ∈ A} ∩ {ξ | ξ k ∈ B}) := by
    ext ξ; simp only [Set.mem_ofPred_eq, Set.mem_iUnion, Set.mem_inter_iff, Set.mem_iInter, exists_prop]
  rw [this]
  refine .iUnion fun k => .iUnion fun _ => (MeasurableSet.iInter fun j => .iInter fun _ => ?_).inter (.inter ?_ ?_)
  · exact (measurable_pi_apply j hA).compl
  · exact measurable_pi_apply k hA
  · exact measurable_pi_apply k hB

/-- `NonZero`, allowed at most `fuel` rounds, has the law of Gaussian vectors conditioned on being long enough: each set of
long enough vectors gets its Gaussian probability times `1 + q + ... + q^(fuel-1)`, with `q` the rejection probability. -/
theorem C73_nonzero (hN : 0 < N) (p fuel : ℕ) (B : Set (Fin N → ℝ)) (hB : MeasurableSet B) :
    prob (fun ω => Distr.nonZero (Distr.normal (uniformOf ω)) fuel) p {v : Vec ℝ N | (fun i : Fin N => v[i.1]) ∈ B} =
      (∑ k ∈ Finset.range fuel, tooShort N ^ k) *
        gaussians (Fin N) {x | (FloatOps.epsilon : ℝ) < Real.sqrt (∑ i, x i ^ 2) ∧ x ∈ B} := by
  have := Law.reject (gaussians (Fin N)) _ B measurable_acc hB fuel
  rw [← tooShort_eq] at this
  rw [show {x : Fin N → ℝ | (FloatOps.epsilon : ℝ) < Real.sqrt (∑ i, x i ^ 2) ∧ x ∈ B} = {x | (FloatOps.epsilon : ℝ) < Real.sqrt (∑ i, x i ^ 2)} ∩ B from rfl,
    ← this, ← Law.blocks_event p (fun k i => k * N + i.1) (blocks_inj hN) _ (Law.measurable_reject measurable_acc hB fuel)]
  unfold prob
  congr 1
  ext ω
  simp only [Set.mem_ofPred_eq, Law.nonzero_exec hN]
  constructor
  · rintro ⟨x, p', ⟨k, hk, _, rfl, h1, h2⟩, h3⟩
    exact ⟨k, hk, h1, h2, by simpa using h3⟩
  · rintro ⟨k, hk, h1, h2, h3⟩
    exact ⟨_, _, ⟨k, hk, rfl, rfl, h1, h2⟩, by simpa using h3⟩

/-- Within `fuel` rounds `NonZero` succeeds with probability `1 - q^fuel`, and `q < 1`. -/
theorem C73_nonzero_total (hN : 0 < N) (p fuel : ℕ) : tooShort N < 1 ∧
    prob (fun ω => Distr.nonZero (Distr.normal (uniformOf ω)) fuel) p (Set.univ : Set (Vec ℝ N)) = 1 - tooShort N ^ fuel := by
  have : NeZero N := ⟨by omega⟩
  constructor
  · rw [tooShort_eq, prob_compl_eq_one_sub measurable_acc]
    refine ENNReal.sub_lt_self (by simp) (by simp) (Law.gaussians_open ?_ ?_)
    · exact isOpen_lt continuous_const (by fun_prop)
    · refine ⟨fun _ => 1, ?_⟩
      show (FloatOps.epsilon : ℝ) < Real.sqrt (∑ _ : Fin N, (1 : ℝ) ^ 2)
      refine lt_of_lt_of_le eps_lt_one (Real.one_le_sqrt.2 ?_)
      simp only [one_pow, Finset.sum_const, Finset.card_univ, Fintype.card_fin, nsmul_eq_mul, mul_one]
      exact_mod_cast hN
  · have h := C73_nonzero hN p fuel Set.univ .univ
    have h2 := Law.geom_total (gaussians (Fin N)) _ measurable_acc fuel
    rw [← tooShort_eq] at h2
    simp only [Set.mem_univ, and_true] at h
    rw [h2] at h
    exact h

/-- With probability one `NonZero` terminates. -/
theorem C73_nonzero_halts (hN : 0 < N) (p : ℕ) : ∀ᵐ ω ∂randomness, ∃ fuel, ∃ x : Vec ℝ N, ∃ p',
    (Distr.nonZero (Distr.normal (uniformOf ω)) fuel).exec p = (.ok x, p') := by
  have : NeZero N := ⟨by omega⟩
  have h1 : gaussians (Fin N) {x : Fin N → ℝ | (FloatOps.epsilon : ℝ) < Real.sqrt (∑ i, x i ^ 2)} ≠ 0 := by
    have := (C73_nonzero_total hN 0 0).1
    rw [tooShort_eq] at this
    intro h
    rw [prob_compl_eq_one_sub measurable_acc, h] at this
    simp at this
  have h := Law.ae_hit (gaussians (Fin N)) _ measurable_acc h1
  rw [← Law.map_gauss_blocks p (fun k i => k * N + i.1) (blocks_inj hN)] at h
  have h2 := ae_of_ae_map (by have := Law.measurable_gauss p; fun_prop) h
  refine h2.mono fun ω hω => ?_
  classical
  refine ⟨Nat.find hω + 1, _, _, (Law.nonzero_exec hN ω p _ _ _).2 ⟨Nat.find hω, by omega, rfl, rfl, ?_, Nat.find_spec hω⟩⟩
  intro j hj
  exact Nat.find_min hω hj

/-- `Unit`: the normalised long enough vectors. -/
theorem C73_unit (hN : 0 < N) (p fuel : ℕ) (B : Set (Fin N → ℝ)) (hB : MeasurableSet B) :
    prob (fun ω => Distr.unit (Distr.normal (uniformOf ω)) fuel) p {v : Vec ℝ N | (fun i : Fin N => v[i.1]) ∈ B} =
      (∑ k ∈ Finset.range fuel, tooShort N ^ k) *
        gaussians (Fin N) {x | (FloatOps.epsilon : ℝ) < Real.sqrt (∑ i, x i ^ 2) ∧ (fun i => x i / Real.sqrt (∑ i, x i ^ 2)) ∈ B} := by
  have := C73_nonzero hN p fuel ((fun x i => x i / Real.sqrt (∑ i, x i ^ 2)) ⁻¹' B)
    ((measurable_pi_lambda _ fun i => (measurable_pi_apply i).div measurable_len) hB)
  rw [show {x : Fin N → ℝ | (FloatOps.epsilon : ℝ) < Real.sqrt (∑ i, x i ^ 2) ∧ (fun i => x i / Real.sqrt (∑ i, x i ^ 2)) ∈ B} =
    {x | (FloatOps.epsilon : ℝ) < Real.sqrt (∑ i, x i ^ 2) ∧ x ∈ ((fun (x : Fin N → ℝ) i => x i / Real.sqrt (∑ i, x i ^ 2)) ⁻¹' B)} from rfl, ← this]
  unfold prob
  congr 1
  ext ω
  simp only [Set.mem_ofPred_eq, C62_unit, Set.mem_preimage]
  constructor
  · rintro ⟨u, p', ⟨x, h1, h2⟩, h3⟩
    refine ⟨x, p', h1, ?_⟩
    rwa [show (fun i : Fin N => x[i.1] / Real.sqrt (∑ i : Fin N, x[i.1] ^ 2)) = fun i : Fin N => u[i.1] from funext fun i => (h2 i.1 i.2).symm]
  · rintro ⟨x, p', h1, h3⟩
    refine ⟨⟨Vector.ofFn fun i => x[i.1] / Real.sqrt (∑ i : Fin N, x[i.1] ^ 2)⟩, p', ⟨x, h1, ?_⟩, ?_⟩
    · intro i hi; simp
    · simpa using h3

/-- `Unit` is uniform on the sphere: its law does not change under any orthogonal matrix (rotation or reflection). -/
theorem C73_unit_invariant (hN : 0 < N) (A : Mat ℝ N N) (hA : A.transpose.dotM A = 1) (p fuel : ℕ) (B : Set (Fin N → ℝ))
    (hB : MeasurableSet B) :
    prob (fun ω => Distr.unit (Distr.normal (uniformOf ω)) fuel) p {v : Vec ℝ N | (fun i : Fin N => (A.dotV v)[i.1]) ∈ B} =
      prob (fun ω => Distr.unit (Distr.normal (uniformOf ω)) fuel) p {v : Vec ℝ N | (fun i : Fin N => v[i.1]) ∈ B} := by
  have hO : A.toMatrix.transpose * A.toMatrix = 1 := by
    rw [← Mat.toMatrix_transpose, ← Mat.toMatrix_dotM, hA, Mat.toMatrix_one]
  have hv : ∀ v : Vec ℝ N, (fun i : Fin N => (A.dotV v)[i.1]) = A.toMatrix.mulVec fun i : Fin N => v[i.1] := by
    intro v; funext i
    rw [Mat.getElem_dotV_sum]
    simp [Matrix.mulVec, dotProduct]
  have hm : Measurable fun x : Fin N → ℝ => A.toMatrix.mulVec x := by fun_prop
  have hlen : ∀ x : Fin N → ℝ, ∑ i, (A.toMatrix.mulVec x) i ^ 2 = ∑ i, x i ^ 2 := by
    intro x
    have := Matrix.dotProduct_mulVec (A.toMatrix.mulVec x) A.toMatrix x
    rw [Matrix.vecMul_mulVec, hO, Matrix.vecMul_one] at this
    simp only [dotProduct] at this
    simpa [sq] using this
  have h1 := C73_unit hN p fuel ((fun x => A.toMatrix.mulVec x) ⁻¹' B) (hm hB)
  rw [show {v : Vec ℝ N | (fun i : Fin N => (A.dotV v)[i.1]) ∈ B} = {v : Vec ℝ N | (fun i : Fin N => v[i.1]) ∈ ((fun x => A.toMatrix.mulVec x) ⁻¹' B)} from by
    ext v; simp [hv], h1, C73_unit hN p fuel B hB]
  congr 1
  conv_rhs => rw [← Law.gaussians_rot A.toMatrix hO]
  rw [Measure.map_apply hm]
  · congr 1
    ext x
    simp only [Set.mem_ofPred_eq, Set.mem_preimage, hlen]
    refine and_congr_right fun _ => ?_
    rw [show (fun i => (A.toMatrix.mulVec x) i / Real.sqrt (∑ i, x i ^ 2)) = A.toMatrix.mulVec fun i => x i / Real.sqrt (∑ i, x i ^ 2) from ?_]
    funext i
    simp only [Matrix.mulVec, dotProduct, Finset.sum_div]
    exact Finset.sum_congr rfl fun j _ => mul_div_assoc _ _ _
  · exact measurable_acc.inter ((measurable_pi_lambda _ fun i => (measurable_pi_apply i).div measurable_len) hB)

/-! ## invertible matrices -/

/-- The probability that an `N×N` matrix of standard Gaussians is rejected (determinant at most epsilon in absolute value). -/
noncomputable def nearSingular (N : ℕ) : ℝ≥0∞ :=
  gaussians (Fin N × Fin N) {x | |(Matrix.of fun i j => x (i, j)).det| ≤ FloatOps.epsilon}

private theorem continuous_det : Continuous fun x : Fin N × Fin N → ℝ => |(Matrix.of fun i j => x (i, j)).det| := by
  refine continuous_abs.comp (Continuous.matrix_det ?_)
  exact continuous_matrix fun i j => continuous_apply (i, j)
theorem measurable_accDet : MeasurableSet {x : Fin N × Fin N → ℝ | (FloatOps.epsilon : ℝ) < |(Matrix.of fun i j => x (i, j)).det|} :=
  measurableSet_lt measurable_const continuous_det.measurable
private theorem nearSingular_eq : nearSingular N =
    gaussians (Fin N × Fin N) {x : Fin N × Fin N → ℝ | (FloatOps.epsilon : ℝ) < |(Matrix.of fun i j => x (i, j)).det|}ᶜ := by
  unfold nearSingular
  congr 1; ext x; simp

private theorem mat_blocks_inj : Function.Injective fun q : ℕ × (Fin M × Fin N) => q.1 * (M * N) + q.2.1.1 * N + q.2.2.1 := by
  rintro ⟨k, i, j⟩ ⟨k', i', j'⟩ h
  simp only at h
  have hi := i.2; have hj := j.2; have hi' := i'.2; have hj' := j'.2
  have hN : 0 < N := by omega
  have a1 : i.1 * N + j.1 < M * N := by nlinarith
  have a2 : i'.1 * N + j'.1 < M * N := by nlinarith
  have hk : k = k' := by
    have h1 : (k * (M * N) + (i.1 * N + j.1)) / (M * N) = k := by
      rw [Nat.add_comm, Nat.add_mul_div_right _ _ (by omega), Nat.div_eq_of_lt a1, Nat.zero_add]
    have h2 : (k' * (M * N) + (i'.1 * N + j'.1)) / (M * N) = k' := by
      rw [Nat.add_comm, Nat.add_mul_div_right _ _ (by omega), Nat.div_eq_of_lt a2, Nat.zero_add]
    rw [← h1, ← h2, ← Nat.add_assoc, ← Nat.add_assoc, h]
  subst hk
  have h3 : i.1 * N + j.1 = i'.1 * N + j'.1 := by omega
  have h4 := blocks_inj hN (a₁ := (i.1, j)) (a₂ := (i'.1, j')) h3
  simp only [Prod.mk.injEq] at h4
  rw [Fin.ext h4.1, h4.2]

theorem Law.invertible_exec (ω : ℕ → ℝ) (p fuel p' : ℕ) (A : Mat ℝ N N) :
    (Distr.invertible ScalarNorm.normL1 (Distr.normal (uniformOf ω)) fuel).exec p = (.ok A, p') ↔
      ∃ k < fuel, p' = p + 2 * ((k + 1) * (N * N)) ∧
        A = ⟨⟨Vector.ofFn fun r => ⟨Vector.ofFn fun c => Law.gauss p ω (k * (N * N) + r * N + c)⟩⟩⟩ ∧
        (∀ j < k, ¬ (FloatOps.epsilon : ℝ) < |(Matrix.of fun (r c : Fin N) => Law.gauss p ω (j * (N * N) + r * N + c)).det|) ∧
        (FloatOps.epsilon : ℝ) < |(Matrix.of fun (r c : Fin N) => Law.gauss p ω (k * (N * N) + r * N + c)).det| := by
  have acc : ∀ B : Mat ℝ N N, ((do
      let d ← B.detR
      pure (!Distr.isEpsilon (ScalarNorm.normL1 d)) : Res Bool) = .ok true) ↔ (FloatOps.epsilon : ℝ) < |B.toMatrix.det| := by
    intro B
    rw [show B.detR = .ok B.det from Res.ok_get _ _, Mat.det_eq]
    simp only [Res.bind_ok, Res.pure_eq, Except.ok.injEq, Distr.isEpsilon]
    rw [Bool.not_eq_true', ← Bool.not_eq_true, rle_iff, not_le]
    show _ < |(|_|)| ↔ _
    rw [abs_abs]
  have h := Law.loop_seq (draw := Distr.matrix (M := N) (N := N) (Distr.normal (uniformOf ω))) (st := fun k => p + 2 * (k * (N * N)))
    (accept := fun x => do let d ← x.detR; pure (!Distr.isEpsilon (ScalarNorm.normL1 d)))
    (g := fun k => ⟨⟨Vector.ofFn fun r => ⟨Vector.ofFn fun c => Law.gauss p ω (k * (N * N) + r * N + c)⟩⟩⟩) (Law.matrix_exec ω p)
    (fun B => ⟨_, by rw [show B.detR = .ok B.det from Res.ok_get _ _]; rfl⟩) fuel 0 A p'
  simp only [Nat.zero_mul, Nat.mul_zero, Nat.add_zero, Nat.zero_add] at h
  rw [Distr.invertible, h]
  simp only [ne_eq, acc]
  have e : ∀ k, (⟨⟨Vector.ofFn fun r => ⟨Vector.ofFn fun c => Law.gauss p ω (k * (N * N) + r * N + c)⟩⟩⟩ : Mat ℝ N N).toMatrix =
      Matrix.of fun (r c : Fin N) => Law.gauss p ω (k * (N * N) + r * N + c) := by
    intro k; ext i j
    simp
  simp only [e]

/-- `Invertible`, allowed at most `fuel` rounds, has the law of Gaussian matrices conditioned on being accepted. -/
theorem C73_invertible (p fuel : ℕ) (B : Set (Fin N × Fin N → ℝ)) (hB : MeasurableSet B) :
    prob (fun ω => Distr.invertible ScalarNorm.normL1 (Distr.normal (uniformOf ω)) fuel) p
        {A : Mat ℝ N N | (fun i : Fin N × Fin N => A[i.1.1][i.2.1]) ∈ B} =
      (∑ k ∈ Finset.range fuel, nearSingular N ^ k) *
        gaussians (Fin N × Fin N) {x | (FloatOps.epsilon : ℝ) < |(Matrix.of fun i j => x (i, j)).det| ∧ x ∈ B} := by
  have := Law.reject (gaussians (Fin N × Fin N)) _ B measurable_accDet hB fuel
  rw [← nearSingular_eq] at this
  rw [show {x : Fin N × Fin N → ℝ | (FloatOps.epsilon : ℝ) < |(Matrix.of fun i j => x (i, j)).det| ∧ x ∈ B} =
      {x | (FloatOps.epsilon : ℝ) < |(Matrix.of fun i j => x (i, j)).det|} ∩ B from rfl,
    ← this, ← Law.blocks_event p (fun k i => k * (N * N) + i.1.1 * N + i.2.1) mat_blocks_inj _ (Law.measurable_reject measurable_accDet hB fuel)]
  unfold prob
  congr 1
  ext ω
  simp only [Set.mem_ofPred_eq, Law.invertible_exec]
  constructor
  · rintro ⟨x, p', ⟨k, hk, _, rfl, h1, h2⟩, h3⟩
    exact ⟨k, hk, h1, h2, by simpa using h3⟩
  · rintro ⟨k, hk, h1, h2, h3⟩
    exact ⟨_, _, ⟨k, hk, rfl, rfl, h1, h2⟩, by simpa using h3⟩

private theorem accDet_ne_zero : gaussians (Fin N × Fin N)
    {x : Fin N × Fin N → ℝ | (FloatOps.epsilon : ℝ) < |(Matrix.of fun i j => x (i, j)).det|} ≠ 0 := by
  refine Law.gaussians_open (isOpen_lt continuous_const continuous_det) ⟨fun q => (1 : Matrix (Fin N) (Fin N) ℝ) q.1 q.2, ?_⟩
  show (FloatOps.epsilon : ℝ) < |(Matrix.of fun i j => (1 : Matrix (Fin N) (Fin N) ℝ) i j).det|
  rw [show (Matrix.of fun i j => (1 : Matrix (Fin N) (Fin N) ℝ) i j) = 1 from rfl, Matrix.det_one, abs_one]
  exact eps_lt_one

/-- Within `fuel` rounds `Invertible` succeeds with probability `1 - q^fuel`, and `q < 1`. -/
theorem C73_invertible_total (p fuel : ℕ) : nearSingular N < 1 ∧
    prob (fun ω => Distr.invertible ScalarNorm.normL1 (Distr.normal (uniformOf ω)) fuel) p (Set.univ : Set (Mat ℝ N N)) =
      1 - nearSingular N ^ fuel := by
  constructor
  · rw [nearSingular_eq, prob_compl_eq_one_sub measurable_accDet]
    exact ENNReal.sub_lt_self (by simp) (by simp) accDet_ne_zero
  · have h := C73_invertible (N := N) p fuel Set.univ .univ
    have h2 := Law.geom_total (gaussians (Fin N × Fin N)) _ measurable_accDet fuel
    rw [← nearSingular_eq] at h2
    simp only [Set.mem_univ, and_true] at h
    rw [h2] at h
    exact h

/-- With probability one `Invertible` terminates. -/
theorem C73_invertible_halts (p : ℕ) : ∀ᵐ ω ∂randomness, ∃ fuel, ∃ A : Mat ℝ N N, ∃ p',
    (Distr.invertible ScalarNorm.normL1 (Distr.normal (uniformOf ω)) fuel).exec p = (.ok A, p') := by
  have h := Law.ae_hit (gaussians (Fin N × Fin N)) _ measurable_accDet accDet_ne_zero
  rw [← Law.map_gauss_blocks p (fun k i => k * (N * N) + i.1.1 * N + i.2.1) mat_blocks_inj] at h
  have h2 := ae_of_ae_map (by have := Law.measurable_gauss p; fun_prop) h
  refine h2.mono fun ω hω => ?_
  classical
  refine ⟨Nat.find hω + 1, _, _, (Law.invertible_exec ω p _ _ _).2 ⟨Nat.find hω, by omega, rfl, rfl, ?_, Nat.find_spec hω⟩⟩
  intro j hj
  exact Nat.find_min hω hj

/-! ## complex numbers and quaternions -/

theorem Law.prob_map {β : Type} (X : (ℕ → ℝ) → Eff ℕ α) (f : α → β) (p : ℕ) (B : Set β) :
    prob (fun ω => f <$> X ω) p B = prob X p (f ⁻¹' B) := by
  unfold prob
  congr 1
  ext ω
  simp only [Set.mem_ofPred_eq, exec_map]
  rcases (X ω).exec p with ⟨_ | x, p'⟩
  · simp
  · simp

/-- `Unit` complex numbers: the law is invariant under multiplication by any complex number of norm one. -/
theorem C73_complex_invariant (z : Cpx ℝ) (hz : z.normSqr = 1) (p fuel : ℕ) (B : Set (Fin 2 → ℝ)) (hB : MeasurableSet B) :
    prob (fun ω => Distr.complexUnit (Distr.normal (uniformOf ω)) fuel) p {w | (fun i : Fin 2 => (z * w).intoVector[i.1]) ∈ B} =
      prob (fun ω => Distr.complexUnit (Distr.normal (uniformOf ω)) fuel) p {w | (fun i : Fin 2 => w.intoVector[i.1]) ∈ B} := by
  have hO : z.intoMatrix.transpose.dotM z.intoMatrix = 1 := by
    apply Mat.toMatrix_inj
    rw [Mat.toMatrix_dotM, Mat.toMatrix_transpose, Cpx.toMatrix_intoMatrix, Mat.toMatrix_one]
    rw [Cpx.normSqr_eq] at hz
    ext i j
    fin_cases i <;> fin_cases j <;> simp [Matrix.mul_apply, Fin.sum_univ_two] <;> linarith
  have h := C73_unit_invariant (by norm_num) z.intoMatrix hO p fuel B hB
  unfold Distr.complexUnit
  rw [Law.prob_map, Law.prob_map]
  convert h using 2
  · ext v
    simp only [Set.mem_preimage, Set.mem_ofPred_eq]
    rw [← C42_apply z (Cpx.fromVector v)]
    rfl
  · rfl

private theorem quat_orth (q : Quat ℝ) (hq : q.normSqr = 1) : q.intoMatrix.transpose.dotM q.intoMatrix = 1 := by
  apply Mat.toMatrix_inj
  rw [Mat.toMatrix_dotM, Mat.toMatrix_transpose, Quat.toMatrix_intoMatrix, Mat.toMatrix_one]
  rw [Quat.normSqr_eq] at hq
  ext i j
  fin_cases i <;> fin_cases j <;> simp [Matrix.mul_apply, Fin.sum_univ_four] <;> linarith
private theorem conj_conj' (q : Quat ℝ) : q.conj.conj = q := by apply Quat.ext' <;> simp
private theorem exists_conjMat : ∃ D : Mat ℝ 4 4, D.transpose.dotM D = 1 ∧ ∀ x : Quat ℝ, D.dotV x.intoVector = x.conj.intoVector := by
  refine ⟨Mat.diagonal (Vec.fromArray #v[1, -1, -1, -1]), ?_, ?_⟩
  · apply Mat.toMatrix_inj
    rw [Mat.toMatrix_dotM, Mat.toMatrix_transpose, Mat.toMatrix_diagonal, Mat.toMatrix_one, Matrix.diagonal_transpose, Matrix.diagonal_mul_diagonal]
    ext i j
    fin_cases i <;> fin_cases j <;> simp [Vec.fromArray]
  · intro x
    have h : coords ((Mat.diagonal (Vec.fromArray #v[(1 : ℝ), -1, -1, -1])).dotV x.intoVector) = coords x.conj.intoVector := by
      rw [Mat.coords_dotV, Mat.toMatrix_diagonal]
      funext i
      rw [Matrix.mulVec_diagonal]
      fin_cases i <;> simp [Quat.intoVector, Vec.fromArray, coords]
    exact Vec.coords_inj h

/-- `Unit` quaternions: the law is invariant under multiplication by any unit quaternion, from the left and from the right
(the Haar measure of the group of unit quaternions). -/
theorem C73_quaternion_invariant (q : Quat ℝ) (hq : q.normSqr = 1) (p fuel : ℕ) (B : Set (Fin 4 → ℝ)) (hB : MeasurableSet B) :
    prob (fun ω => Distr.quaternionUnit (Distr.normal (uniformOf ω)) fuel) p {x | (fun i : Fin 4 => (q * x).intoVector[i.1]) ∈ B} =
      prob (fun ω => Distr.quaternionUnit (Distr.normal (uniformOf ω)) fuel) p {x | (fun i : Fin 4 => x.intoVector[i.1]) ∈ B} ∧
    prob (fun ω => Distr.quaternionUnit (Distr.normal (uniformOf ω)) fuel) p {x | (fun i : Fin 4 => (x * q).intoVector[i.1]) ∈ B} =
      prob (fun ω => Distr.quaternionUnit (Distr.normal (uniformOf ω)) fuel) p {x | (fun i : Fin 4 => x.intoVector[i.1]) ∈ B} := by
  obtain ⟨D, hD, hDv⟩ := exists_conjMat
  have key : ∀ (A : Mat ℝ 4 4) (f : Quat ℝ → Quat ℝ), A.transpose.dotM A = 1 → (∀ x, A.dotV x.intoVector = (f x).intoVector) →
      prob (fun ω => Distr.quaternionUnit (Distr.normal (uniformOf ω)) fuel) p {x | (fun i : Fin 4 => (f x).intoVector[i.1]) ∈ B} =
      prob (fun ω => Distr.quaternionUnit (Distr.normal (uniformOf ω)) fuel) p {x | (fun i : Fin 4 => x.intoVector[i.1]) ∈ B} := by
    intro A f hA hf
    have h := C73_unit_invariant (by norm_num) A hA p fuel B hB
    unfold Distr.quaternionUnit
    rw [Law.prob_map, Law.prob_map]
    convert h using 2
    · ext v
      simp only [Set.mem_preimage, Set.mem_ofPred_eq]
      rw [← hf (Quat.fromVector v)]
      rfl
    · rfl
  refine ⟨key q.intoMatrix (fun x => q * x) (quat_orth q hq) (C46_apply q), ?_⟩
  have hc : q.conj.normSqr = 1 := by
    rw [Quat.normSqr_eq] at hq ⊢
    simpa using hq
  refine key (D.dotM (q.conj.intoMatrix.dotM D)) (fun x => x * q) ?_ ?_
  · have h1 := congrArg Mat.toMatrix hD
    have h2 := congrArg Mat.toMatrix (quat_orth _ hc)
    rw [Mat.toMatrix_dotM, Mat.toMatrix_transpose, Mat.toMatrix_one] at h1 h2
    apply Mat.toMatrix_inj
    simp only [Mat.toMatrix_dotM, Mat.toMatrix_transpose, Mat.toMatrix_one, Matrix.transpose_mul]
    generalize D.toMatrix = X at h1
    generalize q.conj.intoMatrix.toMatrix = Y at h2
    calc X.transpose * Y.transpose * X.transpose * (X * (Y * X)) = X.transpose * (Y.transpose * (X.transpose * X) * Y) * X := by
          simp only [Matrix.mul_assoc]
      _ = 1 := by rw [h1, Matrix.mul_one, h2, Matrix.mul_one, h1]
  · intro x
    rw [Mat.dotV_dotM, Mat.dotV_dotM, hDv, C46_apply, hDv]
    rw [← (C44_conj x q).2.2.1, conj_conj']

/-! ## C74 random rotations -/

theorem Law.map_eval (m : ℕ) (C : Set ℝ) (hC : MeasurableSet C) : randomness {ω | ω m ∈ C} = unif C := by
  have := Measure.infinitePi_map_eval (fun _ : ℕ => unif) m
  rw [← this, Measure.map_apply (measurable_pi_apply m) hC]
  rfl

/-- Shifting a 1-periodic event does not change its uniform probability. -/
theorem Law.unif_periodic (S : Set ℝ) (hS : MeasurableSet S) (hper : ∀ x, x + 1 ∈ S ↔ x ∈ S) (b : ℝ) :
    unif {v | v + b ∈ S} = unif S := by
  have hz : ∀ (n : ℤ) (x : ℝ), x + n ∈ S ↔ x ∈ S := by
    intro n
    induction n using Int.induction_on with
    | zero => simp
    | succ n ih => intro x; rw [← ih x, ← hper (x + (n : ℤ))]; push_cast; rw [add_assoc]
    | pred n ih => intro x; rw [← ih x, ← hper]; push_cast; rw [add_assoc, sub_add_cancel]
  have h := (isAddFundamentalDomain_Ioc (T := 1) one_pos b volume).measure_set_eq (isAddFundamentalDomain_Ioc (T := 1) one_pos 0 volume) hS (by
    rintro ⟨g, n, rfl⟩
    ext x
    simp only [Set.mem_preimage]
    rw [← hz n x]
    show (n • (1 : ℝ)) + x ∈ S ↔ _
    rw [zsmul_one, add_comm])
  have hm : MeasurableSet {v | v + b ∈ S} := (measurable_id.add_const b) hS
  have hu : (unif : Measure ℝ) = volume.restrict (Set.Ioc 0 (0 + 1)) := by
    rw [unif, zero_add, ← restrict_Ioo_eq_restrict_Ico, restrict_Ioo_eq_restrict_Ioc]
  rw [hu, Measure.restrict_apply hm, Measure.restrict_apply hS, ← h, ← measure_preimage_add_right volume b (S ∩ _)]
  congr 1
  ext v
  simp only [Set.mem_inter_iff, Set.mem_ofPred_eq, Set.mem_Ioc, Set.mem_preimage]
  refine and_congr_right fun _ => ⟨fun h => ⟨by linarith, by linarith⟩, fun h => ⟨by linarith, by linarith⟩⟩

private theorem cos_real' (x : ℝ) : FloatOps.cos x = Real.cos x := rfl
private theorem sin_real' (x : ℝ) : FloatOps.sin x = Real.sin x := rfl

/-- `Uniform` plane rotations: the law is invariant under composition with any rotation. -/
theorem C74_rotation2 (r0 : Rotation2 ℝ) (h0 : r0.intoComplex.normSqr = 1) (p : ℕ) (B : Set (ℝ × ℝ)) (hB : MeasurableSet B) :
    prob (fun ω => Distr.rotation2Uniform (uniformOf ω)) p
        {r | ((Transform.chain (Vec ℝ 2) r0 r).intoComplex.re, (Transform.chain (Vec ℝ 2) r0 r).intoComplex.im) ∈ B} =
      prob (fun ω => Distr.rotation2Uniform (uniformOf ω)) p {r | (r.intoComplex.re, r.intoComplex.im) ∈ B} := by
  have hex : ∀ ω, (Distr.rotation2Uniform (uniformOf ω)).exec p = (.ok (Rotation2.new (2 * Real.pi * ω p)), p + 1) := by
    intro ω
    unfold Distr.rotation2Uniform
    rw [exec_bind]
    simp [uniformOf, two_eq, pi_real]
  obtain ⟨b, hb1, hb2⟩ : ∃ b : ℝ, r0.intoComplex.re = Real.cos (2 * Real.pi * b) ∧ r0.intoComplex.im = Real.sin (2 * Real.pi * b) := by
    rw [Cpx.normSqr_eq] at h0
    let z : ℂ := ⟨r0.intoComplex.re, r0.intoComplex.im⟩
    have hz : ‖z‖ = 1 := by
      rw [Complex.norm_def, Complex.normSq_apply]
      exact (congrArg Real.sqrt h0).trans Real.sqrt_one
    have hz0 : z ≠ 0 := by rw [← norm_ne_zero_iff, hz]; norm_num
    refine ⟨Complex.arg z / (2 * Real.pi), ?_, ?_⟩
    · rw [mul_div_cancel₀ _ (by positivity), Complex.cos_arg hz0, hz, div_one]
    · rw [mul_div_cancel₀ _ (by positivity), Complex.sin_arg, hz, div_one]
  rw [Law.prob_eq hex, Law.prob_eq hex]
  have hS : MeasurableSet {v : ℝ | (Real.cos (2 * Real.pi * v), Real.sin (2 * Real.pi * v)) ∈ B} := by
    have : Measurable fun v : ℝ => (Real.cos (2 * Real.pi * v), Real.sin (2 * Real.pi * v)) := by fun_prop
    exact this hB
  have hper : ∀ x : ℝ, (x + 1) ∈ {v : ℝ | (Real.cos (2 * Real.pi * v), Real.sin (2 * Real.pi * v)) ∈ B} ↔
      x ∈ {v : ℝ | (Real.cos (2 * Real.pi * v), Real.sin (2 * Real.pi * v)) ∈ B} := by
    intro x
    simp only [Set.mem_ofPred_eq]
    rw [mul_add, mul_one, Real.cos_add_two_pi, Real.sin_add_two_pi]
  have h1 := Law.unif_periodic _ hS hper b
  rw [← Law.map_eval p _ ?_, ← Law.map_eval p _ hS] at h1
  · convert h1 using 2
    · ext ω
      simp only [Set.mem_ofPred_eq, Rotation2.intoComplex, Rotation2.comp_chain]
      simp only [Rotation2.intoComplex] at hb1 hb2
      rw [mul_add, Real.cos_add, Real.sin_add]
      simp only [Rotation2.new, Cpx.re_mul, Cpx.im_mul, Cpx.re_new, Cpx.im_new, hb1, hb2, cos_real', sin_real']
      rw [iff_iff_eq]
      congr 2
      · ring
      · ring
    · ext ω
      simp only [Set.mem_ofPred_eq, Rotation2.intoComplex, Rotation2.new, Cpx.re_new, Cpx.im_new, cos_real', sin_real']
  · exact (measurable_id.add_const b) hS

/-- An event decided by the numbers before position `m` is independent of the number at position `m`. -/
theorem Law.indep_next (m : ℕ) (E : Set (ℕ → ℝ)) (hE : MeasurableSet E) (hdep : ∀ ω ω' : ℕ → ℝ, (∀ i < m, ω i = ω' i) → (ω ∈ E ↔ ω' ∈ E))
    (C : Set ℝ) (hC : MeasurableSet C) : randomness {ω | ω ∈ E ∧ ω m ∈ C} = randomness E * unif C := by
  have hi : iIndepFun (fun (i : ℕ) (ω : ℕ → ℝ) => ω i) randomness := iIndepFun_infinitePi (P := fun _ : ℕ => unif) (fun _ => measurable_id)
  have h2 : IndepFun (fun (ω : ℕ → ℝ) (i : Finset.range m) => ω i) (fun (ω : ℕ → ℝ) (i : ({m} : Finset ℕ)) => ω i) randomness :=
    hi.indepFun_finset (Finset.range m) {m} (by simp) (fun i => measurable_pi_apply i)
  have hC2 : MeasurableSet {f : ({m} : Finset ℕ) → ℝ | f ⟨m, by simp⟩ ∈ C} :=
    (measurable_pi_apply (⟨m, by simp⟩ : ({m} : Finset ℕ))) hC
  let ext : (Finset.range m → ℝ) → ℕ → ℝ := fun f i => if h : i ∈ Finset.range m then f ⟨i, h⟩ else 0
  have hext : Measurable ext := by
    refine measurable_pi_lambda _ fun i => ?_
    by_cases h : i ∈ Finset.range m
    · simp only [ext, dif_pos h]; exact measurable_pi_apply _
    · simp only [ext, dif_neg h]; exact measurable_const
  have h3 := h2.measure_inter_preimage_eq_mul (ext ⁻¹' E) {f | f ⟨m, by simp⟩ ∈ C} (hext hE) hC2
  have e1 : (fun (ω : ℕ → ℝ) (i : Finset.range m) => ω i) ⁻¹' (ext ⁻¹' E) = E := by
    ext ω
    refine hdep _ _ fun i hi => ?_
    simp only [ext, Finset.mem_range, dif_pos hi]
  rw [e1] at h3
  rw [← Law.map_eval m C hC]
  exact h3

/-- The `k`-th round succeeds with a block in `D`. -/
def Law.round (p N : ℕ) (D : Set (Fin N → ℝ)) (k : ℕ) : Set (ℕ → ℝ) :=
  {ω | (∀ j < k, ¬ (FloatOps.epsilon : ℝ) < Real.sqrt (∑ i : Fin N, Law.gauss p ω (j * N + i) ^ 2)) ∧
    (FloatOps.epsilon : ℝ) < Real.sqrt (∑ i : Fin N, Law.gauss p ω (k * N + i) ^ 2) ∧
    (fun i : Fin N => Law.gauss p ω (k * N + i)) ∈ D}

theorem Law.measurable_round (p : ℕ) (D : Set (Fin N → ℝ)) (hD : MeasurableSet D) (k : ℕ) : MeasurableSet (Law.round p N D k) := by
  have hb : ∀ j, Measurable fun ω : ℕ → ℝ => (fun i : Fin N => Law.gauss p ω (j * N + i)) := fun j =>
    measurable_pi_lambda _ fun i => (measurable_pi_apply _).comp (Law.measurable_gauss p)
  have ha := measurable_acc (N := N)
  have h1 : MeasurableSet {ω : ℕ → ℝ | ∀ j < k, ¬ (FloatOps.epsilon : ℝ) < Real.sqrt (∑ i : Fin N, Law.gauss p ω (j * N + i) ^ 2)} := by
    rw [show {ω : ℕ → ℝ | ∀ j < k, ¬ (FloatOps.epsilon : ℝ) < Real.sqrt (∑ i : Fin N, Law.gauss p ω (j * N + i) ^ 2)} =
      ⋂ j, ⋂ _ : j < k, {ω | ¬ (FloatOps.epsilon : ℝ) < Real.sqrt (∑ i : Fin N, Law.gauss p ω (j * N + i) ^ 2)} from by ext; simp]
    exact .iInter fun j => .iInter fun _ => (hb j ha).compl
  exact h1.inter ((hb k ha).inter (hb k hD))

theorem Law.round_disjoint (p : ℕ) (D D' : Set (Fin N → ℝ)) {k l : ℕ} (h : k ≠ l) : Disjoint (Law.round p N D k) (Law.round p N D' l) := by
  rw [Set.disjoint_left]
  intro ω h1 h2
  rcases lt_or_gt_of_ne h with h | h
  · exact h2.1 k h h1.2.1
  · exact h1.1 l h h2.2.1

theorem Law.round_dep (p : ℕ) (D : Set (Fin N → ℝ)) (k : ℕ) (ω ω' : ℕ → ℝ) (h : ∀ i < p + 2 * ((k + 1) * N), ω i = ω' i) :
    ω ∈ Law.round p N D k ↔ ω' ∈ Law.round p N D k := by
  have hg : ∀ j ≤ k, ∀ i : Fin N, Law.gauss p ω (j * N + i) = Law.gauss p ω' (j * N + i) := by
    intro j hj i
    have h1 : j * N + i.1 < (k + 1) * N := by
      have := i.2
      nlinarith
    unfold Law.gauss
    rw [h _ (by omega), h _ (by omega)]
  unfold Law.round
  simp only [Set.mem_ofPred_eq]
  refine and_congr ?_ ?_
  · refine forall_congr' fun j => forall_congr' fun hj => ?_
    simp only [hg j hj.le]
  · simp only [hg k le_rfl]

theorem Law.prob_round (hN : 0 < N) (p fuel : ℕ) (B : Set (Fin N → ℝ)) (hB : MeasurableSet B) (C : Set ℝ) (hC : MeasurableSet C) :
    randomness {ω | ∃ (u : Vec ℝ N) (p1 : ℕ), (Distr.unit (Distr.normal (uniformOf ω)) fuel).exec p = (.ok u, p1) ∧
        (fun i : Fin N => u[i.1]) ∈ B ∧ ω p1 ∈ C} =
      prob (fun ω => Distr.unit (Distr.normal (uniformOf ω)) fuel) p {u : Vec ℝ N | (fun i : Fin N => u[i.1]) ∈ B} * unif C := by
  let g : (Fin N → ℝ) → Fin N → ℝ := fun x i => x i / Real.sqrt (∑ i, x i ^ 2)
  have hg : Measurable g := measurable_pi_lambda _ fun i => (measurable_pi_apply i).div measurable_len
  have hunit : ∀ ω (u : Vec ℝ N) p1, (Distr.unit (Distr.normal (uniformOf ω)) fuel).exec p = (.ok u, p1) ↔
      ∃ k < fuel, p1 = p + 2 * ((k + 1) * N) ∧ (fun i : Fin N => u[i.1]) = g (fun i => Law.gauss p ω (k * N + i)) ∧
        ω ∈ Law.round p N Set.univ k := by
    intro ω u p1
    rw [C62_unit]
    simp only [Law.nonzero_exec hN]
    constructor
    · rintro ⟨x, ⟨k, hk, h1, rfl, h2, h3⟩, h4⟩
      refine ⟨k, hk, h1, ?_, h2, h3, trivial⟩
      funext i
      rw [h4 i.1 i.2]
      simp [g]
    · rintro ⟨k, hk, h1, h2, h3, h4, _⟩
      refine ⟨_, ⟨k, hk, h1, rfl, h3, h4⟩, ?_⟩
      intro i hi
      have := congrFun h2 ⟨i, hi⟩
      simp only at this
      rw [this]
      simp [g]
  have e1 : {ω | ∃ (u : Vec ℝ N) (p1 : ℕ), (Distr.unit (Distr.normal (uniformOf ω)) fuel).exec p = (.ok u, p1) ∧
        (fun i : Fin N => u[i.1]) ∈ B ∧ ω p1 ∈ C} =
      ⋃ k ∈ Finset.range fuel, {ω | ω ∈ Law.round p N (g ⁻¹' B) k ∧ ω (p + 2 * ((k + 1) * N)) ∈ C} := by
    ext ω
    simp only [Set.mem_ofPred_eq, hunit, Set.mem_iUnion, Finset.mem_range, exists_prop]
    constructor
    · rintro ⟨u, p1, ⟨k, hk, rfl, h1, h2⟩, h3, h4⟩
      rw [h1] at h3
      exact ⟨k, hk, ⟨h2.1, h2.2.1, h3⟩, h4⟩
    · rintro ⟨k, hk, h1, h2⟩
      refine ⟨⟨Vector.ofFn (g fun i => Law.gauss p ω (k * N + i))⟩, _, ⟨k, hk, rfl, ?_, h1.1, h1.2.1, trivial⟩, ?_, h2⟩
      · funext i; simp
      · simpa using h1.2.2
  have e2 : {ω | ∃ (u : Vec ℝ N) (p1 : ℕ), (Distr.unit (Distr.normal (uniformOf ω)) fuel).exec p = (.ok u, p1) ∧
        (u ∈ {u : Vec ℝ N | (fun i : Fin N => u[i.1]) ∈ B})} = ⋃ k ∈ Finset.range fuel, Law.round p N (g ⁻¹' B) k := by
    ext ω
    simp only [Set.mem_ofPred_eq, hunit, Set.mem_iUnion, Finset.mem_range, exists_prop]
    constructor
    · rintro ⟨u, p1, ⟨k, hk, rfl, h1, h2⟩, h3⟩
      rw [h1] at h3
      exact ⟨k, hk, h2.1, h2.2.1, h3⟩
    · rintro ⟨k, hk, h1⟩
      refine ⟨⟨Vector.ofFn (g fun i => Law.gauss p ω (k * N + i))⟩, _, ⟨k, hk, rfl, ?_, h1.1, h1.2.1, trivial⟩, ?_⟩
      · funext i; simp
      · simpa using h1.2.2
  have hm := fun k => Law.measurable_round p (g ⁻¹' B) (hg hB) k
  unfold prob
  rw [e1, e2, measure_biUnion_finset, measure_biUnion_finset, Finset.sum_mul]
  · refine Finset.sum_congr rfl fun k _ => ?_
    exact Law.indep_next _ _ (hm k) (fun ω ω' h => Law.round_dep p _ k ω ω' h) C hC
  · intro k _ l _ hkl
    exact Law.round_disjoint p _ _ hkl
  · intro k _; exact hm k
  · intro k _ l _ hkl
    exact (Law.round_disjoint p _ _ hkl).mono (fun _ h => h.1) (fun _ h => h.1)
  · intro k _
    exact (hm k).inter (measurable_pi_apply _ hC)

/-- The joint law of the sampled unit vector and the number drawn after it, as a measure. -/
noncomputable def Law.jointLaw (p N fuel : ℕ) : Measure ((Fin N → ℝ) × ℝ) :=
  ∑ k ∈ Finset.range fuel, (randomness.restrict (Law.round p N Set.univ k)).map (fun ω =>
    ((fun i : Fin N => Law.gauss p ω (k * N + i) / Real.sqrt (∑ i : Fin N, Law.gauss p ω (k * N + i) ^ 2)), ω (p + 2 * ((k + 1) * N))))

theorem Law.jointLaw_apply (hN : 0 < N) (p fuel : ℕ) (S : Set ((Fin N → ℝ) × ℝ)) (hS : MeasurableSet S) :
    randomness {ω | ∃ (u : Vec ℝ N) (p1 : ℕ), (Distr.unit (Distr.normal (uniformOf ω)) fuel).exec p = (.ok u, p1) ∧
        ((fun i : Fin N => u[i.1]), ω p1) ∈ S} = Law.jointLaw p N fuel S := by
  have hX : ∀ k, Measurable (fun ω : ℕ → ℝ =>
      ((fun i : Fin N => Law.gauss p ω (k * N + i) / Real.sqrt (∑ i : Fin N, Law.gauss p ω (k * N + i) ^ 2)), ω (p + 2 * ((k + 1) * N)))) := by
    intro k
    have := Law.measurable_gauss p
    refine Measurable.prodMk (measurable_pi_lambda _ fun i => ?_) (measurable_pi_apply _)
    have h : ∀ j, Measurable fun ω => Law.gauss p ω j := fun j => (measurable_pi_apply j).comp this
    have := h (k * N + i)
    refine this.div (Measurable.sqrt (Finset.measurable_sum _ fun i _ => (h _).pow_const 2))
  rw [Law.jointLaw, Measure.finsetSum_apply]
  have e1 : {ω | ∃ (u : Vec ℝ N) (p1 : ℕ), (Distr.unit (Distr.normal (uniformOf ω)) fuel).exec p = (.ok u, p1) ∧
        ((fun i : Fin N => u[i.1]), ω p1) ∈ S} =
      ⋃ k ∈ Finset.range fuel, (fun ω : ℕ → ℝ =>
      ((fun i : Fin N => Law.gauss p ω (k * N + i) / Real.sqrt (∑ i : Fin N, Law.gauss p ω (k * N + i) ^ 2)), ω (p + 2 * ((k + 1) * N)))) ⁻¹' S ∩
        Law.round p N Set.univ k := by
    ext ω
    simp only [Set.mem_ofPred_eq, C62_unit, Law.nonzero_exec hN, Set.mem_iUnion, Finset.mem_range, exists_prop]
    constructor
    · rintro ⟨u, p1, ⟨x, ⟨k, hk, rfl, rfl, h1, h2⟩, h3⟩, h4⟩
      refine ⟨k, hk, ?_, h1, h2, trivial⟩
      have : (fun i : Fin N => u[i.1]) = fun i : Fin N => Law.gauss p ω (k * N + i) / Real.sqrt (∑ i : Fin N, Law.gauss p ω (k * N + i) ^ 2) := by
        funext i; rw [h3 i.1 i.2]; simp
      rw [this] at h4
      exact h4
    · rintro ⟨k, hk, h1, h2, h3, _⟩
      refine ⟨⟨Vector.ofFn fun i : Fin N => Law.gauss p ω (k * N + i) / Real.sqrt (∑ i : Fin N, Law.gauss p ω (k * N + i) ^ 2)⟩, _,
        ⟨_, ⟨k, hk, rfl, rfl, h2, h3⟩, ?_⟩, ?_⟩
      · intro i hi; simp
      · simpa using h1
  rw [e1, measure_biUnion_finset]
  · refine Finset.sum_congr rfl fun k _ => ?_
    rw [Measure.map_apply (hX k) hS, Measure.restrict_apply (hX k hS)]
  · intro k _ l _ hkl
    exact (Law.round_disjoint p _ _ hkl).mono (fun _ h => h.2) (fun _ h => h.2)
  · intro k _
    exact (hX k hS).inter (Law.measurable_round p _ .univ k)

/-- The law of the sampled unit vector. -/
noncomputable def Law.unitLaw (p N fuel : ℕ) : Measure (Fin N → ℝ) := (Law.jointLaw p N fuel).map Prod.fst

theorem Law.unitLaw_apply (hN : 0 < N) (p fuel : ℕ) (B : Set (Fin N → ℝ)) (hB : MeasurableSet B) :
    prob (fun ω => Distr.unit (Distr.normal (uniformOf ω)) fuel) p {u : Vec ℝ N | (fun i : Fin N => u[i.1]) ∈ B} = Law.unitLaw p N fuel B := by
  rw [Law.unitLaw, Measure.map_apply measurable_fst hB, ← Law.jointLaw_apply hN p fuel _ (measurable_fst hB)]
  rfl

theorem Law.unitLaw_univ (hN : 0 < N) (p fuel : ℕ) : Law.unitLaw p N fuel Set.univ = 1 - tooShort N ^ fuel := by
  rw [← (C73_nonzero_total hN p fuel).2, ← Law.unitLaw_apply hN p fuel _ .univ]
  unfold prob
  congr 1
  ext ω
  simp only [Set.mem_ofPred_eq, C62_unit, Set.mem_univ, and_true]
  constructor
  · rintro ⟨u, p', x, h, _⟩; exact ⟨x, p', h⟩
  · rintro ⟨x, p', h⟩
    exact ⟨⟨Vector.ofFn fun i : Fin N => x[i.1] / Real.sqrt (∑ i : Fin N, x[i.1] ^ 2)⟩, p', x, h, fun i hi => by simp⟩

theorem Law.finite_unitLaw (hN : 0 < N) (p fuel : ℕ) : IsFiniteMeasure (Law.unitLaw p N fuel) := by
  refine ⟨?_⟩
  rw [Law.unitLaw_univ hN]
  exact lt_of_le_of_lt tsub_le_self ENNReal.one_lt_top

theorem Law.jointLaw_eq (hN : 0 < N) (p fuel : ℕ) : Law.jointLaw p N fuel = (Law.unitLaw p N fuel).prod unif := by
  have := Law.finite_unitLaw hN p fuel
  refine (Measure.prod_eq fun B C hB hC => ?_).symm
  rw [← Law.jointLaw_apply hN p fuel _ (hB.prod hC), ← Law.unitLaw_apply hN p fuel B hB, ← Law.prob_round hN p fuel B hB C hC]
  rfl

theorem Law.rotation3_exec (ω : ℕ → ℝ) (p fuel p' : ℕ) (r : Rotation3 ℝ) :
    (Distr.rotation3Uniform (Distr.normal (uniformOf ω)) (uniformOf ω) fuel).exec p = (.ok r, p') ↔
      ∃ u p1, (Distr.unit (Distr.normal (uniformOf ω)) fuel).exec p = (.ok u, p1) ∧ p' = p1 + 1 ∧
        r = Rotation3.new u (2 * Real.pi * ω p1) := by
  unfold Distr.rotation3Uniform
  rw [exec_bind]
  rcases (Distr.unit (N := 3) (Distr.normal (uniformOf ω)) fuel).exec p with ⟨e | u, p1⟩
  · simp
  · simp only [exec_bind, uniformOf, exec_ofStep, exec_pure, two_eq, pi_real, Prod.mk.injEq, Except.ok.injEq, sub_zero, zero_add]
    constructor
    · rintro ⟨rfl, rfl⟩; exact ⟨u, p1, ⟨rfl, rfl⟩, rfl, rfl⟩
    · rintro ⟨_, _, ⟨rfl, rfl⟩, rfl, rfl⟩; exact ⟨rfl, rfl⟩

/-- `Uniform` rotations of space: the axis is uniform on the sphere (`Unit`), the angle is uniform on `(0, 2π)`, and the two
are independent. -/
theorem C74_rotation3 (p fuel : ℕ) (B : Set (Fin 3 → ℝ)) (hB : MeasurableSet B) (C : Set ℝ) (hC : MeasurableSet C)
    (hC' : C ⊆ Set.Ioo 0 (2 * Real.pi)) :
    prob (fun ω => Distr.rotation3Uniform (Distr.normal (uniformOf ω)) (uniformOf ω) fuel) p
        {r | (fun i : Fin 3 => r.axis[i.1]) ∈ B ∧ r.angle ∈ C} =
      prob (fun ω => Distr.unit (Distr.normal (uniformOf ω)) fuel) p {u : Vec ℝ 3 | (fun i : Fin 3 => u[i.1]) ∈ B} *
        (volume C / ENNReal.ofReal (2 * Real.pi)) := by
  have hpi := Real.pi_pos
  have hae : ∀ᵐ ω ∂randomness, ∀ i, ω i ∈ Set.Ioo (0 : ℝ) 1 := by
    rw [ae_all_iff]
    intro i
    rw [ae_iff]
    have : randomness {ω | ω i ∈ (Set.Ioo (0 : ℝ) 1)ᶜ} = 0 := by
      rw [Law.map_eval i _ measurableSet_Ioo.compl, unif, ← restrict_Ioo_eq_restrict_Ico,
        Measure.restrict_apply measurableSet_Ioo.compl]
      simp
    exact this
  let C0 : Set ℝ := {t | 2 * Real.pi * t ∈ C}
  have hC0 : MeasurableSet C0 := (measurable_const_mul (2 * Real.pi)) hC
  have hu : unif C0 = volume C / ENNReal.ofReal (2 * Real.pi) := by
    have h1 : C0 ⊆ Set.Ico 0 1 := by
      intro t ht
      have := hC' ht
      refine ⟨?_, ?_⟩
      · by_contra h
        have := this.1
        nlinarith
      · have := this.2
        by_contra h
        nlinarith
    rw [unif, Measure.restrict_apply hC0, Set.inter_eq_left.2 h1,
      show C0 = (fun t => (2 * Real.pi) * t) ⁻¹' C from rfl, Real.volume_preimage_mul_left (by positivity), abs_of_pos (by positivity),
      ENNReal.ofReal_inv_of_pos (by positivity), mul_comm, ENNReal.div_eq_inv_mul, mul_comm]
  rw [← hu, ← Law.prob_round (by norm_num) p fuel B hB C0 hC0]
  unfold prob
  refine measure_congr (hae.mono fun ω hω => ?_)
  refine propext ?_
  have hun : ∀ (u : Vec ℝ 3) p1, (Distr.unit (Distr.normal (uniformOf ω)) fuel).exec p = (.ok u, p1) →
      (Rotation3.new u (2 * Real.pi * ω p1)).angle = 2 * Real.pi * ω p1 ∧ (Rotation3.new u (2 * Real.pi * ω p1)).axis = u := by
    intro u p1 h
    have hl : u.length = 1 := by
      rw [Vec.length, Vec.squareLength_eq_sum]
      have := C62_unit_length _ _ _ _ _ h
      simp only [sq] at this
      rw [this]; exact Real.sqrt_one
    have ha := C56_axis_angle u (2 * Real.pi * ω p1) hl
    obtain ⟨h0, h1⟩ := hω p1
    exact ⟨ha.1 (by positivity) (by nlinarith), ha.2 (by positivity) (by nlinarith)⟩
  show (∃ x p', _ ∧ _) ↔ ∃ u p1, _
  simp only [Law.rotation3_exec]
  constructor
  · rintro ⟨r, p', ⟨u, p1, h1, rfl, rfl⟩, h2, h3⟩
    obtain ⟨h4, h5⟩ := hun u p1 h1
    rw [h5] at h2; rw [h4] at h3
    exact ⟨u, p1, h1, h2, h3⟩
  · rintro ⟨u, p1, h1, h2, h3⟩
    obtain ⟨h4, h5⟩ := hun u p1 h1
    refine ⟨_, _, ⟨u, p1, h1, rfl, rfl⟩, ?_, ?_⟩
    · rwa [h5]
    · rwa [h4]

/-- The full law of `Uniform` rotations of space: the quaternion `(cos (π t), u sin (π t))` of a `Unit` vector `u` and an
independent uniform number `t`. -/
theorem Law.rotation3_law (p fuel : ℕ) (B : Set (Fin 4 → ℝ)) (hB : MeasurableSet B) :
    prob (fun ω => Distr.rotation3Uniform (Distr.normal (uniformOf ω)) (uniformOf ω) fuel) p
        {r | (fun i : Fin 4 => r.intoQuaternion.intoVector[i.1]) ∈ B} =
      ((Law.unitLaw p 3 fuel).prod unif) {x | ![Real.cos (Real.pi * x.2), x.1 0 * Real.sin (Real.pi * x.2),
        x.1 1 * Real.sin (Real.pi * x.2), x.1 2 * Real.sin (Real.pi * x.2)] ∈ B} := by
  have hm : Measurable fun x : (Fin 3 → ℝ) × ℝ => ![Real.cos (Real.pi * x.2), x.1 0 * Real.sin (Real.pi * x.2),
        x.1 1 * Real.sin (Real.pi * x.2), x.1 2 * Real.sin (Real.pi * x.2)] := by
    refine measurable_pi_lambda _ fun i => ?_
    fin_cases i
    · exact Real.measurable_cos.comp (measurable_snd.const_mul _)
    all_goals
      refine Measurable.mul ?_ (Real.measurable_sin.comp (measurable_snd.const_mul _))
      exact (measurable_pi_apply _).comp measurable_fst
  have hS : MeasurableSet {x : (Fin 3 → ℝ) × ℝ | ![Real.cos (Real.pi * x.2), x.1 0 * Real.sin (Real.pi * x.2),
        x.1 1 * Real.sin (Real.pi * x.2), x.1 2 * Real.sin (Real.pi * x.2)] ∈ B} := hm hB
  rw [← Law.jointLaw_eq (by norm_num), ← Law.jointLaw_apply (by norm_num) p fuel _ hS]
  unfold prob
  congr 1
  ext ω
  simp only [Set.mem_ofPred_eq, Law.rotation3_exec]
  have hq : ∀ (u : Vec ℝ 3) t, (fun i : Fin 4 => (Rotation3.new u (2 * Real.pi * t)).intoQuaternion.intoVector[i.1]) =
      ![Real.cos (Real.pi * t), u[0] * Real.sin (Real.pi * t), u[1] * Real.sin (Real.pi * t), u[2] * Real.sin (Real.pi * t)] := by
    intro u t
    obtain ⟨hw, hx, hy, hz⟩ := Rotation3.quat_new u (2 * Real.pi * t)
    rw [show 2 * Real.pi * t / 2 = Real.pi * t by ring] at hw hx hy hz
    funext i
    fin_cases i
    · exact hw
    · exact hx
    · exact hy
    · exact hz
  constructor
  · rintro ⟨r, p', ⟨u, p1, h1, rfl, rfl⟩, h2⟩
    rw [hq] at h2
    exact ⟨u, p1, h1, h2⟩
  · rintro ⟨u, p1, h1, h2⟩
    exact ⟨_, _, ⟨u, p1, h1, rfl, rfl⟩, by rw [hq]; exact h2⟩

theorem Law.unif_cos : unif {t | 1 / 2 < Real.cos (Real.pi * t) ^ 2} = 1 / 2 := by
  have hpi := Real.pi_pos
  have e : {t : ℝ | 1 / 2 < Real.cos (Real.pi * t) ^ 2} = {t | 0 < Real.cos (2 * (Real.pi * t))} := by
    ext t
    simp only [Set.mem_ofPred_eq, Real.cos_two_mul]
    constructor <;> intro h <;> linarith
  have hm : MeasurableSet {t : ℝ | 0 < Real.cos (2 * (Real.pi * t))} := measurableSet_lt measurable_const (by fun_prop)
  rw [e, unif, Measure.restrict_apply hm]
  have e2 : {t : ℝ | 0 < Real.cos (2 * (Real.pi * t))} ∩ Set.Ico 0 1 = Set.Ico 0 (1 / 4) ∪ Set.Ioo (3 / 4) 1 := by
    ext t
    simp only [Set.mem_inter_iff, Set.mem_ofPred_eq, Set.mem_Ico, Set.mem_union, Set.mem_Ioo]
    constructor
    · rintro ⟨h, h0, h1⟩
      by_contra hc
      push Not at hc
      have a := hc.1 h0
      have b : t ≤ 3 / 4 := by
        by_contra hb; push Not at hb; linarith [hc.2 hb]
      have := Real.cos_nonpos_of_pi_div_two_le_of_le (x := 2 * (Real.pi * t)) (by nlinarith) (by nlinarith)
      linarith
    · rintro (⟨h0, h1⟩ | ⟨h0, h1⟩)
      · exact ⟨Real.cos_pos_of_mem_Ioo ⟨by nlinarith, by nlinarith⟩, h0, by linarith⟩
      · refine ⟨?_, by linarith, h1⟩
        rw [← Real.cos_sub_two_pi]
        exact Real.cos_pos_of_mem_Ioo ⟨by nlinarith, by nlinarith⟩
  rw [e2, measure_union (by rw [Set.disjoint_left]; rintro x ⟨_, h1⟩ ⟨h2, _⟩; linarith) measurableSet_Ioo, Real.volume_Ico, Real.volume_Ioo,
    ← ENNReal.ofReal_add (by norm_num) (by norm_num)]
  norm_num
  rw [ENNReal.ofReal_div_of_pos (by norm_num)]
  simp

/-- Half of the sampled rotations of space turn by less than a right angle (`cos² (angle / 2) > 1 / 2`).  For the
rotation-invariant (Haar) law this probability is `1/2 - 1/π`. -/
theorem C74_rotation3_right_angle (p fuel : ℕ) :
    prob (fun ω => Distr.rotation3Uniform (Distr.normal (uniformOf ω)) (uniformOf ω) fuel) p
      {r | 1 / 2 < r.intoQuaternion.w ^ 2} = (1 - tooShort 3 ^ fuel) * (1 / 2) := by
  have hB : MeasurableSet {x : Fin 4 → ℝ | 1 / 2 < x 0 ^ 2} := measurableSet_lt measurable_const (by fun_prop)
  have h := Law.rotation3_law p fuel _ hB
  have := Law.finite_unitLaw (N := 3) (by norm_num) p fuel
  rw [← Law.unitLaw_univ (by norm_num) p, ← Law.unif_cos, ← Measure.prod_prod]
  have e : {x : (Fin 3 → ℝ) × ℝ | ![Real.cos (Real.pi * x.2), x.1 0 * Real.sin (Real.pi * x.2),
        x.1 1 * Real.sin (Real.pi * x.2), x.1 2 * Real.sin (Real.pi * x.2)] ∈ {x : Fin 4 → ℝ | 1 / 2 < x 0 ^ 2}} =
      Set.univ ×ˢ {t | 1 / 2 < Real.cos (Real.pi * t) ^ 2} := by
    ext x; simp
  rw [e] at h
  exact h

/-- `Uniform` for rotations of space is not uniform: its law is not invariant under composition with rotations, not even for
events that do not distinguish the two quaternions of a rotation. -/
theorem C74_rotation3_refuted (p fuel : ℕ) (hf : 0 < fuel) :
    ¬ ∀ r0 : Rotation3 ℝ, r0.intoQuaternion.normSqr = 1 → ∀ B : Set (Fin 4 → ℝ), MeasurableSet B → (∀ x, -x ∈ B ↔ x ∈ B) →
      prob (fun ω => Distr.rotation3Uniform (Distr.normal (uniformOf ω)) (uniformOf ω) fuel) p
          {r | (fun i : Fin 4 => (Transform.chain (Vec ℝ 3) r0 r).intoQuaternion.intoVector[i.1]) ∈ B} =
        prob (fun ω => Distr.rotation3Uniform (Distr.normal (uniformOf ω)) (uniformOf ω) fuel) p
          {r | (fun i : Fin 4 => r.intoQuaternion.intoVector[i.1]) ∈ B} := by
  intro h
  have hfin := Law.finite_unitLaw (N := 3) (by norm_num) p fuel
  have htot : (1 : ℝ≥0∞) - tooShort 3 ^ fuel ≠ 0 := by
    rw [Ne, tsub_eq_zero_iff_le, not_le]
    exact pow_lt_one₀ zero_le (C73_nonzero_total (N := 3) (by norm_num) 0 0).1 (by omega)
  have hB : ∀ j : Fin 4, MeasurableSet {x : Fin 4 → ℝ | 1 / 2 < x j ^ 2} := fun j => measurableSet_lt measurable_const (by fun_prop)
  have hsym : ∀ j : Fin 4, ∀ x : Fin 4 → ℝ, -x ∈ {x : Fin 4 → ℝ | 1 / 2 < x j ^ 2} ↔ x ∈ {x : Fin 4 → ℝ | 1 / 2 < x j ^ 2} := by
    intro j x; simp
  let ν := (Law.unitLaw p 3 fuel).prod unif
  let F : (Fin 3 → ℝ) × ℝ → Fin 4 → ℝ := fun x => ![Real.cos (Real.pi * x.2), x.1 0 * Real.sin (Real.pi * x.2),
        x.1 1 * Real.sin (Real.pi * x.2), x.1 2 * Real.sin (Real.pi * x.2)]
  have h0 : ν {x | F x ∈ {x : Fin 4 → ℝ | 1 / 2 < x 0 ^ 2}} = (1 - tooShort 3 ^ fuel) * (1 / 2) := by
    rw [← C74_rotation3_right_angle p fuel, ← Law.rotation3_law p fuel _ (hB 0)]
    rfl
  -- composing with the half turns about the axes moves the other components into the scalar part
  have hj : ∀ j : Fin 4, ν {x | F x ∈ {x : Fin 4 → ℝ | 1 / 2 < x j ^ 2}} = (1 - tooShort 3 ^ fuel) * (1 / 2) := by
    have hq : ∀ r0 : Rotation3 ℝ, r0.intoQuaternion.normSqr = 1 → ∀ j : Fin 4,
        (∀ r : Rotation3 ℝ, (Transform.chain (Vec ℝ 3) r0 r).intoQuaternion.intoVector[0] ^ 2 = (r.intoQuaternion.intoVector[j.1]) ^ 2) →
        ν {x | F x ∈ {x : Fin 4 → ℝ | 1 / 2 < x j ^ 2}} = (1 - tooShort 3 ^ fuel) * (1 / 2) := by
      intro r0 hr j hrj
      have h1 := h r0 hr _ (hB 0) (hsym 0)
      rw [Law.rotation3_law p fuel _ (hB 0)] at h1
      rw [← h0, ← h1, ← Law.rotation3_law p fuel _ (hB j)]
      congr 1
      ext r
      simp only [Set.mem_ofPred_eq]
      rw [← hrj r]
      rfl
    intro j
    fin_cases j
    · exact h0
    · refine hq ⟨Quat.new 0 1 0 0⟩ (by simp [Quat.normSqr_eq, Rotation3.intoQuaternion]) 1 fun r => ?_
      have : (Transform.chain (Vec ℝ 3) (⟨Quat.new 0 1 0 0⟩ : Rotation3 ℝ) r).quat.w = -r.quat.x := by
        rw [Rotation3.quat_chain]; simp
      rw [show (Transform.chain (Vec ℝ 3) (⟨Quat.new 0 1 0 0⟩ : Rotation3 ℝ) r).intoQuaternion.intoVector[0] = -r.quat.x from this, neg_sq]
      rfl
    · refine hq ⟨Quat.new 0 0 1 0⟩ (by simp [Quat.normSqr_eq, Rotation3.intoQuaternion]) 2 fun r => ?_
      have : (Transform.chain (Vec ℝ 3) (⟨Quat.new 0 0 1 0⟩ : Rotation3 ℝ) r).quat.w = -r.quat.y := by
        rw [Rotation3.quat_chain]; simp
      rw [show (Transform.chain (Vec ℝ 3) (⟨Quat.new 0 0 1 0⟩ : Rotation3 ℝ) r).intoQuaternion.intoVector[0] = -r.quat.y from this, neg_sq]
      rfl
    · refine hq ⟨Quat.new 0 0 0 1⟩ (by simp [Quat.normSqr_eq, Rotation3.intoQuaternion]) 3 fun r => ?_
      have : (Transform.chain (Vec ℝ 3) (⟨Quat.new 0 0 0 1⟩ : Rotation3 ℝ) r).quat.w = -r.quat.z := by
        rw [Rotation3.quat_chain]; simp
      rw [show (Transform.chain (Vec ℝ 3) (⟨Quat.new 0 0 0 1⟩ : Rotation3 ℝ) r).intoQuaternion.intoVector[0] = -r.quat.z from this, neg_sq]
      rfl
  let S : Set (Fin 3 → ℝ) := {x | ∑ i, x i ^ 2 = 1}
  have hS : MeasurableSet S := measurableSet_eq_fun (by fun_prop) measurable_const
  have hS0 : Law.unitLaw p 3 fuel Sᶜ = 0 := by
    rw [← Law.unitLaw_apply (by norm_num) p fuel _ hS.compl]
    unfold prob
    rw [show {ω | ∃ x p', (Distr.unit (Distr.normal (uniformOf ω)) fuel).exec p = (.ok x, p') ∧
      x ∈ {u : Vec ℝ 3 | (fun i : Fin 3 => u[i.1]) ∈ Sᶜ}} = ∅ from ?_, measure_empty]
    rw [Set.eq_empty_iff_forall_notMem]
    rintro ω ⟨u, p', h1, h2⟩
    exact h2 (C62_unit_length _ _ _ _ _ h1)
  have hF : Measurable F := by
    refine measurable_pi_lambda _ fun i => ?_
    fin_cases i
    · exact Real.measurable_cos.comp (measurable_snd.const_mul _)
    all_goals
      refine Measurable.mul ?_ (Real.measurable_sin.comp (measurable_snd.const_mul _))
      exact (measurable_pi_apply _).comp measurable_fst
  have hA : ∀ j : Fin 4, ν ({x | F x ∈ {x : Fin 4 → ℝ | 1 / 2 < x j ^ 2}} ∩ (S ×ˢ Set.univ)) = (1 - tooShort 3 ^ fuel) * (1 / 2) := by
    intro j
    rw [← hj j]
    refine measure_inter_conull ?_
    refine measure_mono_null (t := Sᶜ ×ˢ Set.univ) ?_ ?_
    · intro x hx
      exact ⟨fun h => hx ⟨h, trivial⟩, trivial⟩
    · rw [Measure.prod_prod, hS0, zero_mul]
  have hdisj : Pairwise (Function.onFun Disjoint fun j : Fin 4 => {x | F x ∈ {x : Fin 4 → ℝ | 1 / 2 < x j ^ 2}} ∩ (S ×ˢ Set.univ)) := by
    intro j l hjl
    rw [Function.onFun, Set.disjoint_left]
    rintro x ⟨h1, hx, _⟩ ⟨h2, _⟩
    have h1' : 1 / 2 < F x j ^ 2 := h1
    have h2' : 1 / 2 < F x l ^ 2 := h2
    have hn : ∑ i, F x i ^ 2 = 1 := by
      have hx' : ∑ i, x.1 i ^ 2 = 1 := hx
      rw [Fin.sum_univ_three] at hx'
      rw [Fin.sum_univ_four]
      show Real.cos _ ^ 2 + (x.1 0 * Real.sin _) ^ 2 + (x.1 1 * Real.sin _) ^ 2 + (x.1 2 * Real.sin _) ^ 2 = 1
      have := Real.sin_sq_add_cos_sq (Real.pi * x.2)
      linear_combination this + Real.sin (Real.pi * x.2) ^ 2 * hx'
    have : F x j ^ 2 + F x l ^ 2 ≤ ∑ i, F x i ^ 2 := by
      rw [← Finset.sum_pair (f := fun i => F x i ^ 2) hjl]
      exact Finset.sum_le_sum_of_subset_of_nonneg (Finset.subset_univ _) fun _ _ _ => sq_nonneg _
    linarith
  have hsum := measure_iUnion (μ := ν) hdisj fun j => (hF (hB j)).inter (hS.prod .univ)
  have hle : ν (⋃ j : Fin 4, {x | F x ∈ {x : Fin 4 → ℝ | 1 / 2 < x j ^ 2}} ∩ (S ×ˢ Set.univ)) ≤ 1 - tooShort 3 ^ fuel := by
    refine (measure_mono (Set.subset_univ _)).trans ?_
    rw [← Law.unitLaw_univ (N := 3) (by norm_num) p, ← Set.univ_prod_univ, Measure.prod_prod, measure_univ (μ := unif), mul_one]
  rw [hsum, tsum_fintype] at hle
  simp only [hA, Finset.sum_const, Finset.card_univ, Fintype.card_fin, nsmul_eq_mul] at hle
  have htop : (1 : ℝ≥0∞) - tooShort 3 ^ fuel ≠ ∞ := ne_top_of_le_ne_top ENNReal.one_ne_top tsub_le_self
  generalize (1 : ℝ≥0∞) - tooShort 3 ^ fuel = t at hle htot htop
  lift t to NNReal using htop
  have h2 : (((4 : ℕ) : ℝ≥0∞) * (t * (1 / 2))) = ((2 * t : NNReal) : ℝ≥0∞) := by
    rw [show ((4 : ℕ) : ℝ≥0∞) = 2 * 2 by norm_num, mul_comm (t : ℝ≥0∞), mul_assoc, ← mul_assoc 2 (1 / 2), one_div, ENNReal.mul_inv_cancel (by norm_num) (by norm_num), one_mul]
    push_cast; rfl
  rw [h2] at hle
  have h3 : 2 * t ≤ t := by exact_mod_cast hle
  have h4 : (t : ℝ) ≠ 0 := by exact_mod_cast htot
  have h5 : 2 * (t : ℝ) ≤ t := by exact_mod_cast h3
  have h6 : 0 ≤ (t : ℝ) := t.2
  exact h4 (by linarith)

set_option maxHeartbeats 1000000 in
/-- What does hold: the law is invariant under conjugation, i.e. under a change of the coordinate frame. -/
theorem C74_rotation3_conjugation (r0 : Rotation3 ℝ) (h0 : r0.intoQuaternion.normSqr = 1) (p fuel : ℕ) (B : Set (Fin 4 → ℝ))
    (hB : MeasurableSet B) :
    prob (fun ω => Distr.rotation3Uniform (Distr.normal (uniformOf ω)) (uniformOf ω) fuel) p
        {r | (fun i : Fin 4 => (Transform.chain (Vec ℝ 3) (Transform.chain (Vec ℝ 3) r0 r)
          (Transform.inv (Vec ℝ 3) r0)).intoQuaternion.intoVector[i.1]) ∈ B} =
      prob (fun ω => Distr.rotation3Uniform (Distr.normal (uniformOf ω)) (uniformOf ω) fuel) p
        {r | (fun i : Fin 4 => r.intoQuaternion.intoVector[i.1]) ∈ B} := by
  have hfin := Law.finite_unitLaw (N := 3) (by norm_num) p fuel
  have hO := (C55_to_linear r0 r0 h0 (Vec.fromTuple3 (0, 0, 0))).2.2.1
  have happ : ∀ v : Vec ℝ 3, r0.toLinear.intoMatrix.dotV v = Transform.apply r0 v := fun v => (C55_to_linear r0 r0 h0 v).1
  generalize hA : r0.toLinear.intoMatrix = A at hO happ
  have hv : ∀ v : Vec ℝ 3, (fun i : Fin 3 => (A.dotV v)[i.1]) = A.toMatrix.mulVec fun i : Fin 3 => v[i.1] := by
    intro v; funext i
    rw [Mat.getElem_dotV_sum]
    simp [Matrix.mulVec, dotProduct]
  have hm : Measurable fun x : Fin 3 → ℝ => A.toMatrix.mulVec x := by fun_prop
  have hinv : (Law.unitLaw p 3 fuel).map (fun x => A.toMatrix.mulVec x) = Law.unitLaw p 3 fuel := by
    ext D hD
    rw [Measure.map_apply hm hD, ← Law.unitLaw_apply (by norm_num) p fuel _ (hm hD), ← Law.unitLaw_apply (by norm_num) p fuel _ hD,
      ← C73_unit_invariant (by norm_num) A hO p fuel D hD]
    simp only [hv, Set.mem_preimage]
  have hprod : ((Law.unitLaw p 3 fuel).prod unif).map (Prod.map (fun x => A.toMatrix.mulVec x) id) = (Law.unitLaw p 3 fuel).prod unif := by
    rw [← Measure.map_prod_map _ _ hm measurable_id, hinv, Measure.map_id]
  let cq : (Fin 4 → ℝ) → (Fin 4 → ℝ) := fun x i => (r0.quat * Quat.new (x 0) (x 1) (x 2) (x 3) * r0.quat.conj).intoVector[i.1]
  have hcq : Measurable cq := by
    refine measurable_pi_lambda _ fun i => ?_
    fin_cases i
    · show Measurable fun x : Fin 4 → ℝ => (r0.quat * Quat.new (x 0) (x 1) (x 2) (x 3) * r0.quat.conj).w
      simp only [Quat.w_mul, Quat.x_mul, Quat.y_mul, Quat.z_mul, Quat.w_new, Quat.x_new, Quat.y_new, Quat.z_new]
      fun_prop
    · show Measurable fun x : Fin 4 → ℝ => (r0.quat * Quat.new (x 0) (x 1) (x 2) (x 3) * r0.quat.conj).x
      simp only [Quat.w_mul, Quat.x_mul, Quat.y_mul, Quat.z_mul, Quat.w_new, Quat.x_new, Quat.y_new, Quat.z_new]
      fun_prop
    · show Measurable fun x : Fin 4 → ℝ => (r0.quat * Quat.new (x 0) (x 1) (x 2) (x 3) * r0.quat.conj).y
      simp only [Quat.w_mul, Quat.x_mul, Quat.y_mul, Quat.z_mul, Quat.w_new, Quat.x_new, Quat.y_new, Quat.z_new]
      fun_prop
    · show Measurable fun x : Fin 4 → ℝ => (r0.quat * Quat.new (x 0) (x 1) (x 2) (x 3) * r0.quat.conj).z
      simp only [Quat.w_mul, Quat.x_mul, Quat.y_mul, Quat.z_mul, Quat.w_new, Quat.x_new, Quat.y_new, Quat.z_new]
      fun_prop
  let F : (Fin 3 → ℝ) × ℝ → (Fin 4 → ℝ) := fun x => ![Real.cos (Real.pi * x.2), x.1 0 * Real.sin (Real.pi * x.2),
        x.1 1 * Real.sin (Real.pi * x.2), x.1 2 * Real.sin (Real.pi * x.2)]
  have hF : Measurable F := by
    refine measurable_pi_lambda _ fun i => ?_
    fin_cases i
    · exact Real.measurable_cos.comp (measurable_snd.const_mul _)
    all_goals
      refine Measurable.mul ?_ (Real.measurable_sin.comp (measurable_snd.const_mul _))
      exact (measurable_pi_apply _).comp measurable_fst
  have hconj : ∀ x, cq (F x) = F (Prod.map (fun x => A.toMatrix.mulVec x) id x) := by
    rintro ⟨u, t⟩
    have hn : r0.quat.w * r0.quat.w + r0.quat.x * r0.quat.x + r0.quat.y * r0.quat.y + r0.quat.z * r0.quat.z = 1 := by
      rw [Quat.normSqr_eq] at h0; simpa [Rotation3.intoQuaternion] using h0
    have a0 : (Vec.fromTuple3 (u 0, u 1, u 2))[0] = u 0 := rfl
    have a1 : (Vec.fromTuple3 (u 0, u 1, u 2))[1] = u 1 := rfl
    have a2 : (Vec.fromTuple3 (u 0, u 1, u 2))[2] = u 2 := rfl
    have hu : A.toMatrix.mulVec u = fun i : Fin 3 => (Transform.apply r0 (Vec.fromTuple3 (u 0, u 1, u 2)))[i.1] := by
      rw [← happ, hv]
      refine congrArg A.toMatrix.mulVec (funext fun i => ?_)
      match i with
      | 0 => exact a0.symm
      | 1 => exact a1.symm
      | 2 => exact a2.symm
    have e0 : A.toMatrix.mulVec u 0 = _ := (congrFun hu 0).trans (Rotation3.apply_0 ..)
    have e1 : A.toMatrix.mulVec u 1 = _ := (congrFun hu 1).trans (Rotation3.apply_1 ..)
    have e2 : A.toMatrix.mulVec u 2 = _ := (congrFun hu 2).trans (Rotation3.apply_2 ..)
    rw [a0, a1, a2] at e0 e1 e2
    funext i
    fin_cases i
    · show (r0.quat * Quat.new (Real.cos (Real.pi * t)) (u 0 * Real.sin (Real.pi * t)) (u 1 * Real.sin (Real.pi * t)) (u 2 * Real.sin (Real.pi * t)) * r0.quat.conj).w = Real.cos (Real.pi * t)
      simp
      linear_combination Real.cos (Real.pi * t) * hn
    · show (r0.quat * Quat.new (Real.cos (Real.pi * t)) (u 0 * Real.sin (Real.pi * t)) (u 1 * Real.sin (Real.pi * t)) (u 2 * Real.sin (Real.pi * t)) * r0.quat.conj).x = A.toMatrix.mulVec u 0 * Real.sin (Real.pi * t)
      rw [e0]; simp; ring
    · show (r0.quat * Quat.new (Real.cos (Real.pi * t)) (u 0 * Real.sin (Real.pi * t)) (u 1 * Real.sin (Real.pi * t)) (u 2 * Real.sin (Real.pi * t)) * r0.quat.conj).y = A.toMatrix.mulVec u 1 * Real.sin (Real.pi * t)
      rw [e1]; simp; ring
    · show (r0.quat * Quat.new (Real.cos (Real.pi * t)) (u 0 * Real.sin (Real.pi * t)) (u 1 * Real.sin (Real.pi * t)) (u 2 * Real.sin (Real.pi * t)) * r0.quat.conj).z = A.toMatrix.mulVec u 2 * Real.sin (Real.pi * t)
      rw [e2]; simp; ring
  have hset : {r : Rotation3 ℝ | (fun i : Fin 4 => (Transform.chain (Vec ℝ 3) (Transform.chain (Vec ℝ 3) r0 r)
          (Transform.inv (Vec ℝ 3) r0)).intoQuaternion.intoVector[i.1]) ∈ B} =
      {r : Rotation3 ℝ | (fun i : Fin 4 => r.intoQuaternion.intoVector[i.1]) ∈ cq ⁻¹' B} := by
    ext r
    simp only [Set.mem_preimage, Set.mem_ofPred_eq]
    rfl
  rw [hset, Law.rotation3_law p fuel _ (hcq hB), Law.rotation3_law p fuel B hB]
  have hA2 : MeasurableSet {x | F x ∈ B} := hF hB
  show ((Law.unitLaw p 3 fuel).prod unif) {x | F x ∈ cq ⁻¹' B} = ((Law.unitLaw p 3 fuel).prod unif) {x | F x ∈ B}
  conv_rhs => rw [← hprod]
  rw [Measure.map_apply (by fun_prop) hA2]
  congr 1
  ext x
  simp only [Set.mem_preimage, Set.mem_ofPred_eq, hconj]

/-- The hypotheses are met: rotations that are not the identity, and an orthogonal matrix. -/
example : (Rotation3.fromQuaternion (Quat.new (1 / 2 : ℝ) (1 / 2) (1 / 2) (1 / 2))).intoQuaternion.normSqr = 1 := by
  rw [Quat.normSqr_eq]; simp [Rotation3.fromQuaternion, Rotation3.intoQuaternion]; norm_num
example : let A := (Rotation3.fromQuaternion (Quat.new (1 / 2 : ℝ) (1 / 2) (1 / 2) (1 / 2))).toLinear.intoMatrix
    A.transpose.dotM A = 1 := by
  refine (C55_to_linear _ (Rotation3.fromQuaternion (Quat.new 1 0 0 0)) ?_ (Vec.fromTuple3 (0, 0, 0))).2.2.1
  rw [Quat.normSqr_eq]; simp [Rotation3.fromQuaternion, Rotation3.intoQuaternion]; norm_num
example : (Rotation2.fromComplex (Cpx.new (3 / 5 : ℝ) (4 / 5))).intoComplex.normSqr = 1 := by
  rw [Cpx.normSqr_eq]; simp [Rotation2.fromComplex, Rotation2.intoComplex]; norm_num

/-! ## further cases: the hypotheses are satisfiable -/
namespace LawEx
/-- A non-trivial event: every component exceeds 1/3 in absolute value. -/
theorem ev (ι : Type) [Fintype ι] : MeasurableSet {x : ι → ℝ | ∀ i, (1 / 3 : ℝ) < |x i|} := by
  have : {x : ι → ℝ | ∀ i, (1 / 3 : ℝ) < |x i|} = ⋂ i, (fun x => |x i|) ⁻¹' Set.Ioi (1 / 3 : ℝ) := by
    ext x; simp
  rw [this]
  exact MeasurableSet.iInter fun i => (continuous_abs.measurable.comp (measurable_pi_apply i)) measurableSet_Ioi
end LawEx
example := C73_vector (N := 3) 0 _ (LawEx.ev (Fin 3))
example := C73_independent (N := 3) 7 (fun i => Set.Ioi (i : ℝ)) (fun _ => measurableSet_Ioi)
example := C73_matrix (M := 2) (N := 3) 0 _ (LawEx.ev _)
example := C73_nonzero (N := 3) (by omega) 0 5 _ (LawEx.ev _)
example := C73_nonzero_total (N := 3) (by omega) 0 5
example := C73_nonzero_halts (N := 3) (by omega) 0
example := C73_unit (N := 3) (by omega) 0 5 _ (LawEx.ev _)
example := C73_invertible (N := 3) 0 5 _ (LawEx.ev _)
/-- Rotation by 120° about the diagonal: exchanges the axes cyclically. -/
example := C73_unit_invariant (N := 3) (by omega)
  (Rotation3.fromQuaternion (Quat.new (1 / 2 : ℝ) (1 / 2) (1 / 2) (1 / 2))).toLinear.intoMatrix
  (C55_to_linear _ (Rotation3.fromQuaternion (Quat.new 1 0 0 0)) (by rw [Quat.normSqr_eq]; simp [Rotation3.fromQuaternion, Rotation3.intoQuaternion]; norm_num) (Vec.fromTuple3 (0, 0, 0))).2.2.1 0 5 _ (LawEx.ev _)
example := C73_complex_invariant (Cpx.new (3 / 5) (4 / 5)) (by rw [Cpx.normSqr_eq]; norm_num) 0 5 _ (LawEx.ev _)
example := C73_quaternion_invariant (Quat.new (1 / 2) (1 / 2) (1 / 2) (1 / 2)) (by rw [Quat.normSqr_eq]; simp; norm_num) 0 5 _ (LawEx.ev _)
example := C74_rotation2 (Rotation2.fromComplex (Cpx.new (3 / 5 : ℝ) (4 / 5)))
  (by rw [Cpx.normSqr_eq]; simp [Rotation2.fromComplex, Rotation2.intoComplex]; norm_num) 0 (Set.Ioi 0 ×ˢ Set.Ioi (1 / 2)) (measurableSet_Ioi.prod measurableSet_Ioi)
example := C74_rotation3 0 5 _ (LawEx.ev _) (Set.Ioo 1 3) measurableSet_Ioo
  (fun x h => ⟨by have := h.1; linarith, by have := h.2; have := Real.two_le_pi; linarith⟩)
example := C74_rotation3_conjugation (Rotation3.fromQuaternion (Quat.new (1 / 2 : ℝ) (1 / 2) (1 / 2) (1 / 2)))
  (by rw [Quat.normSqr_eq]; simp [Rotation3.fromQuaternion, Rotation3.intoQuaternion]; norm_num) 0 5 _ (LawEx.ev _)
example := C74_rotation3_refuted 0 5 (by omega)

end Vecmat
