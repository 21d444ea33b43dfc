import Mathlib.Analysis.SpecialFunctions.PolarCoord
import Mathlib.MeasureTheory.Function.JacobianOneDim
import Mathlib.Probability.Distributions.Gaussian.Multivariate
import Verif.Spec.Law
import Verif.Lemmas.Distr
/-! Helper lemmas: the Box-Muller transform, reindexing of independent sequences, rejection sampling. -/
open MeasureTheory ProbabilityTheory Set
open scoped ENNReal
namespace Vecmat.Law

theorem cos_average (h : ℝ → ℝ≥0∞) :
    ∫⁻ φ in Ioo (-Real.pi) Real.pi, h (Real.cos φ) =
      ENNReal.ofReal (2 * Real.pi) * ∫⁻ v in Ico (0 : ℝ) 1, h (Real.cos (Real.pi * v)) := by
  have hpi := Real.pi_pos
  have e1 : ∫⁻ φ in Ioo 0 Real.pi, h (Real.cos φ) =
      ENNReal.ofReal Real.pi * ∫⁻ v in Ico (0 : ℝ) 1, h (Real.cos (Real.pi * v)) := by
    have : Ioo 0 Real.pi = (fun v => Real.pi * v) '' Ioo 0 1 := by
      ext x; constructor
      · intro hx
        exact ⟨x / Real.pi, ⟨div_pos hx.1 hpi, (div_lt_one hpi).2 hx.2⟩, by field_simp⟩
      · rintro ⟨v, hv, rfl⟩
        exact ⟨mul_pos hpi hv.1, by have := hv.2; simp only; nlinarith⟩
    rw [this, lintegral_image_eq_lintegral_abs_deriv_mul (f' := fun _ => Real.pi) measurableSet_Ioo]
    · rw [abs_of_pos hpi, lintegral_const_mul' _ _ (by simp), restrict_Ioo_eq_restrict_Ico]
    · intro x _
      simpa using ((hasDerivAt_id x).const_mul Real.pi).hasDerivWithinAt
    · intro a _ b _ hab
      exact mul_left_cancel₀ hpi.ne' hab
  have e2 : ∫⁻ φ in Ioo (-Real.pi) 0, h (Real.cos φ) = ∫⁻ φ in Ioo 0 Real.pi, h (Real.cos φ) := by
    have : Ioo (-Real.pi) 0 = (fun v : ℝ => -v) '' Ioo 0 Real.pi := by
      simp
    rw [this, lintegral_image_eq_lintegral_abs_deriv_mul (f' := fun _ => -1) measurableSet_Ioo]
    · simp
    · intro x _
      exact (hasDerivAt_neg x).hasDerivWithinAt
    · intro a _ b _ hab
      exact neg_injective hab
  have e3 : ∫⁻ φ in Ioo (-Real.pi) Real.pi, h (Real.cos φ) =
      (∫⁻ φ in Ioo (-Real.pi) 0, h (Real.cos φ)) + ∫⁻ φ in Ioo 0 Real.pi, h (Real.cos φ) := by
    rw [show (volume : Measure ℝ).restrict (Ioo 0 Real.pi) = volume.restrict (Ico 0 Real.pi) from restrict_Ioo_eq_restrict_Ico, ← lintegral_union measurableSet_Ico,
      Ioo_union_Ico_eq_Ioo (by linarith) hpi.le]
    rw [Set.disjoint_left]; rintro x ⟨_, h1⟩ ⟨h2, _⟩; linarith
  rw [e3, e2, e1, ← two_mul, ← mul_assoc]
  congr 1
  rw [ENNReal.ofReal_mul (by norm_num)]; simp

theorem radius (g : ℝ → ℝ≥0∞) :
    ∫⁻ u in Ico (0 : ℝ) 1, g (Real.sqrt (-2 * Real.log (1 - u))) =
      ∫⁻ r in Ioi (0 : ℝ), ENNReal.ofReal (r * Real.exp (-(r ^ 2) / 2)) * g r := by
  have him : Ioo (0 : ℝ) 1 = (fun r : ℝ => 1 - Real.exp (-(r ^ 2) / 2)) '' Ioi 0 := by
    ext u; constructor
    · intro hu
      have hl : Real.log (1 - u) < 0 := Real.log_neg (by linarith [hu.2]) (by linarith [hu.1])
      refine ⟨Real.sqrt (-2 * Real.log (1 - u)), Real.sqrt_pos.2 (by linarith), ?_⟩
      simp only
      rw [Real.sq_sqrt (by linarith), show -(-2 * Real.log (1 - u)) / 2 = Real.log (1 - u) by ring,
        Real.exp_log (by linarith [hu.2])]
      ring
    · rintro ⟨r, hr, rfl⟩
      have hr' : 0 < r := hr
      have : Real.exp (-(r ^ 2) / 2) < 1 := by
        rw [Real.exp_lt_one_iff]; have := pow_pos hr' 2; linarith
      exact ⟨by linarith, by linarith [Real.exp_pos (-(r ^ 2) / 2)]⟩
  have hr : ∀ r : ℝ, 0 < r → Real.sqrt (-2 * Real.log (1 - (1 - Real.exp (-(r ^ 2) / 2)))) = r := by
    intro r hr
    rw [show 1 - (1 - Real.exp (-(r ^ 2) / 2)) = Real.exp (-(r ^ 2) / 2) by ring, Real.log_exp,
      show -2 * (-(r ^ 2) / 2) = r ^ 2 by ring, Real.sqrt_sq hr.le]
  rw [← restrict_Ioo_eq_restrict_Ico, him,
    lintegral_image_eq_lintegral_abs_deriv_mul (f' := fun r => r * Real.exp (-(r ^ 2) / 2)) measurableSet_Ioi]
  · refine setLIntegral_congr_fun measurableSet_Ioi fun r h => ?_
    have h' : 0 < r := h
    rw [hr r h', abs_of_pos (mul_pos h' (Real.exp_pos _))]
  · intro r _
    have h1 : HasDerivAt (fun r : ℝ => -(r ^ 2) / 2) (-r) r := by
      have := ((hasDerivAt_pow 2 r).neg).div_const 2
      refine this.congr_deriv ?_
      push_cast; ring
    refine ((h1.exp.const_sub 1).congr_deriv ?_).hasDerivWithinAt
    ring
  · intro a ha b hb hab
    have h1 := hr a ha
    have h2 := hr b hb
    simp only at hab
    rw [← h1, ← h2, hab]

theorem box_muller (f : ℝ → ℝ≥0∞) (hf : Measurable f) :
    ∫⁻ u in Ico (0 : ℝ) 1, ∫⁻ v in Ico (0 : ℝ) 1, f (Real.sqrt (-2 * Real.log (1 - u)) * Real.cos (Real.pi * v)) =
      ∫⁻ x, f x ∂(gaussianReal 0 1) := by
  have hpi := Real.pi_pos
  have hpdf : ∀ x : ℝ, gaussianPDF 0 1 x = ENNReal.ofReal ((Real.sqrt (2 * Real.pi))⁻¹ * Real.exp (-(x ^ 2) / 2)) := by
    intro x; simp [gaussianPDF, gaussianPDFReal]
  rw [radius (fun r => ∫⁻ v in Ico (0 : ℝ) 1, f (r * Real.cos (Real.pi * v)))]
  have h2pi : ENNReal.ofReal (2 * Real.pi) ≠ 0 := by simp [hpi]
  have hav : ∀ r : ℝ, ∫⁻ v in Ico (0 : ℝ) 1, f (r * Real.cos (Real.pi * v)) =
      (ENNReal.ofReal (2 * Real.pi))⁻¹ * ∫⁻ φ in Ioo (-Real.pi) Real.pi, f (r * Real.cos φ) := by
    intro r
    rw [cos_average (fun c => f (r * c)), ← mul_assoc, ENNReal.inv_mul_cancel h2pi ENNReal.ofReal_ne_top, one_mul]
  have hF : ∀ r φ : ℝ, 0 < r → ENNReal.ofReal (r * Real.exp (-(r ^ 2) / 2)) * ((ENNReal.ofReal (2 * Real.pi))⁻¹ * f (r * Real.cos φ)) =
      ENNReal.ofReal r * (gaussianPDF 0 1 (r * Real.cos φ) * f (r * Real.cos φ) * gaussianPDF 0 1 (r * Real.sin φ)) := by
    intro r φ hr
    rw [mul_right_comm (gaussianPDF 0 1 _), hpdf, hpdf, ← ENNReal.ofReal_mul (by positivity), ← mul_assoc, ← mul_assoc,
      ← ENNReal.ofReal_inv_of_pos (by positivity), ← ENNReal.ofReal_mul (by positivity), ← ENNReal.ofReal_mul hr.le]
    congr 2
    have h1 : (Real.sqrt (2 * Real.pi))⁻¹ * (Real.sqrt (2 * Real.pi))⁻¹ = (2 * Real.pi)⁻¹ := by
      rw [← mul_inv, Real.mul_self_sqrt (by positivity)]
    have h2 : Real.exp (-(r ^ 2) / 2) = Real.exp (-((r * Real.cos φ) ^ 2) / 2) * Real.exp (-((r * Real.sin φ) ^ 2) / 2) := by
      rw [← Real.exp_add]; congr 1
      have := Real.sin_sq_add_cos_sq φ
      linear_combination (r^2 / 2) * this
    rw [h2, ← h1]; ring
  let F : ℝ × ℝ → ℝ≥0∞ := fun p => gaussianPDF 0 1 p.1 * f p.1 * gaussianPDF 0 1 p.2
  have hFm : Measurable F := by
    have := measurable_gaussianPDF 0 1
    fun_prop
  calc _ = ∫⁻ r in Ioi (0 : ℝ), ∫⁻ φ in Ioo (-Real.pi) Real.pi, ENNReal.ofReal r * F (r * Real.cos φ, r * Real.sin φ) := by
        refine setLIntegral_congr_fun measurableSet_Ioi fun r hr => ?_
        rw [hav, ← lintegral_const_mul' _ _ (by simp [hpi]), ← lintegral_const_mul' _ _ (by simp)]
        exact lintegral_congr fun φ => hF r φ hr
    _ = ∫⁻ p in polarCoord.target, ENNReal.ofReal p.1 • F (polarCoord.symm p) := by
        rw [polarCoord_target, Measure.volume_eq_prod, ← Measure.prod_restrict, lintegral_prod]
        · rfl
        · refine Measurable.aemeasurable ?_
          have := continuous_polarCoord_symm.measurable
          simp only [smul_eq_mul]
          exact (measurable_fst.ennreal_ofReal).mul (hFm.comp this)
    _ = ∫⁻ p, F p := lintegral_comp_polarCoord_symm F
    _ = ∫⁻ x, gaussianPDF 0 1 x * f x := by
        rw [Measure.volume_eq_prod, lintegral_prod _ hFm.aemeasurable]
        refine lintegral_congr fun x => ?_
        simp only [F]
        rw [lintegral_const_mul _ (measurable_gaussianPDF 0 1), lintegral_gaussianPDF_eq_one 0 one_ne_zero, mul_one]
    _ = _ := by
        rw [gaussianReal_of_var_ne_zero 0 one_ne_zero, lintegral_withDensity_eq_lintegral_mul _ (measurable_gaussianPDF 0 1) hf]
        rfl


/-- The Box-Muller map. -/
noncomputable def bm (u v : ℝ) : ℝ := Real.sqrt (-2 * Real.log (1 - u)) * Real.cos (Real.pi * v)

theorem measurable_bm : Measurable fun p : ℝ × ℝ => bm p.1 p.2 := by
  unfold bm
  fun_prop

open Spec in
theorem map_bm : (unif.prod unif).map (fun p => bm p.1 p.2) = gaussianReal 0 1 := by
  ext B hB
  rw [Measure.map_apply measurable_bm hB, ← lintegral_indicator_one (measurable_bm hB),
    lintegral_prod _ (measurable_one.indicator (measurable_bm hB)).aemeasurable, ← lintegral_indicator_one hB,
    ← box_muller _ (measurable_one.indicator hB)]
  rfl

/-- Reading an independent sequence through an injection gives an independent sequence. -/
theorem map_reindex {ι κ X : Type} [MeasurableSpace X] (μ : Measure X) [IsProbabilityMeasure μ] (e : ι → κ) (he : Function.Injective e) :
    (Measure.infinitePi fun _ : κ => μ).map (fun ω i => ω (e i)) = Measure.infinitePi fun _ : ι => μ := by
  classical
  refine Measure.eq_infinitePi _ fun s t ht => ?_
  rw [Measure.map_apply (by fun_prop) (.pi s.countable_toSet fun _ _ => ht _)]
  have : (fun (ω : κ → X) i => ω (e i)) ⁻¹' ((s : Set ι).pi t) =
      ((s.map ⟨e, he⟩ : Finset κ) : Set κ).pi (fun k => if h : ∃ i, e i = k then t h.choose else univ) := by
    ext ω
    simp only [mem_preimage, Set.mem_pi, Finset.mem_coe, Finset.mem_map, Function.Embedding.coeFn_mk, forall_exists_index, and_imp]
    constructor
    · rintro h _ i hi rfl
      have hx : ∃ j, e j = e i := ⟨i, rfl⟩
      rw [dif_pos hx, he hx.choose_spec]
      exact h i hi
    · intro h i hi
      have := h _ i hi rfl
      have hx : ∃ j, e j = e i := ⟨i, rfl⟩
      rwa [dif_pos hx, he hx.choose_spec] at this
  rw [this, Measure.infinitePi_pi, Finset.prod_map]
  · refine Finset.prod_congr rfl fun i _ => ?_
    have hx : ∃ j, e j = e i := ⟨i, rfl⟩
    simp only [Function.Embedding.coeFn_mk]
    rw [dif_pos hx, he hx.choose_spec]
  · intro k _
    split
    · exact ht _
    · exact .univ

/-- Grouping an independent sequence into blocks. -/
theorem map_blocks {ι κ θ X : Type} [MeasurableSpace X] (μ : Measure X) [IsProbabilityMeasure μ] (e : ι → θ → κ)
    (he : Function.Injective fun p : ι × θ => e p.1 p.2) :
    (Measure.infinitePi fun _ : κ => μ).map (fun ω i j => ω (e i j)) =
      Measure.infinitePi fun _ : ι => Measure.infinitePi fun _ : θ => μ := by
  rw [← Measure.infinitePi_map_curry, ← map_reindex μ _ he, Measure.map_map (by fun_prop) (by fun_prop)]
  rfl

/-- The Gaussian numbers made from a uniform source, from position `p` on. -/
noncomputable def gauss (p : ℕ) (ω : ℕ → ℝ) (i : ℕ) : ℝ := bm (ω (p + 2 * i)) (ω (p + 2 * i + 1))

theorem measurable_gauss (p : ℕ) : Measurable (gauss p) := by
  refine measurable_pi_lambda _ fun i => ?_
  unfold gauss bm
  fun_prop

open Spec in
theorem map_gauss (p : ℕ) : randomness.map (gauss p) = Measure.infinitePi fun _ => gaussianReal 0 1 := by
  have h1 := map_blocks unif (fun (i : ℕ) (j : Fin 2) => p + 2 * i + j) (by
    rintro ⟨i, j⟩ ⟨i', j'⟩ h
    simp only at h
    have := j.2; have := j'.2
    ext <;> simp only <;> omega)
  have h2 : (Measure.infinitePi fun _ : Fin 2 => unif).map (fun x => bm (x 0) (x 1)) = gaussianReal 0 1 := by
    rw [Measure.infinitePi_eq_pi, ← map_bm, ← (measurePreserving_finTwoArrow unif).map_eq,
      Measure.map_map measurable_bm (by fun_prop)]
    rfl
  have hm : Measurable fun x : Fin 2 → ℝ => bm (x 0) (x 1) := by
    unfold bm; fun_prop
  have h3 := Measure.infinitePi_map_pi (μ := fun _ : ℕ => Measure.infinitePi fun _ : Fin 2 => unif)
    (f := fun _ x => bm (x 0) (x 1)) (fun _ => hm)
  rw [h2, ← h1, Measure.map_map (by unfold bm; fun_prop) (by fun_prop)] at h3
  rw [← h3]; rfl

open Spec in
/-- Blocks of Gaussian numbers. -/
theorem map_gauss_blocks {θ : Type} [Fintype θ] (p : ℕ) (e : ℕ → θ → ℕ) (he : Function.Injective fun q : ℕ × θ => e q.1 q.2) :
    randomness.map (fun ω k i => gauss p ω (e k i)) = Measure.infinitePi fun _ : ℕ => gaussians θ := by
  have h := map_blocks (gaussianReal 0 1) e he
  rw [← map_gauss p, Measure.map_map (by fun_prop) (measurable_gauss p)] at h
  simp only [Measure.infinitePi_eq_pi] at h
  exact h

/-- The law of a rejection loop with at most `fuel` rounds. -/
theorem reject {X : Type} [MeasurableSpace X] (μ : Measure X) [IsProbabilityMeasure μ] (A B : Set X) (hA : MeasurableSet A)
    (hB : MeasurableSet B) (fuel : ℕ) :
    (Measure.infinitePi fun _ : ℕ => μ) {ξ | ∃ k < fuel, (∀ j < k, ξ j ∉ A) ∧ ξ k ∈ A ∧ ξ k ∈ B} =
      (∑ k ∈ Finset.range fuel, μ Aᶜ ^ k) * μ (A ∩ B) := by
  have e : {ξ : ℕ → X | ∃ k < fuel, (∀ j < k, ξ j ∉ A) ∧ ξ k ∈ A ∧ ξ k ∈ B} =
      ⋃ k ∈ Finset.range fuel, ((Finset.range (k + 1) : Finset ℕ) : Set ℕ).pi (fun j => if j < k then Aᶜ else A ∩ B) := by
    ext ξ
    simp only [Set.mem_ofPred_eq, mem_iUnion, Finset.mem_range, exists_prop, Set.mem_pi, Finset.mem_coe]
    refine exists_congr fun k => and_congr_right fun _ => ?_
    constructor
    · rintro ⟨h1, h2⟩ j hj
      split
      · exact h1 j ‹_›
      · rw [show j = k by omega]; exact h2
    · intro h
      refine ⟨fun j hj => ?_, ?_⟩
      · have := h j (by omega); rwa [if_pos hj] at this
      · have := h k (by omega); rwa [if_neg (by omega)] at this
  have hm : ∀ k j : ℕ, MeasurableSet (if j < k then Aᶜ else A ∩ B) := by
    intro k j; split
    · exact hA.compl
    · exact hA.inter hB
  rw [e, measure_biUnion_finset]
  · rw [Finset.sum_mul]
    refine Finset.sum_congr rfl fun k _ => ?_
    rw [Measure.infinitePi_pi _ (fun j _ => hm k j), Finset.prod_range_succ, if_neg (by omega)]
    congr 1
    rw [Finset.prod_congr rfl (g := fun _ => μ Aᶜ) (fun j hj => by rw [if_pos (Finset.mem_range.1 hj)])]
    simp
  · intro k _ l _ hkl
    rw [Function.onFun, Set.disjoint_left]
    intro ξ h1 h2
    rcases lt_or_gt_of_ne hkl with h | h
    · have a := h1 k (by simp); have b := h2 k (by simp; omega)
      simp only [lt_irrefl, if_false] at a; simp only [h, if_true] at b
      exact b a.1
    · have a := h2 l (by simp); have b := h1 l (by simp; omega)
      simp only [lt_irrefl, if_false] at a; simp only [h, if_true] at b
      exact b a.1
  · intro k _
    exact .pi (Finset.countable_toSet _) fun j _ => hm k j

/-- An event of positive probability occurs in almost every independent sequence. -/
theorem ae_hit {X : Type} [MeasurableSpace X] (μ : Measure X) [IsProbabilityMeasure μ] (A : Set X) (hA : MeasurableSet A)
    (h : μ A ≠ 0) : ∀ᵐ ξ ∂(Measure.infinitePi fun _ : ℕ => μ), ∃ k, ξ k ∈ A := by
  rw [ae_iff]
  have hq : μ Aᶜ < 1 := by
    rw [prob_compl_eq_one_sub hA]
    exact ENNReal.sub_lt_self (by simp) (by simp) h
  refine le_antisymm (le_of_tendsto_of_tendsto' tendsto_const_nhds (ENNReal.tendsto_pow_atTop_nhds_zero_of_lt_one hq) fun n => ?_) zero_le
  calc _ ≤ (Measure.infinitePi fun _ : ℕ => μ) (((Finset.range n : Finset ℕ) : Set ℕ).pi fun _ => Aᶜ) := by
        refine measure_mono fun ξ hξ j _ hj => hξ ⟨j, hj⟩
    _ = μ Aᶜ ^ n := by
        rw [Measure.infinitePi_pi _ (fun _ _ => hA.compl)]; simp

theorem geom_total {X : Type} [MeasurableSpace X] (μ : Measure X) [IsProbabilityMeasure μ] (A : Set X) (hA : MeasurableSet A) (n : ℕ) :
    (∑ k ∈ Finset.range n, μ Aᶜ ^ k) * μ A = 1 - μ Aᶜ ^ n := by
  have hq : μ Aᶜ ≤ 1 := prob_le_one
  have h1 : μ A + μ Aᶜ = 1 := prob_add_prob_compl hA
  have : (∑ k ∈ Finset.range n, μ Aᶜ ^ k) * μ A + μ Aᶜ ^ n = 1 := by
    induction n with
    | zero => simp
    | succ n ih =>
      rw [Finset.sum_range_succ, add_mul, add_assoc, pow_succ, ← mul_add, h1, mul_one, ih]
  rw [← this, ENNReal.add_sub_cancel_right (ENNReal.pow_ne_top (ne_top_of_le_ne_top ENNReal.one_ne_top hq))]

/-- Independent standard Gaussians charge every nonempty open set. -/
theorem gaussians_open {ι : Type} [Fintype ι] {U : Set (ι → ℝ)} (hU : IsOpen U) (hne : U.Nonempty) : Spec.gaussians ι U ≠ 0 := by
  have : Measure.IsOpenPosMeasure (gaussianReal 0 1) :=
    (gaussianReal_absolutelyContinuous' 0 one_ne_zero).isOpenPosMeasure
  unfold Spec.gaussians
  exact (hU.measure_pos _ hne).ne'

/-- Independent standard Gaussians are invariant under orthogonal maps. -/
theorem gaussians_rot {n : ℕ} (O : Matrix (Fin n) (Fin n) ℝ) (hO : O.transpose * O = 1) :
    (Spec.gaussians (Fin n)).map (fun x => O.mulVec x) = Spec.gaussians (Fin n) := by
  classical
  let L : EuclideanSpace ℝ (Fin n) ≃ₗᵢ[ℝ] EuclideanSpace ℝ (Fin n) := by
    refine LinearIsometry.toLinearIsometryEquiv ⟨O.toEuclideanLin, ?_⟩ rfl
    intro x
    rw [EuclideanSpace.norm_eq, EuclideanSpace.norm_eq]
    congr 1
    have h : ∀ y : Fin n → ℝ, ∑ i, (O.mulVec y) i ^ 2 = ∑ i, y i ^ 2 := by
      intro y
      have := Matrix.dotProduct_mulVec (O.mulVec y) O y
      rw [Matrix.vecMul_mulVec, hO, Matrix.vecMul_one] at this
      simp only [dotProduct] at this
      simpa [sq] using this
    simpa [Matrix.toLpLin_apply] using h (WithLp.ofLp x)
  have h1 := stdGaussian_map L
  rw [← map_pi_eq_stdGaussian, Measure.map_map (by fun_prop) (by fun_prop)] at h1
  have h2 := congrArg (fun m => m.map (WithLp.ofLp (p := 2) (V := Fin n → ℝ))) h1
  rw [Measure.map_map (by fun_prop) (by fun_prop), Measure.map_map (by fun_prop) (by fun_prop)] at h2
  have e2 : (WithLp.ofLp (p := 2) (V := Fin n → ℝ)) ∘ (WithLp.toLp 2) = id := rfl
  rw [e2, Measure.map_id] at h2
  exact h2

end Vecmat.Law
