import Verif.Model.Base
import Mathlib.Probability.ProductMeasure
import Mathlib.Probability.Distributions.Gaussian.Real
/-!
# Specification vocabulary: laws of random samples
An ideal random source is an infinite sequence `ω` of independent numbers, each uniform on `[0, 1)`.  The generator state is
the position in that sequence.  Nothing here mentions the samplers.
-/
namespace Vecmat.Spec
open MeasureTheory ProbabilityTheory
open scoped ENNReal
variable {α : Type}

/-- The uniform law on `[0, 1)`. -/
noncomputable def unif : Measure ℝ := volume.restrict (Set.Ico 0 1)
instance : IsProbabilityMeasure unif := ⟨by simp [unif]⟩
/-- Infinitely many independent uniform numbers. -/
noncomputable def randomness : Measure (ℕ → ℝ) := Measure.infinitePi fun _ => unif
instance : IsProbabilityMeasure randomness := by unfold randomness; infer_instance

/-- The ideal `rand::distributions::Uniform::new(lo, hi)`: the next number of the source, scaled to `[lo, hi)`. -/
def uniformOf (ω : ℕ → ℝ) (lo hi : ℝ) : Eff ℕ ℝ := Eff.ofStep fun n => (lo + (hi - lo) * ω n, n + 1)

/-- The probability that the sampler `X`, started at position `p` of the source, returns (without fault) a value in `B`. -/
noncomputable def prob (X : (ℕ → ℝ) → Eff ℕ α) (p : ℕ) (B : Set α) : ℝ≥0∞ :=
  randomness {ω | ∃ x p', (X ω).exec p = (.ok x, p') ∧ x ∈ B}

/-- `ι`-many independent standard Gaussian numbers. -/
noncomputable def gaussians (ι : Type) [Fintype ι] : Measure (ι → ℝ) := Measure.pi fun _ => gaussianReal 0 1
instance (ι : Type) [Fintype ι] : IsProbabilityMeasure (gaussians ι) := by unfold gaussians; infer_instance

end Vecmat.Spec
