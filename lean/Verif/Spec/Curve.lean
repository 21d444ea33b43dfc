import Verif.Model.Quaternion
import Verif.Spec.Transform
import Mathlib.Analysis.Calculus.Deriv.Basic
/-! # Specification vocabulary: velocities of moving vectors, matrices, complex numbers and quaternions -/
namespace Vecmat.Spec
variable {M N : Nat}

/-- The moving vector `v` has velocity `v'` at time `t`: every component has that derivative. -/
def VelV (v : ℝ → Vec ℝ N) (v' : Vec ℝ N) (t : ℝ) : Prop := ∀ i : Fin N, HasDerivAt (fun s => coords (v s) i) (coords v' i) t
/-- The moving matrix `A` has velocity `A'` at time `t`. -/
def VelM (A : ℝ → Mat ℝ M N) (A' : Mat ℝ M N) (t : ℝ) : Prop :=
  ∀ (i : Fin M) (j : Fin N), HasDerivAt (fun s => (A s)[i.1][j.1]) A'[i.1][j.1] t
/-- The moving complex number `z` has velocity `z'` at time `t`. -/
structure VelC (z : ℝ → Cpx ℝ) (z' : Cpx ℝ) (t : ℝ) : Prop where
  re : HasDerivAt (fun s => (z s).re) z'.re t
  im : HasDerivAt (fun s => (z s).im) z'.im t
/-- The moving quaternion `q` has velocity `q'` at time `t`. -/
structure VelQ (q : ℝ → Quat ℝ) (q' : Quat ℝ) (t : ℝ) : Prop where
  w : HasDerivAt (fun s => (q s).w) q'.w t
  x : HasDerivAt (fun s => (q s).x) q'.x t
  y : HasDerivAt (fun s => (q s).y) q'.y t
  z : HasDerivAt (fun s => (q s).z) q'.z t
end Vecmat.Spec
