import Verif.Model.Transforms
import Verif.Model.Moebius
import Verif.Model.Format
import Verif.Model.Real
/-!
# The crate's own deterministic unit tests of complex numbers, quaternions and affine transforms, run on the model

Evidence that the model is faithful, **not** proof of any property.  `f32`/`f64` values are replaced by `ℚ`, so the
`abs_diff_eq` assertions become equations; square roots (`norm`) are left out.  The randomised tests of the crate
are theorems, see C92 in `Verif/Props/CrateTests.lean`.
-/
namespace Vecmat.Conformance
open Vecmat

section complex
abbrev C (a b : Rat) : Cpx Rat := Cpx.new a b

/-- src/complex/tests/complex_.rs:5-79 -/
example : (C 1 2).re = 1 ∧ (C 1 2).im = 2 ∧ (C 1 2).conj = C 1 (-2) ∧ C 1 2 + C 5 6 = C 6 8 ∧ C 4 3 - C 5 6 = C (-1) (-3) ∧
    (C 1 2).normSqr = 5 ∧ C 1 2 * C 5 6 = C (-7) 16 ∧ C 5 6 * C 1 2 = C (-7) 16 ∧ Cpx.sMul 2 (C 1 2) = C 2 4 ∧
    Cpx.sDiv 1 (C 1 2) = (C 1 (-2)).divS 5 ∧
    C 4 3 / C 1 2 = (C 4 3 * (C 1 2).conj).divS (C 1 2).normSqr ∧ (0 : Cpx Rat) = C 0 0 ∧ (1 : Cpx Rat) = C 1 0 := by
  decide +kernel
end complex

section quaternion
abbrev Q (a b c d : Rat) : Quat Rat := Quat.new a b c d

/-- src/complex/tests/quaternion/basic.rs:5-50 `new … mul` -/
example : (Q 1 2 3 4).w = 1 ∧ (Q 1 2 3 4).x = 2 ∧ (Q 1 2 3 4).y = 3 ∧ (Q 1 2 3 4).z = 4 ∧
    (Q 1 2 3 4).conj = Q 1 (-2) (-3) (-4) ∧ Q 1 2 3 4 + Q 5 6 7 8 = Q 6 8 10 12 ∧
    Q 4 3 2 1 - Q 5 6 7 8 = Q (-1) (-3) (-5) (-7) ∧ (Q 1 2 3 4).normSqr = 30 ∧
    Q 1 2 3 4 * Q 5 6 7 8 = Q (-60) 12 30 24 ∧ Q 5 6 7 8 * Q 1 2 3 4 = Q (-60) 20 14 32 := by decide +kernel

/-- src/complex/tests/quaternion/basic.rs:51-80 `mul_scal`, `mul_comp` -/
example : (Q 1 2 3 4).mulS 2 = Q 2 4 6 8 ∧ Quat.sMul 2 (Q 1 2 3 4) = Q 2 4 6 8 ∧ Q 1 2 3 4 * Q 2 0 0 0 = Q 2 4 6 8 ∧
    Q 2 0 0 0 * Q 1 2 3 4 = Q 2 4 6 8 ∧ (Q 1 2 3 4).mulC (C 1 2) = Q (-3) 4 11 (-2) ∧
    Quat.cMul (C 1 2) (Q 1 2 3 4) = Q (-3) 4 (-5) 10 ∧ Q 1 2 3 4 * Q 1 2 0 0 = Q (-3) 4 11 (-2) ∧
    Q 1 2 0 0 * Q 1 2 3 4 = Q (-3) 4 (-5) 10 := by decide +kernel

/-- src/complex/tests/quaternion/basic.rs:82-114 `inv`, `div`, `div_rev`, `zero`, `one` -/
example : Quat.sDiv 1 (Q 1 2 (-1) (-2)) = (Q 1 (-2) 1 2).divS 10 ∧
    Q 4 3 2 1 / Q 1 2 3 4 = (Q 4 3 2 1 * (Q 1 2 3 4).conj).divS (Q 1 2 3 4).normSqr ∧
    Quat.sDiv 2 (Q 1 2 (-1) (-2)) = (Q 1 2 (-1) (-2)).conj.divS 5 ∧
    Quat.cDiv (C 1 2) (Q 1 2 (-1) (-2)) = (Quat.cMul (C 1 2) (Q 1 2 (-1) (-2)).conj).divS 10 ∧
    (0 : Quat Rat) = Q 0 0 0 0 ∧ (1 : Quat Rat) = Q 1 0 0 0 := by decide +kernel

/-- src/complex/tests/quaternion/advanced.rs:13-28 `imaginary_units` -/
example : (Quat.i * Quat.i : Quat Int) = -1 ∧ (Quat.j * Quat.j : Quat Int) = -1 ∧ (Quat.k * Quat.k : Quat Int) = -1 ∧
    (Quat.i * Quat.j * Quat.k : Quat Int) = -1 ∧ (Quat.i * Quat.j : Quat Int) = Quat.k ∧ (Quat.j * Quat.k : Quat Int) = Quat.i ∧
    (Quat.k * Quat.i : Quat Int) = Quat.j ∧ (Quat.j * Quat.i : Quat Int) = -Quat.k ∧ (Quat.k * Quat.j : Quat Int) = -Quat.i ∧
    (Quat.i * Quat.k : Quat Int) = -Quat.j := by decide +kernel

/-- src/complex/format.rs:40-51 `quaternion` -/
example : ((Quat.fmt (fun n : Int => toString n) (Quat.new 1 (-2) 3 (-4))).exec "" : Except Fault Unit × String) =
    (.ok (), "Quaternion(1, -2, 3, -4)") := by decide +kernel
end quaternion

section affine
/-- `fill(1.0)`, `fill(1.0) + one()`, `fill(1.0) - one()` and `indices().map(|i| i as f64)` of the tests. -/
abbrev m0 (N : Nat) : Affine Rat N := Chain.new (Shift.fromVector (Vec.fill 1)) (Linear.fromMatrix (Mat.fill 1 + 1))
abbrev m1 (N : Nat) : Affine Rat N :=
  Chain.new (Shift.fromVector ((Vec.indices (N := N)).map fun i : Nat => (i : Rat))) (Linear.fromMatrix (Mat.fill 1 - 1))
abbrev one (N : Nat) : Vec Rat N := Vec.fill 1

/-- src/transform/affine.rs:57-71 `identity` -/
example : ∀ N ∈ [2, 3, 4], ((Transform.identity (Vec Rat N) : Affine Rat N)).linear.intoMatrix = 1 ∧
    ((Transform.identity (Vec Rat N) : Affine Rat N)).shift.intoVector = 0 ∧
    Transform.apply (Transform.identity (Vec Rat N) : Affine Rat N) (one N) = one N := by decide +kernel

/-- src/transform/affine.rs:73-87 `inverse` -/
example : ∀ N ∈ [2, 3, 4], Transform.apply (Transform.inv (Vec Rat N) (m0 N)) (Transform.apply (m0 N) (one N)) = one N ∧
    Transform.apply (m0 N) (Transform.apply (Transform.inv (Vec Rat N) (m0 N)) (one N)) = one N := by decide +kernel

/-- src/transform/affine.rs:89-106 `chain` -/
example : ∀ N ∈ [2, 3, 4],
    Transform.apply (m0 N) (Transform.apply (m1 N) (one N)) = Transform.apply (Transform.chain (Vec Rat N) (m0 N) (m1 N)) (one N) ∧
    Transform.apply (m1 N) (Transform.apply (m0 N) (one N)) = Transform.apply (Transform.chain (Vec Rat N) (m1 N) (m0 N)) (one N) := by
  decide +kernel
end affine
end Vecmat.Conformance
