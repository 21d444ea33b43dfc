# Formal model of vecmat-rs in Lean 4 — design

## 1. What is modelled, and how

The crate is a pure (no I/O, no threads) const-generic linear-algebra library.  We model it
function by function in Lean 4, generically in the scalar type exactly as the Rust code is generic:

| Rust | Lean model |
|---|---|
| `[T; N]` | core `Vector T N` (fixed-size array) |
| `Vector<T, N>` (`data: [T; N]`) | `structure Vec T N` (`data : Vector T N`) |
| `Matrix<T, M, N>` (`data: Vector<Vector<T,N>,M>`) | `structure Mat T M N` (`data : Vec (Vec T N) M`) |
| `Complex<T>`, `Quaternion<T>`, `Moebius<T>` | `Cpx T` (a `Vec T 2`), `Quat T` (a `Vec T 4`), `Moebius T` (a `Mat T 2 2`) |
| `MaybeUninit<T>` slot | `Option T` (`none` = uninitialised); `assume_init` on `none` is the fault `ub` |
| `usize` index | `Nat`; out-of-range indexing is the fault `indexOob` |
| panic / `unwrap` on `None` / `assert!` | `Except Fault` (`Res`) — an explicit error value, never a default |
| `FnMut`/`Iterator` arguments | arbitrary effectful computations `Eff σ α = σ → Except Fault α × σ` (any state, may panic; the state survives the panic) |
| `&mut self` methods | functions returning the new value |
| operator traits `Add`, `Mul`, ... on `T` | Lean classes `Add T`, `Mul T`, ... with **no laws** in the model (pure functions; for C100 they are arbitrary computations, `ScalarE`); laws (`CommRing`, `Field`, `ℝ`) appear only as hypotheses of theorems |
| `PartialOrd` | `RPartialOrd T` with `partialCmp : T → T → Option Ordering` (NaN-like incomparability expressible) |
| `Float` (`sqrt`, `sin`, `atan2`, ...) | class `FloatOps T`; theorems use the instance for `ℝ` (exact real arithmetic) |
| an RNG | a state machine `σ → α × σ` (arbitrary stream); rejection loops get a fuel argument |

Functions whose Rust body contains an `unwrap`, an index or an `unsafe` read are modelled as `Res`/`Eff`
computations first.  When they can never fault, a *pure* function is **extracted** from that model with
the no-fault proof (`Res.get`), so later layers are built on the faithful model, not on a re-statement.

Files (under `lean/Verif/`):
* `Model/*.lean` — the model; every definition cites the Rust file and lines.
* `Spec/*.lean` — small independent specifications (call sequences, textbook sums, Mathlib's `Matrix.det`, `ℂ`, `ℍ[R]`).
* `Lemmas/*.lean` — helper lemmas.
* `Props/*.lean` — property theorems `Cxx_…` only, with non-vacuity `example`s.

## 2. Trusted base

* Lean 4.33 kernel; axioms at most `propext`, `Classical.choice`, `Quot.sound` (checked by `#print axioms`).
* Mathlib definitions used in statements (`Matrix.det`, `ℂ`, `ℍ[R]`, `Real.sin`, `HasDerivAt`, ...).
* Our reading of the Rust source: the code is not executed here.
* The Rust standard library pieces the crate calls: `[T;N]::map` (in index order), `array::IntoIter`,
  slice iterators, `Iterator::{zip,fold,scan,for_each,all,any}`, `mem::swap/replace`.  They are modelled
  from their documentation.
* The layout rules of the Rust reference used by the memory model: arrays are contiguous, `repr(transparent)` has the layout of its
  field, `MaybeUninit<T>` that of `T`; the offsets of the fields of the other structs are arbitrary disjoint ones (parameters).
* Overflow of `+`, `*`, unary `-` and `abs` on primitive integers panics in the debug profile and wraps in the release profile.
* `+ - * / sqrt abs` and comparisons of `f32`/`f64` are those of IEEE 754 with round to nearest even (C80–C85, C91).
* External crates: `num-integer` floor division, `num-traits` constants, `rand` uniform ranges, `approx` scalar
  `abs_diff_eq` — assumed behaviour is stated at each use.
* `core::fmt` (C65, C97): `write!` formats with default options, `#[derive(Debug)]` expands to `DebugStruct`, `{:#?}` goes through
  `PadAdapter`; a component's own `Debug`/`Display` writes a sequence of pieces that depends only on the value and the options.

## 3. Modelled code, and what is not

Every `.rs` file under `src/` that is part of the crate is modelled, function by function. Where to find what:
* vectors: `Model/{Vector,VectorPure,VectorOps,Math,Iter,Tuple,Format,FormatSink,Approx,Distr}.lean`;
* matrices: `Model/{Matrix,MatrixOps,Square,SquarePure,Math,Approx,Format,Distr}.lean`;
* complex numbers, quaternions, Möbius maps: `Model/{Complex,Quaternion,Moebius}.lean`;
* transforms: `Model/{Transform,Transforms,Approx,Distr}.lean`;
* ownership (what is dropped when): `Model/{Own,OwnIter}.lean`; memory (pointer casts, `&mut` accessors): `Model/{Memory,Borrow}.lean`;
* scalar types: `Model/{Scalar,Real,MachineInt,IntNorm,Float,Ieee}.lean`; operators with effects: `Model/{ScalarEff,TransformEff}.lean`;
* the library's own `usize` arithmetic on machine words: `Model/Usize.lean`.
Each model definition cites its lines.

Scalars. The model is generic, with law-free operations. Theorems use:
* exact scalars — any commutative ring, (ordered) field, `ℝ` — for algebraic and analytic laws;
* law-free scalars for structural facts (evaluation order, component-wise action, assign = plain op), so these hold for floats;
* `BitVec w`, `SInt w`, `UInt w` (release-mode integers), `Chk lo hi` and checked `Res Int` operations (debug mode) for C37, C78;
* `Model/Float.lean`: floats as `fin x | nan`-like values with an arbitrary rounding function that satisfies the *standard model*
  of floating-point arithmetic (relative error `u` per operation as long as nothing overflows/underflows) for C70–C72; these theorems
  assume no exceptional result, stated as a hypothesis on the computed value being finite;
* `Model/Ieee.lean`: IEEE 754 binary formats of any precision and exponent range, round to nearest even, with signed zeros, infinities,
  one NaN, subnormals, overflow and underflow, for C80–C85 and C91. Encodings and NaN payloads are not modelled.

Not modelled:
* the bodies of the external `num-complex` functions behind `Complex::{exp, ln, powf, …, %, from_str_radix}` (they are parameters, C69);
  `Quaternion::{%, from_str_radix}` are `unimplemented!()` in the crate and modelled as that panic (C47);
* bytes: the memory model (C75, C76) has one cell per scalar, so alignment and partially initialised scalars do not appear; aliasing
  rules and lifetimes (the borrow checker's work); trait resolution; code that only exists for a `no_std` switch;
* `usize` overflow, except in C106, which shows that it does not happen for types that exist in memory;
* a second panic while unwinding, which aborts the process (a panicking closure, iterator or destructor is covered: C11, C12, C102);
* random numbers: the random source is an arbitrary state machine for C62/C63, an ideal independent uniform source for C73/C74;
  a real generator is only approximately ideal;
* `src/matrix/dot.rs` is not part of the crate (no `mod dot` in `src/matrix/mod.rs`).

## 4. Plan per property

* **C01** effectful loop over slots (`forRange`), refinement to `Spec.callN`; induction on N.
* **C02** loop over slots pulling an arbitrary `Eff σ (Option T)`; refinement to `Spec.takeN`; induction on N.
* **C03** `GroupIter.next = tryFromIter`; iterate on list iterator, induction on the list length.
* **C04** `mapE` for an arbitrary effectful closure; refinement to left-to-right `List.mapM`.
* **C05** zip through the faithful tryFromIter+unwrap; pointwise lemma; extensionality.
* **C06** foldE/foldFirstE/scanE; refinement to `List.foldlM`; fault iff N = 0.
* **C07** `index`/`indexMut` as `Res`; get/set laws. The panics of C06, C07, C14, C16–C18, C26, C29, C30, C32 are also stated as `Spec.PanicsIff call fault condition` (`C.._panics_exact`, Props/Panics.lean): the named ordinary panic (never UB) under the condition, a value otherwise.
* **C08** via C02 on `0..N` and `(0..M*N).map(x/N, x%N)`; Nat div/mod lemmas.
* **C09** pointwise extensionality.
* **C10** list-length case split; `slice[i*N+j]`.
* **C11** ghost ownership log (events: produced, moved to result, dropped); multiset conservation; erasure to the base model.
* **C12** same model with a panic at an arbitrary point. `Props/OwnPanic.lean`: for matrices, a panicking closure or iterator drops nothing and leaks everything taken.
* **C13** pointwise lemmas from map/zip for law-free scalars.
* **C14** loop model of `iter_mut().zip(..).for_each` vs. plain operator.
* **C15** pointwise ring laws.
* **C16** foldl vs `Finset.sum`; explicit left-nested fold for law-free scalars; panic at N=0.
* **C17** induction on the fold with a total order; first/last index of extremum.
* **C18** to `ℝ` sums; Minkowski (`EuclideanSpace` norm). Panic exactly on empty operands.
* **C19** bilinearity by sums; Cauchy–Schwarz from Mathlib.
* **C20** real algebra.
* **C21** `ring` on components.
* **C22** pointwise with `partialCmp`; NaN-like counter-model for `vge = !vlt`.
* **C23** `Int.fdiv/fmod` lemmas pointwise.
* **C24** list induction.
* **C25** pointwise; broadcast type class; clamp by order reasoning.
* **C26** FlatIter state machine refined to row-major list.
* **C27** FlatIter over arbitrary list of lists; theorem for non-empty tails; counter-example in general.
* **C28** swap loop on `Option` cells; invariant over both loops.
* **C29** via C08, index.
* **C30** to Mathlib `Matrix` products; panics for inner dimension 0.
* **C31** mask state machine with fuel = N+1; invariant: masks are the images of strictly increasing maps; Laplace expansion `Matrix.det_succ_row_zero`.
* **C32** same invariant, `Fin.succAbove`.
* **C33** Mathlib `adjugate`.
* **C34** corollaries of C31 through Mathlib.
* **C35** stateful iterator in `mapE`; induction over row-major order.
* **C36** counter-example for each N≥2, proof for N≤1.
* **C37** `ZMod (2^w)`/`BitVec` ring for wrapping; logical relation for checked arithmetic.
* **C38** ring laws by components; iso to ℂ.
* **C39** `ring`.
* **C40** component computations.
* **C41** `Complex.arg`, `Complex.abs` from Mathlib.
* **C42** `ring` on 2×2.
* **C43** components vs. Mathlib `ℍ[R]`.
* **C44** `ring`.
* **C45** components.
* **C46** `ring` on 4×4, det by C31.
* **C47** constant fault.
* **C48** generic lemma in a division-like ring, instantiated three times.
* **C49** via C33 and C48; refutation witness for quaternion coefficients.
* **C50** `HasDerivAt` for curves in ℂ / components in ℝ.
* **C51** matrix algebra; witness.
* **C52** pointwise.
* **C53** via C30, C33.
* **C54** trigonometry in ℝ.
* **C55** `ring`/`linear_combination` with unit hypothesis.
* **C56** half-angle formulas.
* **C57** case analysis on the sphere; well-founded recursion (fuel) for the mutual calls. Converse (`Props/LookAtExact.lean`): norms of the columns; the exact norm of the quaternion and the third coordinate of the image of `-z`.
* **C58** generic theorem from the Reorder law; law for each instance.
* **C59** exact affine identity and `HasFDerivAt`.
* **C60** transposed-inverse identity.
* **C61** proof for m>0; witness for m<0.
* **C62** fuelled loop over an arbitrary stream.
* **C63** real-analysis side conditions.
* **C64** conjunction over components.
* **C65** string model; injectivity by digit/separator reasoning.
* **C66** derivative written as `left * v * right` with quaternion factors; norms multiply; factor computed from the determinant.
* **C67** difference formula for two points, then invariance of `|p-q|²/(y_p y_q)`; half-plane version for real coefficients.
* **C68** components.
* **C69** the external functions are parameters; the theorem says which one is called with which arguments.
* **C70** standard model `fl(x op y) = (x op y)(1+δ)`, induction over the fold with the accumulated factor `(1+u)^k`.
* **C71** relative version for sums of non-negative terms; square root halves the exponent.
* **C72** integers up to `B` are representable: induction that every intermediate value is an integer of magnitude at most `B`.
* **C73** the source is the product measure of uniform laws; Box–Muller by change of variables (polar coordinates), rejection as a
  geometric series over independent blocks, orthogonal invariance of the Gaussian measure.
* **C74** translation invariance on the circle for `Rotation2`; axis and angle independent for `Rotation3`; refutation of the Haar
  property by integrating a test event; conjugation invariance from C73.
* **C75** layouts with a proof that `dec` inverts `enc`; `load`/`store` of an array decompose into those of its elements.
* **C76** every `&mut` accessor is a composition of "element of an array" and "field" focuses; a focus composition theorem gives
  read = shared accessor, write = replace that component, nothing else changes.
* **C77** the elementwise function at `ℝ` meets the equations that characterise the mathematical function.
* **C78** relate the fold on machine integers with the fold on `ℤ` (as in C37); debug profile: `foldlM` of checked additions of
  non-negative numbers by induction; `norm_l_inf` through C17.
* **C79** derived implementations as short-circuiting monadic comparison of lists; row-major flattening lemma; log of the calls.
* **C80** laws of `Ieee` operations by cases (commutativity, sign symmetry of rounding), `Same` is a congruence, lifted to the generic models.
* **C81** NaN is absorbing for `+ - * /`; induction over folds and over the Laplace expansion.
* **C82** a calculus `Val a x` (datum `a` has value `x`); sums with one non-zero term; the recursive determinant by induction.
* **C83** monotonicity of rounding; `near (sqrt (near x²)) = |x|` in the normal range.
* **C84** a running-error calculus: every computed datum carries (roundings, underflows, magnitude); rules for `+ - *`, induction over folds.
* **C85** the model is parametric in the scalar operations (`Lemmas/Rel.lean`): simulation between `Ieee φ` and `Fl (trapping φ)`, then C70–C72.
* **C86** error calculus in a normed ring (`Lemmas/NormErr.lean`), instantiated at reals, complex numbers, quaternions; induction over the bracketing (`Spec/Compose.lean`).
* **C87** perturbation bound for `n/d` in a normed division ring, fed with C70, C71.
* **C88** explicit rotation matrix of the direct branch, continuity of its entries, one-sided limits along meridians for the jumps.
* **C89** the relational parametricity lemmas (`Lemmas/Rel`) at the graph of the conversion give products and determinants; the rest by unfolding, division and square roots as extra hypotheses.
* **C90** component-wise `HasDerivAt`; Jacobi's formula from the Leibniz expansion and Cramer's rule, the inverse by differentiating `A A⁻¹ = 1`, rotations through the quaternion product rule.
* **C91** the simulation of C85 (complete IEEE semantics vs trapping arithmetic) lifted to complex numbers, quaternions, matrices, Moebius maps and to evaluation of a bracketing; then C86, C87.
* **C92** from C54/C56 (angle, Rodrigues) by vector algebra; the difference quotients in the division ring of quaternions (C43, C90).
* **C93** the a-priori bounds of C84 (sums of products with underflow units) specialised to `f64`: range hypotheses on the *inputs* give finiteness of every intermediate result, then norms in Mathlib's `ℍ`/`ℂ`; drift by induction on the list of rotations.
* **C94** as C93, for square roots and quotients: relative errors of `sqrt` and `/` in the normal range, perturbation of normalisation (`‖x/|x| − y/|y|‖ ≤ 2‖x−y‖/|y|`), Lagrange identity for the cross product; look_at_any of Rotation3 with an arbitrary mathematical library (only `sqrt` is assumed to be IEEE; the half turn `Rotation3::new(x, PI)` enters through a hypothesis that is proved for correctly rounded `sin`, `cos`, `PI`).
* **C95** (`Props/Represent.lean`) a distance-preserving map fixing the origin keeps dot products, so it is multiplication by an orthogonal matrix (Mazur–Ulam in coordinates); a rotation matrix is `look_at_any` of the image of `-z` (C57) followed by a turn about `z`; determinant −1 is reduced to 1 by a reflection.
* **C96** (`Props/MoebiusGeometry.lean`) difference formula for images, Lagrange-style determinant formula for the transformation through three points, a quadratic with three roots vanishes, pulling back Hermitian forms `A|q|² + 2 B·q + C` along the inverse.
* **C97** (`Model/FormatSink.lean`, `Props/FormatSink.lean`) formatting as a state machine over an arbitrary sink: each impl equals feeding a list of pieces (composition lemmas for `?`, induction over the loops), the pad adapter of `{:#?}` equals feeding the indented pieces, prefix property by induction over the pieces.
* **C98** (`Props/F64Angle.lean`) rotations built from angles in f64: the accuracy of `sin`, `cos` (`TrigWithin`) and `atan2` (`Atan2Within`) is a hypothesis (`C98_library` shows that correct rounding meets it); halving an angle is exact up to underflow; chords and arcs bound each other; the error of the quaternion goes through the Lipschitz bounds of C93 and, for accumulated steps, through `‖A^n − B^n‖` by induction.
* **C99** (`Props/F64Det.lean`, `Props/F64Solve.lean`, `Props/F64Affine.lean`) Laplace expansion in f64: induction over the recursion with a relation that carries value, magnitude (the permanent of the absolute values) and number of roundings at once; the range conditions are on the inputs only (`N! c^N`), so no run-time assumption is left; the inverse divides the entries of `adj` by `det`, whose relative error is bounded by the condition number `κ = per|a| / |det a|`; products and systems of equations go through C84; inverses of affine transformations and round trips add the errors of the two applications coordinate by coordinate.
* **C100** (`Props/ScalarEff{,2,3,4,5}.lean`) the arithmetic written down a second time with every scalar operator an effectful computation (`ScalarE`); each function is proved equal, as a computation, to a sequence written in the specification (`inOrder`, `addUp`, `Expr`, `laplace`), so value, panic and side effects agree for every scalar type; call logs by an instrumented scalar type (`logged`, `Makes`); `C100_plain_*` connect it with the effect-free model; `C100_checked_*` instantiate it with overflow-checked integers, where a panic ends the computation at once (C37 has it as a value that propagates); compound assignment by `OneByOne`. The order in which Rust evaluates operands (left to right) is part of the model.
* **C101** (`Props/Partial{,2,3,4,5,Ex}.lean`) the transformations and Moebius functions are written down with effectful operators as well (`Model/TransformEff.lean`). A congruence (`Rel`, `Lemmas/Partial.lean`) shows that a run with partial operators that returns follows the run with the total ones; with `C100_plain_*` this gives the effect-free functions and hence all their laws, and totality (`C101_total_*`), which are then restated for calls that return (`C101_field_*`, `C101_ring_*`, `C101_checked_*`).
* **C102** (`Props/OwnIter.lean`) the by-value functions with local variables that have drop glue (`scope`), a memory with a log of ownership
  events, and closures and destructors that are arbitrary computations. `C102_*_clean`/`_good` are compositional (Hoare-style) statements for
  every item type and every closure that keeps the books; `C102_*_returns/_panics/_calls` give the exact event log for any closure of a
  client; `C102_*_agrees` connect the functions with the models of the other properties. A second panic during unwinding aborts the
  process in Rust; in the model the clean-up goes on and the first panic is reported.
* **C103** (`Props/F64Moebius{,2,Deriv,Dir}.lean`, `Lemmas/Bilinear.lean`, `Spec/MoebiusVal.lean`) norm-wise error analysis on ℂ and ℍ: `a z + b`, `a q + b`, quotients of perturbed
  numbers (`quot_err`), sums of two products, the code's Laplace expansion of a 2×2 complex determinant; range conditions are on the inputs only.
  `deriv_dir` by a small calculus of relative errors with upper bounds (`ApQ`, `ApR`); the difference it forms is a reflection of `c v`, so it does not cancel.
* **C104** (`Props/IeeeDiv{,2}.lean`) case analysis on the four kinds of data: "not finite" is closed under `·`, `±` with anything, "zero" under
  `·` with finite data and `±`; the sum of squares is `+∞` as soon as one square is, and `0` if all are. Overflow of a square by monotonicity of
  rounding, underflow from round-half-even. The thresholds are exact up to the last rounding step (below them see C83).
* **C105** (`Props/IeeeInt.lean`, `Lemmas/IeeeNearest.lean`) the Laplace expansion of C72 applied to minors (exact adjugate), then one rounding in
  the division; `C105_nearest` shows that the rounding of the model is to a nearest representable number (also a check of the model);
  `Props/IeeeRounding.lean`: ties go to the even significand and overflow begins half a unit above the largest number, the text of IEEE 754, 4.3.1.
* **C106** (`Model/Usize.lean`, `Props/Usize.lean`) simulation between the word-size version and the unbounded version of each function: equal runs on
  every mask with `deg ≤ N`, by induction on the recursion depth, with the invariant that a call that returns restores the degree.
* **C107** (`Lemmas/F32{Quat,Vec,Ex}.lean`, `Props/F32{,Linear,LookAt,Rotation}.lean`) as C93 and C94 with the constants of `f32`: the same chain of lemmas, every range and underflow
  constant chosen anew.
* **C108** (`Props/F32Angle.lean`) as C98 with the constants of `f32`: the accuracy of the library is again a hypothesis (`TrigWithin32`, `Atan2Within32`), shown to be met by correct rounding (`C108_library`).
* **C109** (`Props/F32Det.lean`, `Props/F32Solve.lean`, `Props/F32Affine.lean`) as C99 with the constants of `f32`; the Laplace induction is the format-independent one of `F64Det`.
* **C110** (`Lemmas/F32Moebius{,2}.lean`, `Props/F32Moebius{,2,Deriv,Dir}.lean`) as C103 with the constants and the (much narrower) ranges of `f32`.
* **C111** (`Props/Sampler.lean`; `Props/Sampler32.lean` for the rejection samplers and rotations in `f32`) the samplers of `Model/Distr.lean` over `Ieee φ`: the number under the logarithm is a multiple of `2^-p` in
  `[2^-p, 1]` (`rep_gap`), so `ln` is `0` or far from underflow, then a running relative error; `NonZero`/`Unit`/`Invertible` by the loop lemma
  of C62 and the error theorems C85/C99; rotations by C98. Accuracy of `ln`, `cos`, `sin` is a hypothesis (met by a correctly rounded library,
  `C111_library`), so is the range of the external `Uniform`. `C111_invertible_singular_refuted` is a counterexample to the documented guarantee
  of `Invertible`; whether the values of `Normal` actually hit such a matrix is not modelled (it needs the bits of the generator). `Props/SamplerMoebius{,32}.lean`: complex
  Moebius transformations, by the error bound of the complex 2×2 determinant (C103_det, C110_det) and `|z| ≤ |re| + |im| ≤ √2·|z|`.
* **C112** (`Props/F64Motion.lean`, `Props/F32Motion.lean`) a computed map that follows an exact linear near-isometry within `κu|x|` (`Act`) is shown to
  have the bounds for motion, inverse, round trip, composition; C93/C107 supply the two rotations (κ = 19, 5; composed 40, 10). The exact side of the
  statements is spelled out as `R x + s`; drift by induction on the list with the error of the shift as an invariant next to that of the rotation.
* **C113** (`Props/SamplerTypes.lean`, `Props/SamplerTypes32.lean`) C111 composed: the bound 8.572 (5.77) on the scalar `Normal` discharges the range hypotheses
  of C85/C99/C109/C111 about the numbers drawn, so the only hypotheses left are the promises of `rand` and of the mathematical library.
* **C114** (`Props/F64Direction.lean`, `Props/F32Direction.lean`) C99/C109 (application and inverse) and C94/C107 (normalisation) composed: entrywise errors become a bound of the
  Euclidean length by Cauchy–Schwarz row by row (Frobenius norm of the weights); perturbation of normalisation; orthogonality from C60 and Cauchy–Schwarz. Rotations: dot products scale by `|q|⁴` (`|z|²`) exactly.
* **C115** (`Lemmas/Renorm.lean`, `Props/F64Renorm.lean`, `Props/F32Renorm.lean`) C94/C107 (normalisation, for 4 and 2 components) and C93/C107 (products): one step maps the distance to the
  exact direction from `e` to at most `e + 2η + 2c` in any normed division algebra; induction on the list of factors with the unit defect as an invariant that does not grow.
* **C116** (`Lemmas/IeeeOrder.lean`, `Props/IeeeOrder.lean`) rounding to the extended real line is monotone; case analysis on infinities and NaN for each operation; induction on the fold.
* **C117** (`Spec/Units.lean`, `Lemmas/Units.lean`, `Props/Units.lean`) rounding commutes with `2^k` on normal results; a relation between two runs graded by the exponent is kept by every operation (fold, Laplace expansion, quotients); the run that stops at overflow/underflow (`normal`) is simulated by the complete IEEE run as in C85. The theorems speak about runs in which `normal` does not stop.

## 5. Findings (proved, see the `…_refuted` theorems and the panic theorems)

* `FlatIter` stops at the first empty inner sequence (C27). For `M = 0` the matrix iterators panic, so `+=`, `is_zero`, `any`, `all`,
  `abs_diff_eq` panic; `fold_first`, `sum`, `dot`, `max`, `min`, `length` panic for empty vectors; `Debug`/`Display` panic for `N = 0`.
* `GroupIter<_, 0>` never ends (C03).
* `Matrix::one()` is the identity matrix whereas `Mul` is component-wise, so the `One` law fails for `N ≥ 2` (C36).
* Overflow-checked integer `det` may panic although the determinant is representable (C37); unsigned dot products never do that.
* `Moebius<Quaternion>::inv` is not an inverse (C49); `Moebius::normalize` gives determinant `1/det` (C51); for complex `det` it changes
  the map on quaternion points; a complex determinant does not preserve the upper half-space (C67).
* `look_at` and `look_at_any` do not normalise: for a non-unit direction the result is never a rotation; for the zero vector
  `Rotation3::look_at_any` returns a quaternion of square norm 1/2 (C57).
* `Linear::look_at_any` rotates `-z` to `dir`, its documentation says the opposite (C57).
* `Rotation3::look_at_any` and `look_at_any_cont` jump along the equator `z = 0` (but at `x = 0`), and are continuous at `z = 1`; the comment
  on `look_at_any_cont` claims `z = 1` is its only discontinuity (C88).
* `Scale::apply_dir/apply_normal` are wrong for a negative magnitude (C61). `Chain<Linear, Shift>::chain` is wrong when the second
  operand's linear part is singular (C58).
* `Rotation3::to_linear` and `inv` agree with `apply` only for unit quaternions (C55); `axis()` of the identity is undefined.
* `max` of ties returns the first, `min` the last; NaN propagation depends on the position (C17).
* `Uniform` `Rotation3` is not uniformly (Haar) distributed (C74). `Invertible` accepts a NaN determinant whereas `NonZero` rejects a NaN length.
* `norm_l_inf` of release-mode signed vectors ignores components equal to the minimum of the type (C78).
* `length`/`normalize` do not guard the intermediate range: `normalize` of a finite non-zero float vector may be `0` or `[∞, NaN]` (C83);
  `1·[∞, 0]` has a NaN (C82); `max`, `min`, `norm_l_inf` drop a NaN that is not first (C81).
* The text of vectors of strings with commas is ambiguous (C65). `Vector`, `Matrix`, `Complex` and `Quaternion` ignore the options of the
  format string: `{:.2}`, `{:8}`, `{:#?}` print the components as `{}` does (C97).
* The crate's tests `law_of_cosines` and `conjugation` create the generator inside the loop, so all 256 attempts use one sample; the
  assertions with the default (absolute) epsilon do not scale with the input. The test of the derivative of `inv` has the exact relative
  error `ε|v|/|p+εv|` (C92), so it only passes because no sample is near 0.
* `deriv` of `Affine` (and of every `Chain`) also applies the inner transformation to the position, although the derivative does not
  depend on it: it costs twice the operations and panics on overflows of values it does not need (C101).
* A panicking closure in `init`/`try_from_iter` leaks the items stored so far (it never drops them twice) (C12); hence
  `scan` leaks its results when its closure panics while `map` drops them (C102).
* Complex and quaternion division squares the divisor without scaling: in `f64`, `w / w` is `0` if a component is `≥ 2^512` in magnitude and
  not finite if all are `≤ 2^-538`; dividing by an infinite number gives NaN, not `0`; so `1/z` as a Moebius transformation maps infinity
  to NaN (C104). `Linear::look_at` does not check that `up` is independent of `dir` (C104).
* `Matrix::<(), M, N>::try_from(&[()])` computes `M * N` without a check: it panics when the product overflows (C106).
* `Invertible` ("guarantees to produce an element which could be inverted") accepts exactly singular 3×3 matrices of doubles, because it tests the
  rounded determinant; real 2×2 ones are safe, but a singular `Moebius<Complex<f64>>` (or `f32`) is accepted too (C111).

## 6. Testing the theorems against wrong programs

`seeded/LOG.jsonl` lists edits of the model (automatic mutations and hand-written bugs), the theorems that then fail to build, and the
theorems that were added or tightened because of a surviving edit.

### Fidelity of the model

`lean/Verif/Conformance/*.lean` replays the crate's deterministic unit tests on the model by kernel evaluation. This is evidence that the
model computes what the crate computes, not proof of any property. The randomised tests are covered by theorems:

| crate test | theorems |
|---|---|
| quaternion `imaginary_units`, `inversion`, `law_of_cosines`, `conjugation`, `into_matrix` | C43_units, C43_inverse / C93_quaternion_self_div, C44_law_of_cosines, C44_conj, C46_homomorphism |
| quaternion `derivation` | C90_inverse_formula, C92_derivation_square, C92_derivation_inverse |
| moebius `chaining`, derivations | C48, C50 |
| linear `linearity`, `chaining`, `inversion`, `look_to_the_direction` | C53, C57_linear_look_at_any |
| affine `chaining`, `inversion` | C58–C60 |
| rotation `mapping`, `chaining`, `inversion`, `to_linear`, `look_to_the_direction` | C92_rotation2_mapping, C92_rotation3_mapping, C54, C55, C93 (in `f64`), C57_rotation_look_at_any / C94_rotation_look_at_any (in `f64`) |
