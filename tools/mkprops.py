#!/usr/bin/env python3
"""Writes ../properties.jsonl (one JSON object per line). Kept so the list stays easy to edit."""
import json, os
P = []
def p(title, statement, quantifier, why, *anchors):
    P.append(dict(id="C%02d" % (len(P)+1), title=title, statement=statement,
                  quantifier=quantifier, why_tests_cant=why, anchors=list(anchors)))
VI="src/vector/base/init.rs"; VT="src/vector/base/iter.rs"; VF="src/vector/base/format.rs"
VB="src/vector/ops/base.rs"; VBIT="src/vector/ops/bit.rs"; VC="src/vector/ops/vcmp.rs"; VINT="src/vector/ops/int.rs"
VOI="src/vector/ops/iter.rs"; VS="src/vector/spec.rs"; VD="src/vector/dot.rs"; VM="src/vector/math.rs"; VAP="src/vector/approx.rs"; VDI="src/vector/distr.rs"
MI="src/matrix/base/init.rs"; MT="src/matrix/base/iter.rs"; MC="src/matrix/base/convert.rs"
MB="src/matrix/ops/base.rs"; MS="src/matrix/square.rs"; MP="src/matrix/product.rs"; MTR="src/matrix/transpose.rs"; MOI="src/matrix/ops/iter.rs"
MM="src/matrix/math.rs"; MDI="src/matrix/distr.rs"; MF="src/matrix/format.rs"
CX="src/complex/complex_.rs"; QU="src/complex/quaternion.rs"; MO="src/complex/moebius.rs"; CF="src/complex/format.rs"; CAP="src/complex/approx.rs"
TM="src/transform/mod.rs"; TS="src/transform/shift.rs"; TSC="src/transform/scale.rs"; TL="src/transform/linear.rs"; TR="src/transform/rotation.rs"; TC="src/transform/chain.rs"; TA="src/transform/affine.rs"; TMO="src/transform/moebius.rs"
TRA="src/traits.rs"; DI="src/distr.rs"

# ---- vectors: construction, iteration ----
p("Vector::init call discipline",
  "Vector::init(f) calls f exactly N times, one after another, and puts the result of the k-th call at index k; it never exposes an uninitialised slot, and if the k-th call panics no further call is made.",
  "every element type, every length N (0 included), every stateful or panicking closure f and every initial closure state",
  "closures and lengths are unbounded; a test fixes one closure and one N", VI+":Vector::init")
p("try_from_iter accepts exactly the long-enough iterators",
  "Vector::try_from_iter(it) returns Some exactly when the first N calls of it.next() all return Some, and then holds those N items in order; it calls next at most N times, exactly N on success (never the N+1st), and on failure stops at the first None. It never panics by itself and never reads an uninitialised slot.",
  "every N, every iterator as a state machine (finite, infinite, non-fused, panicking) and every iterator state",
  "iterators are arbitrary programs; over-consumption by one item only shows for particular follow-up uses", VT+":Vector::try_from_iter")
p("GroupIter chunks a sequence without losing or reordering items",
  "Repeatedly calling next on GroupIter::<_,N> over a sequence of L items yields the consecutive N-item chunks floor(L/N) times and then None; the items of the chunks are the first N*floor(L/N) items in order.",
  "every N>0 and every finite sequence", "all lengths and remainders", VT+":GroupIter", MC+":Matrix::try_from_iter")
p("map applies the closure once per element in index order",
  "Vector::map(f) (and Matrix::map, row-major) calls f exactly once on every element, in ascending index order, and the result at an index is what f returned for the element at that index.",
  "every N, M, element type, stateful or panicking closure", "order and multiplicity of effects over all sizes and closures", VT+":Vector::map", MT+":Matrix::map")
p("zip and unzip are mutually inverse and never panic",
  "a.zip(b) pairs equal indices, never hits its internal unwrap, unzip(zip(a,b)) = (a,b) and zip(unzip(v)) = v, for vectors and for matrices.",
  "all N (0 included), M and all contents", "internal unwrap must be unreachable for all N", VT+":Vector::zip", VT+":Vector::unzip", MT+":Matrix::zip", MT+":Matrix::unzip")
p("fold, fold_first, scan visit elements in index order",
  "Vector::fold(s,f) is the left fold over elements 0..N-1; fold_first(f) starts from element 0 and panics exactly when N = 0; scan returns at index k what the k-th call returned, threading the state, and never panics by itself.",
  "all N, contents and (stateful) closures", "all sizes including the N=0 panic", VT+":Vector::fold", VT+":Vector::fold_first", VT+":Vector::scan")
p("Indexing: read-back, frame and bounds",
  "v[i] for i<N reads element i and panics for i>=N; writing through v[i] changes element i only; matrix m[(i,j)] likewise with a panic exactly when i>=M or j>=N.",
  "all N, M, indices (in and out of range) and contents", "all index/size combinations", VI+":Index,IndexMut", MI+":Index,IndexMut")
p("indices and enumerate",
  "Vector::indices()[i] = i, enumerate pairs each element with its index, Matrix::indices()[(i,j)] = (i,j); none of them panics, for zero sizes too.",
  "all N, M (including N = 0 where x / N would divide by zero)", "all sizes; div/mod arithmetic", VT+":Vector::indices", VT+":Vector::enumerate", MT+":Matrix::indices")
p("Conversions round-trip",
  "array/tuple/vector-of-vectors/array-of-arrays conversions of Vector and Matrix are inverse to each other and keep positions; named component accessors x,y,z,w read components 0..3.",
  "all sizes and contents", "all sizes and contents", VI+":from_array,into_array", VS+":from_tuple,into_tuple,x,y,z,w", MC+":from_*,into_*")
p("Fallible slice conversions",
  "Vector::try_from(slice) is Ok exactly when slice.len() == N; Matrix::try_from(&[T]) is Ok exactly when len == M*N and then element (i,j) is slice[i*N+j]; Matrix::try_from(&[Vector]) exactly when len == M. No call panics.",
  "all M, N and slices", "all lengths incl. M*N factorizations and zero dims", VT+":TryFrom<&[T]>", MC+":TryFrom")
# ---- ownership ----
p("No double drop, no use of uninitialised memory, no leak without panic",
  "In init, try_from_iter, unzip and transpose every item produced by the caller ends up exactly once in the result or dropped exactly once, no slot is read before it is written, and nothing is leaked when no closure/iterator panics.",
  "all sizes, all item sequences, all iterator lengths (short, exact, long)", "unsafe code must be right for every size and length; leaks and double drops are silent", VI+":init", VT+":try_from_iter,unzip", MTR+":transpose")
p("Panic safety of the unsafe constructors",
  "If the closure or iterator panics inside init, try_from_iter, or the sources of unzip, no item is dropped twice and no uninitialised slot is dropped or returned (already stored items are leaked, not double-freed).",
  "all sizes and all panic points", "every panic point at every size", VI+":init", VT+":try_from_iter")
# ---- vector ops ----
p("Component-wise operators",
  "+,-,*,/,% between vectors (matrices), with a scalar, unary - and !, &,|,^ act independently at each index, with the operand order of the scalar operator, for any scalar operations whatsoever (floats, wrapping ints, non-commutative types).",
  "all sizes, scalars and scalar operations", "arbitrary scalar type, all sizes", VB, VBIT, MB)
p("Compound assignment agrees with the plain operator",
  "a op= b leaves in a exactly the value a op b for every arithmetic and bitwise operator on vectors; on matrices the same holds whenever M > 0 and the assignment panics when M = 0.",
  "all sizes and all scalar operations", "zero-row corner and all sizes", VB+":*Assign", VBIT+":*Assign", MB+":*Assign", MT+":FlatIter::new")
p("Vectors and matrices over a ring form a module",
  "With exact scalars, vector/matrix addition is commutative and associative with zero() neutral and unary minus inverse, scalar multiplication distributes; is_zero() holds exactly for zero().",
  "all commutative rings, all sizes", "algebraic laws over all values", VB, MB)
p("sum and dot are the mathematical sums",
  "sum() is the sum of the components and dot() the sum of products (exact scalars), for every N>0; both panic for N = 0; with arbitrary (rounding) scalars the terms are combined strictly left to right starting from index 0.",
  "all N, contents, scalar operations", "all lengths; association order matters for floats", VB+":sum", VD+":dot", VT+":fold_first")
p("max and min",
  "max() (min()) returns an element of the vector that is >= (<=) every element for a total order; on ties max returns the first maximal and min the last minimal element; both panic exactly for N=0.",
  "all N, all totally ordered element types, all contents", "all orders, ties and sizes", VB+":max,min", MB+":max,min")
p("Norm laws",
  "norm_l1, norm_l2 and norm_l_inf are norms on real vectors (non-negative, zero only at 0, absolutely homogeneous, triangle inequality), norm_l2_sqr is their square, and l_inf <= l2 <= l1; all four panic (with the ordinary unwrap panic) exactly for an empty vector or matrix.",
  "all N>0 and all real vectors (exact arithmetic)", "inequalities over all values", VB+":NormL1,NormL2,NormLInf", TRA)
p("Dot product geometry",
  "dot is symmetric and bilinear, dot(a,a) = square_length(a) = length(a)^2, and |dot(a,b)| <= length(a)*length(b).",
  "all N>0, all real vectors", "Cauchy-Schwarz over all values", VD)
p("normalize",
  "For v != 0 v.normalize() has length 1 and is v divided by its length (same direction); normalizing a unit vector leaves it unchanged.",
  "all N>0, all nonzero real vectors", "all values", VD+":normalize")
p("Cross product",
  "3D cross is bilinear, antisymmetric, orthogonal to both factors, satisfies Jacobi and |a x b|^2 = |a|^2|b|^2 - (a.b)^2; 2D cross is the determinant of the two rows; 4D cross is the 3D one with a zero fourth component.",
  "all commutative rings, all vectors", "polynomial identities over all values", VS+":cross")
p("Comparison masks",
  "veq/vne/vlt/vle/vgt/vge hold at an index exactly when the scalar comparison holds there; vne is the negation of veq; vge is the negation of vlt for totally ordered scalars but not for NaN-like scalars; all()/any() are the conjunction/disjunction.",
  "all sizes, all PartialOrd/PartialEq behaviours incl. incomparable values", "all sizes and partial orders", VC, VBIT+":any,all")
p("Floor division",
  "div_floor and mod_floor give q,r with a = q*b + r, r zero or of the sign of b, |r|<|b|, component-wise, and div_mod_floor returns both at once.",
  "all sizes, all integer components with nonzero divisor", "all signs and magnitudes", VINT, "src/matrix/ops/int.rs")
p("Iterator Sum/Product of vectors and matrices",
  "Summing an iterator of vectors (matrices) gives at every index the sum of the components, the empty sum is zero; Product gives component-wise products and the empty product is all ones.",
  "all sizes, all finite iterators", "all lengths", VOI, MOI)
p("Elementwise float functions and broadcasting",
  "Each unary float method applies its scalar function at each index; binary ones (vmin, vmax, atan2, powf, ...) accept a same-shape value, a scalar used everywhere, or (matrix) a row vector used in every row; clamp(a,b) lies in [a,b] when a<=b; sin_cos returns both components in order.",
  "all sizes and inputs", "all sizes, broadcasting cases", VM, MM)
# ---- matrices ----
p("Matrix iteration is row-major",
  "iter/into_iter/for_each/fold/fold_first/scan/map on a matrix visit (0,0),(0,1),... in row-major order, each element once; iter and into_iter panic exactly when M = 0, fold_first exactly when M*N=0.",
  "all M, N, contents", "zero dims and all shapes", MT)
p("FlatIter yields the concatenation",
  "Draining FlatIter::new(it) until the first None yields the concatenation of all sub-sequences. True when no sub-sequence after the first is empty; in general the iterator stops early at an empty sub-sequence (refuted in general).",
  "all sequences of sequences", "needs all shapes; fails only on empty inner sequences", MT+":FlatIter")
p("transpose",
  "transpose()[(j,i)] = self[(i,j)], it is an involution, the result is fully initialised and every source cell is moved out exactly once.",
  "all M, N (0 included) and contents, also for non-Copy types", "unsafe swap loop over all shapes", MTR)
p("row and col",
  "row(i)[j] = col(j)[i] = m[(i,j)]; row panics exactly for i>=M; col(j) panics exactly when j>=N and M>0.",
  "all M,N,i,j", "zero-row corner", MI+":row,col")
p("Matrix products are the textbook products",
  "outer(a,b)[(i,j)] = a_i*b_j; Matrix.dot(Vector), Vector.dot(Matrix) and Matrix.dot(Matrix) are the standard sums (exact scalars), so dot is associative, distributes, has one() as unit and (AB)^T = B^T A^T; products with inner dimension 0 panic unless the result is empty.",
  "all L,M,N, all commutative rings, all contents", "algebraic laws for all shapes", MP, MS+":One")
p("Determinant",
  "det() equals the Leibniz determinant (sum over permutations), for every N including 0, and never panics: the mask search always finds a free index and the mask is restored.",
  "all N, all commutative rings, all matrices", "N unbounded; recursion over mutable masks", MS+":Determinator,IndexMask,SubmatrixMask,det")
p("Cofactor",
  "cofactor(i,j) is (-1)^(i+j) times the determinant of the matrix without row i and column j; it panics exactly when i>=N or j>=N.",
  "all N, i, j, matrices over commutative rings", "all N", MS+":cofactor")
p("Adjugate and inverse",
  "adj() is the adjugate (A*adj(A) = det(A)*1) and, when det() != 0 in a field, inv() is the two-sided inverse, inv(inv(A)) = A, inv(AB) = inv(B)inv(A).",
  "all N, all fields, all matrices with nonzero determinant", "all N", MS+":adj,inv")
p("Determinant laws",
  "det(AB)=det(A)det(B), det(A^T)=det(A), det(one())=1, det(diagonal(d)) = product of d, a repeated row gives 0, det(A*s) = s^N det(A).",
  "all N, commutative rings", "all N", MS)
p("diagonal and identity",
  "diagonal(d) has d_i at (i,i) and zero elsewhere and never hits its internal unwrap; one() is diagonal(1,..,1).",
  "all N and d", "stateful closure over all N", MS+":diagonal,one")
p("Matrix one() is neutral for `*`",
  "num_traits::One promises one()*a = a = a*one(). Matrix implements Mul component-wise while one() is the identity matrix, so this holds only for N<=1 (refuted for every N>=2 over any nontrivial ring); one() is neutral for dot instead.",
  "all N, rings, matrices", "trait law over all values", MS+":One", MB+":Mul")
p("Machine integers",
  "With wrapping (release) w-bit integers dot, det, cross, quaternion products etc. are the exact integer results reduced modulo 2^w; with overflow-checked (debug) integers, if no panic occurs the result is the exact integer result.",
  "all widths w, all sizes, all inputs", "all bit patterns", MS, VD, QU)
# ---- complex ----
p("Complex numbers form a commutative ring / field",
  "With exact scalars Complex satisfies the commutative ring laws with zero(), one(), i()^2 = -1; if norm_sqr(w) is invertible then (z/w)*w = z and w*inv(w) = 1; over an ordered field only zero() has norm_sqr 0. Over the reals it is isomorphic to the field of complex numbers.",
  "all commutative rings/fields, all values", "laws over all values", CX)
p("Complex conjugation and norm",
  "conj is an involutive ring automorphism, z*conj(z) = norm_sqr(z), norm_sqr is multiplicative, norm(z) is the modulus, and dot(z,w) = Re(z*conj w).",
  "all values", "identities over all values", CX+":conj,norm_sqr,norm,dot")
p("Complex/scalar mixed operators",
  "z+s, z-s, z*s, z/s, s+z, s-z, s*z, s/z equal the complex operation with s embedded as (s,0); assignment forms agree with the plain ones.",
  "all values", "all values", CX)
p("Complex polar form",
  "from_polar(norm, arg) of z is z; to_polar(from_polar(r,t)) = (r,t) for r>0 and -pi<t<=pi; arg/norm turn products into sums/products (angles modulo 2*pi).",
  "all real r,t and complex z", "all values", CX+":to_polar,from_polar,arg,norm")
p("Matrix representation of complex numbers",
  "into_matrix is an injective ring homomorphism with det = norm_sqr and into_matrix(z).dot(w) = z*w; transpose corresponds to conj.",
  "all commutative rings, all values", "all values", CX+":into_matrix")
# ---- quaternion ----
p("Quaternions form Hamilton's division ring",
  "Quaternion arithmetic satisfies the ring laws (associative, distributive, one() neutral), i^2=j^2=k^2=ijk=-1, and is isomorphic to Hamilton's quaternions; q*inv(q) = inv(q)*q = 1 when norm_sqr(q) != 0, and a/b = a*inv(b) solves x*b = a.",
  "all commutative rings/fields, all values", "laws over all values", QU)
p("Quaternion conjugation and norm",
  "conj is an involutive anti-automorphism, q*conj(q) = conj(q)*q = norm_sqr(q), norm_sqr and norm are multiplicative, dot is the real part of p*conj(q).",
  "all values", "identities over all values", QU+":conj,norm_sqr,norm,dot")
p("Complex/scalar and quaternion mixed operators",
  "q*c, c*q, q+c, q-c, c+q, c-q, q/c, c/q and the scalar versions equal the quaternion operation with the other operand embedded (re,im,0,0); assignment forms agree.",
  "all values", "non-commutative sign pattern over all values", QU)
p("Matrix representation of quaternions",
  "into_matrix is a ring homomorphism, into_matrix(p).dot(q) is the vector of p*q, det(into_matrix(q)) = norm_sqr(q)^2, transpose corresponds to conj.",
  "all commutative rings, all values", "all values", QU+":into_matrix")
p("Unimplemented quaternion operations panic",
  "Quaternion % Quaternion and Quaternion::from_str_radix panic for every input and never return a value.",
  "all inputs", "all inputs", QU+":Rem,Num")
# ---- Moebius ----
p("Moebius composition",
  "a.chain(b).apply(x) = a.apply(b.apply(x)) whenever the two denominators met are nonzero: for Moebius<Complex> on complex points, Moebius<Complex> on quaternions, and Moebius<Quaternion> on quaternions; identity() maps x to x.",
  "all exact coefficients and points with nonvanishing denominators", "non-commutative algebra over all values", MO+":chain,apply,identity", TMO)
p("Moebius inverse",
  "If det != 0 then inv().apply(apply(x)) = x and apply(inv().apply(x)) = x away from the poles, for Moebius<Complex> on complex and quaternion points. (For Moebius<Quaternion> the statement is false and refuted.)",
  "all coefficients with det != 0 and all non-pole points", "all values", MO+":inv", TMO)
p("Moebius derivative",
  "deriv(p) is the complex derivative of apply at p; Transform::deriv on quaternions (deriv_dir) is the directional derivative of apply at p along v.",
  "all real coefficients, points with nonzero denominator, directions", "limits over all values", MO+":deriv,deriv_dir", TMO)
p("Moebius normalization and determinant",
  "normalize() does not change the transformation; det is multiplicative under chain and nonzero iff the map is invertible. (normalize() yields determinant 1/det, not 1: a user expecting a unit determinant is refuted.)",
  "all coefficients with det != 0", "all values", MO+":det,normalize")
# ---- transforms ----
p("Shift and Scale are transformation groups",
  "identity().apply(x)=x, chain is composition, inv undoes apply on both sides (Scale: nonzero magnitude), chain is associative.",
  "all N, fields, values", "all values and sizes", TS, TSC, TM)
p("Linear transformations form a group",
  "Linear: identity, chain = composition (associative), inv two-sided when det != 0, apply is additive and homogeneous.",
  "all N, fields, matrices", "all N", TL)
p("Rotation2",
  "For unit complex numbers Rotation2 preserves length, dot and 2D cross, chain is composition, inv undoes it, chain/inv keep unit norm; new(a) is unit and rotates by angle a; angle(new(a)) = a for -pi<a<=pi; to_linear gives the same map and is a homomorphism with determinant 1.",
  "all real values", "trigonometric identities over all values", TR+":Rotation2")
p("Rotation3 is an orthogonal transformation",
  "For unit quaternions Rotation3.apply preserves length, dot and cross products, chain is composition, inv undoes apply, chain/inv keep unit norm; q and -q give the same rotation; to_linear gives the same map, is orthogonal with determinant 1 and multiplicative.",
  "all unit quaternions and vectors over exact fields", "polynomial identities over all values", TR+":Rotation3")
p("Rotation3 axis-angle",
  "new(axis,angle) with a unit axis is unit and apply is Rodrigues' formula (fixes the axis, rotates the orthogonal plane counter-clockwise by angle); angle(new(axis,t)) = t for 0<=t<=2pi and axis(new(axis,t)) = axis for 0<t<2pi; new(axis,s).chain(new(axis,t)) = new(axis,s+t).",
  "all unit axes and angles", "all values", TR+":Rotation3::new,axis,angle")
p("look_at and look_at_any map -z to the direction",
  "Linear::look_at(dir,up) is a rotation mapping -z to dir and +y into the half plane of up; Linear::look_at_any(dir) and Rotation3::look_at_any(dir) are rotations mapping -z to dir for every unit dir (both hemispheres, the z=0 circle and the poles); the recursion terminates. Conversely (exact arithmetic) look_at gives a rotation only for unit directions not parallel to up, and both look_at_any only for unit directions: Rotation3::look_at_any(dir) returns for every direction a quaternion of square norm (1 + 2|z| + |dir|^2) / (2 (1 + |z|)), which is 1, and maps -z to dir, exactly for unit directions. The doc of Linear::look_at_any states the inverse direction, which is refuted.",
  "all directions, unit or not", "piecewise code over the whole sphere", TL+":look_at,look_at_any", TR+":look_at_any")
p("Chain and Reorder",
  "For every pair that can be reordered (Shift with Linear, Scale, Rotation2, Rotation3) reorder returns B',A' with A(B(x)) = B'(A'(x)); hence Chain (Affine) has identity, chain = composition and two-sided inverse whenever its parts are invertible.",
  "all lawful transformation pairs, all values", "generic law over all instances", TC, TA, TL, TSC, TR)
p("deriv is the derivative of apply",
  "For Shift, Scale, Linear, Rotation2, Rotation3 and their chains apply(p + v) - apply(p) = deriv(p, v) exactly, and deriv obeys the chain rule; over the reals it is the Frechet derivative.",
  "all points and directions", "all values", TM, TS, TSC, TL, TR, TC)
p("Normals stay orthogonal to tangents",
  "For invertible Linear (and chains) if n is orthogonal to t then apply_normal(p,n) is orthogonal to deriv(p,t), and it has unit length; for conformal transforms apply_normal = apply_dir.",
  "all N, invertible matrices, normals and tangents", "all values", TL+":normal_transform,apply_normal", TC, TR, TSC)
p("Directional consistency of Scale",
  "apply_dir(p,d) is the direction of deriv(p,d) for unit d. True for Scale with positive magnitude; refuted for negative magnitude, where Scale returns d although it maps d to -|m|d.",
  "all magnitudes and unit directions", "sign corner", TSC+":Directional")
# ---- distr / approx / format ----
p("Rejection samplers deliver what they promise",
  "Whenever NonZero, Unit or Invertible return, the result has length > epsilon, has length 1, has |det| > epsilon respectively (hence invertible), whatever the random source; they return the first acceptable draw; they consume N (N*N) scalar draws per attempt in row-major order.",
  "all random sources (streams), all sizes", "every random stream, not a few seeds", VDI, MDI, DI, "src/complex/distr.rs")
p("Normal sampling never leaves the real line",
  "For u in [0,1) and phi in [0,pi) the Box-Muller expression of Normal takes ln of a positive number and sqrt of a non-negative number, and the sample is sqrt(-2 ln(1-u)) cos(phi).",
  "all draws", "boundary draws have measure zero in tests", DI+":Normal")
p("Approximate comparison",
  "abs_diff_eq on Vector, Matrix, Complex, Quaternion, Moebius, Shift, Scale, Linear, Rotation2/3 holds exactly when it holds for every component; it is reflexive for eps>=0, symmetric, monotone in eps, and satisfies a triangle law with added epsilons. On a Matrix with M=0 it panics.",
  "all sizes, values, eps", "all values", VAP, "src/matrix/approx.rs", CAP, TR)
p("Formatting",
  "Display/Debug of a Vector print Vector<N>( followed by the components separated by ', ' and ')', for N>0, and panic for N=0; Complex and Quaternion print components in w,x,y,z order; a Matrix prints row by row. Different integer vectors of the same length print differently.",
  "all N, contents", "all contents", VF, CF, MF)
# ---- added while the model grew ----
p("Moebius transformations are conformal",
  "Away from the pole the derivative of a Moebius transformation with complex coefficients, at a complex or a quaternion point, multiplies every inner product of directions by the one positive factor |det|^2/|cp+d|^4; it is injective when det is non-zero, and apply_dir returns the unit vector along the image of the direction.",
  "all coefficients, points off the pole and pairs of directions", "identities over all real values", TMO, MO)
p("Moebius transformations act on hyperbolic space",
  "For quaternion points |f(p)-f(q)| |cp+d| |cq+d| = |det| |p-q|. A transformation with real positive determinant has no pole in the upper half-space (y > 0, z = 0), maps it to itself and preserves the hyperbolic distance. Without the assumption on the determinant the half-space is not preserved (refuted by diag(i,1)).",
  "all coefficients and all points of the half-space", "identities over all real values", TMO, MO)
p("Complex and Quaternion conversions",
  "Building from an array, tuple, Vector or scalar-and-vector agree with new, taking apart is the inverse, component order is re,im and w,x,y,z, a component setter changes just that component, and the Manhattan norm is the sum of the component norms.",
  "all component types and values", "all values", CX, QU)
p("Delegation to num_complex",
  "Converting to num_complex and back is the identity in both directions, and every delegating Float-like method (powi, exp, ln, sqrt, sin, ...) returns exactly the value of the function of that name, with arguments in order, provided num_complex computes it; from_str_radix fails exactly when num_complex's parser fails, with its error, and otherwise returns the parsed parts.",
  "all arguments and every exact num_complex", "all values of transcendental functions", CX)
p("Floating-point error of sums of products",
  "In the standard model of floating-point arithmetic with unit roundoff u (met by round-to-nearest binary formats, u = 2^-53 for f64), whenever no operation overflows or underflows: sum, dot, matrix-vector and matrix-matrix products are within ((1+u)^N - 1) sum|a_i b_i| of the exact value, cross products within ((1+u)^2-1) times the sum of magnitudes, complex and quaternion products within ((1+u)^2-1)|z||w| and ((1+u)^4-1)|p||q| per component, det within ((1+u)^(N(N+3)/2)-1) per|A|, and Rotation3 apply within 2((1+u)^8-1)|q|^2|x|.",
  "all N, all rounding functions meeting the standard model, all inputs", "error bounds over all inputs and all formats", VD, VB, MP, MS, CX, QU, TR)
p("Floating-point relative accuracy of lengths",
  "In the same model square_length, length, normalize, Complex::norm/inv and Quaternion::norm/inv have a small relative error (N, N/2+1, N/2+2, 2/3, 3/5 roundings) component by component, and a normalized vector has length 1 up to N/2+2 roundings.",
  "all N, all rounding functions, all inputs", "error bounds over all inputs", VD, CX, QU)
p("Integer-valued floats are exact while they fit",
  "On floats holding integers, dot and matrix products are exact when the sum of the magnitudes of the products is at most 2^53 (the significand), cross products when the sum of both magnitudes is, and det when N! c^N is for entries bounded by c; nothing overflows then.",
  "all N, all integer values in range, all formats that represent integers up to B", "all inputs and sizes", VD, MP, MS)
p("Laws of the random samplers",
  "With an ideal source of independent uniform numbers: Normal is exactly the standard normal law and uses two numbers per component; Normal vectors and matrices have independent standard normal components; NonZero is the normal law conditioned on length > epsilon and Invertible the one conditioned on |det| > epsilon, both return with probability one (the chance of needing more than k rounds is the k-th power of a number < 1); Unit is the normalization of that law and is invariant under every orthogonal matrix, so it is uniform on the sphere; unit Complex and Quaternion are invariant under multiplication by a unit.",
  "all N (and M), all events, all starting points of the source", "probability laws; a statistical test only samples", VDI, MDI, DI, "src/complex/distr.rs")
p("Laws of random rotations",
  "With the same source, a Uniform Rotation2 is invariant under composition with every rotation (Haar law); a Uniform Rotation3 has an axis uniform on the sphere and an independent angle uniform on (0, 2 pi), so it is invariant under conjugation by every rotation (change of frame) and turns by less than a right angle with probability 1/2. It is not invariant under composition (refuted): it is not the uniform law on the rotation group.",
  "all rotations, all events", "probability laws", TR, DI)
p("Pointer casts and MaybeUninit transpositions are sound",
  "as_array_of_arrays of a matrix shows exactly its rows and writing through as_mut_array_of_arrays makes the matrix from_array_of_arrays of what was written; as_ptr addresses the elements in row-major order inside exactly M*N scalars, and a write through as_mut_ptr at i*N+j is the assignment m[(i,j)] = x; none of them touches other memory. uninit gives only uninitialised elements without fault, from_uninit/into_uninit are inverse, assume_init returns the stored elements when all are initialised and is undefined behaviour as soon as one is not.",
  "all sizes, contents, addresses and surrounding memory", "layout holds for every size and type; a test only sees one compiled case", VI+":as_ptr,uninit,assume_init", MI, MC+":as_array_of_arrays", MTR)
p("Mutable references address exactly their component",
  "row_mut, &mut v[i], &mut m[(i,j)], get_unchecked_mut, x_mut..w_mut, re_mut/im_mut, a_mut..d_mut, the mutable array and vector views, as_mut_matrix, outer_mut and inner_mut: reading through the reference gives the component the shared accessor returns, writing through it changes that component only and nothing else in memory; the checked ones panic exactly out of range.",
  "all sizes, indices, contents, addresses, element layouts, and every field placement the compiler may choose", "all positions and layouts", VI, VS, MI, MC, CX, QU, MO, TC)
p("Elementwise float functions are the functions of their names",
  "With exact scalar arithmetic, at every component: floor, ceil, round (ties away from zero), trunc + fract, abs, signum, sqrt, cbrt, recip, the trigonometric and hyperbolic functions and their inverses (with principal ranges), exp, exp2, exp_m1, ln, log2, log10, ln_1p, hypot, abs_sub, powi, powf, log, atan2 and mul_add of vectors and matrices satisfy the equations that characterise the function of that name, with arguments in the documented order.",
  "all sizes, all real components and arguments, every broadcastable argument", "identities over all reals", VM, MM)
p("Norms of integer vectors",
  "On vectors of primitive integers norm_l1 is the sum of the absolute values and norm_l_inf the largest absolute value. With overflow checks they return exactly when that sum (resp. the absolute value of every component) fits the type and are then exact; without them norm_l1 is the sum modulo 2^w, and norm_l_inf is right when no component is the minimum of the type (with the minimum it is refuted: the minimum is ignored, norm_l_inf([-128i8, 1]) = 1). The scalar norms satisfy norm_l2_sqr = norm_l2 * norm_l2 for every value.",
  "all N, all widths, all components", "every integer width and value; boundary values are rarely tested", VB+":norm_l1,norm_l_inf", "src/traits.rs:derive_primitive_signed,derive_primitive_unsigned")
p("Equality, clone and default of composite values",
  "== on vectors, matrices, complex numbers, quaternions, Moebius maps and transforms holds exactly when it holds for every pair of corresponding components; the components are compared in (row-major) order up to the first difference and no further. v == w is veq().all(), v != w is vne().any(). Symmetry and transitivity are inherited; if the scalar == is equality of values so is the composite one, and v == v fails exactly when some component differs from itself (NaN). clone clones every component once in order; default is the scalar default in every component.",
  "all sizes, components and scalar comparisons, including partial and effectful ones", "all sizes and all positions of a difference", "src/vector/base/mod.rs:Vector", "src/matrix/base/mod.rs:Matrix", CX, QU, MO, TC)
p("Symmetries that survive rounding",
  "With f32/f64 (IEEE 754, round to nearest even; signed zeros, infinities, NaN, over- and underflow included): dot, +, * of vectors and complex multiplication commute exactly; (AB)^T = B^T A^T and A v = v A^T hold exactly and A A^T is exactly symmetric; the length, norms and normalization of -v are those of v (negated for normalize), dot and cross products change sign with an argument (up to the sign of a zero); v - v is exactly zero for finite v and v x v is zero or NaN; conj is an involution compatible with complex * and keeps the norm; q and -q give the same rotation matrix. Associativity is refuted.",
  "all sizes and all floating-point data of any binary format with at least 2 bits of precision", "bit-level claims over all float data", VD, VB, MP, CX, QU, TR)
p("Propagation of NaN",
  "A NaN component makes NaN: sum, dot and every norm but the maximum norm of the vector (and then all components of normalize), the rows and columns of matrix products it enters, det and every entry of inv, products, quotients, norms and inverses of complex numbers and quaternions, Moebius images and rotated vectors; comparisons with it are false and != true. max may drop it (refuted). Without a NaN, infinities included, lengths and norms are not NaN and >= 0.",
  "all sizes, all positions of the NaN, all other components", "all positions and contents", VD, VB, MP, MS, CX, QU, MO, TR)
p("Neutral elements and axis permutations are exact in floating point",
  "On finite floats v + 0, 1 * v, v / 1 return v; a matrix with entries 0, 1, -1 and at most one non-zero entry per row maps vectors and matrices without rounding, its determinant is exact; 1 * A = A * 1 = A, det 1 = 1, 1 * z = z for complex numbers and quaternions (up to the sign of zeros). With infinite components this fails (refuted).",
  "all sizes, all finite float data of any binary format", "all inputs and sizes", VB, MP, MS, CX, QU)
p("Range of floating-point lengths and normalized vectors",
  "If no square underflows, the computed length of a finite vector is +infinity or a number not below the magnitude of any component, so each component of normalize() lies in [-1, 1] exactly. A vector along an axis has its exact length and normalizes exactly to the signed unit vector. When squares overflow normalize returns the zero vector for a non-zero finite vector, and when they underflow an infinite and a NaN component (refuted: intermediate range is not guarded).",
  "all sizes, all finite float data of any binary format", "all inputs; rounding could go either way", VD+":length,normalize")
p("Floating-point error bounds including underflow and overflow",
  "With f32/f64 arithmetic (IEEE 754, round to nearest even) and finite inputs, each component of dot, square_length, matrix-vector and matrix-matrix products, cross products, complex and quaternion products, affine maps and plane rotations is, if finite, within ((1+u)^k - 1) m + c eta (1+u)^k of the exact value, where m is the sum of the magnitudes of the terms, k the number of roundings on the way of a term, c the number of products and eta half the smallest positive number; sum has c = 0 (no underflow error). It is finite whenever m plus this bound is below the overflow threshold. length is the root of the sum of squares up to the same bound and one more rounding; normalize divides by the computed length with one rounding per component.",
  "all sizes, all finite float data of any binary format", "error bounds over all inputs; a test samples", VD, MP, CX, QU, TA, TR)
p("Exception-free floating-point runs meet the standard model, and integer-valued floats are exact",
  "When no operation of det, adj, length, normalize or a Rotation3 application overflows or loses relative accuracy by underflow, the f32/f64 result (IEEE 754) is the one of the standard model and has the error bounds of C70 and C71. On f32/f64 data holding integers, dot, matrix products, cross products and det are exact as long as the magnitudes stay at most 2^24 resp. 2^53.",
  "all sizes, all float data of any binary format", "all inputs", VD, MP, MS, TR)
p("Rounding errors along compositions of any length and bracketing",
  "With floating-point arithmetic of unit roundoff u and as long as the results are numbers: composing n rotations (Rotation3 / Rotation2), multiplying n quaternions or complex numbers in any bracketing gives a result within ((1+e)^(n-1) - 1) times the product of the norms of the exact product, with e = 2((1+u)^4-1) resp. sqrt(2)((1+u)^2-1), so the norm of a composition of n unit rotations differs from 1 by at most that; composing n shifts, scalings, linear maps, affine maps or complex Moebius maps, or multiplying n matrices, has coefficient-wise the error factor of (n-1), (n-1), (n-1)N, (n-1)(N+1) resp. 2(n-1) roundings, times the same composition of absolute values; applying n linear maps or n rotations to a point in sequence has nN roundings, resp. n times the relative error 4((1+u)^8-1).",
  "all n, all bracketings, all sizes N, all coefficients, every rounding function with relative error u", "unbounded histories of operations; error accumulation over arbitrary length", TR, TS+":chain", TA, MO, MP, QU, CX)
p("Rounding errors of quotients and inverses",
  "With unit roundoff u < 1 and results that are numbers: Complex::inv and Quaternion::inv have relative error (1-u)^-3 - 1 resp. (1-u)^-5 - 1 in norm, complex and quaternion division (1+e)(1-u)^-3 - 1 resp. (1+e)(1-u)^-5 - 1; Moebius::apply at complex and quaternion points and every entry of the computed matrix inverse have the classical quotient bound: if the denominator (c z + d, resp. the determinant) is computed with relative error at most rho < 1, the error is at most (1+t)(E/|D| + rho|x|)/(1-rho) + t|x|, with x the exact value, E the error bound of the numerator (resp. adjugate entry) and t the error of the division.",
  "all sizes, all inputs with a non-zero denominator, every rounding function with relative error u", "error bounds over all inputs", CX, QU, MO, MS)
p("Where look_at and look_at_any depend continuously on the direction",
  "With exact real arithmetic and unit directions: Rotation3::look_at_any (and its helper look_at_any_cont) is continuous at a direction exactly when z != 0 or x = 0 - it jumps along the rest of the equator and is continuous at z = 1, contrary to the comment that its only discontinuity is z = 1 (refuted); Linear::look_at is continuous in both arguments wherever they are not parallel; Linear::look_at_any is continuous exactly off the parallels |z| = 1/2 and at their two points with x = 0 and y z < 0.",
  "all unit directions (and up vectors), all image points", "continuity is a limit statement over all neighbouring directions", TR+":look_at_any,look_at_any_cont", TL+":look_at,look_at_any")
p("Changing the scalar type commutes with the arithmetic",
  "A conversion of scalars that preserves the arithmetic (integers to rationals, integers modulo m, wider exact types, reals to complex numbers, ...) may be applied before or after any operation of the crate: converting every component and then computing gives the converted result, and panics in exactly the same cases. This holds for the vector operators, sum, dot, cross and length; the matrix operators, transpose, products, determinant, cofactors, adjugate and inverse; all complex, quaternion and Moebius operations; all transformations (apply, deriv, chain, inv, identity, reorder, directions and normals) and to_linear; max/min and comparisons for order-preserving conversions; length, normalize and look_at for conversions that commute with sqrt. In particular the determinant of an integer matrix equals the one computed in the rationals, and vanishes modulo m exactly if m divides it.",
  "all scalar types and conversions between them, all sizes, all inputs",
  "the set of scalar types is open; no test can enumerate conversions or inputs",
  VB+": Add/Sub/Neg/Mul/Div", VD+": Dot", MP+": Dot for Matrix", MS+": det, cofactor, adj, inv", CX+": Complex ops", QU+": Quaternion ops", MO+": Moebius", TM+": Transform, Directional, Reorder", TL+": Linear", TR+": Rotation2, Rotation3")
p("Rules of differentiation of the arithmetic",
  "In exact arithmetic the operations on moving values obey the rules of calculus, expressed with the crate's own operations: sums, component-wise and scalar products and quotients, dot, cross2/cross3, square_length, length and normalize of moving vectors; products, determinant (Jacobi: the trace of adj(A).dot(A')) and inverse (-A^-1 A' A^-1) of moving matrices; products, reciprocals and quotients of complex numbers and quaternions in the right (non-commutative) order, including the conjugate-only formula for the derivative of inv used by the crate's tests; a moving affine map applied to a moving point; and moving unit rotations turn every point with one angular velocity (the vector part of 2 q' q*; the axis times the rate of the angle for Rotation3::new).",
  "all differentiable curves of values, all times, all sizes",
  "a derivative is a limit; the crate's test compares difference quotients at 256 random points for three functions",
  VM+": length, normalize", VS+": cross", MS+": det, adj, inv", MP+": Dot for Matrix", CX+": Mul, Div, inv", QU+": Mul, Div, inv, norm", "src/complex/tests/quaternion/advanced.rs: derivation", TR+": Rotation2, Rotation3::new, apply", TA+": Affine")
p("Exception-free floating-point runs of compositions, inverses and quotients",
  "Run any composition (of any length and bracketing) of Rotation3, Rotation2, Linear, Affine or complex Moebius transformations, or Complex / Quaternion inv and division, Moebius::apply at complex and quaternion points, or the matrix inverse, in f32/f64 (IEEE 754). If no operation overflows, loses relative accuracy by underflow, divides by zero or is invalid, the run delivers finite numbers that satisfy the error bounds of C86 and C87 with u = 2^-24 resp. 2^-53. In particular, in f64 the composition of n <= 2^45 unit Rotation3 is within 9 n 2^-53 of the exact product in norm, and so is its length of 1.",
  "all n, all bracketings, all sizes, all float data of any binary format", "unbounded histories of operations and all inputs", TR, TS+":chain", TA, TL, MO, MS, CX, QU)
p("What the crate's randomised tests assert holds for every input",
  "In exact arithmetic: a unit Rotation2 keeps the length of every vector a and a.dot(r.apply(a)) / a.square_length() is the cosine of r.angle(); for a unit Rotation3 with an axis, the parts a', b' of a and r.apply(a) orthogonal to r.axis() satisfy a'.dot(b') / |a'|^2 = cos(r.angle()) and a'.cross(b') / |a'|^2 = axis * sin(r.angle()); the difference quotient of the quaternion square misses the derivative by exactly e v^2, and the one of the quaternion inverse misses the formula of the test by exactly the relative error e |v| / |p + e v|.",
  "all unit rotations, all vectors, all quaternions, all step sizes", "the tests sample 256 inputs (two of them reseed the generator inside the loop, so they sample one)",
  TR+": mod tests", "src/complex/tests/quaternion/advanced.rs")
p("Double-precision rotations, products and quotients are accurate for every input in range",
  "In f64 (IEEE 754), with no assumption on the run, only on the inputs: for finite quaternions (complex numbers) of moderate size the product is finite and within 9u|p||q| (4u|z||w|) plus an underflow unit of the exact product, the quotient within 18u (11u) relative for norms between 2^-400 and 2^400, and q / q is 1 within 1e-14; applying a nearly unit Rotation3 (Rotation2) to a finite vector is finite and within 19u|x| (5u|x|) of the exact image; r.chain(r.inv()) is the identity within 1e-14; chaining and then applying agrees with applying in turn within 80u|x| (21u|x|); incrementally composing n <= 2^40 rotations is within 10nu (5nu) of the exact composition and its norm stays within n 2^-48 of 1; every entry of Rotation3::to_linear is within 13u, and applying the matrix agrees with applying the rotation within 90u|x| plus three times the defect of the quaternion. (u = 2^-53)",
  "all finite double-precision inputs in the stated ranges, all n", "the input space has 2^256 and more points; the crate's tests sample 256 of them", TR, QU, CX)
p("Double-precision lengths, normalisation and look_at for every input in range",
  "In f64 (IEEE 754), assumptions only on the inputs: for N <= 2^20 and lengths between 2^-400 and 2^400, length has relative error at most (N+5)u/2 and normalize is within (N+9)u/2 of the exact unit vector; cross is within 17u/4 |x||y|; Linear::look_at(dir, up) is finite and within (11 + 10/s)u per entry of the exact matrix when the sine of the angle between dir and up is at least s, and maps -z to dir without any rounding error; Linear::look_at_any is within 32u + d per entry of a rotation that maps -z to the normalised direction when the length of dir is 1 up to d <= 2^-10; Rotation3::look_at_any returns for every direction whatsoever (NaN, infinities, zero included; the mutual recursion ends at the second call) and for such directions returns a finite quaternion of norm 1 up to 21u + d that maps -z to dir up to 63u + 2d. (u = 2^-53)",
  "all finite double-precision inputs in the stated ranges; termination for all data of all binary formats and all mathematical libraries", "the input space has 2^192 and more points; the crate's test samples 256 of them", VM+": length, normalize", VS+": cross", TL+": look_at, look_at_any", TR+": look_at_any, look_at_any_cont")
p("The transformation types represent every motion, uniquely",
  "In exact arithmetic: every map of N-dimensional space that keeps all distances is an Affine with an orthogonal matrix (of determinant 1 or -1); every rotation matrix of space is to_linear of a unit Rotation3, every rotation matrix of the plane is to_linear of exactly one Rotation2; every distance-preserving map of space (of the plane) is a Chain<Shift, Rotation3> (Chain<Shift, Rotation2>) or one after a point reflection (mirror image), and if it also keeps the cross product it is such a chain; conversely all these chains keep distances and cross products; every affine map is an Affine; and Shift, Scale, Linear, Affine and Rotation2 values are determined by their action on points.",
  "all distance-preserving maps (not assumed linear or continuous), all rotation matrices, all sizes", "the property quantifies over all functions on a continuum",
  TR+": Rotation2, Rotation3, to_linear", TS+": Shift", TC+": Chain", TA+": Affine", TL+": Linear")
p("Geometry of Moebius transformations",
  "In exact arithmetic, for transformations with non-zero determinant and points off the poles: apply keeps the cross ratio of four complex points (and its modulus for quaternion points); for three distinct complex points and three distinct targets there is exactly one transformation, up to a common factor of the coefficients, that takes one to the other; a transformation with three fixed points has coefficients k, 0, 0, k; two transformations act alike on complex points exactly when their coefficients are proportional, and on quaternion points exactly when they are proportional with a real factor; if c != 0 the coefficient matrix is the chain of a shift, an inversion, a scaling and a shift; circles and lines go to circles and lines, spheres and hyperplanes of the space of quaternions to spheres and hyperplanes.",
  "all coefficients with non-zero determinant, all points off the poles, all circles and spheres", "quantifies over all values and, for uniqueness, over all transformations",
  MO+": apply, chain, inv, det", TMO)
p("Formatting into sinks that refuse, format options and derived Debug",
  "Formatting a non-empty Vector, a Matrix, Complex or Quaternion (Debug and Display), and the derived Debug of Shift, Scale, Linear, Rotation2, Rotation3, Moebius and Chain, with {:?} and {:#?}: for every sink, the sink is handed the pieces of the documented text in order, up to and including the first piece it refuses and nothing after it; the result is Ok exactly if nothing was refused, and there is no panic. Hence a sink that appends holds the whole text on Ok and a beginning of it on Err, and format! always succeeds. {:#?} puts every field on lines of its own, indented by four blanks at every nesting level. The caller's options (precision, width, alternate) never change how Vector, Matrix, Complex and Quaternion print their components (so {:.2} is ignored); Scale passes them on. Formatting an empty Vector panics after 'Vector0(' unless the sink refused earlier.",
  "all values, all sizes, all component types that write a fixed sequence of pieces per option set, all sinks and all points at which they fail, all options", "quantifies over every sink and every failure point",
  "src/vector/base/format.rs", "src/matrix/format.rs", "src/complex/format.rs", TSC+": derive(Debug)", TS+": derive(Debug)", TL+": derive(Debug)", TR+": derive(Debug)", TC+": derive(Debug)", MO+": derive(Debug)")
p("Rotations given by an angle, in double precision",
  "In f64 (IEEE 754), for a mathematical library whose sin and cos have an absolute error of at most e and whose atan2 has one of at most z (a correctly rounded library: e <= 2^-52, z <= 2^-50): Rotation2::new(a) is finite and within 1.5e of (cos a, sin a), applying it to a vector of length up to 2^900 is within (5u + 1.5e)|x| of the exactly turned point, chaining new(a) and new(b) agrees with new(a + b) within (5 + |a + b|)u + 5e, and angle() of new(a) is a up to full turns, 2z and 5e; Rotation3::new(axis, a) with an axis within d of the unit vector k is finite and within 2.25e + 1.125u + d of the exact quaternion, applying it is within (22u + 5e + 2.25d)|x| of Rodrigues' formula, n <= 2^40 steps by the angle a are within n(12u + 2.5e + 1.125d) of one rotation by na, and axis() and angle() give axis and angle back: the angle within 2z + 14.2e + 6.3d + 40u, the axis within 6u plus twice the error of the quaternion divided by sin(a/2). (u = 2^-53)",
  "all finite double-precision angles, axes and vectors in the stated ranges, all libraries of the stated accuracy, all n", "the input space has 2^256 and more points", TR+": Rotation2::new, Rotation2::angle, Rotation3::new, Rotation3::axis, Rotation3::angle, apply, chain")
p("Determinants, inverses and linear systems in double precision",
  "In f64 (IEEE 754), assumptions only on the inputs: for an N x N matrix with finite entries of absolute value at most c (c >= 1, N! c^N <= 2^1000), det is finite and within 0.505 N(N+3)u times the permanent of the absolute values of the exact determinant (plus N! c^N / 2^1073 for underflow), and so are the entries of adj with the minors; if moreover N! c^N <= 2^400, |det| >= 2^-400 and the permanent of the absolute values is at most k |det| with N(N+3) k <= 2^51, every entry of inv is finite and within N(N+3)u(k |exact| + permanent of the minor / |det|) plus an underflow term; Linear::apply, Linear::chain and Affine::apply are within 1.01 N u (1.01 (N+1) u) times the sum of the absolute values of the terms whenever that sum is at most 2^1000; inv().apply(b) solves the linear system within 1.4 N(N+3)u times the same condition-number bound; Affine::chain and Affine::inv have the exact matrix and shift (a b, a t + s; a^-1, -a^-1 s) within bounds of the same kind, inv().apply(x) of an affine transformation is a^-1 (x - s) within 1.75 N(N+3)u of them; and applying a linear (affine) transformation and then its inverse returns to the starting point within 2 (2.5) N(N+3)u times the condition-number bound. (u = 2^-53)",
  "all sizes N, all finite double-precision matrices and vectors in the stated ranges", "the input space has 2^(64 N^2) points",
  MS+": det, adj, inv", MP, TL+": apply, chain, inv", TA+": apply")
p("Scalar types whose operators panic or have side effects",
  "Let the operators of the scalar type be arbitrary computations that may panic (overflow checks, division by zero) and have side effects. Component-wise operators of Vector and Matrix call the scalar operator once per component, in index (row-major) order, and stop at the first panic; dot computes all products in order and then adds them from the left; matrix products compute their entries row by row, each as such a dot product; det is the Laplace expansion along the first row from the left, each cofactor before its product, and makes an exactly known sequence of calls; inv is adj (row by row), then det, then the divisions; complex and quaternion products and quotients and the cross products evaluate the documented expressions from left to right. After a panic the observable state is that of the calls made up to the panicking one, which are a beginning of that sequence. v op= w and A op= B work on the components one after another in that order: if the operator panics, earlier components keep their new values, later ones are unchanged; *= and /= of Complex and Quaternion leave the value unchanged when they panic; A op= B panics before any call when A has no rows. For operators without effects the results are those of the other properties. For integers with overflow checks, dot, matrix products, det and inv return the exact result (inv: rounded towards zero) or panic with an overflow, and never return anything else.",
  "all scalar types and operators, all states of the world, all points at which a panic can occur, all sizes, all values", "quantifies over every operator implementation and every panic point",
  VB, VD, VS+": cross", MB, MP, MS+": det, cofactor, adj, inv", CX, QU)
p("Partial scalar operators: whatever the library returns is right",
  "Let the operators of the scalar type be partial: they may panic (overflow checks, division by zero, bounded representations) and have side effects, but if they return, the result is that of the total operation. Then whenever an operator, dot, product, det, cofactor, adj, inv of vectors and matrices, a product, quotient or inverse of Complex or Quaternion, a cross product, or a function (identity, inv, apply, deriv, chain, reorder) of Shift, Scale, Linear, Rotation2, Rotation3, Chain, Affine or Moebius returns, its result is that of the total operators; Complex over such a type is such a type again. In a field in which division by zero panics (Ratio<BigInt>, Ratio<i32> with overflow checks): whatever inv returns is a two-sided inverse, a singular matrix panics, the round trip through a Linear, Affine or Moebius transformation and its inverse gives the start, z.inv() * z = 1 and (z / w) * w = z for Complex and Quaternion, and a Moebius transformation applied at its pole panics; all without any condition on the arguments. If division by zero is the only panic, inv returns exactly for the invertible and the empty matrices. For checked integers a.chain(b) agrees with b followed by a whenever nothing panics. Operators that always return make all these functions return. The exact call sequences of all functions of the transformations are known; deriv of an Affine also applies the linear part to the position and panics if that does.",
  "all scalar types with partial operators, all states of the world, all sizes, all values", "quantifies over every operator implementation and every pattern of panics",
  VB, MP, MS+": det, adj, inv", CX, QU, MO, TS, TSC, TL, TR, TC, TA)
p("Ownership of functions that take vectors and matrices by value",
  "for_each, map, zip, enumerate, unzip, fold, fold_first, scan, the binary operators, the compound assignments and into_iter of Vector and Matrix, for any item type, any destructor (it may panic) and any closure: every item of the arguments is moved into the closure (or the result) or dropped, exactly once, also when the closure panics; apart from scan nothing is ever leaked. If the closure panics in map, the results so far are dropped once each, then the arguments not yet used, in order; in for_each, fold and op= the arguments not yet used are dropped; in scan the results so far are leaked and the unused arguments dropped. zip, enumerate and unzip only move items. Taking k items from the by-value iterator of a matrix moves the first k in row-major order; dropping the iterator then drops each of the others exactly once. A panicking destructor does not stop the clean-up. Apart from the clean-up after a panic these functions do exactly what the other properties say.",
  "all sizes, all item types, all closures and destructors with arbitrary effects, all points at which they panic", "quantifies over every closure, destructor and panic point; leaks and double drops are silent",
  VT+": for_each, map, zip, enumerate, fold, fold_first, scan", VB, MT+": for_each, map, zip, unzip, fold, fold_first, scan, FlatIter", MB)
p("Moebius transformations in double precision",
  "For Moebius<Complex<f64>> with coefficients in a wide range of magnitudes (u = 2^-53): apply to a complex or quaternion point that is not near the pole (|cz+d| at least 2^-40 (|c||z|+|d|)) returns a finite value whose error is at most (17u (|a||z|+|b|) + 6u |m(z)| (|c||z|+|d|)) / |cz+d| (24u for quaternions); every coefficient of a chain has an error of at most 10u times the coefficient of the product of the matrices of moduli; det has an error of at most 16u (|a||d|+|b||c|); the coefficients of inv and normalize have relative errors of at most (17 + 20 k) u where k is (|a||d|+|b||c|) / |det|; deriv has an error of at most 39u (|a|(|c||z|+|d|) + (|a||z|+|b|)|c|) / |cz+d|^2 plus 18u |m'(z)| (|c||z|+|d|) / |cz+d|; deriv_dir at a quaternion p in a direction v has an error of at most (33 A V / |cp+d| + 142 S C V / |cp+d|^2) k u for any A >= |a|, C >= |c|, V >= |v|, S >= |a||p|+|b| (these and |cp+d| between 2^-100 and 2^100) and k >= (|c||p|+|d|) / |cp+d| (k at most 2^35). (Each plus an underflow term below 2^-500.)",
  "all doubles in the stated ranges", "rounding errors for every combination of inputs",
  MO, CX, QU)
p("Division by zero, by infinity and by numbers out of range, in floating point",
  "In f32 and f64 (IEEE 754), dividing never panics; the results are: a vector divided by +0 or -0 has no finite component; normalize of a zero vector is NaN everywhere, of a vector with infinite components (and no NaN) NaN at these and 0 elsewhere, of a finite vector with a component of square at least 2^(emax+1) (f64: |x| >= 2^512) 0 everywhere, and of a vector all of whose squares are at most half the smallest positive number (f64: |x| <= 2^-538) without a finite component. For complex numbers and quaternions: every quotient (and inverse, and normalize) with a zero divisor is NaN in all components; every quotient by a number with an infinite component is NaN (not 0); if a component of a finite divisor has a square of at least 2^(emax+1), its inverse, its normalisation and every finite quotient are 0 (so w/w = 0); if all squares of the components are at most half the smallest positive number, no quotient has a finite component. The inverse of a matrix whose computed determinant is zero has no finite entry; if it is infinite, entries are 0 where the adjugate is finite and NaN elsewhere. A Moebius transformation at a point where the computed cz+d is zero gives NaN for apply and deriv; where it is infinite, NaN for apply; one with computed determinant zero has NaN in all coefficients of inv and normalize. Linear::look_at(d, d) has NaN in the first two columns for every d, and maps every vector to NaN.",
  "all floats of all formats including infinities, NaN, signed zeros and subnormal numbers, all sizes", "the corner cases combine in every component and intermediate result",
  VB, VD, MS+": inv", CX+": inv, Div, normalize", QU+": inv, Div, normalize", MO+": apply, deriv, inv, normalize", TL+": look_at")
p("Inverses of integer matrices in floating point are correctly rounded",
  "In f32 and f64, for an N x N matrix whose entries are integers of absolute value at most c with N! c^N <= 2^p (p = 24, 53): adj is exact; if the matrix is non-singular, every entry of inv is a floating-point number nearest to the exact entry of the inverse (at a tie the one with the even significand; infinite from half a unit above the largest number on); inv has only finite entries exactly if the matrix is non-singular and no finite entry exactly if it is singular; if the determinant is 1 or -1, inv is exact and so are the products A*inv(A) = inv(A)*A = 1.",
  "all sizes N, all integer matrices within the bound, all formats", "the number of matrices is astronomic",
  MS+": det, adj, inv", MP)
p("Index arithmetic on machine words",
  "With usize of any number w of bits, with overflow checks on (debug) or off (release): for every matrix type that exists in memory (at least one byte per component, at most isize::MAX bytes in total) Matrix::indices, TryFrom<&[T]>, det, cofactor, adj and inv never overflow in their own index arithmetic and return what the properties about unbounded numbers say. If M*N does not fit a word (possible only for zero-sized T), TryFrom<&[T]> panics for every slice with checks on; with checks off it panics for slices of length M*N mod 2^w and returns Err for the others, but never accepts a slice. det, and cofactor in release builds, are right for every N that is a usize; in debug builds cofactor(i, j) panics exactly when i + j does not fit a word.",
  "all word sizes, both build modes, all sizes M, N, all slices, all scalar types and values", "matrices near the limits of the address space cannot be built in a test",
  MT+": indices", MC+": TryFrom<&[T]>", MS+": IndexMask, SubmatrixMask, det, cofactor, adj, inv")
p("Rotations, directions, products and quotients in single precision",
  "For f32 (u = 2^-24), finite inputs in range, and without any condition on intermediate results: the product of two quaternions with |p||q| <= 2^120 is finite with an error of at most 9u |p||q| (complex numbers 4u), the quotient of quaternions and complex numbers with norms in [2^-40, 2^40] is finite with an error of at most 18u |p|/|q| (complex 11u); a/a is 1 within 1e-5. For a rotation whose unit length holds up to rounding: apply is finite and within 19u |x| of the exact image (plane: 5u) and keeps lengths accordingly; r.chain(r.inv()) is the identity within 1e-5; apply of a chain agrees with applying one after the other within 80u |x| (plane: 21u); after n <= 2^11 incremental compositions the result is finite, within 10u n of the exact composition (plane: 5u n) and of unit length up to n 2^-19; to_linear is within 13u of the exact matrix entry by entry, and its apply agrees with that of the rotation within 90u and three times the defect from unit length. For vectors of at most 2^8 components with a length in [2^-55, 2^55], length has a relative error of at most (N+5)u/2 and normalize is within (N+9)u/2 of the exact unit vector; cross is within 17u/4 |x||y|; Linear::look_at(dir, up) is within (11 + 10/sigma)u of the exact matrix where sigma >= 2^-11 bounds the sine of the angle between dir and up from below; Linear::look_at_any is within 32u and the defect of dir of a rotation that maps -z to the normalised direction; Rotation3::look_at_any returns a quaternion of norm 1 up to 21u plus the defect and maps -z to dir up to 63u plus twice the defect.",
  "all f32 values in the stated ranges", "rounding errors for every combination of inputs; the crate's tests use f64 only",
  CX, QU, TR, VD, VS+": cross", TL+": look_at, look_at_any")
p("Rotations given by an angle, in single precision",
  "In f32 (IEEE 754), for a mathematical library whose sin and cos have an absolute error of at most e and whose atan2 has one of at most z (a correctly rounded library: e <= 2^-23, z <= 2^-21): Rotation2::new(a) is finite and within 1.5e of (cos a, sin a), applying it to a vector of length up to 2^108 is within (5u + 1.5e)|x| of the exactly turned point, chaining new(a) and new(b) agrees with new(a + b) within (5 + |a + b|)u + 5e, and angle() of new(a) is a up to full turns, 2z and 5e; Rotation3::new(axis, a) with an axis within d of the unit vector k is finite and within 2.25e + 1.125u + d of the exact quaternion, applying it is within (22u + 5e + 2.25d)|x| of Rodrigues' formula, n <= 2^11 steps by the angle a are within n(12u + 2.5e + 1.125d) of one rotation by na, and axis() and angle() give axis and angle back: the angle within 2z + 14.2e + 6.3d + 40u, the axis within 6u plus twice the error of the quaternion divided by sin(a/2). (u = 2^-24)",
  "all finite single-precision angles, axes and vectors in the stated ranges, all libraries of the stated accuracy, all n", "the input space has 2^128 and more points", TR+": Rotation2::new, Rotation2::angle, Rotation3::new, Rotation3::axis, Rotation3::angle, apply, chain")
p("Determinants, inverses and linear systems in single precision",
  "In f32 (IEEE 754), assumptions only on the inputs: for an N x N matrix with finite entries of absolute value at most c (c >= 1, N! c^N <= 2^120), det is finite and within 0.505 N(N+3)u times the permanent of the absolute values of the exact determinant (plus N! c^N / 2^148 for underflow), and so are the entries of adj with the minors; if moreover N! c^N <= 2^40, |det| >= 2^-40 and the permanent of the absolute values is at most k |det| with N(N+3) k <= 2^22, every entry of inv is finite and within N(N+3)u(k |exact| + permanent of the minor / |det|) plus an underflow term; Linear::apply, Linear::chain and Affine::apply are within 1.01 N u (1.01 (N+1) u) times the sum of the absolute values of the terms whenever that sum is at most 2^120 (N <= 2^13); inv().apply(b) solves the linear system within 1.4 N(N+3)u times the same condition-number bound; Affine::chain and Affine::inv have the exact matrix and shift (a b, a t + s; a^-1, -a^-1 s) within bounds of the same kind, inv().apply(x) of an affine transformation is a^-1 (x - s) within 1.75 N(N+3)u of them; and applying a linear (affine) transformation and then its inverse returns to the starting point within 2 (2.5) N(N+3)u times the condition-number bound. (u = 2^-24)",
  "all sizes N, all finite single-precision matrices and vectors in the stated ranges", "the input space has 2^(32 N^2) points",
  MS+": det, adj, inv", MP, TL+": apply, chain, inv", TA+": apply")
p("Moebius transformations in single precision",
  "For Moebius<Complex<f32>> (u = 2^-24; |a||z|+|b| and |c||z|+|d| at most 2^38, |cz+d| at least 2^-38 for apply; coefficients at most 2^38 for chain and det, at most 2^17 with |det| at least 2^-36 for inv and normalize; everything within 2^-17 to 2^17 for deriv): apply to a complex or quaternion point that is not near the pole (|cz+d| at least 2^-11 (|c||z|+|d|)) returns a finite value whose error is at most (17u (|a||z|+|b|) + 6u |m(z)| (|c||z|+|d|)) / |cz+d| (24u for quaternions); every coefficient of a chain has an error of at most 10u times the coefficient of the product of the matrices of moduli; det has an error of at most 16u (|a||d|+|b||c|); the coefficients of inv and normalize have relative errors of at most (17 + 20 k) u where k is (|a||d|+|b||c|) / |det| (at most 2^9); deriv has an error of at most 39u (|a|(|c||z|+|d|) + (|a||z|+|b|)|c|) / |cz+d|^2 plus 18u |m'(z)| (|c||z|+|d|) / |cz+d|; deriv_dir at a quaternion p in a direction v has an error of at most (33 A V / |cp+d| + 142 S C V / |cp+d|^2) k u for any A >= |a|, C >= |c|, V >= |v|, S >= |a||p|+|b| (these and |cp+d| between 2^-20 and 2^20) and k >= (|c||p|+|d|) / |cp+d| (k at most 2^6). (Each plus an underflow term of at most 2^-76.)",
  "all single-precision numbers in the stated ranges", "rounding errors for every combination of inputs",
  MO, CX, QU)
p("The random samplers in floating point",
  "For f32 and f64 (IEEE 754, u half an ulp of 1), every random source that keeps the promises of rand's Uniform (draws from 0..1 lie in [0, 1), draws from 0..pi are finite) and a mathematical library whose ln has a relative error of at most e (on (0, 1]) and whose cos has an absolute one of at most e: a sample of Normal is never NaN or infinite; it is within (3e + 4u) r (plus underflow) of r cos t, where r = sqrt(-2 ln d), t is the second number drawn and d is one minus the first one, rounded (exactly if the source draws multiples of the spacing, as rand's does); its magnitude is at most 8.572 in f64 and 5.77 in f32. For draws of magnitude at most 2^300 in f64 (2^40 in f32): a NonZero vector (N <= 2^20 in f64, 2^8 in f32) has an exact length above epsilon up to a relative (N+5)u/2, blocks skipped before had one below it likewise, and a block above it by more than that is accepted; a Unit vector is within (N+9)u/2 of the exact direction of the vector drawn; the Uniform rotations are within 1.5e (plane) and 2.25e + 7.125u (space, axis drawn first) of the rotation by the angle and about the axis drawn. Invertible accepts a matrix whose exact determinant exceeds epsilon by more than the error bound of det, and only such ones up to that bound; an accepted 2x2 matrix has an exact determinant other than 0, but for 3x3 there is an exactly singular matrix of doubles (and one of floats) that is accepted, against the documentation; so is an exactly singular Moebius transformation with complex coefficients. For those an accepted determinant has a modulus above 2/3 of epsilon up to 16u(|a||d| + |b||c|), a rejected one a modulus of at most 5/4 of epsilon up to the same bound.",
  "all random sources and generator states, all results drawn, all libraries of the stated accuracy, all sizes N", "a test sees a few samples of one generator; the extreme draws practically never occur",
  DI, VDI, MDI, TR+": Uniform")
p("Rigid motions in floating point",
  "For a motion m = Chain<Shift, Rotation3> (x -> Rx + s; Rotation2 in the plane) with finite components whose rotation has unit length up to d <= 2^-12, u = 2^-53 in f64 (2^-24 in f32), points and shifts of length up to 2^890 (2^100): apply is finite and within (21|x| + |s|)u of Rx + s (plane: (7|x| + |s|)u); the distance of two points is kept up to 3d times itself (plane: d) and the same rounding errors; inv() has exactly the inverse rotation, a shift within 19u|s| of -R^-1 s (plane 5u) and its apply is within 21u(|x| + |s|) of R^-1(x - s) (plane 7u); m.inv().apply(m.apply(x)) is within 46u(|x| + |s|) + 5d|x| of x (plane 16u, 3d); m.chain(k) has a shift within (21|t| + |s|)u of s + Rt, its apply is within (42|x| + 23|t| + 3|s|)u of R(Qx + t) + s (plane: (12, 9, 3)u) and agrees with m.apply(k.apply(x)) within (87|x| + 48|t| + 4|s|)u (plane: (27, 18, 4)u); deriv turns the direction by R within 19u (plane 5u) whatever the point. A pose composed step by step from n <= 2^30 motions (f32: 2^9) with shifts of length at most L stays finite, its rotation is within 10un of the exact one (plane 5un) and of unit length up to n 2^-48 (n 2^-19), its position is within 12n(n+1)uL of the exact one (plane 4n(n+1)uL), and the image of a point under it is within (n+1)(22|x| + 14nL)u of the point moved by the exact steps one after the other (plane: 8, 6). (Each plus an underflow term.)",
  "all motions, points and sequences of motions of finite floats in the stated ranges", "rounding errors accumulate along every sequence of motions and for every combination of inputs",
  TC, TR, TS)
p("The samplers of every type, end to end, in floating point",
  "For f64 (f32), a random source that keeps the promises of rand's Uniform and a library with sqrt correctly rounded, ln within a relative and cos, sin within an absolute error e <= 2^-20 (2^-15), and no assumption about the numbers drawn in between: Normal for vectors, matrices, complex numbers, quaternions, scalings, shifts, linear and affine transformations returns finite components of magnitude at most 8.572 (5.77); NonZero returns vectors (N <= 2^20; f32: 2^8), complex numbers and quaternions whose exact length exceeds epsilon up to (N+5)u/2; Unit returns ones of length 1 up to (N+9)u/2; Invertible returns linear and affine transformations (N <= 100; f32: 20) whose exact determinant exceeds epsilon up to the error bound of det, and in two dimensions linear, affine and real Moebius transformations with an exact determinant other than 0, and Moebius transformations with complex coefficients whose exact determinant has a modulus above 2/3 of epsilon up to its error bound; for Affine the shift is drawn before the matrix; Uniform for Rotation3 is the rotation by the angle drawn about the normalised vector drawn, up to 2.25e + 7.125u.",
  "all random sources, states, fuel bounds and sizes in the stated ranges", "the random source is arbitrary, and a sample depends on arbitrarily many draws",
  "src/distr.rs", "src/vector/distr.rs", "src/matrix/distr.rs", "src/complex/distr.rs", TR, TS, TL, TA)
p("Directions and normals in floating point",
  "For Linear and Affine over f64 (u = 2^-53; f32: u = 2^-24) with finite entries in range, without any condition on intermediate results: apply_dir returns finite components within (N + 9 + 5 N t) u/2 of the exact unit vector A d / |A d|, where t bounds |A|_F |d| / |A d|; apply_normal returns finite components within (N + 9 + 6 N (N+3) s) u/2 of the exact unit normal, where s bounds |w|_F |n| / |A^-T n| and w are the weights of the errors of the inverse (condition number times its entries plus permanents of minors over the determinant); both have length 1 up to the same error; if the normal is orthogonal to the tangent, the dot product of the computed images is at most (3(N+9) + 9 N (N+3) s + 6 N t) u/2; the shift of an affine transformation plays no part. For Rotation3 (Rotation2) of unit length up to d the dot product of the image of a normal with the image of a direction is the original one up to 41u + 5d (13u + 3d) times the lengths.",
  "all matrices, normals, directions and rotations of finite floats in the stated ranges", "rounding errors depend on every bit of the inputs and on the conditioning of the matrix",
  TL+":Directional", TA, TR+":Directional", TC)
p("Norms, normalisation and accumulated rotations that are re-normalised, in floating point",
  "In f64 (u = 2^-53; f32: u = 2^-24), for every quaternion or complex number of finite components whose norm is between 2^-400 and 2^400 (2^-55 and 2^55): norm is finite with relative error at most 9u/2 (complex 7u/2), and normalize returns finite components within 13u/2 (11u/2) of the exact unit. If an accumulated rotation is normalised after every chain (a = Rotation3::from_quaternion(a.chain(r).into_quaternion().normalize()), likewise Rotation2), then for ANY number n of steps and factors of norm 2^-300 to 2^300 (2^-40 to 2^40), unit or not, the result is finite, its norm is 1 within 13u/2 (11u/2) independently of n, it is within 32 n u (20 n u) of the unit in the direction of the exact product; applied to a vector it keeps the length within 39u (11u) for every n and is within (19 + 65 n)u|x| ((5 + 20 n)u|x|) of the exact image.",
  "all finite quaternions, complex numbers, vectors in range and all sequences of rotations of any length", "rounding errors accumulate along sequences of unbounded length",
  QU+": norm, normalize", CX+": norm, normalize", TR+": chain, apply, from_quaternion, into_quaternion, from_complex, into_complex")
p("Order survives rounding",
  "In f32 and f64 (any IEEE 754 binary format; overflow, underflow, infinities and signed zeros included; a <= b and a > b are the program's comparisons, so they are false with NaN): Shift::apply, +, -, sum, Scale::apply with a factor >= 0, division by a number > 0, dot with a vector without negative components, matrix-vector and matrix-matrix products, Linear::apply and Affine::apply with a matrix without negative entries never reverse the order: if no argument is above the other one, no result is (`!(a > b)` for every component); Scale::apply with a factor <= 0, negation and the second operand of - never keep it the wrong way round. With a finite shift and comparable points, Shift::apply keeps `<=`. square_length, length and all norms of vectors, matrices, complex numbers and quaternions are `<=` if the magnitudes of the components are; max and min of vectors without NaN are components above (below) all components and grow with the components; every magnitude is <= norm_l_inf, which is one of the magnitudes, and norm_l_inf <= norm_l1 without any rounding slack. Strict order does not survive (refuted).",
  "all sizes, all floating-point components and factors", "a rounding that is not monotone at a single input, or an expression evaluated differently for two inputs, would break it; it ranges over all pairs of inputs",
  TS+":Transform::apply", TSC+":Transform::apply", VB, VOI, VD+":dot, square_length, length", MP, TL+":apply", TA, CX+":norm", QU+":norm", TRA)
p("Data in other units",
  "In f32, f64 and every IEEE 754 binary format: if the data are given in units that differ by powers of two, the results differ by exactly the corresponding power of two, bit for bit in the significand, as long as no intermediate result of either run overflows or is non-zero below the smallest normal number, and nothing is divided by zero. With components times 2^k: sum and length times 2^k, normalize unchanged, dot and cross products times 2^(k+l); matrices with row i times 2^p(i) and column j times 2^q(j): matrix-vector and matrix-matrix products in the units of the remaining indices, det times 2^(sum p + sum q), inv entry (i,j) times 2^(-p(j)-q(i)); complex numbers and quaternions: *, /, inv, norm times 2^(k+l), 2^(k-l), 2^-k, 2^k; Rotation3::apply (quaternion times 2^k, point times 2^l) times 2^(2k+l), Rotation2::apply times 2^(k+l), Affine::apply (shift and point times 2^k) times 2^k, Moebius::apply on complex numbers and quaternions (point times 2^m, coefficients a, b, c, d times 2^(s-m), 2^s, 2^(t-m), 2^t) times 2^(s-t); compositions of rotations and affine maps in any bracketing, with such factors; apply_dir and apply_normal of a Linear map (matrix times 2^k, vector times 2^l) and of a Moebius map at a complex number or quaternion unchanged, Moebius deriv (direction times 2^l) times 2^(s-m-t+l); look_at keeps its first column, the other two columns follow the unit of the direction. Multiplying a vector by 2^k is exact, and dividing by 2^k gives the vector back, while zero-or-normal components stay so.",
  "all formats, sizes, components, and all exponents of each argument, row and column", "it ranges over all bit patterns and exponents; an expression that mixes units (an added constant, a comparison against a fixed threshold) breaks it only for some",
  VD+":sum, dot, length, normalize", VOI, MP, "src/matrix/square.rs:det, inv", CX, QU, TR+":apply", TA, TL+":look_at", MO+":apply")
if __name__ == "__main__":
    out = os.path.join(os.path.dirname(__file__), "..", "properties.jsonl")
    with open(out, "w") as f:
        for q in P: f.write(json.dumps(q) + "\n")
    print(len(P), "properties")
