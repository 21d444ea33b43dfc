import Verif.Model.Matrix
/-!
# Memory layout: the pointer casts of the crate
`src/vector/base/init.rs` and `src/matrix/base/{init,convert}.rs` reinterpret memory: `as_array_of_arrays`, `as_ptr`, and the
transposition of `MaybeUninit` and `Vector`/`Matrix` with `ptr::read`. Their model needs a model of memory.

The unit of memory is the cell, which holds one scalar or is uninitialised (simplification: `size_of::<T>()` bytes are one cell, so
alignment and bytes of a partially initialised scalar do not appear; a zero-sized scalar would take one cell). The layout rules are
those of the Rust reference: the `n`-th element of an array is at offset `n * size`, a `repr(transparent)` struct has the layout of
its field, `MaybeUninit<T>` has the layout of `T` and is valid whatever it contains.
-/
namespace Vecmat
variable {A B T : Type} {M N : Nat}

/-- Memory: what the cell at each address holds, `none` = uninitialised. Language (memory model); used for src/vector/base/init.rs:12-32, 150-167. -/
abbrev Memory (T : Type) := Nat → Option T

/-- Layout of the type `A` over scalar cells: its size, the cells that represent a value (by offset), and the value represented by
given cells, `ub` when they do not represent a valid value. Language (memory model); used for src/vector/base/init.rs:12-32, 150-167. -/
structure Layout (A T : Type) where
  size : Nat
  enc : A → Nat → Option T
  dec : (Nat → Option T) → Res A

namespace Layout
/-- A scalar: one cell, which has to be initialised to be read (Rust reference, "undefined behaviour: producing an invalid value"). Language (memory model); used for src/vector/base/init.rs:12-32, 150-167. -/
def scalar : Layout T T := ⟨1, fun x _ => some x, fun c => match c 0 with | some x => .ok x | none => .error .ub⟩
/-- `MaybeUninit` of a scalar: one cell, any content is valid. src/vector/base/init.rs:10-32. -/
def maybeUninit : Layout (Option T) T := ⟨1, fun x _ => x, fun c => .ok (c 0)⟩
open Classical in
/-- `[A; N]`: element `i` at offset `i * size` (Rust reference, "type layout: arrays"). The field of src/vector/base/mod.rs:13-15. -/
noncomputable def array (l : Layout A T) (N : Nat) : Layout (Vector A N) T where
  size := N * l.size
  enc v k := if h : k / l.size < N then l.enc v[k / l.size] (k % l.size) else none
  dec c := if h : ∀ i : Fin N, ∃ a, l.dec (fun k => c (i.1 * l.size + k)) = .ok a then .ok (Vector.ofFn fun i => (l.dec _).get (h i))
    else .error .ub
/-- A `#[repr(transparent)]` struct with a single field of type `A` (Rust reference, "the transparent representation"). `#[repr(transparent)]`: src/vector/base/mod.rs:11, src/complex/complex_.rs:14, src/complex/quaternion.rs:14, src/transform/{linear.rs:16, scale.rs:14, shift.rs:12}. -/
def transparent (l : Layout A T) (mk : A → B) (field : B → A) : Layout B T :=
  ⟨l.size, fun b => l.enc (field b), fun c => do let a ← l.dec c; pure (mk a)⟩
/-- Read a value of type `A` at address `p` (dereference of a pointer or reference, `ptr::read`). src/vector/base/init.rs:14, 19, src/matrix/transpose.rs:9. -/
def load (l : Layout A T) (m : Memory T) (p : Nat) : Res A := l.dec fun k => m (p + k)
/-- Write a value of type `A` at address `p`. src/vector/base/init.rs:41. -/
def store (l : Layout A T) (m : Memory T) (p : Nat) (a : A) : Memory T :=
  fun q => if p ≤ q ∧ q < p + l.size then l.enc a (q - p) else m q
end Layout

/-- `Vector` is `repr(transparent)` over `[T; N]`, src/vector/base/mod.rs:11-15. -/
noncomputable def Vec.layout (l : Layout A T) (N : Nat) : Layout (Vec A N) T := (l.array N).transparent Vec.mk Vec.data
/-- `Matrix` is `repr(transparent)` over `Vector<Vector<T, N>, M>`, src/matrix/base/mod.rs:10-14. -/
noncomputable def Mat.layout (l : Layout A T) (M N : Nat) : Layout (Mat A M N) T :=
  (Vec.layout (Vec.layout l N) M).transparent Mat.mk Mat.data

/-- `Vector::as_ptr`, `as_mut_ptr`, src/vector/base/init.rs:152-158: the address of the array, hence of the vector at `p`. -/
def Vec.asPtr (p : Nat) : Nat := p
/-- `Matrix::as_ptr`, `as_mut_ptr`, src/matrix/base/init.rs:109-115: `self.data.as_ptr() as *const T`. -/
def Mat.asPtr (p : Nat) : Nat := Vec.asPtr p
/-- Reading through `as_array_of_arrays`, src/matrix/base/convert.rs:95-97 (also `From<&Matrix>`, 149-153): the address `p` of the matrix
used as the address of an array of arrays. -/
noncomputable def Mat.asArrArr (m : Memory T) (p : Nat) : Res (Vector (Vector T N) M) := ((Layout.scalar.array N).array M).load m p
/-- Writing a whole array of arrays through `as_mut_array_of_arrays`, src/matrix/base/convert.rs:98-100 (also `From<&mut Matrix>`,
154-158). -/
noncomputable def Mat.setArrArr (m : Memory T) (p : Nat) (a : Vector (Vector T N) M) : Memory T :=
  ((Layout.scalar.array N).array M).store m p a

/-! `MaybeUninit<X>` of a compound type is represented by its cells. -/

/-- `Vector::from_uninit`, src/vector/base/init.rs:12-15: `ptr::read` of the cells as a vector of `MaybeUninit`. -/
noncomputable def Vec.fromUninit (cells : Nat → Option T) : Res (Vec (Option T) N) := (Vec.layout Layout.maybeUninit N).dec cells
/-- `Vector::into_uninit`, src/vector/base/init.rs:17-20. -/
noncomputable def Vec.intoUninit (v : Vec (Option T) N) : Nat → Option T := (Vec.layout Layout.maybeUninit N).enc v
/-- `Vector::uninit`, src/vector/base/init.rs:24-26: `from_uninit(MaybeUninit::uninit())`. -/
noncomputable def Vec.uninitMem : Res (Vec (Option T) N) := Vec.fromUninit fun _ => none
/-- `Vector::assume_init`, src/vector/base/init.rs:30-32: `into_uninit().assume_init()`. -/
noncomputable def Vec.assumeInitMem (v : Vec (Option T) N) : Res (Vec T N) := (Vec.layout Layout.scalar N).dec v.intoUninit
/-- `Matrix::from_uninit`, src/matrix/base/init.rs:12-15. -/
noncomputable def Mat.fromUninit (cells : Nat → Option T) : Res (Mat (Option T) M N) := (Mat.layout Layout.maybeUninit M N).dec cells
/-- `Matrix::into_uninit`, src/matrix/base/init.rs:17-20. -/
noncomputable def Mat.intoUninit (A : Mat (Option T) M N) : Nat → Option T := (Mat.layout Layout.maybeUninit M N).enc A
/-- `Matrix::uninit`, src/matrix/base/init.rs:24-26. -/
noncomputable def Mat.uninitMem : Res (Mat (Option T) M N) := Mat.fromUninit fun _ => none
/-- `Matrix::assume_init`, src/matrix/base/init.rs:30-32. -/
noncomputable def Mat.assumeInitMem (A : Mat (Option T) M N) : Res (Mat T M N) := (Mat.layout Layout.scalar M N).dec A.intoUninit

end Vecmat
