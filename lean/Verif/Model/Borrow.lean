import Verif.Model.Memory
import Verif.Model.Moebius
import Verif.Model.Transforms
/-!
# Mutable references into values
A `&mut` into a vector, matrix, complex number, quaternion or Möbius transformation is the address it points to, computed from the
address `p` of the whole value with the layouts of `Verif/Model/Memory.lean`. Reading and writing through the reference are
`Layout.load` and `Layout.store`. (Simplification: lifetimes and aliasing rules are those of the borrow checker and are not modelled.)
-/
namespace Vecmat
variable {A B X S T : Type} {M N : Nat}

/-- `Vector::as_array`, `as_mut_array`, src/vector/base/init.rs:87-94 (also `AsRef`/`AsMut`, 126-135, and `From`, 115-124): the address of
the only field. -/
def Vec.asMutArray (p : Nat) : Nat := p
/-- Indexing an array place `a[i]`: a panic when out of range, the address of element `i` otherwise. Used at src/vector/base/init.rs:139-147. -/
def Layout.elemMut (l : Layout A T) (N : Nat) (p i : Nat) : Res Nat := if i < N then .ok (p + i * l.size) else .error .indexOob
/-- `<[A]>::get_unchecked_mut`: undefined behaviour when out of range. Used at src/vector/base/init.rs:160-166. -/
def Layout.elemUncheckedMut (l : Layout A T) (N : Nat) (p i : Nat) : Res Nat := if i < N then .ok (p + i * l.size) else .error .ub
/-- `IndexMut for Vector`, src/vector/base/init.rs:144-148. -/
def Vec.indexMut (l : Layout A T) (N : Nat) (p i : Nat) : Res Nat := l.elemMut N p i
/-- `Vector::get_unchecked_mut`, src/vector/base/init.rs:164-166. -/
def Vec.getUncheckedMut (l : Layout A T) (N : Nat) (p i : Nat) : Res Nat := l.elemUncheckedMut N (Vec.asMutArray p) i
/-- `Vector::x_mut`, src/vector/spec.rs:55-57, 72-74, 95-97. -/
def Vec.xMut (l : Layout A T) (N : Nat) (p : Nat) : Res Nat := Vec.getUncheckedMut l N p 0
/-- `Vector::y_mut`, src/vector/spec.rs:58-60, 75-77, 98-100. -/
def Vec.yMut (l : Layout A T) (N : Nat) (p : Nat) : Res Nat := Vec.getUncheckedMut l N p 1
/-- `Vector::z_mut`, src/vector/spec.rs:78-80, 101-103. -/
def Vec.zMut (l : Layout A T) (N : Nat) (p : Nat) : Res Nat := Vec.getUncheckedMut l N p 2
/-- `Vector::w_mut`, src/vector/spec.rs:104-106. -/
def Vec.wMut (l : Layout A T) (N : Nat) (p : Nat) : Res Nat := Vec.getUncheckedMut l N p 3

/-- `Matrix::as_vector_of_vectors`, `as_mut_vector_of_vectors`, src/matrix/base/convert.rs:83-88 (also `AsRef`/`AsMut`, 102-111, and
`From`, 135-148). -/
def Mat.asMutVecVec (p : Nat) : Nat := p
/-- `Matrix::as_array_of_vectors`, `as_mut_array_of_vectors`, src/matrix/base/convert.rs:89-94. -/
def Mat.asMutArrVec (p : Nat) : Nat := Vec.asMutArray (Mat.asMutVecVec p)
/-- `Matrix::as_array_of_arrays`, `as_mut_array_of_arrays`, src/matrix/base/convert.rs:95-100 (also `From`, 149-158): a pointer cast. -/
def Mat.asMutArrArr (p : Nat) : Nat := p
/-- `Matrix::row_ref`, `row_mut`, src/matrix/base/init.rs:88-93. -/
noncomputable def Mat.rowMut (l : Layout A T) (M N : Nat) (p i : Nat) : Res Nat := Vec.indexMut (Vec.layout l N) M (Mat.asMutVecVec p) i
/-- `IndexMut for Matrix`, src/matrix/base/init.rs:81-85: `&mut self.data[j][i]`. -/
noncomputable def Mat.indexMut (l : Layout A T) (M N : Nat) (p : Nat) (ji : Nat × Nat) : Res Nat := do
  let q ← Vec.indexMut (Vec.layout l N) M p ji.1
  Vec.indexMut l N q ji.2
/-- `Matrix::get_unchecked_mut`, src/matrix/base/init.rs:121-125. -/
noncomputable def Mat.getUncheckedMut (l : Layout A T) (M N : Nat) (p i j : Nat) : Res Nat := do
  let q ← Vec.getUncheckedMut (Vec.layout l N) M (Mat.asMutVecVec p) i
  Vec.getUncheckedMut l N q j

/-- `Complex` is `repr(transparent)` over `Vector2`, src/complex/complex_.rs:14-18. -/
noncomputable def Cpx.layout (l : Layout A T) : Layout (Cpx A) T := (Vec.layout l 2).transparent Cpx.mk Cpx.vec
/-- `Complex::re_mut`, src/complex/complex_.rs:108-110. -/
def Cpx.reMut (l : Layout A T) (p : Nat) : Res Nat := Vec.xMut l 2 p
/-- `Complex::im_mut`, src/complex/complex_.rs:111-113. -/
def Cpx.imMut (l : Layout A T) (p : Nat) : Res Nat := Vec.yMut l 2 p
/-- `Quaternion` is `repr(transparent)` over `Vector4`, src/complex/quaternion.rs:14-18. -/
noncomputable def Quat.layout (l : Layout A T) : Layout (Quat A) T := (Vec.layout l 4).transparent Quat.mk Quat.vec
/-- `Quaternion::w_mut`, src/complex/quaternion.rs:129-131. -/
def Quat.wMut (l : Layout A T) (p : Nat) : Res Nat := Vec.xMut l 4 p
/-- `Quaternion::x_mut`, src/complex/quaternion.rs:132-134. -/
def Quat.xMut (l : Layout A T) (p : Nat) : Res Nat := Vec.yMut l 4 p
/-- `Quaternion::y_mut`, src/complex/quaternion.rs:135-137. -/
def Quat.yMut (l : Layout A T) (p : Nat) : Res Nat := Vec.zMut l 4 p
/-- `Quaternion::z_mut`, src/complex/quaternion.rs:138-140. -/
def Quat.zMut (l : Layout A T) (p : Nat) : Res Nat := Vec.wMut l 4 p

/-- A struct of two fields whose layout the compiler chooses: field offsets `oa` and `ob` and total size `n`; the other cells are
padding (Rust reference, "the Rust representation"). Structs of two fields: src/transform/chain.rs:9-14. -/
def Layout.struct2 (la : Layout A T) (lb : Layout B T) (oa ob n : Nat) (mk : A → B → S) (fa : S → A) (fb : S → B) : Layout S T where
  size := n
  enc s k := if oa ≤ k ∧ k < oa + la.size then la.enc (fa s) (k - oa)
    else if ob ≤ k ∧ k < ob + lb.size then lb.enc (fb s) (k - ob) else none
  dec c := do
    let a ← la.dec fun k => c (oa + k)
    let b ← lb.dec fun k => c (ob + k)
    pure (mk a b)
/-- A struct of one field whose layout the compiler chooses: its offset `o` and the total size `n`. Structs without `repr(transparent)`: src/matrix/base/mod.rs:11-14, src/complex/moebius.rs:9-12, src/transform/rotation.rs:20-23. -/
def Layout.struct1 (la : Layout A T) (o n : Nat) (mk : A → S) (fa : S → A) : Layout S T where
  size := n
  enc s k := if o ≤ k ∧ k < o + la.size then la.enc (fa s) (k - o) else none
  dec c := do
    let a ← la.dec fun k => c (o + k)
    pure (mk a)

/-- `Moebius` has a single field and no `repr` attribute, src/complex/moebius.rs:9-12: the field is at a compiler-chosen offset `o`. -/
noncomputable def Moebius.layout (l : Layout A T) (o n : Nat) : Layout (Moebius A) T :=
  (Mat.layout l 2 2).struct1 o n Moebius.mk Moebius.mat
/-- `Moebius::as_matrix`, `as_mut_matrix`, src/complex/moebius.rs:25-30 (also `From`, 182-191). -/
def Moebius.asMutMatrix (o p : Nat) : Nat := p + o
/-- `Moebius::as_array_of_arrays`, `as_mut_array_of_arrays`, src/complex/moebius.rs:38-43 (also `From`, 202-211). -/
def Moebius.asMutArrArr (o p : Nat) : Nat := Mat.asMutArrArr (Moebius.asMutMatrix o p)
/-- `Moebius::a_mut`, src/complex/moebius.rs:85-87. -/
noncomputable def Moebius.aMut (l : Layout A T) (o p : Nat) : Res Nat := Mat.indexMut l 2 2 (p + o) (0, 0)
/-- `Moebius::b_mut`, src/complex/moebius.rs:88-90. -/
noncomputable def Moebius.bMut (l : Layout A T) (o p : Nat) : Res Nat := Mat.indexMut l 2 2 (p + o) (0, 1)
/-- `Moebius::c_mut`, src/complex/moebius.rs:91-93. -/
noncomputable def Moebius.cMut (l : Layout A T) (o p : Nat) : Res Nat := Mat.indexMut l 2 2 (p + o) (1, 0)
/-- `Moebius::d_mut`, src/complex/moebius.rs:94-96. -/
noncomputable def Moebius.dMut (l : Layout A T) (o p : Nat) : Res Nat := Mat.indexMut l 2 2 (p + o) (1, 1)

/-- `Chain` has two fields, a zero-sized marker and no `repr` attribute, src/transform/chain.rs:9-14. -/
def Chain.layout (la : Layout A T) (lb : Layout B T) (oa ob n : Nat) : Layout (Chain A B X) T :=
  la.struct2 lb oa ob n Chain.mk Chain.outer Chain.inner
/-- `Chain::outer`, `outer_mut`, src/transform/chain.rs:31-38. -/
def Chain.outerMut (oa p : Nat) : Nat := p + oa
/-- `Chain::inner`, `inner_mut`, src/transform/chain.rs:40-47. -/
def Chain.innerMut (ob p : Nat) : Nat := p + ob
end Vecmat
