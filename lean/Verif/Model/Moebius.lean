import Verif.Model.SquarePure
import Verif.Model.Quaternion
import Verif.Lemmas.Matrix
/-!
# `Moebius<T>`
Models `src/complex/moebius.rs` and `src/transform/moebius.rs`.
-/
namespace Vecmat
variable {T U : Type}

/-- `struct Moebius<T> { mat: Matrix2x2<T> }`, src/complex/moebius.rs:9-12. -/
@[ext] structure Moebius (T : Type) where
  mat : Mat T 2 2

namespace Moebius
/-- `from_matrix`, src/complex/moebius.rs:19-21 (also `From`, 172-176). -/
def fromMatrix (m : Mat T 2 2) : Moebius T := ⟨m⟩
/-- `into_matrix`, src/complex/moebius.rs:22-24 (also `as_matrix`, 25-27, and `From`, 177-191). -/
def intoMatrix (m : Moebius T) : Mat T 2 2 := m.mat
/-- `from_array`, src/complex/moebius.rs:32-34 (also `From`, 192-196). -/
def fromArray (a : Vector (Vector T 2) 2) : Moebius T := fromMatrix (Mat.fromArrArr a)
/-- `into_array`, src/complex/moebius.rs:35-37 (also `as_array_of_arrays`, 38-40, and `From`, 197-206). -/
def intoArray (m : Moebius T) : Vector (Vector T 2) 2 := m.intoMatrix.intoArrArr
/-- `new`, src/complex/moebius.rs:15-17. -/
def new (a b c d : T) : Moebius T := fromArray #v[#v[a, b], #v[c, d]]
/-- `from_tuple`, src/complex/moebius.rs:45-48. -/
def fromTuple (t : T × T × T × T) : Moebius T := new t.1 t.2.1 t.2.2.1 t.2.2.2
/-- `into_tuple`, src/complex/moebius.rs:49-53. -/
def intoTuple (m : Moebius T) : T × T × T × T :=
  let (ab, cd) := m.intoMatrix.intoVecVec.intoTuple2
  let ((a, b), (c, d)) := (ab.intoTuple2, cd.intoTuple2)
  (a, b, c, d)

theorem index_ok (A : Mat T 2 2) (i j : Nat) (hi : i < 2) (hj : j < 2) : ∃ a, A.index (i, j) = .ok a :=
  ⟨_, Mat.index_lt A i j hi hj⟩
/-- `a`, src/complex/moebius.rs:57-59 (also `a_ref`, 72-74). -/
def a (m : Moebius T) : T := (m.mat.index (0, 0)).get (index_ok _ _ _ (by omega) (by omega))
/-- `b`, src/complex/moebius.rs:60-62 (also `b_ref`, 75-77). -/
def b (m : Moebius T) : T := (m.mat.index (0, 1)).get (index_ok _ _ _ (by omega) (by omega))
/-- `c`, src/complex/moebius.rs:63-65 (also `c_ref`, 78-80). -/
def c (m : Moebius T) : T := (m.mat.index (1, 0)).get (index_ok _ _ _ (by omega) (by omega))
/-- `d`, src/complex/moebius.rs:66-68 (also `d_ref`, 81-83). -/
def d (m : Moebius T) : T := (m.mat.index (1, 1)).get (index_ok _ _ _ (by omega) (by omega))

/-- `identity`, src/complex/moebius.rs:99-103. -/
def identity [Zero T] [One T] : Moebius T := ⟨1⟩
/-- `chain`, src/complex/moebius.rs:105-112. -/
def chain [Add T] [Mul T] (m n : Moebius T) : Moebius T := ⟨m.mat.dotM n.mat⟩
/-- `apply`, src/complex/moebius.rs:114-122: `(a * x + b) / (c * x + d)` with `T * U → U`, `U + T → U`, `U / U → U`. -/
def apply [HMul T U U] [HAdd U T U] [Div U] (m : Moebius T) (x : U) : U := (m.a * x + m.b) / (m.c * x + m.d)
section
variable [Neg T] [Add T] [Sub T] [Mul T] [Div T] [Zero T] [One T]
/-- `det`, src/complex/moebius.rs:124-128. -/
def det (m : Moebius T) : T := m.mat.det
/-- `normalize`, src/complex/moebius.rs:129-134. -/
def normalize (m : Moebius T) : Moebius T := ⟨m.mat.divS m.det⟩
/-- `inv`, src/complex/moebius.rs:163-170. -/
def inv (m : Moebius T) : Moebius T := fromMatrix m.intoMatrix.inv
/-- `Moebius<Complex<T>>::deriv`, src/complex/moebius.rs:136-145. -/
def deriv (m : Moebius (Cpx T)) (p : Cpx T) : Cpx T :=
  let u := m.a * p + m.b
  let d := m.c * p + m.d
  (m.a * d - u * m.c) / (d * d)
end
end Moebius

/-- `T * Complex<T> → Complex<T>` as used by `Moebius<T>::apply` on complex points. src/complex/moebius.rs (bounds and body of `apply`). -/
instance [Mul T] : HMul T (Cpx T) (Cpx T) := ⟨Cpx.sMul⟩
/-- `Complex<T> + T → Complex<T>`. src/complex/moebius.rs (bounds and body of `apply`). -/
instance [Add T] : HAdd (Cpx T) T (Cpx T) := ⟨Cpx.addS⟩
/-- `T * Quaternion<T> → Quaternion<T>`. src/complex/moebius.rs (bounds and body of `apply`). -/
instance [Mul T] : HMul T (Quat T) (Quat T) := ⟨Quat.sMul⟩
/-- `Quaternion<T> + T → Quaternion<T>`. src/complex/moebius.rs (bounds and body of `apply`). -/
instance [Add T] : HAdd (Quat T) T (Quat T) := ⟨Quat.addS⟩
/-- `Complex<T> * Quaternion<T> → Quaternion<T>` as used by `Moebius<Complex<T>>::apply` on quaternion points. src/complex/moebius.rs (bounds and body of `apply`). -/
instance [Add T] [Sub T] [Mul T] : HMul (Cpx T) (Quat T) (Quat T) := ⟨Quat.cMul⟩
/-- `Quaternion<T> + Complex<T> → Quaternion<T>`. src/complex/moebius.rs (bounds and body of `apply`). -/
instance [Add T] : HAdd (Quat T) (Cpx T) (Quat T) := ⟨Quat.addC⟩

/-- `Moebius<Complex<T>>::deriv_dir`, src/complex/moebius.rs:147-161. -/
def Moebius.derivDir [Neg T] [Add T] [Sub T] [Mul T] [Div T] [NumConst T] (m : Moebius (Cpx T)) (p v : Quat T) : Quat T :=
  let u := m.a * p + m.b
  let d := m.c * p + m.d
  let d2 := d.normSqr
  let g1 := (m.a * v) / d
  let g21 := (m.c * v).conj
  let g22 := d.conj.mulS (d.dot (m.c * v) * two / d2)
  let g2 := u * (g21 - g22).divS d2
  g1 + g2

end Vecmat
