import Verif.Model.VectorOps
import Verif.Lemmas.VectorOps
/-!
# `into_tuple` as a pure function (extracted with the proof that the `unwrap`s succeed)
-/
namespace Vecmat
variable {T : Type}
namespace Vec
/-- `into_tuple` of a 2-vector, src/vector/spec.rs:152-155. -/
def intoTuple2 (v : Vec T 2) : T × T := v.intoTuple2R.get ⟨_, intoTuple2R_eq v⟩
/-- `into_tuple` of a 3-vector, src/vector/spec.rs:161-164. -/
def intoTuple3 (v : Vec T 3) : T × T × T := v.intoTuple3R.get ⟨_, intoTuple3R_eq v⟩
/-- `into_tuple` of a 4-vector, src/vector/spec.rs:170-178. -/
def intoTuple4 (v : Vec T 4) : T × T × T × T := v.intoTuple4R.get ⟨_, intoTuple4R_eq v⟩

@[simp] theorem intoTuple2_eq (v : Vec T 2) : v.intoTuple2 = (v[0], v[1]) := Res.get_eq (intoTuple2R_eq v) _
@[simp] theorem intoTuple3_eq (v : Vec T 3) : v.intoTuple3 = (v[0], v[1], v[2]) := Res.get_eq (intoTuple3R_eq v) _
@[simp] theorem intoTuple4_eq (v : Vec T 4) : v.intoTuple4 = (v[0], v[1], v[2], v[3]) := Res.get_eq (intoTuple4R_eq v) _
end Vec
end Vecmat
