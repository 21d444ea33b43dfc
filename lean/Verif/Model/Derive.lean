import Verif.Model.Transforms
import Verif.Model.Moebius
/-!
# Derived traits: `PartialEq`, `Clone`, `Default`
The structs of the crate derive `Clone`, `Copy`, `PartialEq` (and `Default` for `Complex` and `Quaternion`). A derived implementation
calls the implementation of each field in declaration order, `&&` for `PartialEq`; arrays compare and clone their elements in index order
(core: `SpecArrayEq`, `array::clone`), a comparison stops at the first difference. The caller's `eq` and `clone` of the scalar may have
effects or panic, so the models are monadic; `beq` are the pure versions. (Simplification: for scalars with a bitwise comparison core
compares whole arrays at once, which is not observable.)
-/
namespace Vecmat
variable {T U A B X : Type} {M N : Nat} {m : Type → Type}

/-- `[T; N] == [T; N]` (core): elements in order, until the first difference. Called by the derived comparison of src/vector/base/mod.rs:12-15. -/
def listEqM [Monad m] (eq : T → U → m Bool) : List T → List U → m Bool
  | x :: l, y :: k => do
    if ← eq x y then listEqM eq l k else pure false
  | [], [] => pure true
  | _, _ => pure false
/-- `&&` of two comparisons in a derived `PartialEq`. src/transform/chain.rs:9-14. -/
def andM [Monad m] (a b : m Bool) : m Bool := do if ← a then b else pure false

/-- `PartialEq for Vector` (derived), src/vector/base/mod.rs:12. -/
def Vec.eqM [Monad m] (eq : T → T → m Bool) (v w : Vec T N) : m Bool := listEqM eq v.data.toList w.data.toList
/-- `PartialEq for Matrix` (derived), src/matrix/base/mod.rs:11: the field is a vector of vectors. -/
def Mat.eqM [Monad m] (eq : T → T → m Bool) (A B : Mat T M N) : m Bool := A.data.eqM (Vec.eqM eq) B.data
/-- `PartialEq for Complex` (derived), src/complex/complex_.rs:15. -/
def Cpx.eqM [Monad m] (eq : T → T → m Bool) (z w : Cpx T) : m Bool := z.vec.eqM eq w.vec
/-- `PartialEq for Quaternion` (derived), src/complex/quaternion.rs:15. -/
def Quat.eqM [Monad m] (eq : T → T → m Bool) (p q : Quat T) : m Bool := p.vec.eqM eq q.vec
/-- `PartialEq for Moebius` (derived), src/complex/moebius.rs:9. -/
def Moebius.eqM [Monad m] (eq : T → T → m Bool) (a b : Moebius T) : m Bool := a.mat.eqM eq b.mat
/-- `PartialEq for Shift` (derived), src/transform/shift.rs:13. -/
def Shift.eqM [Monad m] (eq : T → T → m Bool) (a b : Shift T N) : m Bool := a.pos.eqM eq b.pos
/-- `PartialEq for Scale` (derived), src/transform/scale.rs:15. -/
def Scale.eqM (eq : T → T → m Bool) (a b : Scale T) : m Bool := eq a.mag b.mag
/-- `PartialEq for Linear` (derived), src/transform/linear.rs:17. -/
def Linear.eqM [Monad m] (eq : T → T → m Bool) (a b : Linear T N) : m Bool := a.lin.eqM eq b.lin
/-- `PartialEq for Rotation2` (derived), src/transform/rotation.rs:20. -/
def Rotation2.eqM [Monad m] (eq : T → T → m Bool) (a b : Rotation2 T) : m Bool := a.comp.eqM eq b.comp
/-- `PartialEq for Rotation3` (derived), src/transform/rotation.rs:139. -/
def Rotation3.eqM [Monad m] (eq : T → T → m Bool) (a b : Rotation3 T) : m Bool := a.quat.eqM eq b.quat
/-- `PartialEq for Chain` (derived), src/transform/chain.rs:9; `PhantomData` is always equal. -/
def Chain.eqM [Monad m] (eqA : A → A → m Bool) (eqB : B → B → m Bool) (c d : Chain A B X) : m Bool :=
  andM (eqA c.outer d.outer) (eqB c.inner d.inner)

/-- `v == w` with a scalar comparison that has no effects. src/vector/base/mod.rs:12. -/
def Vec.beq [BEq T] (v w : Vec T N) : Bool := Id.run (v.eqM (m := Id) (fun x y => x == y) w)
/-- `A == B` for matrices. src/matrix/base/mod.rs:11. -/
def Mat.beq [BEq T] (A B : Mat T M N) : Bool := Id.run (A.eqM (m := Id) (fun x y => x == y) B)
/-- `z == w` for complex numbers. src/complex/complex_.rs:15. -/
def Cpx.beq [BEq T] (z w : Cpx T) : Bool := Id.run (z.eqM (m := Id) (fun x y => x == y) w)
/-- `p == q` for quaternions. src/complex/quaternion.rs:15. -/
def Quat.beq [BEq T] (p q : Quat T) : Bool := Id.run (p.eqM (m := Id) (fun x y => x == y) q)
/-- `a == b` for Möbius transformations. src/complex/moebius.rs:9. -/
def Moebius.beq [BEq T] (a b : Moebius T) : Bool := Id.run (a.eqM (m := Id) (fun x y => x == y) b)
/-- `a == b` for shifts. src/transform/shift.rs:13. -/
def Shift.beq [BEq T] (a b : Shift T N) : Bool := Id.run (a.eqM (m := Id) (fun x y => x == y) b)
/-- `a == b` for scales. src/transform/scale.rs:15. -/
def Scale.beq [BEq T] (a b : Scale T) : Bool := Id.run (a.eqM (m := Id) (fun x y => x == y) b)
/-- `a == b` for linear transformations. src/transform/linear.rs:17. -/
def Linear.beq [BEq T] (a b : Linear T N) : Bool := Id.run (a.eqM (m := Id) (fun x y => x == y) b)
/-- `a == b` for plane rotations. src/transform/rotation.rs:20. -/
def Rotation2.beq [BEq T] (a b : Rotation2 T) : Bool := Id.run (a.eqM (m := Id) (fun x y => x == y) b)
/-- `a == b` for space rotations. src/transform/rotation.rs:139. -/
def Rotation3.beq [BEq T] (a b : Rotation3 T) : Bool := Id.run (a.eqM (m := Id) (fun x y => x == y) b)
/-- `c == d` for chains, given the comparisons of the parts. src/transform/chain.rs:9. -/
def Chain.beq (eqA : A → A → Bool) (eqB : B → B → Bool) (c d : Chain A B X) : Bool :=
  Id.run (c.eqM (m := Id) (fun x y => pure (eqA x y)) (fun x y => pure (eqB x y)) d)

/-- `Clone for Vector` (derived), src/vector/base/mod.rs:12: clones the array, elements in order. -/
def Vec.cloneM [Monad m] (clone : T → m T) (v : Vec T N) : m (Vec T N) := v.mapM clone
/-- `Clone for Matrix` (derived), src/matrix/base/mod.rs:11. -/
def Mat.cloneM [Monad m] (clone : T → m T) (A : Mat T M N) : m (Mat T M N) := do
  let d ← A.data.cloneM (Vec.cloneM clone)
  pure ⟨d⟩
/-- `Default for Complex` (derived), src/complex/complex_.rs:15. -/
def Cpx.default [Inhabited T] : Cpx T := ⟨Vec.default⟩
/-- `Default for Quaternion` (derived), src/complex/quaternion.rs:15. -/
def Quat.default [Inhabited T] : Quat T := ⟨Vec.default⟩
end Vecmat
