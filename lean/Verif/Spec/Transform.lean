import Verif.Model.Transform
import Verif.Model.Vector
/-! # Specification vocabulary: transformations -/
namespace Vecmat.Spec
variable {A B X : Type}

/-- `identity()` moves no point. -/
def IdentityOk (A X : Type) [Transform A X] : Prop := ∀ x : X, Transform.apply (Transform.identity X : A) x = x
/-- `a.chain(b)` is the map "first `b`, then `a`", at every point. -/
def ChainOk [Transform A X] (a b : A) : Prop :=
  ∀ x : X, Transform.apply (Transform.chain X a b) x = Transform.apply a (Transform.apply b x)
/-- `a.inv()` undoes `a` and `a` undoes `a.inv()`, at every point. -/
def InverseOk (X : Type) [Transform A X] (a : A) : Prop :=
  ∀ x : X, Transform.apply (Transform.inv X a) (Transform.apply a x) = x ∧
    Transform.apply a (Transform.apply (Transform.inv X a) x) = x

/-- The coordinate function of a vector. -/
def coords {T : Type} {N : Nat} (v : Vec T N) : Fin N → T := fun i => v[i.1]
/-- The vector with given coordinates. -/
def ofCoords {T : Type} {N : Nat} (f : Fin N → T) : Vec T N := ⟨Vector.ofFn f⟩

end Vecmat.Spec
