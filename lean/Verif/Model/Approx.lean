import Verif.Model.Transforms
import Verif.Model.Moebius
/-!
# Approximate comparison
Models `src/{vector,matrix,complex}/approx.rs` and the `AbsDiffEq` impls of `src/transform/*.rs`.
-/
namespace Vecmat
variable {T A B X : Type} {M N : Nat}

/-- `approx::AbsDiffEq` (external crate) of a scalar type whose `Epsilon` is the type itself, the bound required by every impl
of this crate. `abs_diff_eq!` in src/vector/approx.rs:14. -/
class AbsDiffEq (T : Type) where
  defaultEpsilon : T
  absDiffEq : T → T → T → Bool

section
variable [AbsDiffEq T]
/-- `AbsDiffEq for Vector`, src/vector/approx.rs:12-16. -/
def Vec.absDiffEq (v w : Vec T N) (eps : T) : Bool := ((v.zip w).map fun p => AbsDiffEq.absDiffEq p.1 p.2 eps).all
/-- `AbsDiffEq for Matrix`, src/matrix/approx.rs:12-16; `all` panics when there are no rows. -/
def Mat.absDiffEqR (C D : Mat T M N) (eps : T) : Res Bool := ((C.zip D).map fun p => AbsDiffEq.absDiffEq p.1 p.2 eps).allR
/-- `AbsDiffEq for Complex`, src/complex/approx.rs:12-14. -/
def Cpx.absDiffEq (z w : Cpx T) (eps : T) : Bool := z.intoVector.absDiffEq w.intoVector eps
/-- `AbsDiffEq for Quaternion`, src/complex/approx.rs:25-27. -/
def Quat.absDiffEq (p q : Quat T) (eps : T) : Bool := p.intoVector.absDiffEq q.intoVector eps
/-- `AbsDiffEq for Moebius`, src/complex/approx.rs:38-40. -/
def Moebius.absDiffEqR (m n : Moebius T) (eps : T) : Res Bool := m.intoMatrix.absDiffEqR n.intoMatrix eps
/-- `AbsDiffEq for Shift`, src/transform/shift.rs:97-99. -/
def Shift.absDiffEq (s t : Shift T N) (eps : T) : Bool := s.pos.absDiffEq t.pos eps
/-- `AbsDiffEq for Scale`, src/transform/scale.rs:93-95. -/
def Scale.absDiffEq (s t : Scale T) (eps : T) : Bool := AbsDiffEq.absDiffEq s.mag t.mag eps
/-- `AbsDiffEq for Linear`, src/transform/linear.rs:123-125. -/
def Linear.absDiffEqR (l m : Linear T N) (eps : T) : Res Bool := l.lin.absDiffEqR m.lin eps
/-- `AbsDiffEq for Rotation2`, src/transform/rotation.rs:132-135. -/
def Rotation2.absDiffEq (r s : Rotation2 T) (eps : T) : Bool :=
  AbsDiffEq.absDiffEq r.comp.re s.comp.re eps && AbsDiffEq.absDiffEq r.comp.im s.comp.im eps
/-- `AbsDiffEq for Rotation3`, src/transform/rotation.rs:354-356. -/
def Rotation3.absDiffEq (r s : Rotation3 T) (eps : T) : Bool := r.quat.absDiffEq s.quat eps
/-- `AbsDiffEq for Chain`, src/transform/chain.rs:119-122, given the comparisons of the two parts (`a`, `b`). -/
def Chain.absDiffEq (a : A → A → T → Bool) (b : B → B → T → Bool) (c d : Chain A B X) (eps : T) : Bool :=
  a c.outer d.outer eps && b c.inner d.inner eps

/-- `default_epsilon` for `Vector`, src/vector/approx.rs:9-11. -/
def Vec.defaultEpsilon : T := AbsDiffEq.defaultEpsilon
/-- `default_epsilon` for `Matrix`, src/matrix/approx.rs:9-11. -/
def Mat.defaultEpsilon : T := AbsDiffEq.defaultEpsilon
/-- `default_epsilon` for `Complex`, src/complex/approx.rs:9-11. -/
def Cpx.defaultEpsilon : T := AbsDiffEq.defaultEpsilon
/-- `default_epsilon` for `Quaternion`, src/complex/approx.rs:22-24. -/
def Quat.defaultEpsilon : T := AbsDiffEq.defaultEpsilon
/-- `default_epsilon` for `Moebius`, src/complex/approx.rs:35-37. -/
def Moebius.defaultEpsilon : T := AbsDiffEq.defaultEpsilon
/-- `default_epsilon` for `Shift`, src/transform/shift.rs:94-96. -/
def Shift.defaultEpsilon : T := AbsDiffEq.defaultEpsilon
/-- `default_epsilon` for `Scale`, src/transform/scale.rs:90-92. -/
def Scale.defaultEpsilon : T := AbsDiffEq.defaultEpsilon
/-- `default_epsilon` for `Linear`, src/transform/linear.rs:120-122. -/
def Linear.defaultEpsilon : T := AbsDiffEq.defaultEpsilon
/-- `default_epsilon` for `Rotation2`, src/transform/rotation.rs:129-131. -/
def Rotation2.defaultEpsilon : T := AbsDiffEq.defaultEpsilon
/-- `default_epsilon` for `Rotation3`, src/transform/rotation.rs:351-353. -/
def Rotation3.defaultEpsilon : T := AbsDiffEq.defaultEpsilon
/-- `default_epsilon` for `Chain`, src/transform/chain.rs:116-118. -/
def Chain.defaultEpsilon : T := AbsDiffEq.defaultEpsilon
end
end Vecmat
