import Verif.Model.Moebius
/-!
# `Transform` and `Directional`; `Moebius` as a transformation
Models `src/transform/mod.rs` and `src/transform/moebius.rs`.
-/
namespace Vecmat
variable {T : Type}

/-- `trait Transform<T>`, src/transform/mod.rs:17-35 (law-free). -/
class Transform (A X : Type) where
  /-- `identity`, src/transform/mod.rs:21-22. -/
  identity : A
  /-- `inv`, src/transform/mod.rs:23-24. -/
  inv : A → A
  /-- `apply`, src/transform/mod.rs:26-27. -/
  apply : A → X → X
  /-- `deriv`, src/transform/mod.rs:28-29. -/
  deriv : A → X → X → X
  /-- `chain`, src/transform/mod.rs:31-34. -/
  chain : A → A → A

/-- `trait Directional<T>: Transform<T>`, src/transform/mod.rs:37-45. -/
class Directional (A X : Type) extends Transform A X where
  /-- `apply_dir`, src/transform/mod.rs:38-39. -/
  applyDir : A → X → X → X
  /-- `apply_normal`, src/transform/mod.rs:41-44. -/
  applyNormal : A → X → X → X

section
variable [Neg T] [Add T] [Sub T] [Mul T] [Div T] [Zero T] [One T]
/-- `Transform<Complex<T>> for Moebius<Complex<T>>`, src/transform/moebius.rs:7-28. -/
instance : Transform (Moebius (Cpx T)) (Cpx T) where
  identity := Moebius.identity
  inv := Moebius.inv
  apply m x := m.apply x
  deriv m pos dir := m.deriv pos * dir
  chain := Moebius.chain
/-- `Transform<Quaternion<T>> for Moebius<Complex<T>>`, src/transform/moebius.rs:30-51. -/
instance [NumConst T] : Transform (Moebius (Cpx T)) (Quat T) where
  identity := Moebius.identity
  inv := Moebius.inv
  apply m x := m.apply x
  deriv := Moebius.derivDir
  chain := Moebius.chain
/-- `Directional<Complex<T>> for Moebius<Complex<T>>`, src/transform/moebius.rs:53-64. -/
instance [FloatOps T] : Directional (Moebius (Cpx T)) (Cpx T) where
  applyDir m pos dir := (Transform.deriv m pos dir).normalize
  applyNormal m pos normal := (Transform.deriv m pos normal).normalize
/-- `Directional<Quaternion<T>> for Moebius<Complex<T>>`, src/transform/moebius.rs:66-77. -/
instance [FloatOps T] [NumConst T] : Directional (Moebius (Cpx T)) (Quat T) where
  applyDir m pos dir := (Transform.deriv m pos dir).normalize
  applyNormal m pos normal := (Transform.deriv m pos normal).normalize
end

end Vecmat
