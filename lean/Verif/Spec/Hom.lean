import Verif.Model.Transforms
/-! # Specification vocabulary: conversions between scalar types -/
namespace Vecmat.Spec
variable {T S : Type} {N : Nat}

/-- A conversion of scalars that preserves the arithmetic (no law of arithmetic is assumed on either side). -/
structure RingConv [Add T] [Sub T] [Neg T] [Mul T] [Zero T] [One T] [Add S] [Sub S] [Neg S] [Mul S] [Zero S] [One S] (φ : T → S) : Prop where
  add : ∀ a b, φ (a + b) = φ a + φ b
  sub : ∀ a b, φ (a - b) = φ a - φ b
  neg : ∀ a, φ (-a) = -φ a
  mul : ∀ a b, φ (a * b) = φ a * φ b
  zero : φ 0 = 0
  one : φ 1 = 1
/-- … and division. -/
structure FieldConv [Add T] [Sub T] [Neg T] [Mul T] [Zero T] [One T] [Div T] [Add S] [Sub S] [Neg S] [Mul S] [Zero S] [One S] [Div S]
    (φ : T → S) : Prop extends RingConv φ where
  div : ∀ a b, φ (a / b) = φ a / φ b
/-- … and comparisons. -/
def OrdConv [RPartialOrd T] [RPartialOrd S] (φ : T → S) : Prop := ∀ a b, RPartialOrd.pcmp (φ a) (φ b) = RPartialOrd.pcmp a b

/-- Convert the parts of a complex number. -/
def mapC (φ : T → S) (z : Cpx T) : Cpx S := Cpx.new (φ z.re) (φ z.im)
/-- Convert the components of a quaternion. -/
def mapQ (φ : T → S) (q : Quat T) : Quat S := Quat.new (φ q.w) (φ q.x) (φ q.y) (φ q.z)
/-- Convert the coefficients of a Moebius map. -/
def mapMo (φ : T → S) (m : Moebius T) : Moebius S := Moebius.new (φ m.a) (φ m.b) (φ m.c) (φ m.d)
/-- Convert a shift. -/
def mapShift (φ : T → S) (s : Shift T N) : Shift S N := Shift.fromVector (s.intoVector.map φ)
/-- Convert a scaling. -/
def mapScale (φ : T → S) (s : Scale T) : Scale S := Scale.fromMag (φ s.intoMag)
/-- Convert a linear map. -/
def mapLinear (φ : T → S) (l : Linear T N) : Linear S N := Linear.fromMatrix (l.intoMatrix.map φ)
/-- Convert a plane rotation. -/
def mapRot2 (φ : T → S) (r : Rotation2 T) : Rotation2 S := Rotation2.fromComplex (mapC φ r.intoComplex)
/-- Convert a space rotation. -/
def mapRot3 (φ : T → S) (r : Rotation3 T) : Rotation3 S := Rotation3.fromQuaternion (mapQ φ r.intoQuaternion)
/-- Convert both factors of a chain. -/
def mapChain {A A' B B' X X' : Type} (α : A → A') (β : B → B') (c : Chain A B X) : Chain A' B' X' := Chain.new (α c.split.1) (β c.split.2)
/-- Convert an affine map. -/
def mapAffine (φ : T → S) : Affine T N → Affine S N := mapChain (mapShift φ) (mapLinear φ)

/-- Converting transformations (`α`) and points (`ξ`) commutes with all functions of the trait `Transform`. -/
structure TransformConv {A A' X X' : Type} [Transform A X] [Transform A' X'] (α : A → A') (ξ : X → X') : Prop where
  apply : ∀ (a : A) (x : X), Transform.apply (α a) (ξ x) = ξ (Transform.apply a x)
  deriv : ∀ (a : A) (x d : X), Transform.deriv (α a) (ξ x) (ξ d) = ξ (Transform.deriv a x d)
  chain : ∀ a b : A, Transform.chain X' (α a) (α b) = α (Transform.chain X a b)
  inv : ∀ a : A, Transform.inv X' (α a) = α (Transform.inv X a)
  identity : (Transform.identity X' : A') = α (Transform.identity X)
/-- … and with those of `Directional`. -/
structure DirectionalConv {A A' X X' : Type} [Directional A X] [Directional A' X'] (α : A → A') (ξ : X → X') : Prop extends TransformConv α ξ where
  applyDir : ∀ (a : A) (x d : X), Directional.applyDir (α a) (ξ x) (ξ d) = ξ (Directional.applyDir a x d)
  applyNormal : ∀ (a : A) (x n : X), Directional.applyNormal (α a) (ξ x) (ξ n) = ξ (Directional.applyNormal a x n)
/-- … and with `reorder`. -/
def ReorderConv (X X' : Type) {A A' B B' : Type} [Reorder A B X] [Reorder A' B' X'] (α : A → A') (β : B → B') : Prop :=
  ∀ (a : A) (b : B), Reorder.reorder X' (α a) (β b) = (β (Reorder.reorder X a b).1, α (Reorder.reorder X a b).2)
end Vecmat.Spec
