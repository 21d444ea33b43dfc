import Verif.Props.ScalarEff4
import Verif.Lemmas.Partial
/-!
# C101: partial scalar operators
Scalar types whose operators may panic (checked integers, divisions by zero that panic, bounded types, …) but never return a wrong
result: nothing in the library returns a wrong result either.
-/
namespace Vecmat
open Spec
variable {T U α β σ A B X : Type} {L M N : Nat}

theorem Spec.Only.of_rel {c : Eff σ α} {d : Eff Unit α} {r : Res α} (h : Rel c d) (h' : d.exec () = (r, ())) : Only c r := by
  intro s x t hx
  have := h s x t hx
  rw [h'] at this
  exact (Prod.mk.injEq _ _ _ _ ▸ this).1
theorem Spec.Only.pure (x : α) : Only (σ := σ) (Pure.pure x) (.ok x) := Only.of_rel (Rel.pure x) rfl
theorem Spec.Only.bind {c : Eff σ α} {f : α → Eff σ β} {x : α} {r : Res β} (h : Only c (.ok x)) (h' : Only (f x) r) : Only (c >>= f) r := by
  intro s y t hy
  rw [exec_bind] at hy
  rcases hc : c.exec s with ⟨e | z, s1⟩
  · rw [hc] at hy; simp at hy
  · rw [hc] at hy
    obtain rfl : x = z := by simpa using h s z s1 hc
    exact h' s1 y t hy

section
variable [Add T] [Sub T] [Mul T] [Div T] [Mod T] [Neg T] [Zero T] [One T] {o : ScalarE σ T}

theorem Spec.PartialOf.relO (h : PartialOf o) : RelO o plain := by
  have key : ∀ {α : Type} {c : Eff σ α} {x : α}, Only c (.ok x) → Rel c (Pure.pure x) := fun {α c x} h s y t hy => by
    have := h s y t hy
    obtain rfl : x = y := by simpa using this
    rfl
  exact ⟨fun x y => key (h.add x y), fun x y => key (h.sub x y), fun x y => key (h.mul x y), fun x y => key (h.div x y),
    fun x y => key (h.rem x y), fun x => key (h.neg x), key h.zero, key h.one⟩

/-- Operators of vectors, `sum`, `dot` and `square_length`. -/
theorem C101_vector (h : PartialOf o) (v w : Vec T N) (a : T) :
    Only (v.negE o) (.ok (-v)) ∧ Only (v.addE o w) (.ok (v + w)) ∧ Only (v.subE o w) (.ok (v - w)) ∧
    Only (v.mulE o w) (.ok (v * w)) ∧ Only (v.divE o w) (.ok (v / w)) ∧ Only (v.remE o w) (.ok (v % w)) ∧
    Only (v.mulSE o a) (.ok (v.mulS a)) ∧ Only (v.divSE o a) (.ok (v.divS a)) ∧ Only (v.remSE o a) (.ok (v.remS a)) ∧
    Only (v.sumE o) v.sumR ∧ Only (v.dotE o w) (v.dotR w) ∧ Only (v.squareLengthE o) v.squareLengthR := by
  have h := h.relO
  obtain ⟨h1, h2, h3, h4, h5, h6, h7, h8, h9, h10, h11, h12⟩ := C100_plain_vector v w a ()
  exact ⟨.of_rel (Vec.rel_neg h _) h1, .of_rel (Vec.rel_add h _ _) h2, .of_rel (Vec.rel_sub h _ _) h3, .of_rel (Vec.rel_mul h _ _) h4,
    .of_rel (Vec.rel_div h _ _) h5, .of_rel (Vec.rel_rem h _ _) h6, .of_rel (Vec.rel_mulS h _ _) h7, .of_rel (Vec.rel_divS h _ _) h8,
    .of_rel (Vec.rel_remS h _ _) h9, .of_rel (Vec.rel_sum h _) h10, .of_rel (Vec.rel_dot h _ _) h11,
    .of_rel (Vec.rel_squareLength h _) h12⟩

/-- Operators of matrices, `sum`, `outer` and the products. -/
theorem C101_matrix (h : PartialOf o) (A B : Mat T M N) (C : Mat T N L) (v : Vec T M) (w : Vec T N) (a : T) :
    Only (A.negE o) (.ok (-A)) ∧ Only (A.addE o B) (.ok (A + B)) ∧ Only (A.subE o B) (.ok (A - B)) ∧
    Only (A.mulE o B) (.ok (A * B)) ∧ Only (A.divE o B) (.ok (A / B)) ∧ Only (A.remE o B) (.ok (A % B)) ∧
    Only (A.mulSE o a) (.ok (A.mulS a)) ∧ Only (A.divSE o a) (.ok (A.divS a)) ∧ Only (A.remSE o a) (.ok (A.remS a)) ∧
    Only (A.sumE o) A.sumR ∧ Only (Mat.outerE o v w) (.ok (Mat.outer v w)) ∧ Only (A.dotVE o w) (A.dotVR w) ∧
    Only (Mat.vDotE o v A) (Mat.vDotR v A) ∧ Only (A.dotME o C) (A.dotMR C) := by
  have h := h.relO
  obtain ⟨h1, h2, h3, h4, h5, h6, h7, h8, h9, h10, h11, h12, h13, h14⟩ := C100_plain_matrix A B C v w a ()
  exact ⟨.of_rel (Mat.rel_neg h _) h1, .of_rel (Mat.rel_add h _ _) h2, .of_rel (Mat.rel_sub h _ _) h3, .of_rel (Mat.rel_mul h _ _) h4,
    .of_rel (Mat.rel_div h _ _) h5, .of_rel (Mat.rel_rem h _ _) h6, .of_rel (Mat.rel_mulS h _ _) h7, .of_rel (Mat.rel_divS h _ _) h8,
    .of_rel (Mat.rel_remS h _ _) h9, .of_rel (Mat.rel_sum h _) h10, .of_rel (Mat.rel_outer h _ _) (h11.trans (by rw [Mat.outer, ← Res.ok_get])),
    .of_rel (Mat.rel_dotV h _ _) h12, .of_rel (Mat.rel_vDot h _ _) h13, .of_rel (Mat.rel_dotM h _ _) h14⟩

/-- Square matrices: products, determinant, cofactors, adjugate and inverse. -/
theorem C101_square (h : PartialOf o) (A B : Mat T N N) (v : Vec T N) (i j : Nat) :
    Only (A.dotVE o v) (.ok (A.dotV v)) ∧ Only (Mat.vDotE o v A) (.ok (Mat.vDot v A)) ∧ Only (A.dotME o B) (.ok (A.dotM B)) ∧
    Only (A.detE o) (.ok A.det) ∧ Only (A.cofactorE o i j) (A.cofactorR i j) ∧ Only (A.adjE o) (.ok A.adj) ∧
    Only (A.invE o) (.ok A.inv) := by
  have h := h.relO
  obtain ⟨_, _, _, _, _, _, _, _, _, _, _, h12, h13, h14⟩ := C100_plain_matrix A A B v v (0 : T) ()
  obtain ⟨h1, h2, h3, h4⟩ := C100_plain_det A i j ()
  exact ⟨.of_rel (Mat.rel_dotV h _ _) (h12.trans (by rw [Mat.dotV, ← Res.ok_get])),
    .of_rel (Mat.rel_vDot h _ _) (h13.trans (by rw [Mat.vDot, ← Res.ok_get])),
    .of_rel (Mat.rel_dotM h _ _) (h14.trans (by rw [Mat.dotM, ← Res.ok_get])),
    .of_rel (Mat.rel_det h _) (h1.trans (by rw [Mat.det, ← Res.ok_get])), .of_rel (Mat.rel_cofactor h _ _ _) h2,
    .of_rel (Mat.rel_adj h _) (h3.trans (by rw [Mat.adj, ← Res.ok_get])),
    .of_rel (Mat.rel_inv h _) (h4.trans (by rw [Mat.inv, ← Res.ok_get]))⟩

/-- Complex numbers. -/
theorem C101_complex (h : PartialOf o) (z w : Cpx T) :
    Only (z.negE o) (.ok (-z)) ∧ Only (z.conjE o) (.ok z.conj) ∧ Only (z.addE o w) (.ok (z + w)) ∧ Only (z.subE o w) (.ok (z - w)) ∧
    Only (z.mulE o w) (.ok (z * w)) ∧ Only (z.invE o) (.ok z.inv) ∧ Only (z.divE o w) (.ok (z / w)) := by
  have h := h.relO
  have v2 : Vec T 2 := z.vec
  have v3 : Vec T 3 := Vec.fromTuple3 (0, 0, 0)
  have v4 : Vec T 4 := Vec.fromTuple4 (0, 0, 0, 0)
  have q : Quat T := 1
  obtain ⟨h1, h2, h3, h4, h5, h6, _⟩ := C100_plain_complex z w q q v2 v2 v3 v3 v4 v4 ()
  exact ⟨.of_rel (Cpx.rel_neg h _) h4, .of_rel (Cpx.rel_conj h _) rfl, .of_rel (Cpx.rel_add h _ _) h5, .of_rel (Cpx.rel_sub h _ _) h6,
    .of_rel (Cpx.rel_mul h _ _) h1, .of_rel (Cpx.rel_inv h _) h2, .of_rel (Cpx.rel_div h _ _) h3⟩

/-- Quaternions. -/
theorem C101_quaternion (h : PartialOf o) (p q : Quat T) :
    Only (p.conjE o) (.ok p.conj) ∧ Only (p.mulE o q) (.ok (p * q)) ∧ Only (p.invE o) (.ok p.inv) ∧ Only (p.divE o q) (.ok (p / q)) := by
  have h := h.relO
  have v2 : Vec T 2 := Vec.fromTuple2 (0, 0)
  have v3 : Vec T 3 := Vec.fromTuple3 (0, 0, 0)
  have v4 : Vec T 4 := Vec.fromTuple4 (0, 0, 0, 0)
  have z : Cpx T := 1
  obtain ⟨_, _, _, _, _, _, h1, h2, h3, _⟩ := C100_plain_complex z z p q v2 v2 v3 v3 v4 v4 ()
  exact ⟨.of_rel (Quat.rel_conj h _) rfl, .of_rel (Quat.rel_mul h _ _) h1, .of_rel (Quat.rel_inv h _) h2, .of_rel (Quat.rel_div h _ _) h3⟩

/-- Cross products. -/
theorem C101_cross (h : PartialOf o) (a b : Vec T 2) (c d : Vec T 3) (u v : Vec T 4) :
    Only (a.cross2E o b) (.ok (a.cross2 b)) ∧ Only (c.cross3E o d) (.ok (c.cross3 d)) ∧ Only (u.cross4E o v) (.ok (u.cross4 v)) := by
  have h := h.relO
  obtain ⟨_, _, _, _, _, _, _, _, _, h1, h2, h3⟩ := C100_plain_complex (1 : Cpx T) 1 1 1 a b c d u v ()
  exact ⟨.of_rel (Vec.rel_cross2 h _ _) h1, .of_rel (Vec.rel_cross3 h _ _) h2, .of_rel (Vec.rel_cross4 h _ _) h3⟩

/-! ## transformations -/
theorem only_zeroVec (h : PartialOf o) : Only (Vec.initM o.zero : Eff σ (Vec T N)) (.ok 0) := by
  refine .of_rel (Rel.initM h.relO.zero) ?_
  refine Prod.ext ?_ rfl
  exact Res.ok_get (((Vec.initM (N := N) (Eff.ofStep fun _ : Unit => ((0 : T), ()))).exec ()).1) ⟨_, Vec.exec_initM_ofStep _ _⟩
/-- `Shift`. -/
theorem C101_shift (h : PartialOf o) : PartialTransform (shiftE o : TransformE σ (Shift T N) (Vec T N)) where
  identity := (only_zeroVec h).bind (.pure _)
  inv t := (C101_vector h t.pos t.pos 0).1.bind (.pure _)
  apply t x := (C101_vector h x t.pos 0).2.1
  deriv _ _ v := .pure v
  chain t u := (C101_vector h t.pos u.pos 0).2.1.bind (.pure _)
/-- `Scale`; `recip` is the scalar `Inv::inv`, `r` its total version. -/
theorem C101_scale (h : PartialOf o) [Inv T] (recip : T → Eff σ T) (hr : ∀ x, Only (recip x) (.ok x⁻¹)) :
    PartialTransform (scaleE o recip : TransformE σ (Scale T) (Vec T N)) where
  identity := h.one.bind (.pure _)
  inv _ := (hr _).bind (.pure _)
  apply t x := (C101_vector h x x t.mag).2.2.2.2.2.2.1
  deriv t _ v := (C101_vector h v v t.mag).2.2.2.2.2.2.1
  chain _ _ := (h.mul _ _).bind (.pure _)
/-- `Linear`. -/
theorem C101_linear (h : PartialOf o) : PartialTransform (linearE o : TransformE σ (Linear T N) (Vec T N)) where
  identity := by
    refine .bind (x := (1 : Mat T N N)) (.of_rel (Rel.matMapM (g := fun p => if p.1 = p.2 then plain.one else plain.zero) (fun p => ?_) _) ?_)
      (.pure _)
    · split
      · exact h.relO.one
      · exact h.relO.zero
    · have := Mat.exec_mapM_pure (fun p : Nat × Nat => if p.1 = p.2 then (1 : T) else 0) (Mat.indices (M := N) (N := N)) ()
      refine Eq.trans ?_ this
      congr 2; funext p; split <;> rfl
  inv t := (C101_square h t.lin t.lin 0 0 0).2.2.2.2.2.2.bind (.pure _)
  apply t x := (C101_square h t.lin t.lin x 0 0).1
  deriv t _ v := (C101_square h t.lin t.lin v 0 0).1
  chain t u := (C101_square h t.lin u.lin 0 0 0).2.2.1.bind (.pure _)
/-- `Rotation2`. -/
theorem C101_rotation2 (h : PartialOf o) : PartialTransform (rotation2E o) where
  identity := h.one.bind (h.zero.bind (.pure _))
  inv t := (C101_complex h t.comp t.comp).2.1.bind (.pure _)
  apply t x := (C101_complex h _ t.comp).2.2.2.2.1.bind (.pure _)
  deriv t _ v := (C101_complex h _ t.comp).2.2.2.2.1.bind (.pure _)
  chain t u := (C101_complex h t.comp u.comp).2.2.2.2.1.bind (.pure _)
theorem only_rotation3Apply (h : PartialOf o) (r : Rotation3 T) (v : Vec T 3) : Only (rotation3ApplyE o r v) (.ok (r.applyFn v)) :=
  h.zero.bind ((C101_quaternion h _ _).2.1.bind ((C101_quaternion h _ r.quat).1.bind ((C101_quaternion h _ _).2.1.bind (.pure _))))
/-- `Rotation3`. -/
theorem C101_rotation3 (h : PartialOf o) : PartialTransform (rotation3E o) where
  identity := h.one.bind (h.zero.bind (h.zero.bind (h.zero.bind (.pure _))))
  inv t := (C101_quaternion h t.quat t.quat).1.bind (.pure _)
  apply t x := only_rotation3Apply h t x
  deriv t _ v := only_rotation3Apply h t v
  chain t u := (C101_quaternion h t.quat u.quat).2.1.bind (.pure _)
end

/-- `Chain`, for any two transformations. -/
theorem C101_chain [Transform A X] [Transform B X] [Reorder B A X] {a : TransformE σ A X} {b : TransformE σ B X}
    {r : B → A → Eff σ (A × B)} (ha : PartialTransform a) (hb : PartialTransform b)
    (hr : ∀ x y, Only (r x y) (.ok (Reorder.reorder X x y))) : PartialTransform (chainE a b r) where
  identity := ha.identity.bind (hb.identity.bind (.pure _))
  inv t := (hb.inv _).bind ((ha.inv _).bind ((hr _ _).bind (.pure _)))
  apply t x := (hb.apply _ _).bind (ha.apply _ _)
  deriv t x v := (hb.apply _ _).bind ((hb.deriv _ _ _).bind (ha.deriv _ _ _))
  chain t u := (hr _ _).bind ((ha.chain _ _).bind ((hb.chain _ _).bind (.pure _)))

section
variable [Add T] [Sub T] [Mul T] [Div T] [Mod T] [Neg T] [Zero T] [One T] {o : ScalarE σ T}
theorem only_reorderShift [Transform B (Vec T N)] {b : TransformE σ B (Vec T N)} (h : PartialTransform b) (t : B) (s : Shift T N) :
    Only (reorderShiftE b t s) (.ok (⟨Transform.apply t s.pos⟩, t)) := (h.apply _ _).bind (.pure _)
theorem only_shiftReorder [Transform B (Vec T N)] {b : TransformE σ B (Vec T N)} (h : PartialTransform b) (t : B) (s : Shift T N) :
    Only (shiftReorderE b s t) (.ok (t, ⟨Transform.apply (Transform.inv (Vec T N) t) s.pos⟩)) :=
  (h.inv _).bind ((h.apply _ _).bind (.pure _))
/-- `Affine`, and reordering a shift with a scaling, a linear map or a rotation. -/
theorem C101_affine (h : PartialOf o) : PartialTransform (affineE o : TransformE σ (Affine T N) (Vec T N)) :=
  C101_chain (C101_shift h) (C101_linear h) fun t s => only_reorderShift (C101_linear h) t s
/-- Reordering a shift with a linear map. -/
theorem C101_reorder_linear (h : PartialOf o) (t : Linear T N) (s : Shift T N) :
    Only (reorderShiftE (linearE o) t s) (.ok (Reorder.reorder (Vec T N) t s)) ∧
    Only (shiftReorderE (linearE o) s t) (.ok (Reorder.reorder (Vec T N) s t)) :=
  ⟨only_reorderShift (C101_linear h) t s, only_shiftReorder (C101_linear h) t s⟩
/-- Reordering a shift with a rotation. -/
theorem C101_reorder_rotation (h : PartialOf o) (t : Rotation2 T) (s : Shift T 2) (t' : Rotation3 T) (s' : Shift T 3) :
    Only (reorderShiftE (rotation2E o) t s) (.ok (Reorder.reorder (Vec T 2) t s)) ∧
    Only (shiftReorderE (rotation2E o) s t) (.ok (Reorder.reorder (Vec T 2) s t)) ∧
    Only (reorderShiftE (rotation3E o) t' s') (.ok (Reorder.reorder (Vec T 3) t' s')) ∧
    Only (shiftReorderE (rotation3E o) s' t') (.ok (Reorder.reorder (Vec T 3) s' t')) :=
  ⟨only_reorderShift (C101_rotation2 h) t s, only_shiftReorder (C101_rotation2 h) t s,
   only_reorderShift (C101_rotation3 h) t' s', only_shiftReorder (C101_rotation3 h) t' s'⟩
/-- Reordering a shift with a scaling. -/
theorem C101_reorder_scale (h : PartialOf o) [Inv T] (recip : T → Eff σ T) (hr : ∀ x, Only (recip x) (.ok x⁻¹)) (t : Scale T)
    (s : Shift T N) :
    Only (reorderShiftE (scaleE o recip) t s) (.ok (Reorder.reorder (Vec T N) t s)) ∧
    Only (shiftReorderE (scaleE o recip) s t) (.ok (Reorder.reorder (Vec T N) s t)) :=
  ⟨only_reorderShift (C101_scale h recip hr) t s, only_shiftReorder (C101_scale h recip hr) t s⟩

/-- Moebius transformations with coefficients and point of the same type. -/
theorem C101_moebius (h : PartialOf o) (m k : Moebius T) (x : T) :
    Only (m.applyE o x) (.ok (m.apply x)) ∧ Only (m.chainE o k) (.ok (m.chain k)) ∧ Only (m.detE o) (.ok m.det) ∧
    Only (m.normalizeE o) (.ok m.normalize) ∧ Only (m.invE o) (.ok m.inv) := by
  have hm := C101_square h m.mat k.mat 0 0 0
  refine ⟨(h.mul _ _).bind ((h.add _ _).bind ((h.mul _ _).bind ((h.add _ _).bind (h.div _ _)))), hm.2.2.1.bind (.pure _), hm.2.2.2.1,
    hm.2.2.2.1.bind (.bind (C101_matrix h m.mat m.mat m.mat 0 0 m.det).2.2.2.2.2.2.2.1 (.pure _)), hm.2.2.2.2.2.2.bind (.pure _)⟩

/-- Complex numbers over such a scalar type are such a scalar type: everything above holds for matrices of complex numbers etc. -/
theorem C101_complex_scalars (h : PartialOf o) [Mod (Cpx T)] (rem : Cpx T → Cpx T → Eff σ (Cpx T))
    (hr : ∀ z w, Only (rem z w) (.ok (z % w))) : PartialOf (cpxE o rem) where
  add z w := (C101_complex h z w).2.2.1
  sub z w := (C101_complex h z w).2.2.2.1
  mul z w := (C101_complex h z w).2.2.2.2.1
  div z w := (C101_complex h z w).2.2.2.2.2.2
  rem := hr
  neg z := (C101_complex h z z).1
  zero := h.zero.bind (h.zero.bind (.pure _))
  one := h.one.bind (h.zero.bind (.pure _))

/-- The derivative of a complex Moebius transformation. -/
theorem C101_moebius_deriv (h : PartialOf o) [Mod (Cpx T)] (rem : Cpx T → Cpx T → Eff σ (Cpx T))
    (hr : ∀ z w, Only (rem z w) (.ok (z % w))) (m : Moebius (Cpx T)) (p : Cpx T) :
    Only (m.derivE (cpxE o rem) p) (.ok (m.deriv p)) := by
  have h := C101_complex_scalars h rem hr
  exact (h.mul _ _).bind ((h.add _ _).bind ((h.mul _ _).bind ((h.add _ _).bind ((h.mul _ _).bind ((h.mul _ _).bind
    ((h.sub _ _).bind ((h.mul _ _).bind (h.div _ _))))))))
end
end Vecmat
