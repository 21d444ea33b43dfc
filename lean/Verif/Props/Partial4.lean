import Verif.Props.Partial3
/-! # C101, continued: total operators, and the calls made by `identity`, `inv`, `chain` -/
namespace Vecmat
open Spec
variable {T U α β σ A B X : Type} {L M N : Nat}

theorem eff_ext {c d : Eff σ α} (h : ∀ s, c.exec s = d.exec s) : c = d := by
  funext s
  exact h s
theorem eff_pure {c : Eff σ α} {x : α} (h : ∀ s, c.exec s = (.ok x, s)) : c = pure x := eff_ext fun s => h s

section
variable [Add T] [Sub T] [Mul T] [Div T] [Mod T] [Neg T] [Zero T] [One T]

/-- With total operators without effects, every function of `Shift` returns the effect-free result. -/
theorem C101_total_shift : TotalTransform (shiftE plain : TransformE σ (Shift T N) (Vec T N)) where
  identity s := by
    have hz : (Vec.initM (plain : ScalarE σ T).zero : Eff σ (Vec T N)).exec s = (.ok 0, s) := by
      obtain ⟨_, h⟩ := Vec.exec_initM_of_ok (N := N) (f := (plain : ScalarE σ T).zero) (s := s) (s' := s) (l := List.replicate N 0) (by
        clear * -
        induction N with
        | zero => rfl
        | succ n ih =>
          rw [Spec.callN, exec_bind_ok (show ((plain : ScalarE σ T).zero).exec s = (.ok 0, s) from rfl)]
          first
            | (rw [exec_bind_ok ih]; rfl)
            | (simp only [exec_map, ih]; rfl))
      rw [h]
      congr 2
      apply Vec.ext_getElem; intro i hi
      simp [Vec.getElem_ofList]
    show (Vec.initM (plain : ScalarE σ T).zero >>= _).exec s = _
    rw [exec_bind, hz]; rfl
  inv t s := by
    show (t.pos.negE plain >>= _).exec s = _
    rw [exec_bind, (C100_plain_vector t.pos t.pos 0 s).1]; rfl
  apply t x s := (C100_plain_vector x t.pos 0 s).2.1
  deriv _ _ _ _ := rfl
  chain t u s := by
    show (t.pos.addE plain u.pos >>= _).exec s = _
    rw [exec_bind, (C100_plain_vector t.pos u.pos 0 s).2.1]; rfl
/-- `Scale`. -/
theorem C101_total_scale [Inv T] : TotalTransform (scaleE plain (fun x => pure x⁻¹) : TransformE σ (Scale T) (Vec T N)) where
  identity _ := rfl
  inv _ _ := rfl
  apply t x s := (C100_plain_vector x x t.mag s).2.2.2.2.2.2.1
  deriv t _ v s := (C100_plain_vector v v t.mag s).2.2.2.2.2.2.1
  chain _ _ _ := rfl
/-- `Linear`. -/
theorem C101_total_linear : TotalTransform (linearE plain : TransformE σ (Linear T N) (Vec T N)) where
  identity s := by
    have := Mat.exec_mapM_pure (fun p : Nat × Nat => if p.1 = p.2 then (1 : T) else 0) (Mat.indices (M := N) (N := N)) s
    have e : (fun p : Nat × Nat => if p.1 = p.2 then (plain : ScalarE σ T).one else (plain : ScalarE σ T).zero) =
        fun p => pure (if p.1 = p.2 then (1 : T) else 0) := by
      funext p; split <;> rfl
    simp only [linearE]
    rw [e, exec_bind_ok this]; rfl
  inv t s := by
    show (t.lin.invE plain >>= _).exec s = _
    rw [exec_bind, (C100_plain_det t.lin 0 0 s).2.2.2, show t.lin.invR = .ok t.lin.inv from Res.ok_get _ _]; rfl
  apply t x s := by
    have := (C100_plain_matrix t.lin t.lin t.lin x x 0 s).2.2.2.2.2.2.2.2.2.2.2.1
    rw [show t.lin.dotVR x = .ok (t.lin.dotV x) from Res.ok_get _ _] at this
    exact this
  deriv t _ x s := by
    have := (C100_plain_matrix t.lin t.lin t.lin x x 0 s).2.2.2.2.2.2.2.2.2.2.2.1
    rw [show t.lin.dotVR x = .ok (t.lin.dotV x) from Res.ok_get _ _] at this
    exact this
  chain t u s := by
    have := (C100_plain_matrix t.lin t.lin u.lin 0 0 0 s).2.2.2.2.2.2.2.2.2.2.2.2.2
    rw [show t.lin.dotMR u.lin = .ok (t.lin.dotM u.lin) from Res.ok_get _ _] at this
    show (t.lin.dotME plain u.lin >>= _).exec s = _
    rw [exec_bind, this]; rfl
/-- `Rotation2`. -/
theorem C101_total_rotation2 : TotalTransform (rotation2E (plain : ScalarE σ T)) where
  identity _ := rfl
  inv _ _ := rfl
  apply _ _ _ := rfl
  deriv _ _ _ _ := rfl
  chain _ _ _ := rfl
/-- `Rotation3`. -/
theorem C101_total_rotation3 : TotalTransform (rotation3E (plain : ScalarE σ T)) where
  identity _ := rfl
  inv _ _ := rfl
  apply _ _ _ := rfl
  deriv _ _ _ _ := rfl
  chain _ _ _ := rfl
end

/-- `Chain`, for any two transformations. -/
theorem C101_total_chain [Transform A X] [Transform B X] [Reorder B A X] {a : TransformE σ A X} {b : TransformE σ B X}
    {r : B → A → Eff σ (A × B)} (ha : TotalTransform a) (hb : TotalTransform b)
    (hr : ∀ x y s, (r x y).exec s = (.ok (Reorder.reorder X x y), s)) : TotalTransform (chainE a b r) where
  identity s := by
    show (a.identity >>= _).exec s = _
    rw [exec_bind_ok (ha.identity s), exec_bind_ok (hb.identity s)]; rfl
  inv t s := by
    show (b.inv _ >>= _).exec s = _
    rw [exec_bind_ok (hb.inv _ s), exec_bind_ok (ha.inv _ s), exec_bind_ok (hr _ _ s)]; rfl
  apply t x s := by
    show (b.apply _ _ >>= _).exec s = _
    rw [exec_bind_ok (hb.apply _ _ s), ha.apply]; rfl
  deriv t x v s := by
    show (b.apply _ _ >>= _).exec s = _
    rw [exec_bind_ok (hb.apply _ _ s), exec_bind_ok (hb.deriv _ _ _ s), ha.deriv]; rfl
  chain t u s := by
    show (r _ _ >>= _).exec s = _
    rw [exec_bind_ok (hr _ _ s), exec_bind_ok (ha.chain _ _ s), exec_bind_ok (hb.chain _ _ s)]; rfl
theorem exec_reorderShift [Transform B (Vec T N)] {b : TransformE σ B (Vec T N)} (h : TotalTransform b) (t : B) (s : Shift T N) (w : σ) :
    (reorderShiftE b t s).exec w = (.ok (⟨Transform.apply t s.pos⟩, t), w) := by
  show (b.apply _ _ >>= _).exec w = _
  rw [exec_bind_ok (h.apply _ _ w)]; rfl
theorem exec_shiftReorder [Transform B (Vec T N)] {b : TransformE σ B (Vec T N)} (h : TotalTransform b) (t : B) (s : Shift T N) (w : σ) :
    (shiftReorderE b s t).exec w = (.ok (t, ⟨Transform.apply (Transform.inv (Vec T N) t) s.pos⟩), w) := by
  show (b.inv _ >>= _).exec w = _
  rw [exec_bind_ok (h.inv _ w), exec_bind_ok (h.apply _ _ w)]; rfl

section
variable [Add T] [Sub T] [Mul T] [Div T] [Mod T] [Neg T] [Zero T] [One T]
/-- `Affine`. -/
theorem C101_total_affine : TotalTransform (affineE plain : TransformE σ (Affine T N) (Vec T N)) :=
  C101_total_chain C101_total_shift C101_total_linear fun t s w => exec_reorderShift C101_total_linear t s w
/-- Reordering with a shift. -/
theorem C101_total_reorder [Inv T] (l : Linear T N) (c : Scale T) (s : Shift T N) (r : Rotation2 T) (s2 : Shift T 2) (q : Rotation3 T)
    (s3 : Shift T 3) (w : σ) :
    (reorderShiftE (linearE plain) l s).exec w = (.ok (Reorder.reorder (Vec T N) l s), w) ∧
    (shiftReorderE (linearE plain) s l).exec w = (.ok (Reorder.reorder (Vec T N) s l), w) ∧
    (reorderShiftE (scaleE plain fun x => pure x⁻¹) c s).exec w = (.ok (Reorder.reorder (Vec T N) c s), w) ∧
    (shiftReorderE (scaleE plain fun x => pure x⁻¹) s c).exec w = (.ok (Reorder.reorder (Vec T N) s c), w) ∧
    (reorderShiftE (rotation2E plain) r s2).exec w = (.ok (Reorder.reorder (Vec T 2) r s2), w) ∧
    (shiftReorderE (rotation2E plain) s2 r).exec w = (.ok (Reorder.reorder (Vec T 2) s2 r), w) ∧
    (reorderShiftE (rotation3E plain) q s3).exec w = (.ok (Reorder.reorder (Vec T 3) q s3), w) ∧
    (shiftReorderE (rotation3E plain) s3 q).exec w = (.ok (Reorder.reorder (Vec T 3) s3 q), w) :=
  ⟨exec_reorderShift C101_total_linear l s w, exec_shiftReorder C101_total_linear l s w, exec_reorderShift C101_total_scale c s w,
    exec_shiftReorder C101_total_scale c s w, exec_reorderShift C101_total_rotation2 r s2 w, exec_shiftReorder C101_total_rotation2 r s2 w,
    exec_reorderShift C101_total_rotation3 q s3 w, exec_shiftReorder C101_total_rotation3 q s3 w⟩
/-- Moebius transformations. -/
theorem C101_total_moebius (m k : Moebius T) (x : T) (s : σ) :
    (m.applyE plain x).exec s = (.ok (m.apply x), s) ∧ (m.chainE plain k).exec s = (.ok (m.chain k), s) ∧
    (m.detE plain).exec s = (.ok m.det, s) ∧ (m.normalizeE plain).exec s = (.ok m.normalize, s) ∧ (m.invE plain).exec s = (.ok m.inv, s) := by
  obtain ⟨h1, _, _, h4⟩ := C100_plain_det m.mat 0 0 s
  have h14 := (C100_plain_matrix m.mat m.mat k.mat 0 0 0 s).2.2.2.2.2.2.2.2.2.2.2.2.2
  rw [show m.mat.detR = .ok m.det from Res.ok_get _ _] at h1
  rw [show m.mat.invR = .ok m.mat.inv from Res.ok_get _ _] at h4
  rw [show m.mat.dotMR k.mat = .ok (m.mat.dotM k.mat) from Res.ok_get _ _] at h14
  refine ⟨rfl, ?_, h1, ?_, ?_⟩
  · show (m.mat.dotME plain k.mat >>= _).exec s = _
    rw [exec_bind_ok h14]; rfl
  · show (m.mat.detE plain >>= _).exec s = _
    rw [exec_bind_ok h1, exec_bind_ok (C100_plain_matrix m.mat m.mat m.mat 0 0 m.det s).2.2.2.2.2.2.2.1]; rfl
  · show (m.mat.invE plain >>= _).exec s = _
    rw [exec_bind_ok h4]; rfl
/-- Complex numbers over a type whose operators have no effects are such a type. -/
theorem C101_total_complex [Mod (Cpx T)] : cpxE (plain : ScalarE σ T) (fun z w => pure (z % w)) = plain := by
  have h := fun (z w : Cpx T) (s : σ) => C100_plain_complex z w (1 : Quat T) 1 z.vec z.vec (Vec.fromTuple3 (0, 0, 0)) (Vec.fromTuple3 (0, 0, 0))
    (Vec.fromTuple4 (0, 0, 0, 0)) (Vec.fromTuple4 (0, 0, 0, 0)) s
  unfold cpxE
  congr 1
  · funext z w; exact eff_pure fun s => (h z w s).2.2.2.2.1
  · funext z w; exact eff_pure fun s => (h z w s).2.2.2.2.2.1
  · funext z w; exact eff_pure fun s => (h z w s).2.2.1
  · funext z; exact eff_pure fun s => (h z z s).2.2.2.1
/-- The derivative of a complex Moebius transformation. -/
theorem C101_total_moebius_deriv [Mod (Cpx T)] (m : Moebius (Cpx T)) (p : Cpx T) (s : σ) :
    (m.derivE (cpxE plain fun z w => pure (z % w)) p).exec s = (.ok (m.deriv p), s) := by
  rw [C101_total_complex]; rfl
end
end Vecmat
