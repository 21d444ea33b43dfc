import Verif.Props.Partial2
import Verif.Props.ScalarEff3
/-!
# C101, continued: rings, checked integers, calls made by transformations
-/
namespace Vecmat
open Spec
variable {T U α β σ A B X : Type} {L M N : Nat}

/-! ## rings -/
/-- Affine transformations over a ring: `a.chain(b)`, where it returns and can be applied, is `b` followed by `a`, where these can be
applied. -/
theorem C101_ring_affine_chain [CommRing T] [Div T] [Mod T] {o : ScalarE σ T} (h : PartialOf o) (a b c : Affine T N) (x y z w : Vec T N)
    (s : Fin 8 → σ) (hc : ((affineE o).chain a b).exec (s 0) = (.ok c, s 1)) (hy : ((affineE o).apply b x).exec (s 2) = (.ok y, s 3))
    (hz : ((affineE o).apply a y).exec (s 4) = (.ok z, s 5)) (hw : ((affineE o).apply c x).exec (s 6) = (.ok w, s 7)) : w = z := by
  have ha := C101_affine (N := N) h
  have ap : ∀ (a : Affine T N) (x y : Vec T N) (s t : σ), ((affineE o).apply a x).exec s = (.ok y, t) → y = a.inner.lin.dotV x + a.outer.pos :=
    fun a x y s t e => by
      have := ha.apply a x s y t e
      simp only [Except.ok.injEq] at this
      exact this.symm
  have hc' : c = Transform.chain (Vec T N) a b := by
    have := ha.chain a b _ _ _ hc
    simp only [Except.ok.injEq] at this
    exact this.symm
  have e : Transform.chain (Vec T N) a b = ⟨⟨a.outer.pos + a.inner.lin.dotV b.outer.pos⟩, ⟨a.inner.lin.dotM b.inner.lin⟩⟩ := rfl
  rw [ap _ _ _ _ _ hw, ap _ _ _ _ _ hz, ap _ _ _ _ _ hy, hc', e]
  show (a.inner.lin.dotM b.inner.lin).dotV x + (a.outer.pos + a.inner.lin.dotV b.outer.pos) =
    a.inner.lin.dotV (b.inner.lin.dotV x + b.outer.pos) + a.outer.pos
  rw [Mat.dotV_dotM, Mat.dotV_add]
  apply Vec.ext_getElem; intros; simp; abel
/-- What `apply` of an affine transformation returns: `A x + b`. -/
theorem C101_ring_affine_apply [CommRing T] [Div T] [Mod T] {o : ScalarE σ T} (h : PartialOf o) (a : Affine T N) (x y : Vec T N) (s t : σ)
    (hy : ((affineE o).apply a x).exec s = (.ok y, t)) (i : Nat) (hi : i < N) :
    y[i] = (∑ k : Fin N, a.linear.intoMatrix[i][k.1] * x[k.1]) + a.shift.intoVector[i] := by
  have := (C101_affine (N := N) h).apply a x s y t hy
  simp only [Except.ok.injEq] at this
  rw [← this, ← Mat.getElem_dotV_sum a.linear.intoMatrix x i hi]
  show (a.inner.lin.dotV x + a.outer.pos)[i] = _
  rw [Vec.getElem_add]; rfl

/-! ## checked integers -/
/-- Integers with overflow checks are such a type: `/` and `%` truncate. -/
theorem C101_checked (lo hi : Int) :
    @PartialOf Int σ _ _ _ ⟨Int.tdiv⟩ ⟨Int.tmod⟩ _ _ _ (checked lo hi) := by
  have nv : ∀ {α : Type} (e : Fault) (r : Res α), Only (throw e : Eff σ α) r := fun e r s x t h => by
    have h : ((Except.error e : Res _), s) = (.ok x, t) := h
    simp at h
  have ir : ∀ x : Int, Only (inRange lo hi x : Eff σ Int) (.ok x) := fun x => by
    unfold inRange; split
    · exact .pure x
    · exact nv _ _
  letI : Div Int := ⟨Int.tdiv⟩
  letI : Mod Int := ⟨Int.tmod⟩
  refine ⟨fun x y => ir _, fun x y => ir _, fun x y => ir _, fun x y => ?_, fun x y => ?_, fun x => ir _, .pure _, .pure _⟩
  · show Only (if y = 0 then _ else _) _
    split
    · exact nv _ _
    · exact ir _
  · show Only (if y = 0 then _ else _) _
    split
    · exact nv _ _
    · exact (ir _).bind (.pure _)
/-- Checked integers: `a.chain(b)` agrees with applying `b`, then `a`, whenever nothing overflows. -/
theorem C101_checked_affine_chain (lo hi : Int) (a b c : Affine Int N) (x y z w : Vec Int N)
    (s : Fin 8 → σ) (hc : ((affineE (checked lo hi)).chain a b).exec (s 0) = (.ok c, s 1))
    (hy : ((affineE (checked lo hi)).apply b x).exec (s 2) = (.ok y, s 3))
    (hz : ((affineE (checked lo hi)).apply a y).exec (s 4) = (.ok z, s 5))
    (hw : ((affineE (checked lo hi)).apply c x).exec (s 6) = (.ok w, s 7)) : w = z :=
  letI : Div Int := ⟨Int.tdiv⟩
  letI : Mod Int := ⟨Int.tmod⟩
  C101_ring_affine_chain (C101_checked lo hi) a b c x y z w s hc hy hz hw
/-- Checked integers: complex and quaternion products and cross products are exact or panic. -/
theorem C101_checked_products (lo hi : Int) (z w x : Cpx Int) (p q r : Quat Int) (a b c : Vec Int 3) (s t : σ) :
    ((z.mulE (checked lo hi) w).exec s = (.ok x, t) → x = z * w) ∧ ((p.mulE (checked lo hi) q).exec s = (.ok r, t) → r = p * q) ∧
    ((a.cross3E (checked lo hi) b).exec s = (.ok c, t) → c = a.cross3 b) := by
  letI : Div Int := ⟨Int.tdiv⟩
  letI : Mod Int := ⟨Int.tmod⟩
  have h := C101_checked (σ := σ) lo hi
  refine ⟨fun e => ?_, fun e => ?_, fun e => ?_⟩
  · simpa using ((C101_complex h z w).2.2.2.2.1 s x t e).symm
  · simpa using ((C101_quaternion h p q).2.1 s r t e).symm
  · simpa using ((C101_cross h (Vec.fromTuple2 (0, 0)) (Vec.fromTuple2 (0, 0)) a b (Vec.fromTuple4 (0, 0, 0, 0)) (Vec.fromTuple4 (0, 0, 0, 0))).2.1 s c t e).symm

/-! ## calls -/
theorem Spec.Makes.fin {c : Eff (σ × List Op) α} {l : List Op} (h : Makes c l) (f : α → β) : Makes (c >>= fun x => Pure.pure (f x)) l := by
  have := h.bind (f := fun x => Pure.pure (f x)) fun x => Spec.Makes.pure (f x)
  rwa [List.append_nil] at this
theorem Vec.makes_addE (o : ScalarE σ T) (v w : Vec T N) : Makes (v.addE (Spec.logged o) w) (List.replicate N .add) := by
  have := Vec.makes_mapM (fun p : T × T => (Spec.logged o).add p.1 p.2) (v.zip w) [.add] fun p => Spec.Makes.note .add _
  rwa [flatten_replicate_singleton] at this
theorem Vec.makes_mulSE (o : ScalarE σ T) (v : Vec T N) (a : T) : Makes (v.mulSE (Spec.logged o) a) (List.replicate N .mul) := by
  have := Vec.makes_mapM (fun x : T => (Spec.logged o).mul x a) v [.mul] fun p => Spec.Makes.note .mul _
  rwa [flatten_replicate_singleton] at this

/-- The calls made by `apply` and `deriv` of shifts, scalings and linear maps. -/
theorem C101_calls_apply (o : ScalarE σ T) (recip : T → Eff (σ × List Op) T) (s : Shift T N) (c : Scale T) (l : Linear T N) (x v : Vec T N) :
    let lin := (List.replicate N (List.replicate N Op.mul ++ List.replicate (N - 1) Op.add)).flatten
    Makes ((shiftE (Spec.logged o)).apply s x) (List.replicate N .add) ∧ Makes ((shiftE (Spec.logged o)).deriv s x v) [] ∧
    Makes ((scaleE (Spec.logged o) recip).apply c x) (List.replicate N .mul) ∧ Makes ((scaleE (Spec.logged o) recip).deriv c x v) (List.replicate N .mul) ∧
    Makes ((linearE (Spec.logged o)).apply l x) lin ∧ Makes ((linearE (Spec.logged o)).deriv l x v) lin :=
  ⟨Vec.makes_addE o _ _, Spec.Makes.pure v, Vec.makes_mulSE o _ _, Vec.makes_mulSE o _ _, (C100_calls_products o x x x l.lin l.lin).2.1,
    (C100_calls_products o v v v l.lin l.lin).2.1⟩
/-- `apply` of an affine transformation: those of the linear map, then `N` additions. `deriv` of an affine transformation makes the
calls of the linear map twice: for the position, and for the direction. -/
theorem C101_calls_affine (o : ScalarE σ T) (a : Affine T N) (x v : Vec T N) :
    let lin := (List.replicate N (List.replicate N Op.mul ++ List.replicate (N - 1) Op.add)).flatten
    Makes ((affineE (Spec.logged o)).apply a x) (lin ++ List.replicate N .add) ∧ Makes ((affineE (Spec.logged o)).deriv a x v) (lin ++ lin) := by
  refine ⟨(C100_calls_products o x x x a.inner.lin a.inner.lin).2.1.bind fun y => Vec.makes_addE o _ _, ?_⟩
  have := (C100_calls_products o x x x a.inner.lin a.inner.lin).2.1.bind fun y : Vec T N =>
    ((C100_calls_products o v v v a.inner.lin a.inner.lin).2.1).fin (id : Vec T N → Vec T N)
  exact this
/-- Rotations: `apply` in the plane is one complex product; in space it is two quaternion products and a conjugation. -/
theorem C101_calls_rotation (o : ScalarE σ T) (r : Rotation2 T) (x : Vec T 2) (q : Rotation3 T) (y : Vec T 3) :
    let mul := [Op.mul, .mul, .sub, .mul, .sub, .mul, .sub, .mul, .mul, .add, .mul, .add, .mul, .sub,
      .mul, .mul, .sub, .mul, .add, .mul, .add, .mul, .mul, .add, .mul, .sub, .mul, .add]
    Makes ((rotation2E (Spec.logged o)).apply r x) [.mul, .mul, .sub, .mul, .mul, .add] ∧
    Makes ((rotation3E (Spec.logged o)).apply q y) ([.zero] ++ (mul ++ ([.neg, .neg, .neg] ++ mul))) := by
  have hq := fun (p q : Quat T) => (C100_calls_complex o (Cpx.new p.w p.w) (Cpx.new p.w p.w) p q).2.2.2.1
  have n := fun (n : Op) (c : Eff σ T) => Spec.Makes.note n c
  refine ⟨(C100_calls_complex o _ r.comp q.quat q.quat).1.fin _, (n .zero _).bind fun z => (hq _ _).bind fun p => ?_⟩
  have c3 : Makes (q.quat.conjE (Spec.logged o)) [.neg, .neg, .neg] :=
    (n .neg _).bind fun x => (n .neg _).bind fun y => (n .neg _).fin _
  exact c3.bind fun c => (hq _ _).fin _

/-- `deriv` of an affine transformation does not depend on the position, but it first applies the linear map to the position, and
panics if that panics. -/
theorem C101_affine_deriv (o : ScalarE σ T) (a : Affine T N) (x v : Vec T N) (s : σ) :
    ((affineE o).deriv a x v).exec s = match (a.linear.intoMatrix.dotVE o x).exec s with
      | (.ok _, t) => (a.linear.intoMatrix.dotVE o v).exec t
      | (.error e, t) => (.error e, t) := by
  show (a.inner.lin.dotVE o x >>= fun _ => a.inner.lin.dotVE o v >>= fun d => pure d).exec s = _
  rw [exec_bind, bind_pure, show a.linear.intoMatrix = a.inner.lin from rfl]
  rcases (a.inner.lin.dotVE o x).exec s with ⟨_ | _, _⟩ <;> rfl

end Vecmat
