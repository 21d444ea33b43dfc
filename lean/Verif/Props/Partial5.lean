import Verif.Props.Partial4
/-! # C101, continued: the calls made by `identity`, `inv`, `chain`, by reordering, and by Moebius transformations -/
namespace Vecmat
open Spec
variable {T U α β σ A B X : Type} {L M N : Nat}

theorem Vec.makes_initM (f : Eff (σ × List Op) T) (l : List Op) (h : Makes f l) :
    Makes (Vec.initM f : Eff (σ × List Op) (Vec T N)) (List.replicate N l).flatten := by
  apply Spec.Makes.of_map (f := Vec.toList)
  rw [Vec.toList_initM]
  induction N with
  | zero => exact Spec.Makes.pure _
  | succ n ih =>
    rw [Spec.callN, List.replicate_succ, List.flatten_cons]
    exact h.bind fun x => ih.fin _
theorem Vec.makes_negE (o : ScalarE σ T) (v : Vec T N) : Makes (v.negE (Spec.logged o)) (List.replicate N .neg) := by
  have := Vec.makes_mapM (fun x : T => (Spec.logged o).neg x) v [.neg] fun p => Spec.Makes.note .neg _
  rwa [flatten_replicate_singleton] at this
theorem Vec.makes_subE (o : ScalarE σ T) (v w : Vec T N) : Makes (v.subE (Spec.logged o) w) (List.replicate N .sub) := by
  have := Vec.makes_mapM (fun p : T × T => (Spec.logged o).sub p.1 p.2) (v.zip w) [.sub] fun p => Spec.Makes.note .sub _
  rwa [flatten_replicate_singleton] at this
theorem Mat.makes_divSE (o : ScalarE σ T) (B : Mat T M N) (d : T) : Makes (B.divSE (Spec.logged o) d) (List.replicate (M * N) .div) := by
  have := Mat.makes_mapM (fun x => (Spec.logged o).div x d) B (fun _ _ => [.div]) (fun i hi j hj => Spec.Makes.note _ _)
  rw [show (fun i : Nat => (List.range N).flatMap fun _ => [Op.div]) = fun _ => (List.replicate N [Op.div]).flatten from by
    funext i; exact flatMap_const _ _, flatMap_const, flatten_flatten_replicate, flatten_replicate_singleton] at this
  exact this

/-- `Shift`: the identity calls `zero` once per coordinate, `inv` negates and `chain` adds every coordinate once. -/
theorem C101_calls_shift (o : ScalarE σ T) (s t : Shift T N) :
    Makes ((shiftE (Spec.logged o) : TransformE _ (Shift T N) (Vec T N)).identity) (List.replicate N .zero) ∧
    Makes ((shiftE (Spec.logged o)).inv s) (List.replicate N .neg) ∧ Makes ((shiftE (Spec.logged o)).chain s t) (List.replicate N .add) := by
  refine ⟨?_, (Vec.makes_negE o _).fin _, (Vec.makes_addE o _ _).fin _⟩
  have := (Vec.makes_initM (N := N) _ _ (Spec.Makes.note .zero o.zero)).fin (fun v => (⟨v⟩ : Shift T N))
  rw [flatten_replicate_singleton] at this
  exact this
/-- `Scale`: one call each; `inv` is the scalar reciprocal. -/
theorem C101_calls_scale (o : ScalarE σ T) (recip : T → Eff (σ × List Op) T) (s t : Scale T) :
    Makes ((scaleE (Spec.logged o) recip : TransformE _ (Scale T) (Vec T N)).identity) [.one] ∧
    (scaleE (Spec.logged o) recip : TransformE _ (Scale T) (Vec T N)).inv s = Scale.mk <$> recip s.mag ∧
    Makes ((scaleE (Spec.logged o) recip : TransformE _ (Scale T) (Vec T N)).chain s t) [.mul] :=
  ⟨(Spec.Makes.note .one o.one).fin _, by rw [map_eq_pure_bind]; rfl, (Spec.Makes.note .mul _).fin _⟩
/-- `Linear`: the identity calls `one` on the diagonal and `zero` elsewhere, in row-major order. -/
theorem C101_calls_linear (o : ScalarE σ T) (l k : Linear T N) :
    let adj := (List.range N).flatMap fun i => (List.range N).flatMap fun j =>
      detCalls (N - 1) ++ if (j + i) % 2 = 1 then [Op.neg] else []
    Makes ((linearE (Spec.logged o) : TransformE _ (Linear T N) (Vec T N)).identity)
      ((List.range N).flatMap fun i => (List.range N).flatMap fun j => if i = j then [.one] else [.zero]) ∧
    Makes ((linearE (Spec.logged o)).inv l) (adj ++ detCalls N ++ List.replicate (N * N) .div) ∧
    Makes ((linearE (Spec.logged o)).chain l k) (List.replicate (N * N) (List.replicate N Op.mul ++ List.replicate (N - 1) Op.add)).flatten := by
  refine ⟨?_, (C100_calls_inv o l.lin).2.fin _, ?_⟩
  · refine Spec.Makes.fin (Mat.makes_mapM _ _ (fun i j => if i = j then [.one] else [.zero]) fun i hi j hj => ?_) _
    rw [Mat.getElem_indices i hi j hj]
    show Makes (if i = j then (Spec.logged o).one else (Spec.logged o).zero) _
    split
    · exact Spec.Makes.note _ _
    · exact Spec.Makes.note _ _
  · exact (C100_calls_products o ⟨Vector.ofFn fun i : Fin N => l.lin[i.1][i.1]⟩ ⟨Vector.ofFn fun i : Fin N => l.lin[i.1][i.1]⟩
      ⟨Vector.ofFn fun i : Fin N => l.lin[i.1][i.1]⟩ l.lin k.lin).2.2.2.fin _
/-- `Rotation2` and `Rotation3`: the identity, `inv` is a conjugation, `chain` is one product, `deriv` makes the calls of `apply`. -/
theorem C101_calls_rotation_rest (o : ScalarE σ T) (r s : Rotation2 T) (p q : Rotation3 T) (x v : Vec T 2) (y w : Vec T 3) :
    let mul := [Op.mul, .mul, .sub, .mul, .sub, .mul, .sub, .mul, .mul, .add, .mul, .add, .mul, .sub,
      .mul, .mul, .sub, .mul, .add, .mul, .add, .mul, .mul, .add, .mul, .sub, .mul, .add]
    Makes (rotation2E (Spec.logged o)).identity [.one, .zero] ∧ Makes ((rotation2E (Spec.logged o)).inv r) [.neg] ∧
    Makes ((rotation2E (Spec.logged o)).chain r s) [.mul, .mul, .sub, .mul, .mul, .add] ∧
    Makes ((rotation2E (Spec.logged o)).deriv r x v) [.mul, .mul, .sub, .mul, .mul, .add] ∧
    Makes (rotation3E (Spec.logged o)).identity [.one, .zero, .zero, .zero] ∧
    Makes ((rotation3E (Spec.logged o)).inv p) [.neg, .neg, .neg] ∧ Makes ((rotation3E (Spec.logged o)).chain p q) mul ∧
    Makes ((rotation3E (Spec.logged o)).deriv p y w) ([.zero] ++ (mul ++ ([.neg, .neg, .neg] ++ mul))) := by
  have n := fun (n : Op) (c : Eff σ T) => Spec.Makes.note n c
  refine ⟨(n .one _).bind fun _ => (n .zero _).fin _, ?_, ?_, (C101_calls_rotation o r v p w).1, ?_, ?_, ?_, (C101_calls_rotation o r v p w).2⟩
  · exact Spec.Makes.fin (Spec.Makes.fin (n .neg _) _) _
  · exact (C100_calls_complex o r.comp s.comp p.quat q.quat).1.fin _
  · exact (n .one _).bind fun _ => (n .zero _).bind fun _ => (n .zero _).bind fun _ => (n .zero _).fin _
  · exact Spec.Makes.fin ((n .neg _).bind fun _ => (n .neg _).bind fun _ => Spec.Makes.fin (n .neg _) _) _
  · exact (C100_calls_complex o r.comp s.comp p.quat q.quat).2.2.2.1.fin _

/-- `Chain` of any two transformations: `identity` is the identity of the outer, then of the inner one; `apply` applies the inner one
first; `deriv` applies the inner one to the position, then takes the two derivatives; `inv` inverts the inner one, then the outer one,
then reorders; `chain` reorders, then chains the outer ones, then the inner ones. -/
theorem C101_calls_chain {a : TransformE (σ × List Op) A X} {b : TransformE (σ × List Op) B X} {r : B → A → Eff (σ × List Op) (A × B)}
    {ai ad an aa ac bi bd bn ba bc rr : List Op}
    (hai : Makes a.identity ai) (haa : ∀ t x, Makes (a.apply t x) aa) (had : ∀ t x v, Makes (a.deriv t x v) ad)
    (han : ∀ t, Makes (a.inv t) an) (hac : ∀ t u, Makes (a.chain t u) ac)
    (hbi : Makes b.identity bi) (hba : ∀ t x, Makes (b.apply t x) ba) (hbd : ∀ t x v, Makes (b.deriv t x v) bd)
    (hbn : ∀ t, Makes (b.inv t) bn) (hbc : ∀ t u, Makes (b.chain t u) bc) (hr : ∀ t u, Makes (r t u) rr)
    (c d : Chain A B X) (x v : X) :
    Makes (chainE a b r).identity (ai ++ bi) ∧ Makes ((chainE a b r).apply c x) (ba ++ aa) ∧
    Makes ((chainE a b r).deriv c x v) (ba ++ (bd ++ ad)) ∧ Makes ((chainE a b r).inv c) (bn ++ (an ++ rr)) ∧
    Makes ((chainE a b r).chain c d) (rr ++ (ac ++ bc)) :=
  ⟨hai.bind fun _ => hbi.fin _, (hba _ _).bind fun _ => haa _ _, (hba _ _).bind fun _ => (hbd _ _ _).bind fun _ => had _ _ _,
    (hbn _).bind fun _ => (han _).bind fun _ => (hr _ _).fin _, (hr _ _).bind fun _ => (hac _ _).bind fun _ => (hbc _ _).fin _⟩
/-- Reordering: `t ∘ s = s' ∘ t` applies `t` to the shift once; `s ∘ t = t ∘ s'` inverts `t`, then applies the inverse to the shift. -/
theorem C101_calls_reorder {b : TransformE (σ × List Op) B (Vec T N)} {bn ba : List Op} (hba : ∀ t x, Makes (b.apply t x) ba)
    (hbn : ∀ t, Makes (b.inv t) bn) (t : B) (s : Shift T N) :
    Makes (reorderShiftE b t s) ba ∧ Makes (shiftReorderE b s t) (bn ++ ba) :=
  ⟨(hba _ _).fin _, (hbn _).bind fun _ => (hba _ _).fin _⟩
/-- The rest of `Affine`. -/
theorem C101_calls_affine_rest (o : ScalarE σ T) (a c : Affine T N) :
    let lin := (List.replicate N (List.replicate N Op.mul ++ List.replicate (N - 1) Op.add)).flatten
    let adj := (List.range N).flatMap fun i => (List.range N).flatMap fun j =>
      detCalls (N - 1) ++ if (j + i) % 2 = 1 then [Op.neg] else []
    Makes ((affineE (Spec.logged o) : TransformE _ (Affine T N) (Vec T N)).identity) (List.replicate N .zero ++
      (List.range N).flatMap fun i => (List.range N).flatMap fun j => if i = j then [.one] else [.zero]) ∧
    Makes ((affineE (Spec.logged o)).inv a) ((adj ++ detCalls N ++ List.replicate (N * N) .div) ++ (List.replicate N .neg ++ lin)) ∧
    Makes ((affineE (Spec.logged o)).chain a c) (lin ++ (List.replicate N .add ++
      (List.replicate (N * N) (List.replicate N Op.mul ++ List.replicate (N - 1) Op.add)).flatten)) := by
  have hs := C101_calls_shift (N := N) o
  have hl := C101_calls_linear (N := N) o
  have ha := fun (l : Linear T N) (x : Vec T N) => (C100_calls_products o x x x l.lin l.lin).2.1
  have v := a.outer.pos
  have := C101_calls_chain (hs a.outer a.outer).1 (fun t x => Vec.makes_addE o x t.pos) (fun t x v => Spec.Makes.pure v)
    (fun t => (hs t t).2.1) (fun t u => (hs t u).2.2) (hl a.inner a.inner).1 ha (fun l _ x => ha l x) (fun t => (hl t t).2.1)
    (fun t u => (hl t u).2.2) (fun t u => (C101_calls_reorder ha (fun t => (hl t t).2.1) t u).1) a c v v
  exact ⟨this.1, this.2.2.2.1, this.2.2.2.2⟩
/-- Moebius transformations. -/
theorem C101_calls_moebius (o : ScalarE σ T) (m k : Moebius T) (x : T) :
    let dot := [Op.mul, .mul, .add]
    Makes (m.applyE (Spec.logged o) x) [.mul, .add, .mul, .add, .div] ∧
    Makes (m.chainE (Spec.logged o) k) (dot ++ dot ++ dot ++ dot) ∧
    Makes (m.detE (Spec.logged o)) (detCalls 2) ∧
    Makes (m.normalizeE (Spec.logged o)) (detCalls 2 ++ [.div, .div, .div, .div]) ∧
    Makes (m.derivE (Spec.logged o) x) [.mul, .add, .mul, .add, .mul, .mul, .sub, .mul, .div] := by
  have n := fun (n : Op) (c : Eff σ T) => Spec.Makes.note n c
  refine ⟨(n .mul _).bind fun _ => (n .add _).bind fun _ => (n .mul _).bind fun _ => (n .add _).bind fun _ => n .div _, ?_,
    (C100_calls_det o m.mat 0 0).1, (C100_calls_det o m.mat 0 0).1.bind fun _ => (Mat.makes_divSE o _ _).fin _, ?_⟩
  · exact (C100_calls_products o (Vec.fromArray #v[x, x]) (Vec.fromArray #v[x, x]) (Vec.fromArray #v[x, x]) m.mat k.mat).2.2.2.fin _
  · exact (n .mul _).bind fun _ => (n .add _).bind fun _ => (n .mul _).bind fun _ => (n .add _).bind fun _ => (n .mul _).bind fun _ =>
      (n .mul _).bind fun _ => (n .sub _).bind fun _ => (n .mul _).bind fun _ => n .div _
/-- The order of evaluation of `apply` and `deriv` of a Moebius transformation, for any operators (they may panic and have side
effects): `(a * x + b) / (c * x + d)` and `(a * (c * x + d) - (a * x + b) * c) / (c * x + d)²` from left to right, the two linear
forms being evaluated once each and before the rest. -/
theorem C101_order_moebius (o : ScalarE σ T) (m : Moebius T) (x : T) :
    let num : Expr T := (m.a : Expr T) * x + m.b
    let den : Expr T := (m.c : Expr T) * x + m.d
    m.applyE o x = (do
      let n ← num.eval o
      let d ← den.eval o
      o.div n d) ∧
    m.derivE o x = (do
      let n ← num.eval o
      let d ← den.eval o
      let p ← ((m.a : Expr T) * d - (n : Expr T) * m.c).eval o
      let q ← ((d : Expr T) * d).eval o
      o.div p q) := by
  have hm : ∀ e f : Expr T, (e * f).eval o = (do let x ← e.eval o; let y ← f.eval o; o.mul x y) := fun _ _ => rfl
  have ha : ∀ e f : Expr T, (e + f).eval o = (do let x ← e.eval o; let y ← f.eval o; o.add x y) := fun _ _ => rfl
  have hs : ∀ e f : Expr T, (e - f).eval o = (do let x ← e.eval o; let y ← f.eval o; o.sub x y) := fun _ _ => rfl
  have hl : ∀ y : T, (Expr.lit y).eval o = pure y := fun _ => rfl
  constructor
  · simp only [hm, ha, hl, pure_bind, bind_assoc, Moebius.applyE]
  · simp only [hm, ha, hs, hl, pure_bind, bind_assoc, Moebius.derivE]
/-- The inverse of a Moebius transformation: four cofactors, the determinant, four divisions. -/
theorem C101_calls_moebius_inv (o : ScalarE σ T) (m : Moebius T) :
    Makes (m.invE (Spec.logged o)) ((detCalls 1 ++ (detCalls 1 ++ [.neg]) ++ (detCalls 1 ++ [.neg]) ++ detCalls 1) ++ detCalls 2 ++
      [.div, .div, .div, .div]) := (C100_calls_inv o m.mat).2.fin _
/-- Complex numbers as scalars. -/
theorem C101_calls_complex_constants (o : ScalarE σ T) (rem : Cpx T → Cpx T → Eff (σ × List Op) (Cpx T)) :
    Makes (cpxE (Spec.logged o) rem).zero [.zero, .zero] ∧ Makes (cpxE (Spec.logged o) rem).one [.one, .zero] :=
  ⟨(Spec.Makes.note .zero _).bind fun _ => (Spec.Makes.note .zero _).fin _, (Spec.Makes.note .one _).bind fun _ => (Spec.Makes.note .zero _).fin _⟩
end Vecmat
