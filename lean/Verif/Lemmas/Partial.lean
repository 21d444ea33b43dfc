import Verif.Lemmas.ScalarEff
import Verif.Model.TransformEff
/-!
# Runs with partial operators follow runs with total operators
`Rel c d`: whenever `c` returns, `d` returns the same value. It is a congruence for all functions of `Model/ScalarEff.lean` and
`Model/TransformEff.lean`.
-/
namespace Vecmat
open Spec
variable {T U S α β γ σ A B X : Type} {L M N : Nat}

def Rel (c : Eff σ α) (d : Eff Unit α) : Prop := ∀ s x t, c.exec s = (.ok x, t) → d.exec () = (.ok x, ())

theorem Rel.pure (x : α) : Rel (σ := σ) (Pure.pure x) (Pure.pure x) := by
  intro s y t h
  have h : ((Except.ok x : Res α), s) = (.ok y, t) := h
  simp only [Prod.mk.injEq, Except.ok.injEq] at h
  rw [← h.1]; rfl
theorem Rel.throw (e : Fault) (d : Eff Unit α) : Rel (σ := σ) (throw e) d := by
  intro s y t h
  have h : ((Except.error e : Res α), s) = (.ok y, t) := h
  simp at h
theorem Rel.bind {c : Eff σ α} {d : Eff Unit α} {f : α → Eff σ β} {g : α → Eff Unit β} (h : Rel c d) (h' : ∀ x, Rel (f x) (g x)) :
    Rel (c >>= f) (d >>= g) := by
  intro s y t hy
  rw [exec_bind] at hy
  rcases hc : c.exec s with ⟨e | x, s1⟩
  · rw [hc] at hy; simp at hy
  · rw [hc] at hy
    rw [exec_bind_ok (h s x s1 hc)]
    exact h' x s1 y t hy
theorem Rel.liftRes (r : Res α) : Rel (σ := σ) (liftRes r) (liftRes r) := by
  rcases r with e | x
  · exact Rel.throw e _
  · exact Rel.pure x
theorem Rel.unwrap (x : Option α) : Rel (σ := σ) (unwrap x) (unwrap x) := by
  rcases x with _ | x
  · exact Rel.throw _ _
  · exact Rel.pure x
theorem Rel.foldlM {f : S → T → Eff σ S} {g : S → T → Eff Unit S} (h : ∀ a x, Rel (f a x) (g a x)) (l : List T) (a : S) :
    Rel (l.foldlM f a) (l.foldlM g a) := by
  induction l generalizing a with
  | nil => exact Rel.pure a
  | cons x l ih =>
    rw [List.foldlM_cons, List.foldlM_cons]
    exact (h a x).bind ih
theorem Rel.listMapM {f : T → Eff σ U} {g : T → Eff Unit U} (h : ∀ x, Rel (f x) (g x)) (l : List T) : Rel (listMapM f l) (listMapM g l) := by
  induction l with
  | nil => exact Rel.pure _
  | cons x l ih => exact (h x).bind fun y => ih.bind fun r => Rel.pure _
theorem Rel.vecMapM {f : T → Eff σ U} {g : T → Eff Unit U} (h : ∀ x, Rel (f x) (g x)) (v : Vec T N) : Rel (v.mapM f) (v.mapM g) :=
  (Rel.listMapM h _).bind fun _ => Rel.pure _
theorem Rel.matMapM {f : T → Eff σ U} {g : T → Eff Unit U} (h : ∀ x, Rel (f x) (g x)) (A : Mat T M N) : Rel (A.mapM f) (A.mapM g) :=
  (Rel.vecMapM (fun a => Rel.vecMapM h a) _).bind fun _ => Rel.pure _
theorem Rel.vecFoldFirstM {f : T → T → Eff σ T} {g : T → T → Eff Unit T} (h : ∀ x y, Rel (f x y) (g x y)) (v : Vec T N) :
    Rel (v.foldFirstM f) (v.foldFirstM g) := (Rel.unwrap _).bind fun _ => Rel.foldlM h _ _
theorem Rel.matFoldFirstM {f : T → T → Eff σ T} {g : T → T → Eff Unit T} (h : ∀ x y, Rel (f x y) (g x y)) (A : Mat T M N) :
    Rel (A.foldFirstM f) (A.foldFirstM g) :=
  (Rel.unwrap _).bind fun _ => (Rel.vecFoldFirstM h _).bind fun _ => Rel.foldlM (fun _ a => Rel.foldlM h _ _) _ _
theorem Rel.forRange {f : Nat → S → Eff σ S} {g : Nat → S → Eff Unit S} (h : ∀ i a, Rel (f i a) (g i a)) (n i : Nat) (a : S) :
    Rel (forRange n i a f) (forRange n i a g) := by
  induction n generalizing i a with
  | zero => exact Rel.pure a
  | succ n ih => exact (h i a).bind fun b => ih (i + 1) b
theorem Rel.initM {f : Eff σ T} {g : Eff Unit T} (h : Rel f g) : Rel (Vec.initM (N := N) f) (Vec.initM g) :=
  (Rel.forRange (fun _ _ => h.bind fun _ => Rel.pure _) _ _ _).bind fun _ => Rel.liftRes _

/-- `o` follows `p`. -/
structure RelO (o : ScalarE σ T) (p : ScalarE Unit T) : Prop where
  add : ∀ x y, Rel (o.add x y) (p.add x y)
  sub : ∀ x y, Rel (o.sub x y) (p.sub x y)
  mul : ∀ x y, Rel (o.mul x y) (p.mul x y)
  div : ∀ x y, Rel (o.div x y) (p.div x y)
  rem : ∀ x y, Rel (o.rem x y) (p.rem x y)
  neg : ∀ x, Rel (o.neg x) (p.neg x)
  zero : Rel o.zero p.zero
  one : Rel o.one p.one

variable {o : ScalarE σ T} {p : ScalarE Unit T}

theorem RelO.eval (h : RelO o p) (e : Expr T) : Rel (e.eval o) (e.eval p) := by
  induction e with
  | lit x => exact Rel.pure x
  | zero => exact h.zero
  | one => exact h.one
  | neg a ih => exact ih.bind h.neg
  | add a b iha ihb => exact iha.bind fun x => ihb.bind fun y => h.add x y
  | sub a b iha ihb => exact iha.bind fun x => ihb.bind fun y => h.sub x y
  | mul a b iha ihb => exact iha.bind fun x => ihb.bind fun y => h.mul x y

namespace Vec
variable (h : RelO o p)
include h
theorem rel_neg (v : Vec T N) : Rel (v.negE o) (v.negE p) := Rel.vecMapM h.neg _
theorem rel_add (v w : Vec T N) : Rel (v.addE o w) (v.addE p w) := Rel.vecMapM (fun _ => h.add _ _) _
theorem rel_sub (v w : Vec T N) : Rel (v.subE o w) (v.subE p w) := Rel.vecMapM (fun _ => h.sub _ _) _
theorem rel_mul (v w : Vec T N) : Rel (v.mulE o w) (v.mulE p w) := Rel.vecMapM (fun _ => h.mul _ _) _
theorem rel_div (v w : Vec T N) : Rel (v.divE o w) (v.divE p w) := Rel.vecMapM (fun _ => h.div _ _) _
theorem rel_rem (v w : Vec T N) : Rel (v.remE o w) (v.remE p w) := Rel.vecMapM (fun _ => h.rem _ _) _
theorem rel_mulS (v : Vec T N) (a : T) : Rel (v.mulSE o a) (v.mulSE p a) := Rel.vecMapM (fun _ => h.mul _ _) _
theorem rel_divS (v : Vec T N) (a : T) : Rel (v.divSE o a) (v.divSE p a) := Rel.vecMapM (fun _ => h.div _ _) _
theorem rel_remS (v : Vec T N) (a : T) : Rel (v.remSE o a) (v.remSE p a) := Rel.vecMapM (fun _ => h.rem _ _) _
theorem rel_sum (v : Vec T N) : Rel (v.sumE o) (v.sumE p) := Rel.vecFoldFirstM h.add _
theorem rel_dot (v w : Vec T N) : Rel (v.dotE o w) (v.dotE p w) :=
  (Rel.vecMapM (fun _ => h.mul _ _) _).bind fun v => rel_sum h v
theorem rel_squareLength (v : Vec T N) : Rel (v.squareLengthE o) (v.squareLengthE p) :=
  (Rel.vecMapM (fun _ => h.mul _ _) _).bind fun v => rel_sum h v
theorem rel_mulSub (a b c d : T) : Rel (mulSubE o a b c d) (mulSubE p a b c d) :=
  (h.mul _ _).bind fun _ => (h.mul _ _).bind fun _ => h.sub _ _
theorem rel_cross2 (a b : Vec T 2) : Rel (a.cross2E o b) (a.cross2E p b) := rel_mulSub h _ _ _ _
theorem rel_cross3 (a b : Vec T 3) : Rel (a.cross3E o b) (a.cross3E p b) :=
  (rel_mulSub h _ _ _ _).bind fun _ => (rel_mulSub h _ _ _ _).bind fun _ => (rel_mulSub h _ _ _ _).bind fun _ => Rel.pure _
theorem rel_cross4 (a b : Vec T 4) : Rel (a.cross4E o b) (a.cross4E p b) :=
  (rel_mulSub h _ _ _ _).bind fun _ => (rel_mulSub h _ _ _ _).bind fun _ => (rel_mulSub h _ _ _ _).bind fun _ =>
    h.zero.bind fun _ => Rel.pure _
end Vec

namespace Mat
variable (h : RelO o p)
include h
theorem rel_neg (A : Mat T M N) : Rel (A.negE o) (A.negE p) := Rel.matMapM h.neg _
theorem rel_add (A B : Mat T M N) : Rel (A.addE o B) (A.addE p B) := Rel.matMapM (fun _ => h.add _ _) _
theorem rel_sub (A B : Mat T M N) : Rel (A.subE o B) (A.subE p B) := Rel.matMapM (fun _ => h.sub _ _) _
theorem rel_mul (A B : Mat T M N) : Rel (A.mulE o B) (A.mulE p B) := Rel.matMapM (fun _ => h.mul _ _) _
theorem rel_div (A B : Mat T M N) : Rel (A.divE o B) (A.divE p B) := Rel.matMapM (fun _ => h.div _ _) _
theorem rel_rem (A B : Mat T M N) : Rel (A.remE o B) (A.remE p B) := Rel.matMapM (fun _ => h.rem _ _) _
theorem rel_mulS (A : Mat T M N) (a : T) : Rel (A.mulSE o a) (A.mulSE p a) := Rel.matMapM (fun _ => h.mul _ _) _
theorem rel_divS (A : Mat T M N) (a : T) : Rel (A.divSE o a) (A.divSE p a) := Rel.matMapM (fun _ => h.div _ _) _
theorem rel_remS (A : Mat T M N) (a : T) : Rel (A.remSE o a) (A.remSE p a) := Rel.matMapM (fun _ => h.rem _ _) _
theorem rel_sum (A : Mat T M N) : Rel (A.sumE o) (A.sumE p) := Rel.matFoldFirstM h.add _
theorem rel_outer (v : Vec T M) (w : Vec T N) : Rel (outerE o v w) (outerE p v w) :=
  Rel.matMapM (fun _ => (Rel.liftRes _).bind fun _ => (Rel.liftRes _).bind fun _ => h.mul _ _) _
theorem rel_dotV (A : Mat T M N) (v : Vec T N) : Rel (A.dotVE o v) (A.dotVE p v) :=
  Rel.vecMapM (fun _ => (Rel.liftRes _).bind fun _ => Vec.rel_dot h _ _) _
theorem rel_vDot (v : Vec T M) (A : Mat T M N) : Rel (vDotE o v A) (vDotE p v A) :=
  Rel.vecMapM (fun _ => (Rel.liftRes _).bind fun _ => Vec.rel_dot h _ _) _
theorem rel_dotM (A : Mat T L M) (B : Mat T M N) : Rel (A.dotME o B) (A.dotME p B) :=
  Rel.matMapM (fun _ => (Rel.liftRes _).bind fun _ => (Rel.liftRes _).bind fun _ => Vec.rel_dot h _ _) _
theorem rel_det (A : Mat T N N) : Rel (A.detE o) (A.detE p) := by
  rw [detE_eq, detE_eq]; exact h.eval _
theorem rel_cofactor (A : Mat T N N) (i j : Nat) : Rel (A.cofactorE o i j) (A.cofactorE p i j) := by
  by_cases hij : i < N ∧ j < N
  · rw [cofactorE_eq o A i j hij.1 hij.2, cofactorE_eq p A i j hij.1 hij.2]
    refine (h.eval _).bind fun x => ?_
    unfold sgnE
    split
    · exact h.neg x
    · exact Rel.pure x
  · rw [cofactorE, if_neg hij]; exact Rel.throw _ _
theorem rel_adj (A : Mat T N N) : Rel (A.adjE o) (A.adjE p) := Rel.matMapM (fun _ => rel_cofactor h _ _ _) _
theorem rel_inv (A : Mat T N N) : Rel (A.invE o) (A.invE p) :=
  (rel_adj h A).bind fun _ => (rel_det h A).bind fun _ => rel_divS h _ _
end Mat

namespace Cpx
variable (h : RelO o p)
include h
theorem rel_neg (z : Cpx T) : Rel (z.negE o) (z.negE p) := (Vec.rel_neg h _).bind fun _ => Rel.pure _
theorem rel_conj (z : Cpx T) : Rel (z.conjE o) (z.conjE p) := (h.neg _).bind fun _ => Rel.pure _
theorem rel_add (z w : Cpx T) : Rel (z.addE o w) (z.addE p w) := (Vec.rel_add h _ _).bind fun _ => Rel.pure _
theorem rel_sub (z w : Cpx T) : Rel (z.subE o w) (z.subE p w) := (Vec.rel_sub h _ _).bind fun _ => Rel.pure _
theorem rel_mul (z w : Cpx T) : Rel (z.mulE o w) (z.mulE p w) :=
  (h.mul _ _).bind fun _ => (h.mul _ _).bind fun _ => (h.sub _ _).bind fun _ => (h.mul _ _).bind fun _ => (h.mul _ _).bind fun _ =>
    (h.add _ _).bind fun _ => Rel.pure _
theorem rel_inv (z : Cpx T) : Rel (z.invE o) (z.invE p) :=
  (rel_conj h z).bind fun _ => (Vec.rel_squareLength h _).bind fun _ => (Vec.rel_divS h _ _).bind fun _ => Rel.pure _
theorem rel_div (z w : Cpx T) : Rel (z.divE o w) (z.divE p w) := (rel_inv h w).bind fun _ => rel_mul h _ _
end Cpx

namespace Quat
variable (h : RelO o p)
include h
theorem rel_conj (q : Quat T) : Rel (q.conjE o) (q.conjE p) :=
  (h.neg _).bind fun _ => (h.neg _).bind fun _ => (h.neg _).bind fun _ => Rel.pure _
theorem rel_comp {f g k : T → T → Eff σ T} {f' g' k' : T → T → Eff Unit T} (hf : ∀ x y, Rel (f x y) (f' x y))
    (hg : ∀ x y, Rel (g x y) (g' x y)) (hk : ∀ x y, Rel (k x y) (k' x y)) (a b c d e l m n : T) :
    Rel (compE o f g k a b c d e l m n) (compE p f' g' k' a b c d e l m n) :=
  (h.mul _ _).bind fun _ => (h.mul _ _).bind fun _ => (hf _ _).bind fun _ => (h.mul _ _).bind fun _ => (hg _ _).bind fun _ =>
    (h.mul _ _).bind fun _ => hk _ _
theorem rel_mul (q r : Quat T) : Rel (q.mulE o r) (q.mulE p r) :=
  (rel_comp h h.sub h.sub h.sub _ _ _ _ _ _ _ _).bind fun _ => (rel_comp h h.add h.add h.sub _ _ _ _ _ _ _ _).bind fun _ =>
    (rel_comp h h.sub h.add h.add _ _ _ _ _ _ _ _).bind fun _ => (rel_comp h h.add h.sub h.add _ _ _ _ _ _ _ _).bind fun _ =>
      Rel.pure _
theorem rel_inv (q : Quat T) : Rel (q.invE o) (q.invE p) :=
  (rel_conj h q).bind fun _ => (Vec.rel_squareLength h _).bind fun _ => (Vec.rel_divS h _ _).bind fun _ => Rel.pure _
theorem rel_div (q r : Quat T) : Rel (q.divE o r) (q.divE p r) := (rel_inv h r).bind fun _ => rel_mul h _ _
end Quat

/-- `a` follows `b`. -/
structure RelT (a : TransformE σ A X) (b : TransformE Unit A X) : Prop where
  identity : Rel a.identity b.identity
  inv : ∀ t, Rel (a.inv t) (b.inv t)
  apply : ∀ t x, Rel (a.apply t x) (b.apply t x)
  deriv : ∀ t x v, Rel (a.deriv t x v) (b.deriv t x v)
  chain : ∀ t u, Rel (a.chain t u) (b.chain t u)

theorem relT_shift (h : RelO o p) : RelT (X := Vec T N) (shiftE o) (shiftE p) where
  identity := (Rel.initM h.zero).bind fun _ => Rel.pure _
  inv _ := (Vec.rel_neg h _).bind fun _ => Rel.pure _
  apply _ _ := Vec.rel_add h _ _
  deriv _ _ v := Rel.pure v
  chain _ _ := (Vec.rel_add h _ _).bind fun _ => Rel.pure _
theorem relT_scale (h : RelO o p) {r : T → Eff σ T} {r' : T → Eff Unit T} (hr : ∀ x, Rel (r x) (r' x)) :
    RelT (X := Vec T N) (scaleE o r) (scaleE p r') where
  identity := h.one.bind fun _ => Rel.pure _
  inv _ := (hr _).bind fun _ => Rel.pure _
  apply _ _ := Vec.rel_mulS h _ _
  deriv _ _ _ := Vec.rel_mulS h _ _
  chain _ _ := (h.mul _ _).bind fun _ => Rel.pure _
theorem relT_linear (h : RelO o p) : RelT (X := Vec T N) (linearE o) (linearE p) where
  identity := (Rel.matMapM (fun _ => by split; exacts [h.one, h.zero]) _).bind fun _ => Rel.pure _
  inv _ := (Mat.rel_inv h _).bind fun _ => Rel.pure _
  apply _ _ := Mat.rel_dotV h _ _
  deriv _ _ _ := Mat.rel_dotV h _ _
  chain _ _ := (Mat.rel_dotM h _ _).bind fun _ => Rel.pure _
theorem relT_rotation2 (h : RelO o p) : RelT (rotation2E o) (rotation2E p) where
  identity := h.one.bind fun _ => h.zero.bind fun _ => Rel.pure _
  inv _ := (Cpx.rel_conj h _).bind fun _ => Rel.pure _
  apply _ _ := (Cpx.rel_mul h _ _).bind fun _ => Rel.pure _
  deriv _ _ _ := (Cpx.rel_mul h _ _).bind fun _ => Rel.pure _
  chain _ _ := (Cpx.rel_mul h _ _).bind fun _ => Rel.pure _
theorem rel_rotation3Apply (h : RelO o p) (r : Rotation3 T) (v : Vec T 3) : Rel (rotation3ApplyE o r v) (rotation3ApplyE p r v) :=
  h.zero.bind fun _ => (Quat.rel_mul h _ _).bind fun _ => (Quat.rel_conj h _).bind fun _ => (Quat.rel_mul h _ _).bind fun _ => Rel.pure _
theorem relT_rotation3 (h : RelO o p) : RelT (rotation3E o) (rotation3E p) where
  identity := h.one.bind fun _ => h.zero.bind fun _ => h.zero.bind fun _ => h.zero.bind fun _ => Rel.pure _
  inv _ := (Quat.rel_conj h _).bind fun _ => Rel.pure _
  apply _ _ := rel_rotation3Apply h _ _
  deriv _ _ _ := rel_rotation3Apply h _ _
  chain _ _ := (Quat.rel_mul h _ _).bind fun _ => Rel.pure _
theorem rel_reorderShift {a : TransformE σ B (Vec T N)} {b : TransformE Unit B (Vec T N)} (h : RelT a b) (t : B) (s : Shift T N) :
    Rel (reorderShiftE a t s) (reorderShiftE b t s) := (h.apply _ _).bind fun _ => Rel.pure _
theorem rel_shiftReorder {a : TransformE σ B (Vec T N)} {b : TransformE Unit B (Vec T N)} (h : RelT a b) (s : Shift T N) (t : B) :
    Rel (shiftReorderE a s t) (shiftReorderE b s t) := (h.inv _).bind fun _ => (h.apply _ _).bind fun _ => Rel.pure _
theorem relT_chain {a : TransformE σ A X} {a' : TransformE Unit A X} (ha : RelT a a') {b : TransformE σ B X} {b' : TransformE Unit B X}
    (hb : RelT b b') {r : B → A → Eff σ (A × B)} {r' : B → A → Eff Unit (A × B)} (hr : ∀ x y, Rel (r x y) (r' x y)) :
    RelT (chainE a b r) (chainE a' b' r') where
  identity := ha.identity.bind fun _ => hb.identity.bind fun _ => Rel.pure _
  inv _ := (hb.inv _).bind fun _ => (ha.inv _).bind fun _ => (hr _ _).bind fun _ => Rel.pure _
  apply _ _ := (hb.apply _ _).bind fun _ => ha.apply _ _
  deriv _ _ _ := (hb.apply _ _).bind fun _ => (hb.deriv _ _ _).bind fun _ => ha.deriv _ _ _
  chain _ _ := (hr _ _).bind fun _ => (ha.chain _ _).bind fun _ => (hb.chain _ _).bind fun _ => Rel.pure _
theorem relT_affine (h : RelO o p) : RelT (X := Vec T N) (affineE o) (affineE p) :=
  relT_chain (relT_shift h) (relT_linear h) fun _ _ => rel_reorderShift (relT_linear h) _ _

theorem relO_cpx (h : RelO o p) {r : Cpx T → Cpx T → Eff σ (Cpx T)} {r' : Cpx T → Cpx T → Eff Unit (Cpx T)}
    (hr : ∀ x y, Rel (r x y) (r' x y)) : RelO (cpxE o r) (cpxE p r') where
  add := Cpx.rel_add h
  sub := Cpx.rel_sub h
  mul := Cpx.rel_mul h
  div := Cpx.rel_div h
  rem := hr
  neg := Cpx.rel_neg h
  zero := h.zero.bind fun _ => h.zero.bind fun _ => Rel.pure _
  one := h.one.bind fun _ => h.zero.bind fun _ => Rel.pure _

namespace Moebius
variable (h : RelO o p)
include h
theorem rel_apply (m : Moebius T) (x : T) : Rel (m.applyE o x) (m.applyE p x) :=
  (h.mul _ _).bind fun _ => (h.add _ _).bind fun _ => (h.mul _ _).bind fun _ => (h.add _ _).bind fun _ => h.div _ _
theorem rel_chain (m k : Moebius T) : Rel (m.chainE o k) (m.chainE p k) := (Mat.rel_dotM h _ _).bind fun _ => Rel.pure _
theorem rel_det (m : Moebius T) : Rel (m.detE o) (m.detE p) := Mat.rel_det h _
theorem rel_inv (m : Moebius T) : Rel (m.invE o) (m.invE p) := (Mat.rel_inv h _).bind fun _ => Rel.pure _
theorem rel_normalize (m : Moebius T) : Rel (m.normalizeE o) (m.normalizeE p) :=
  (rel_det h m).bind fun _ => (Mat.rel_divS h _ _).bind fun _ => Rel.pure _
theorem rel_deriv (m : Moebius T) (x : T) : Rel (m.derivE o x) (m.derivE p x) :=
  (h.mul _ _).bind fun _ => (h.add _ _).bind fun _ => (h.mul _ _).bind fun _ => (h.add _ _).bind fun _ => (h.mul _ _).bind fun _ =>
    (h.mul _ _).bind fun _ => (h.sub _ _).bind fun _ => (h.mul _ _).bind fun _ => h.div _ _
end Moebius
end Vecmat
