import Verif.Lemmas.Quaternion
/-!
Helper lemmas: the modelled functions are parametric in the scalar operations.  If two scalar types are related by a
relation closed under the operations, related inputs give related outputs.
-/
namespace Vecmat
variable {T S : Type} {L M N : Nat}

/-- A relation between two scalar types closed under `+`, `-`, unary `-`, `*`, `0` and `1`. -/
structure OpRel (T S : Type) [Add T] [Sub T] [Neg T] [Mul T] [Zero T] [One T]
    [Add S] [Sub S] [Neg S] [Mul S] [Zero S] [One S] (r : T → S → Prop) : Prop where
  add : ∀ {a b c d}, r a b → r c d → r (a + c) (b + d)
  sub : ∀ {a b c d}, r a b → r c d → r (a - c) (b - d)
  mul : ∀ {a b c d}, r a b → r c d → r (a * c) (b * d)
  neg : ∀ {a b}, r a b → r (-a) (-b)
  zero : r 0 0
  one : r 1 1

/-- Component-wise lifting to vectors. -/
def RelV (r : T → S → Prop) (v : Vec T N) (w : Vec S N) : Prop := ∀ i (hi : i < N), r v[i] w[i]
/-- Component-wise lifting to matrices. -/
def RelM (r : T → S → Prop) (A : Mat T M N) (B : Mat S M N) : Prop := ∀ i (hi : i < M) j (hj : j < N), r A[i][j] B[i][j]
/-- Component-wise lifting to complex numbers. -/
def RelC (r : T → S → Prop) (z : Cpx T) (w : Cpx S) : Prop := r z.re w.re ∧ r z.im w.im
/-- Component-wise lifting to quaternions. -/
def RelQ (r : T → S → Prop) (p : Quat T) (q : Quat S) : Prop := r p.w q.w ∧ r p.x q.x ∧ r p.y q.y ∧ r p.z q.z

theorem foldl_rel (r : T → S → Prop) {f : T → T → T} {g : S → S → S}
    (hfg : ∀ {a b c d}, r a b → r c d → r (f a c) (g b d)) {l : List T} {k : List S} (h : List.Forall₂ r l k)
    {a : T} {b : S} (hab : r a b) : r (l.foldl f a) (k.foldl g b) := by
  induction h generalizing a b with
  | nil => simpa using hab
  | cons h _ ih => simpa using ih (hfg hab h)

theorem ofFn_rel {r : T → S → Prop} {n : Nat} {f : Fin n → T} {g : Fin n → S} (h : ∀ i, r (f i) (g i)) :
    List.Forall₂ r (List.ofFn f) (List.ofFn g) := by
  rw [List.forall₂_iff_get]
  refine ⟨by simp, fun i h1 h2 => by simpa using h _⟩

namespace Vec
theorem foldFirst_rel [NeZero N] {r : T → S → Prop} {f : T → T → T} {g : S → S → S}
    (hfg : ∀ {a b c d}, r a b → r c d → r (f a c) (g b d)) {v : Vec T N} {w : Vec S N} (h : RelV r v w) :
    r (v.foldFirst f) (w.foldFirst g) := by
  obtain ⟨n, rfl⟩ : ∃ n, N = n + 1 := ⟨N - 1, by have := NeZero.ne N; omega⟩
  rw [foldFirst_congr (foldFirstR_succ f v), foldFirst_congr (foldFirstR_succ g w)]
  exact foldl_rel r hfg (ofFn_rel fun i => h _ _) (h _ _)
end Vec

section
variable [Add T] [Sub T] [Neg T] [Mul T] [Zero T] [One T] [Add S] [Sub S] [Neg S] [Mul S] [Zero S] [One S]
  {r : T → S → Prop} (hr : OpRel T S r)
include hr
namespace OpRel

theorem vAdd {v v' : Vec T N} {w w' : Vec S N} (h : RelV r v w) (h' : RelV r v' w') : RelV r (v + v') (w + w') := by
  intro i hi; simpa using hr.add (h i hi) (h' i hi)
theorem vSub {v v' : Vec T N} {w w' : Vec S N} (h : RelV r v w) (h' : RelV r v' w') : RelV r (v - v') (w - w') := by
  intro i hi; simpa using hr.sub (h i hi) (h' i hi)
theorem vMul {v v' : Vec T N} {w w' : Vec S N} (h : RelV r v w) (h' : RelV r v' w') : RelV r (v * v') (w * w') := by
  intro i hi; simpa using hr.mul (h i hi) (h' i hi)
theorem vNeg {v : Vec T N} {w : Vec S N} (h : RelV r v w) : RelV r (-v) (-w) := by
  intro i hi; simpa using hr.neg (h i hi)
theorem vMulS {v : Vec T N} {w : Vec S N} {a b} (h : RelV r v w) (hab : r a b) : RelV r (v.mulS a) (w.mulS b) := by
  intro i hi; simpa using hr.mul (h i hi) hab
theorem vSum [NeZero N] {v : Vec T N} {w : Vec S N} (h : RelV r v w) : r v.sum w.sum :=
  Vec.foldFirst_rel hr.add h
theorem vDot [NeZero N] {v v' : Vec T N} {w w' : Vec S N} (h : RelV r v w) (h' : RelV r v' w') :
    r (v.dot v') (w.dot w') := by
  refine vSum hr fun i hi => ?_
  simpa using hr.mul (h i hi) (h' i hi)
theorem vSquareLength [NeZero N] {v : Vec T N} {w : Vec S N} (h : RelV r v w) : r v.squareLength w.squareLength := by
  refine vSum hr fun i hi => ?_
  simpa using hr.mul (h i hi) (h i hi)
theorem cross2 {v v' : Vec T 2} {w w' : Vec S 2} (h : RelV r v w) (h' : RelV r v' w') :
    r (v.cross2 v') (w.cross2 w') := by
  simpa [Vec.cross2] using hr.sub (hr.mul (h 0 (by omega)) (h' 1 (by omega))) (hr.mul (h 1 (by omega)) (h' 0 (by omega)))
theorem cross3 {v v' : Vec T 3} {w w' : Vec S 3} (h : RelV r v w) (h' : RelV r v' w') :
    RelV r (v.cross3 v') (w.cross3 w') := by
  have m := fun i hi j hj => hr.mul (h i hi) (h' j hj)
  intro i hi
  match i, hi with
  | 0, _ => simpa [Vec.cross3, Vec.fromArray] using hr.sub (m 1 (by omega) 2 (by omega)) (m 2 (by omega) 1 (by omega))
  | 1, _ => simpa [Vec.cross3, Vec.fromArray] using hr.sub (m 2 (by omega) 0 (by omega)) (m 0 (by omega) 2 (by omega))
  | 2, _ => simpa [Vec.cross3, Vec.fromArray] using hr.sub (m 0 (by omega) 1 (by omega)) (m 1 (by omega) 0 (by omega))

theorem mAdd {A A' : Mat T M N} {B B' : Mat S M N} (h : RelM r A B) (h' : RelM r A' B') : RelM r (A + A') (B + B') := by
  intro i hi j hj; simpa using hr.add (h i hi j hj) (h' i hi j hj)
theorem mMulS {A : Mat T M N} {B : Mat S M N} {a b} (h : RelM r A B) (hab : r a b) : RelM r (A.mulS a) (B.mulS b) := by
  intro i hi j hj; simpa using hr.mul (h i hi j hj) hab
theorem mDotVR [NeZero N] {A : Mat T M N} {B : Mat S M N} {v : Vec T N} {w : Vec S N} (h : RelM r A B) (h' : RelV r v w) :
    ∃ x y, A.dotVR v = .ok x ∧ B.dotVR w = .ok y ∧ RelV r x y :=
  ⟨_, _, Mat.dotVR_get A v, Mat.dotVR_get B w, fun i hi => by
    simpa using vDot hr (v := A[i]) (w := B[i]) (fun j hj => h i hi j hj) h'⟩
theorem mDotMR [NeZero M] {A : Mat T L M} {B : Mat S L M} {A' : Mat T M N} {B' : Mat S M N} (h : RelM r A B)
    (h' : RelM r A' B') : ∃ x y, A.dotMR A' = .ok x ∧ B.dotMR B' = .ok y ∧ RelM r x y :=
  ⟨_, _, Mat.dotMR_get A A', Mat.dotMR_get B B', fun i hi j hj => by
    simpa using vDot hr (v := A[i]) (w := B[i]) (v' := A'.colOf j hj) (w' := B'.colOf j hj)
      (fun j hj => h i hi j hj) (fun k hk => by simpa using h' k hk j hj)⟩

theorem sgn {k : Nat} {a b} (h : r a b) : r (Mat.sgn k a) (Mat.sgn k b) := by
  unfold Mat.sgn; split
  · exact hr.neg h
  · exact h
theorem lap {f : Nat → Nat → T} {g : Nat → Nat → S} (h : ∀ i j, r (f i j) (g i j)) (R C : List Nat) :
    r (Mat.lap f R C) (Mat.lap g R C) := by
  induction R generalizing C with
  | nil => exact hr.one
  | cons i R ih =>
    unfold Mat.lap
    generalize List.range C.length = l
    have : ∀ (a : T) (b : S), r a b →
        r (l.foldl (fun a k => a + f i (C[k]?.getD 0) * Mat.sgn k (Mat.lap f R (C.eraseIdx k))) a)
          (l.foldl (fun a k => a + g i (C[k]?.getD 0) * Mat.sgn k (Mat.lap g R (C.eraseIdx k))) b) := by
      induction l with
      | nil => intro a b hab; simpa using hab
      | cons k l ihl => intro a b hab; exact ihl _ _ (hr.add hab (hr.mul (h _ _) (sgn hr (ih _))))
    exact this _ _ hr.zero
theorem ent {A : Mat T N N} {B : Mat S N N} (h : RelM r A B) (i j : Nat) : r (Mat.ent A i j) (Mat.ent B i j) := by
  unfold Mat.ent; split
  · exact h _ _ _ _
  · exact hr.zero
theorem det {A : Mat T N N} {B : Mat S N N} (h : RelM r A B) : r A.det B.det := by
  rw [show A.det = _ from Res.get_eq (Mat.detR_eq A) _, show B.det = _ from Res.get_eq (Mat.detR_eq B) _]
  exact lap hr (ent hr h) _ _
theorem adj {A : Mat T N N} {B : Mat S N N} (h : RelM r A B) : RelM r A.adj B.adj := by
  obtain ⟨A', hA, hA'⟩ := Mat.adjR_ok A
  obtain ⟨B', hB, hB'⟩ := Mat.adjR_ok B
  rw [show A.adj = _ from Res.get_eq hA _, show B.adj = _ from Res.get_eq hB _]
  intro i hi j hj
  rw [hA', hB']
  exact sgn hr (lap hr (ent hr h) _ _)

theorem cAdd {z z' : Cpx T} {w w' : Cpx S} (h : RelC r z w) (h' : RelC r z' w') : RelC r (z + z') (w + w') :=
  ⟨by simpa using hr.add h.1 h'.1, by simpa using hr.add h.2 h'.2⟩
theorem cMul {z z' : Cpx T} {w w' : Cpx S} (h : RelC r z w) (h' : RelC r z' w') : RelC r (z * z') (w * w') :=
  ⟨by simpa using hr.sub (hr.mul h.1 h'.1) (hr.mul h.2 h'.2),
   by simpa using hr.add (hr.mul h.1 h'.2) (hr.mul h.2 h'.1)⟩
theorem cNormSqr {z : Cpx T} {w : Cpx S} (h : RelC r z w) : r z.normSqr w.normSqr := by
  refine vSquareLength hr fun i hi => ?_
  match i, hi with
  | 0, _ => simpa using h.1
  | 1, _ => simpa using h.2
theorem qMul {p p' : Quat T} {q q' : Quat S} (h : RelQ r p q) (h' : RelQ r p' q') : RelQ r (p * p') (q * q') := by
  obtain ⟨a, b, c, d⟩ := h
  obtain ⟨a', b', c', d'⟩ := h'
  refine ⟨?_, ?_, ?_, ?_⟩
  · simpa using hr.sub (hr.sub (hr.sub (hr.mul a a') (hr.mul b b')) (hr.mul c c')) (hr.mul d d')
  · simpa using hr.sub (hr.add (hr.add (hr.mul a b') (hr.mul b a')) (hr.mul c d')) (hr.mul d c')
  · simpa using hr.add (hr.add (hr.sub (hr.mul a c') (hr.mul b d')) (hr.mul c a')) (hr.mul d b')
  · simpa using hr.add (hr.sub (hr.add (hr.mul a d') (hr.mul b c')) (hr.mul c b')) (hr.mul d a')
theorem qConj {p : Quat T} {q : Quat S} (h : RelQ r p q) : RelQ r p.conj q.conj :=
  ⟨by simpa using h.1, by simpa using hr.neg h.2.1, by simpa using hr.neg h.2.2.1, by simpa using hr.neg h.2.2.2⟩
theorem qNormSqr {p : Quat T} {q : Quat S} (h : RelQ r p q) : r p.normSqr q.normSqr := by
  refine vSquareLength hr fun i hi => ?_
  match i, hi with
  | 0, _ => simpa using h.1
  | 1, _ => simpa using h.2.1
  | 2, _ => simpa using h.2.2.1
  | 3, _ => simpa using h.2.2.2

end OpRel
end
end Vecmat
