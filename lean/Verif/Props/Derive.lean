import Verif.Model.Derive
import Verif.Lemmas.MatrixIter
import Verif.Lemmas.MatrixOps
import Verif.Lemmas.VectorOps
import Verif.Props.VectorBase
import Verif.Props.VectorOps
import Verif.Props.MatrixOps
/-!
# C79 — equality, clone and default
"`==` on vectors, matrices, complex numbers, quaternions, Möbius maps and transforms holds exactly when it holds for every pair of
corresponding components; the components are compared in (row-major) order up to the first difference. It is the conjunction of `veq`, its
negation the disjunction of `vne`. When the scalar `==` is equality of values so is the composite one; `v == v` holds exactly when no
component is unequal to itself (NaN). `clone` clones every component once in order; `default` is the default in every component."
-/
namespace Vecmat
variable {T A B X : Type} {M N : Nat} {m : Type → Type}
open Spec
open Mat hiding default

private theorem listEqM_append [Monad m] [LawfulMonad m] (eq : T → T → m Bool) (a b c d : List T) (h : a.length = b.length) :
    listEqM eq (a ++ c) (b ++ d) = (do if ← listEqM eq a b then listEqM eq c d else pure false) := by
  induction a generalizing b with
  | nil =>
    cases b with
    | nil => simp [listEqM]
    | cons => simp at h
  | cons x a ih =>
    cases b with
    | nil => simp at h
    | cons y b =>
      simp only [List.cons_append, listEqM, bind_assoc]
      congr 1; funext r
      cases r
      · simp
      · simpa using ih b (by simpa using h)
private theorem listEqM_flat [Monad m] [LawfulMonad m] (eq : T → T → m Bool) (k l : List (Vec T N)) (h : k.length = l.length) :
    listEqM (Vec.eqM eq) k l = listEqM eq (k.flatMap Vec.toList) (l.flatMap Vec.toList) := by
  induction k generalizing l with
  | nil =>
    cases l with
    | nil => simp [listEqM]
    | cons => simp at h
  | cons x k ih =>
    cases l with
    | nil => simp at h
    | cons y l =>
      rw [List.flatMap_cons, List.flatMap_cons, listEqM_append _ _ _ _ _ (by simp), listEqM, ih l (by simpa using h)]
      rfl

/-- A comparison instrumented with a log of the compared pairs. -/
def loggedEq (eq : T → T → Bool) (x y : T) : Eff (List (T × T)) Bool := Eff.ofStep fun log => (eq x y, log ++ [(x, y)])

/-- The comparison of two sequences, `k` pairs of which are compared: all of them are equal and the answer is yes, or the last compared
pair is the first difference and the answer is no. -/
def ComparedFirst (eq : T → T → Bool) (pairs : List (T × T)) (b : Bool) (k : Nat) : Prop :=
  (b = true ∧ k = pairs.length ∧ ∀ p ∈ pairs, eq p.1 p.2 = true) ∨
  (b = false ∧ ∃ i, ∃ h : i < pairs.length, k = i + 1 ∧ eq pairs[i].1 pairs[i].2 = false ∧ ∀ p ∈ pairs.take i, eq p.1 p.2 = true)

private theorem listEqM_logged (eq : T → T → Bool) (a b : List T) (h : a.length = b.length) (log : List (T × T)) :
    ∃ r k, (listEqM (loggedEq eq) a b).exec log = (.ok r, log ++ (a.zip b).take k) ∧ ComparedFirst eq (a.zip b) r k := by
  induction a generalizing b log with
  | nil =>
    cases b with
    | nil => exact ⟨true, 0, by simp [listEqM], .inl ⟨rfl, rfl, by simp⟩⟩
    | cons => simp at h
  | cons x a ih =>
    cases b with
    | nil => simp at h
    | cons y b =>
      have e : (loggedEq eq x y).exec log = (.ok (eq x y), log ++ [(x, y)]) := rfl
      cases hxy : eq x y with
      | false =>
        refine ⟨false, 1, by simp [listEqM, exec_bind, e, hxy], .inr ⟨rfl, 0, by simp, rfl, by simpa using hxy, by simp⟩⟩
      | true =>
        obtain ⟨r, k, h1, h2⟩ := ih b (by simpa using h) (log ++ [(x, y)])
        refine ⟨r, k + 1, by simp [listEqM, exec_bind, e, hxy, h1], ?_⟩
        rcases h2 with ⟨rfl, rfl, h3⟩ | ⟨rfl, i, hi, rfl, h3, h4⟩
        · refine .inl ⟨rfl, by simp, ?_⟩
          intro p hp
          simp only [List.zip_cons_cons, List.mem_cons] at hp
          rcases hp with rfl | hp
          · exact hxy
          · exact h3 p hp
        · refine .inr ⟨rfl, i + 1, by simpa using hi, rfl, by simpa using h3, ?_⟩
          intro p hp
          simp only [List.zip_cons_cons, List.take_succ_cons, List.mem_cons] at hp
          rcases hp with rfl | hp
          · exact hxy
          · exact h4 p hp

/-- The components are compared in index order, stopping at the first difference. -/
theorem C79_vector_calls (eq : T → T → Bool) (v w : Vec T N) :
    ∃ r k, (v.eqM (loggedEq eq) w).exec [] = (.ok r, (v.toList.zip w.toList).take k) ∧
      ComparedFirst eq (v.toList.zip w.toList) r k := by
  exact listEqM_logged eq v.toList w.toList (by simp) []
/-- Matrices: in row-major order, for any comparison with effects … -/
theorem C79_matrix_order [Monad m] [LawfulMonad m] (eq : T → T → m Bool) (C D : Mat T M N) :
    C.eqM eq D = listEqM eq (rowMajor C) (rowMajor D) := by
  rw [rowMajor_eq, rowMajor_eq]
  exact listEqM_flat eq C.data.toList D.data.toList (by simp)
/-- … stopping at the first difference. -/
theorem C79_matrix_calls (eq : T → T → Bool) (C D : Mat T M N) :
    ∃ r k, (C.eqM (loggedEq eq) D).exec [] = (.ok r, ((rowMajor C).zip (rowMajor D)).take k) ∧
      ComparedFirst eq ((rowMajor C).zip (rowMajor D)) r k := by
  rw [C79_matrix_order]
  exact listEqM_logged eq (rowMajor C) (rowMajor D) (by rw [length_rowMajor, length_rowMajor]) []

private theorem listEqM_iff (eq : T → T → Bool) (a b : List T) (h : a.length = b.length) :
    Id.run (listEqM (m := Id) (fun x y => pure (eq x y)) a b) = true ↔
      ∀ i (h1 : i < a.length) (h2 : i < b.length), eq a[i] b[i] = true := by
  induction a generalizing b with
  | nil =>
    cases b with
    | nil => simp [listEqM]
    | cons => simp at h
  | cons x a ih =>
    cases b with
    | nil => simp at h
    | cons y b =>
      have ih := ih b (by simpa using h)
      cases hxy : eq x y with
      | false =>
        simp only [listEqM, hxy, pure_bind]
        constructor
        · intro h; simp at h
        · intro h; have := h 0 (by simp) (by simp); simp [hxy] at this
      | true =>
        simp only [listEqM, hxy, pure_bind]
        rw [if_pos trivial, ih]
        constructor
        · intro h i h1 h2
          cases i with
          | zero => simpa using hxy
          | succ i => simpa using h i (by simpa using h1) (by simpa using h2)
        · intro h i h1 h2
          exact h (i + 1) (by simpa using h1) (by simpa using h2)

section
variable [BEq T]
/-- `v == w` exactly when every pair of components is `==`. -/
theorem C79_vector (v w : Vec T N) : v.beq w = true ↔ ∀ i (h : i < N), (v[i] == w[i]) = true := by
  rw [Vec.beq, Vec.eqM]
  have := listEqM_iff (fun x y : T => x == y) v.toList w.toList (by simp)
  refine this.trans ?_
  simp
theorem C79_matrix (C D : Mat T M N) : C.beq D = true ↔ ∀ i (h : i < M) j (h' : j < N), ((C[i]'h)[j] == (D[i]'h)[j]) = true := by
  rw [Mat.beq, Mat.eqM, Vec.eqM]
  have := listEqM_iff (fun x y : Vec T N => x.beq y) C.data.toList D.data.toList (by simp)
  refine this.trans ?_
  simp only [C79_vector]
  simp
  rfl
theorem C79_complex (z w : Cpx T) : z.beq w = true ↔ (z.re == w.re) = true ∧ (z.im == w.im) = true := by
  rw [show z.beq w = z.vec.beq w.vec from rfl, C79_vector]
  constructor
  · intro h; exact ⟨h 0 (by omega), h 1 (by omega)⟩
  · rintro ⟨h0, h1⟩ i hi
    interval_cases i
    · exact h0
    · exact h1
theorem C79_quaternion (p q : Quat T) : p.beq q = true ↔
    (p.w == q.w) = true ∧ (p.x == q.x) = true ∧ (p.y == q.y) = true ∧ (p.z == q.z) = true := by
  rw [show p.beq q = p.vec.beq q.vec from rfl, C79_vector]
  constructor
  · intro h; exact ⟨h 0 (by omega), h 1 (by omega), h 2 (by omega), h 3 (by omega)⟩
  · rintro ⟨h0, h1, h2, h3⟩ i hi
    interval_cases i
    · exact h0
    · exact h1
    · exact h2
    · exact h3
theorem C79_moebius (a b : Moebius T) : a.beq b = true ↔
    (a.a == b.a) = true ∧ (a.b == b.b) = true ∧ (a.c == b.c) = true ∧ (a.d == b.d) = true := by
  rw [show a.beq b = a.mat.beq b.mat from rfl, C79_matrix]
  constructor
  · intro h; exact ⟨h 0 (by omega) 0 (by omega), h 0 (by omega) 1 (by omega), h 1 (by omega) 0 (by omega), h 1 (by omega) 1 (by omega)⟩
  · rintro ⟨h0, h1, h2, h3⟩ i hi j hj
    interval_cases i <;> interval_cases j
    · exact h0
    · exact h1
    · exact h2
    · exact h3
/-- Transforms are equal exactly when the vector, number, matrix, complex number or quaternion they are made of is. -/
theorem C79_transforms (s t : Shift T N) (a b : Scale T) (k l : Linear T N) (r r' : Rotation2 T) (q q' : Rotation3 T) :
    s.beq t = s.intoVector.beq t.intoVector ∧ a.beq b = (a.intoMag == b.intoMag) ∧ k.beq l = k.intoMatrix.beq l.intoMatrix ∧
    r.beq r' = r.intoComplex.beq r'.intoComplex ∧ q.beq q' = q.intoQuaternion.beq q'.intoQuaternion := ⟨rfl, rfl, rfl, rfl, rfl⟩
/-- Chains are equal exactly when both parts are. -/
theorem C79_chain (eqA : A → A → Bool) (eqB : B → B → Bool) (c d : Chain A B X) :
    Chain.beq eqA eqB c d = true ↔ eqA c.split.1 d.split.1 = true ∧ eqB c.split.2 d.split.2 = true := by
  unfold Chain.beq Chain.eqM andM Chain.split
  cases h : eqA c.outer d.outer <;> simp [h]

/-- Chains: the outer transformations are compared first; the inner ones are compared, in the state left behind, only if those are equal, and
then they decide; a panic of the outer comparison is passed on without comparing the inner ones. -/
theorem C79_chain_calls {σ : Type} (eqA : A → A → Eff σ Bool) (eqB : B → B → Eff σ Bool) (c d : Chain A B X) (s : σ) :
    (∀ s', (eqA c.split.1 d.split.1).exec s = (.ok false, s') → (c.eqM eqA eqB d).exec s = (.ok false, s')) ∧
    (∀ s', (eqA c.split.1 d.split.1).exec s = (.ok true, s') → (c.eqM eqA eqB d).exec s = (eqB c.split.2 d.split.2).exec s') ∧
    (∀ e s', (eqA c.split.1 d.split.1).exec s = (.error e, s') → (c.eqM eqA eqB d).exec s = (.error e, s')) := by
  refine ⟨fun s' h => ?_, fun s' h => ?_, fun e s' h => ?_⟩ <;>
    (change (eqA c.outer d.outer).exec s = _ at h; rw [Chain.eqM, andM, exec_bind, h]) <;> simp <;> rfl
omit [BEq T] in
/-- Complex numbers, quaternions, Möbius transformations and transforms: the components in the order of the accessors, for any comparison with
effects (`listEqM` stops at the first difference, see `C79_vector_calls`). -/
theorem C79_composite_order [Monad m] [LawfulMonad m] (eq : T → T → m Bool) (z w : Cpx T) (p q : Quat T) (a b : Moebius T)
    (s t : Shift T N) (k l : Scale T) (f g : Linear T N) (r r' : Rotation2 T) (o o' : Rotation3 T) :
    z.eqM eq w = listEqM eq [z.re, z.im] [w.re, w.im] ∧
    p.eqM eq q = listEqM eq [p.w, p.x, p.y, p.z] [q.w, q.x, q.y, q.z] ∧
    a.eqM eq b = listEqM eq [a.a, a.b, a.c, a.d] [b.a, b.b, b.c, b.d] ∧
    s.eqM eq t = listEqM eq s.intoVector.toList t.intoVector.toList ∧
    k.eqM eq l = eq k.intoMag l.intoMag ∧
    f.eqM eq g = listEqM eq (rowMajor f.intoMatrix) (rowMajor g.intoMatrix) ∧
    r.eqM eq r' = listEqM eq [r.intoComplex.re, r.intoComplex.im] [r'.intoComplex.re, r'.intoComplex.im] ∧
    o.eqM eq o' = listEqM eq [o.intoQuaternion.w, o.intoQuaternion.x, o.intoQuaternion.y, o.intoQuaternion.z]
      [o'.intoQuaternion.w, o'.intoQuaternion.x, o'.intoQuaternion.y, o'.intoQuaternion.z] := by
  have h2 : ∀ v : Vec T 2, v.data.toList = [v[0], v[1]] := fun v => by
    rw [show v.data.toList = v.toList from rfl, Vec.toList_eq_ofFn]; simp [List.ofFn_succ]
  have h4 : ∀ v : Vec T 4, v.data.toList = [v[0], v[1], v[2], v[3]] := fun v => by
    rw [show v.data.toList = v.toList from rfl, Vec.toList_eq_ofFn]; simp [List.ofFn_succ]
  have hm : ∀ C : Mat T 2 2, rowMajor C = [C[0][0], C[0][1], C[1][0], C[1][1]] := fun C => by
    simp [rowMajor, List.finRange_succ]
  have hz : ∀ z w : Cpx T, z.eqM eq w = listEqM eq [z.re, z.im] [w.re, w.im] := fun z w => by
    rw [Cpx.eqM, Vec.eqM, h2, h2]; rfl
  have hq : ∀ p q : Quat T, p.eqM eq q = listEqM eq [p.w, p.x, p.y, p.z] [q.w, q.x, q.y, q.z] := fun p q => by
    rw [Quat.eqM, Vec.eqM, h4, h4]; rfl
  refine ⟨hz z w, hq p q, ?_, rfl, rfl, C79_matrix_order eq f.lin g.lin, hz _ _, hq _ _⟩
  rw [Moebius.eqM, C79_matrix_order, hm, hm]; rfl

/-- `==` is the conjunction of `veq`, its negation the disjunction of `vne`. -/
theorem C79_vector_veq (v w : Vec T N) : v.beq w = (v.veq w).all ∧ (!v.beq w) = (v.vne w).any := by
  have e1 : (v.veq w).all = true ↔ ∀ i (h : i < N), (v[i] == w[i]) = true := by
    unfold Vec.all
    rw [List.all_eq_true]
    constructor
    · intro h i hi
      have := h (v.veq w)[i] (by rw [← Vec.getElem_toList (v.veq w) i (by simpa using hi)]; exact List.getElem_mem _)
      simpa [Vec.veq] using this
    · intro h b hb
      obtain ⟨i, hi, rfl⟩ := List.getElem_of_mem hb
      simpa [Vec.veq] using h i (by simpa using hi)
  have e2 : (v.vne w).any = true ↔ ∃ i, ∃ h : i < N, (v[i] == w[i]) = false := by
    unfold Vec.any
    rw [List.any_eq_true]
    constructor
    · rintro ⟨b, hb, h⟩
      obtain ⟨i, hi, rfl⟩ := List.getElem_of_mem hb
      exact ⟨i, by simpa using hi, by simpa [Vec.vne, bne] using h⟩
    · rintro ⟨i, hi, h⟩
      refine ⟨(v.vne w)[i], ?_, by simpa [Vec.vne, bne] using h⟩
      rw [← Vec.getElem_toList (v.vne w) i (by simpa using hi)]; exact List.getElem_mem _
  have e3 := C79_vector v w
  constructor
  · rw [Bool.eq_iff_iff, e1, e3]
  · rw [Bool.eq_iff_iff, e2, Bool.not_eq_true', ← Bool.not_eq_true, e3]
    push Not
    simp
/-- `v == v` exactly when every component is equal to itself: with a NaN component a vector is different from itself. -/
theorem C79_reflexive (v : Vec T N) (C : Mat T M N) :
    (v.beq v = true ↔ ∀ i (h : i < N), (v[i] == v[i]) = true) ∧
    (C.beq C = true ↔ ∀ i (h : i < M) j (h' : j < N), ((C[i]'h)[j] == (C[i]'h)[j]) = true) := ⟨C79_vector v v, C79_matrix C C⟩
/-- Symmetry and transitivity are inherited from the scalars. -/
theorem C79_symm (hs : ∀ x y : T, (x == y) = (y == x)) (v w : Vec T N) (C D : Mat T M N) : v.beq w = w.beq v ∧ C.beq D = D.beq C := by
  constructor
  · rw [Bool.eq_iff_iff, C79_vector, C79_vector]
    constructor
    · intro h i hi; rw [hs]; exact h i hi
    · intro h i hi; rw [hs]; exact h i hi
  · rw [Bool.eq_iff_iff, C79_matrix, C79_matrix]
    constructor
    · intro h i hi j hj; rw [hs]; exact h i hi j hj
    · intro h i hi j hj; rw [hs]; exact h i hi j hj
theorem C79_trans (ht : ∀ x y z : T, (x == y) = true → (y == z) = true → (x == z) = true) (u v w : Vec T N) (C D E : Mat T M N) :
    (u.beq v = true → v.beq w = true → u.beq w = true) ∧ (C.beq D = true → D.beq E = true → C.beq E = true) := by
  constructor
  · rw [C79_vector, C79_vector, C79_vector]; exact fun h1 h2 i hi => ht _ _ _ (h1 i hi) (h2 i hi)
  · rw [C79_matrix, C79_matrix, C79_matrix]; exact fun h1 h2 i hi j hj => ht _ _ _ (h1 i hi j hj) (h2 i hi j hj)
/-- When the scalar `==` is equality of values, so is the one of every type. -/
theorem C79_lawful [LawfulBEq T] (v w : Vec T N) (C D : Mat T M N) (z z' : Cpx T) (p q : Quat T) (a b : Moebius T)
    (s s' : Shift T N) (k k' : Scale T) (l l' : Linear T N) (r r' : Rotation2 T) (o o' : Rotation3 T) :
    (v.beq w = true ↔ v = w) ∧ (C.beq D = true ↔ C = D) ∧ (z.beq z' = true ↔ z = z') ∧ (p.beq q = true ↔ p = q) ∧
    (a.beq b = true ↔ a = b) ∧ (s.beq s' = true ↔ s = s') ∧ (k.beq k' = true ↔ k = k') ∧ (l.beq l' = true ↔ l = l') ∧
    (r.beq r' = true ↔ r = r') ∧ (o.beq o' = true ↔ o = o') := by
  have hv : ∀ {n : Nat} (v w : Vec T n), v.beq w = true ↔ v = w := by
    intro n v w
    rw [C79_vector]
    simp only [beq_iff_eq]
    exact ⟨fun h => Vec.ext_getElem h, by rintro rfl _ _; rfl⟩
  have hm : ∀ {m n : Nat} (C D : Mat T m n), C.beq D = true ↔ C = D := by
    intro m n C D
    rw [C79_matrix]
    simp only [beq_iff_eq]
    exact ⟨fun h => Mat.ext_getElem h, by rintro rfl _ _ _ _; rfl⟩
  refine ⟨hv v w, hm C D, ?_, ?_, ?_, ?_, ?_, ?_, ?_, ?_⟩
  · exact (hv z.vec z'.vec).trans Cpx.ext_iff.symm
  · exact (hv p.vec q.vec).trans Quat.ext_iff.symm
  · exact (hm a.mat b.mat).trans Moebius.ext_iff.symm
  · exact (hv s.pos s'.pos).trans Shift.ext_iff.symm
  · rw [(C79_transforms s s' k k' l l' r r' o o').2.1, beq_iff_eq]; exact Scale.ext_iff.symm
  · exact (hm l.lin l'.lin).trans Linear.ext_iff.symm
  · exact (hv r.comp.vec r'.comp.vec).trans (Cpx.ext_iff.symm.trans Rotation2.ext_iff.symm)
  · exact (hv o.quat.vec o'.quat.vec).trans (Quat.ext_iff.symm.trans Rotation3.ext_iff.symm)
end

/-! ## clone and default -/

/-- `clone` clones every component once, in index (row-major) order, for any `clone` with effects. -/
theorem C79_clone_calls [Monad m] [LawfulMonad m] (clone : T → m T) (v : Vec T N) (C : Mat T M N) :
    Vec.toList <$> v.cloneM clone = (List.ofFn fun i : Fin N => v[i.1]).mapM clone ∧
    rowMajor <$> C.cloneM clone = (rowMajor C).mapM clone :=
  ⟨C04_map_calls clone v, rowMajor_mapM clone C⟩
/-- A component that is cloned faithfully gives a faithful clone. -/
theorem C79_clone_id (clone : T → T) (h : ∀ x, clone x = x) (v : Vec T N) (C : Mat T M N) :
    Id.run (v.cloneM (m := Id) fun x => pure (clone x)) = v ∧ Id.run (C.cloneM (m := Id) fun x => pure (clone x)) = C := by
  have hv : ∀ {n : Nat} (v : Vec T n), v.map clone = v := fun v => Vec.ext_getElem fun i hi => by simp [h]
  refine ⟨hv v, ?_⟩
  change (⟨C.data.map fun r => r.map clone⟩ : Mat T M N) = C
  have : C.data.map (fun r => r.map clone) = C.data := Vec.ext_getElem fun i hi => by simp [hv]
  rw [this]
theorem C79_default [Inhabited T] : (Cpx.default : Cpx T).re = (Inhabited.default : T) ∧ (Cpx.default : Cpx T).im = (Inhabited.default : T) ∧
    (Quat.default : Quat T).w = (Inhabited.default : T) ∧ (Quat.default : Quat T).x = (Inhabited.default : T) ∧ (Quat.default : Quat T).y = (Inhabited.default : T) ∧
    (Quat.default : Quat T).z = (Inhabited.default : T) := by
  simp [Cpx.default, Quat.default, Cpx.re, Cpx.im, Quat.w, Quat.x, Quat.y, Quat.z]

example : (⟨#v[1, 2, 3]⟩ : Vec Nat 3).beq ⟨#v[1, 5, 3]⟩ = false := by decide
example : ((⟨#v[1, 2, 3]⟩ : Vec Nat 3).eqM (loggedEq fun x y => x == y) ⟨#v[1, 5, 3]⟩).exec [] = (.ok false, [(1, 1), (2, 5)]) := by decide
-- the second part is not looked at when the first ones differ
example : ((⟨1, 2⟩ : Chain Nat Nat Unit).eqM (loggedEq fun x y => x == y) (loggedEq fun x y => x == y) ⟨3, 2⟩).exec [] = (.ok false, [(1, 3)]) ∧
    ((⟨1, 2⟩ : Chain Nat Nat Unit).eqM (loggedEq fun x y => x == y) (loggedEq fun x y => x == y) ⟨1, 4⟩).exec [] = (.ok false, [(1, 1), (2, 4)]) := by decide
-- NaN-like scalars: `none` is different from everything, so the first vector is different from itself
private structure NanNat where
  val : Option Nat
private instance : BEq NanNat := ⟨fun a b => match a.val, b.val with | some x, some y => x == y | _, _ => false⟩
example : (⟨#v[⟨some 1⟩, ⟨none⟩]⟩ : Vec NanNat 2).beq ⟨#v[⟨some 1⟩, ⟨none⟩]⟩ = false ∧
    (⟨#v[⟨some 1⟩, ⟨some 2⟩]⟩ : Vec NanNat 2).beq ⟨#v[⟨some 1⟩, ⟨some 2⟩]⟩ = true := by decide

/-! ## further cases: the hypotheses are satisfiable -/
example := C79_symm (T := Nat) (fun x y => BEq.comm) (⟨#v[1, 2]⟩ : Vec Nat 2) ⟨#v[1, 3]⟩ (Mat.fromArrArr #v[#v[1, 2]]) (Mat.fromArrArr #v[#v[1, 2]])
example := C79_trans (T := Nat) (fun x y z => by simp; rintro rfl rfl; rfl) (⟨#v[1, 2]⟩ : Vec Nat 2) ⟨#v[1, 2]⟩ ⟨#v[1, 2]⟩
  (Mat.fromArrArr #v[#v[1, 2]]) (Mat.fromArrArr #v[#v[1, 2]]) (Mat.fromArrArr #v[#v[1, 2]])
example := C79_clone_id (T := Nat) id (fun _ => rfl) (⟨#v[1, 2]⟩ : Vec Nat 2) (Mat.fromArrArr #v[#v[1, 2]])

end Vecmat
