import Verif.Lemmas.ScalarEff
import Verif.Props.MachineInt
import Mathlib.Tactic.IntervalCases
/-! # C100: scalar types whose operators panic or have side effects -/
namespace Vecmat
open Spec
variable {T U α β σ : Type} {L M N : Nat}

/-! ## sequences of calls -/

theorem mapM_eq_inOrder (f : α → Eff σ β) (l : List α) : l.mapM f = inOrder (l.map f) := by
  induction l with
  | nil => rfl
  | cons x l ih => rw [List.mapM_cons, ih]; rfl
theorem Vec.toList_mapM_inOrder (f : T → Eff σ U) (v : Vec T N) :
    Vec.toList <$> v.mapM f = inOrder (List.ofFn fun i : Fin N => f v[i.1]) := by
  rw [Vec.toList_mapM, mapM_eq_inOrder, Vec.toList_eq_ofFn, List.map_ofFn]; rfl
theorem Mat.rowMajor_mapM_inOrder (f : T → Eff σ U) (A : Mat T M N) :
    rowMajor <$> A.mapM f =
      inOrder ((List.finRange M).flatMap fun i => (List.finRange N).map fun j => f A[i.1][j.1]) := by
  rw [Mat.rowMajor_mapM, mapM_eq_inOrder, rowMajor, List.map_flatMap]
  simp [Function.comp_def]

/-- What it means for a sequence of calls to return: every call was made, in order, each in the state the previous one left. -/
theorem C100_in_order_returns (cs : List (Eff σ α)) (s t : σ) (xs : List α) :
    (inOrder cs).exec s = (.ok xs, t) ↔ xs.length = cs.length ∧ ∃ st : Nat → σ, st 0 = s ∧ st cs.length = t ∧
      ∀ i (h : i < cs.length) (h' : i < xs.length), cs[i].exec (st i) = (.ok xs[i], st (i + 1)) := by
  induction cs generalizing s xs with
  | nil =>
    constructor
    · intro h
      have h : (Except.ok [], s) = (Except.ok xs, t) := h
      simp only [Prod.mk.injEq, Except.ok.injEq] at h
      obtain ⟨rfl, rfl⟩ := h
      exact ⟨rfl, fun _ => s, rfl, rfl, fun i h => absurd h (by simp)⟩
    · rintro ⟨h, st, h0, h1, -⟩
      have : xs = [] := List.length_eq_zero_iff.1 h
      subst this
      have : s = t := h0.symm.trans h1
      subst this
      rfl
  | cons c cs ih =>
    rw [inOrder, exec_bind]
    rcases hc : c.exec s with ⟨e | x, s1⟩
    · simp only [reduceCtorEq, Prod.mk.injEq, false_and, false_iff]
      rintro ⟨hl, st, h0, -, h2⟩
      have := h2 0 (by simp) (by rw [hl]; simp)
      rw [h0] at this
      simp only [List.getElem_cons_zero] at this
      rw [hc] at this; simp at this
    · simp only
      rw [exec_bind]
      rcases hr : (inOrder cs).exec s1 with ⟨e | ys, s2⟩
      · simp only [reduceCtorEq, Prod.mk.injEq, false_and, false_iff]
        rintro ⟨hl, st, h0, h1, h2⟩
        cases xs with
        | nil => simp at hl
        | cons y ys =>
          have e0 := h2 0 (by simp) (by simp)
          rw [h0] at e0
          simp only [List.getElem_cons_zero] at e0
          rw [hc] at e0
          simp only [Prod.mk.injEq, Except.ok.injEq] at e0
          have := (ih s1 ys).2 ⟨by simpa using hl, fun n => st (n + 1), e0.2.symm, h1, fun i h h' => by
            exact h2 (i + 1) (Nat.succ_lt_succ h) (Nat.succ_lt_succ h')⟩
          rw [hr] at this; simp at this
      · simp only [exec_pure, Prod.mk.injEq, Except.ok.injEq]
        constructor
        · rintro ⟨rfl, rfl⟩
          obtain ⟨hl, st, h0, h1, h2⟩ := (ih s1 ys).1 hr
          refine ⟨by simp [hl], fun n => if n = 0 then s else st (n - 1), rfl, by simpa using h1, fun i h h' => ?_⟩
          cases i with
          | zero => simp [hc, h0]
          | succ i => simpa using h2 i (by simpa using h) (by simpa using h')
        · rintro ⟨hl, st, h0, h1, h2⟩
          cases xs with
          | nil => simp at hl
          | cons y zs =>
            have e0 := h2 0 (by simp) (by simp)
            rw [h0] at e0
            simp only [List.getElem_cons_zero] at e0
            rw [hc] at e0
            simp only [Prod.mk.injEq, Except.ok.injEq] at e0
            have := (ih s1 zs).2 ⟨by simpa using hl, fun n => st (n + 1), e0.2.symm, h1, fun i h h' => by
              exact h2 (i + 1) (Nat.succ_lt_succ h) (Nat.succ_lt_succ h')⟩
            rw [hr] at this
            simp only [Prod.mk.injEq, Except.ok.injEq] at this
            rw [e0.1, this.1, this.2]
            exact ⟨rfl, rfl⟩

/-- What it means for a sequence of calls to panic: the calls before the `k`-th one returned, the `k`-th one panicked, and no
further call was made. -/
theorem C100_in_order_panics (cs : List (Eff σ α)) (s t : σ) (e : Fault) :
    (inOrder cs).exec s = (.error e, t) ↔ ∃ (k : Nat) (hk : k < cs.length) (st : Nat → σ), st 0 = s ∧
      (∀ i (h : i < k), ∃ x, cs[i].exec (st i) = (.ok x, st (i + 1))) ∧ cs[k].exec (st k) = (.error e, t) := by
  induction cs generalizing s with
  | nil =>
    constructor
    · intro h
      have h : (Except.ok [], s) = ((Except.error e : Res (List α)), t) := h
      simp at h
    · rintro ⟨k, hk, -⟩; simp at hk
  | cons c cs ih =>
    rw [inOrder, exec_bind]
    rcases hc : c.exec s with ⟨e1 | x, s1⟩
    · simp only [Prod.mk.injEq, Except.error.injEq]
      constructor
      · rintro ⟨rfl, rfl⟩
        exact ⟨0, by simp, fun _ => s, rfl, fun i h => absurd h (by simp), hc⟩
      · rintro ⟨k, hk, st, h0, h1, h2⟩
        cases k with
        | zero =>
          rw [h0] at h2
          simp only [List.getElem_cons_zero] at h2
          rw [hc] at h2
          simpa using h2
        | succ k =>
          obtain ⟨x, hx⟩ := h1 0 (by simp)
          rw [h0] at hx
          simp only [List.getElem_cons_zero] at hx
          rw [hc] at hx; simp at hx
    · simp only
      rw [exec_bind]
      have key : (inOrder cs).exec s1 = (.error e, t) ↔ ∃ (k : Nat) (hk : k < (c :: cs).length) (st : Nat → σ), st 0 = s ∧
          (∀ i (h : i < k), ∃ x, (c :: cs)[i].exec (st i) = (.ok x, st (i + 1))) ∧ (c :: cs)[k].exec (st k) = (.error e, t) := by
        rw [ih]
        constructor
        · rintro ⟨k, hk, st, h0, h1, h2⟩
          refine ⟨k + 1, by simpa using hk, fun n => if n = 0 then s else st (n - 1), rfl, fun i h => ?_, by simpa using h2⟩
          cases i with
          | zero => exact ⟨x, by simp [hc, h0]⟩
          | succ i => obtain ⟨y, hy⟩ := h1 i (by omega); exact ⟨y, by simpa using hy⟩
        · rintro ⟨k, hk, st, h0, h1, h2⟩
          cases k with
          | zero =>
            rw [h0] at h2
            simp only [List.getElem_cons_zero] at h2
            rw [hc] at h2; simp at h2
          | succ k =>
            obtain ⟨y, hy⟩ := h1 0 (by simp)
            rw [h0] at hy
            simp only [List.getElem_cons_zero] at hy
            rw [hc] at hy
            simp only [Prod.mk.injEq, Except.ok.injEq] at hy
            refine ⟨k, by simpa using hk, fun n => st (n + 1), hy.2.symm, fun i h => ?_, by simpa using h2⟩
            obtain ⟨z, hz⟩ := h1 (i + 1) (by omega)
            exact ⟨z, by simpa using hz⟩
      rw [← key]
      rcases hr : (inOrder cs).exec s1 with ⟨e2 | ys, s2⟩ <;> simp

/-! ## which calls are made -/
namespace Vec
theorem toList_binE (f : T → T → Eff σ T) (v w : Vec T N) :
    Vec.toList <$> binE f v w = inOrder (List.ofFn fun i : Fin N => f v[i.1] w[i.1]) := by
  rw [binE, toList_mapM_inOrder]; simp
end Vec
namespace Mat
theorem rowMajor_binE (f : T → T → Eff σ T) (A B : Mat T M N) : rowMajor <$> binE f A B =
    inOrder ((List.finRange M).flatMap fun i => (List.finRange N).map fun j => f A[i.1][j.1] B[i.1][j.1]) := by
  rw [binE, rowMajor_mapM_inOrder]; simp
end Mat

/-- Component-wise operators call the scalar operator once per component, in index order. -/
theorem C100_vector (o : ScalarE σ T) (v w : Vec T N) (a : T) :
    Vec.toList <$> v.negE o = inOrder (List.ofFn fun i : Fin N => o.neg v[i.1]) ∧
    Vec.toList <$> v.addE o w = inOrder (List.ofFn fun i : Fin N => o.add v[i.1] w[i.1]) ∧
    Vec.toList <$> v.subE o w = inOrder (List.ofFn fun i : Fin N => o.sub v[i.1] w[i.1]) ∧
    Vec.toList <$> v.mulE o w = inOrder (List.ofFn fun i : Fin N => o.mul v[i.1] w[i.1]) ∧
    Vec.toList <$> v.divE o w = inOrder (List.ofFn fun i : Fin N => o.div v[i.1] w[i.1]) ∧
    Vec.toList <$> v.remE o w = inOrder (List.ofFn fun i : Fin N => o.rem v[i.1] w[i.1]) ∧
    Vec.toList <$> v.mulSE o a = inOrder (List.ofFn fun i : Fin N => o.mul v[i.1] a) ∧
    Vec.toList <$> v.divSE o a = inOrder (List.ofFn fun i : Fin N => o.div v[i.1] a) ∧
    Vec.toList <$> v.remSE o a = inOrder (List.ofFn fun i : Fin N => o.rem v[i.1] a) :=
  ⟨Vec.toList_mapM_inOrder _ _, Vec.toList_binE _ _ _, Vec.toList_binE _ _ _, Vec.toList_binE _ _ _, Vec.toList_binE _ _ _,
    Vec.toList_binE _ _ _, Vec.toList_mapM_inOrder _ _, Vec.toList_mapM_inOrder _ _, Vec.toList_mapM_inOrder _ _⟩

/-- The same for matrices, in row-major order. -/
theorem C100_matrix (o : ScalarE σ T) (A B : Mat T M N) (a : T) :
    let each := fun c : Fin M → Fin N → Eff σ T => inOrder ((List.finRange M).flatMap fun i => (List.finRange N).map fun j => c i j)
    rowMajor <$> A.negE o = each (fun i j => o.neg A[i.1][j.1]) ∧
    rowMajor <$> A.addE o B = each (fun i j => o.add A[i.1][j.1] B[i.1][j.1]) ∧
    rowMajor <$> A.subE o B = each (fun i j => o.sub A[i.1][j.1] B[i.1][j.1]) ∧
    rowMajor <$> A.mulE o B = each (fun i j => o.mul A[i.1][j.1] B[i.1][j.1]) ∧
    rowMajor <$> A.divE o B = each (fun i j => o.div A[i.1][j.1] B[i.1][j.1]) ∧
    rowMajor <$> A.remE o B = each (fun i j => o.rem A[i.1][j.1] B[i.1][j.1]) ∧
    rowMajor <$> A.mulSE o a = each (fun i j => o.mul A[i.1][j.1] a) ∧
    rowMajor <$> A.divSE o a = each (fun i j => o.div A[i.1][j.1] a) ∧
    rowMajor <$> A.remSE o a = each (fun i j => o.rem A[i.1][j.1] a) :=
  ⟨Mat.rowMajor_mapM_inOrder _ _, Mat.rowMajor_binE _ _ _, Mat.rowMajor_binE _ _ _, Mat.rowMajor_binE _ _ _, Mat.rowMajor_binE _ _ _,
    Mat.rowMajor_binE _ _ _, Mat.rowMajor_mapM_inOrder _ _, Mat.rowMajor_mapM_inOrder _ _, Mat.rowMajor_mapM_inOrder _ _⟩

theorem Vec.sumE_eq (o : ScalarE σ T) (v : Vec T N) : v.sumE o = addUp o v.toList := by
  unfold Vec.sumE Vec.foldFirstM
  cases v.toList with
  | nil => rfl
  | cons x l => simp [addUp]

/-- `sum` adds from the left; `dot` makes all multiplications first, in index order, and then the additions. -/
theorem C100_dot (o : ScalarE σ T) (v w : Vec T N) :
    v.sumE o = addUp o (List.ofFn fun i : Fin N => v[i.1]) ∧
    v.dotE o w = (do
      let p ← inOrder (List.ofFn fun i : Fin N => o.mul v[i.1] w[i.1])
      addUp o p) ∧
    v.squareLengthE o = (do
      let p ← inOrder (List.ofFn fun i : Fin N => o.mul v[i.1] v[i.1])
      addUp o p) := by
  refine ⟨?_, ?_, ?_⟩
  · rw [Vec.sumE_eq, Vec.toList_eq_ofFn]
  · have := Vec.toList_binE o.mul v w
    rw [← this, Vec.binE, Vec.dotE]
    simp [Vec.sumE_eq]
  · rw [← Vec.toList_mapM_inOrder (fun x => o.mul x x) v, Vec.squareLengthE]
    simp [Vec.sumE_eq]


theorem Vec.dotE_eq (o : ScalarE σ T) (v w : Vec T N) :
    v.dotE o w = (inOrder (List.ofFn fun i : Fin N => o.mul v[i.1] w[i.1]) >>= addUp o) := (C100_dot o v w).2.1

/-- Outer product, matrix-vector, vector-matrix and matrix-matrix product: the components in (row-major) order, each of them with all
multiplications first and then the additions. -/
theorem C100_products (o : ScalarE σ T) (u : Vec T L) (v : Vec T M) (w : Vec T N) (A : Mat T L M) (B : Mat T M N) :
    rowMajor <$> Mat.outerE o v w =
      inOrder ((List.finRange M).flatMap fun i => (List.finRange N).map fun j => o.mul v[i.1] w[j.1]) ∧
    Vec.toList <$> A.dotVE o v = inOrder (List.ofFn fun i : Fin L =>
      inOrder (List.ofFn fun k : Fin M => o.mul A[i.1][k.1] v[k.1]) >>= addUp o) ∧
    Vec.toList <$> Mat.vDotE o u A = inOrder (List.ofFn fun j : Fin M =>
      inOrder (List.ofFn fun k : Fin L => o.mul u[k.1] A[k.1][j.1]) >>= addUp o) ∧
    rowMajor <$> A.dotME o B = inOrder ((List.finRange L).flatMap fun i => (List.finRange N).map fun j =>
      inOrder (List.ofFn fun k : Fin M => o.mul A[i.1][k.1] B[k.1][j.1]) >>= addUp o) := by
  refine ⟨?_, ?_, ?_, ?_⟩
  · rw [Mat.outerE, Mat.rowMajor_mapM_inOrder]
    simp [Vec.index_lt]
  · rw [Mat.dotVE, Vec.toList_mapM_inOrder]
    simp [Mat.rowR_lt, Vec.dotE_eq]
  · rw [Mat.vDotE, Vec.toList_mapM_inOrder]
    simp [Mat.colR_lt, Vec.dotE_eq, Mat.colOf]
  · rw [Mat.dotME, Mat.rowMajor_mapM_inOrder]
    simp [Mat.colR_lt, Mat.rowR_lt, Vec.dotE_eq, Mat.colOf]

/-! ## determinant -/

/-- `det` evaluates the Laplace expansion along the first row, from left to right; `cofactor` that of the minor, then the sign; an
index out of range panics before any call. -/
theorem C100_det (o : ScalarE σ T) (A : Mat T N N) (i j : Nat) :
    A.detE o = (laplace (fun i j : Fin N => A[i.1][j.1]) (List.finRange N) (List.finRange N)).eval o ∧
    A.cofactorE o i j = (if i < N ∧ j < N then
      let m := laplace (fun i j : Fin N => A[i.1][j.1]) ((List.finRange N).eraseIdx i) ((List.finRange N).eraseIdx j)
      (if (i + j) % 2 = 1 then -m else m).eval o else throw .assertFailed) := by
  refine ⟨Mat.detE_eq o A, ?_⟩
  split
  · rename_i h
    rw [Mat.cofactorE_eq o A i j h.1 h.2]
    rcases Nat.mod_two_eq_zero_or_one (i + j) with e | e
    · show _ = (if (i + j) % 2 = 1 then _ else _ : Expr T).eval o
      rw [if_neg (by omega), show Mat.sgnE o (i + j) = pure from by funext a; rw [Mat.sgnE, if_neg (by omega)]]
      simp
    · show _ = (if (i + j) % 2 = 1 then Expr.neg _ else _ : Expr T).eval o
      rw [if_pos e, Expr.eval, show Mat.sgnE o (i + j) = o.neg from by funext a; rw [Mat.sgnE, if_pos (by omega)]]
  · rename_i h
    rw [Mat.cofactorE, if_neg h]

/-- `adj` computes the cofactors of the transposed positions in row-major order; `inv` first the adjugate, then the determinant
(which is therefore computed once, after the adjugate), then the divisions. -/
theorem C100_inv (o : ScalarE σ T) (A : Mat T N N) :
    rowMajor <$> A.adjE o =
      inOrder ((List.finRange N).flatMap fun i => (List.finRange N).map fun j : Fin N => A.cofactorE o j.1 i.1) ∧
    rowMajor <$> A.invE o = (do
      let c ← inOrder ((List.finRange N).flatMap fun i => (List.finRange N).map fun j : Fin N => A.cofactorE o j.1 i.1)
      let d ← A.detE o
      inOrder (c.map fun x => o.div x d)) := by
  have h : rowMajor <$> A.adjE o =
      inOrder ((List.finRange N).flatMap fun i => (List.finRange N).map fun j : Fin N => A.cofactorE o j.1 i.1) := by
    rw [Mat.adjE, Mat.rowMajor_mapM_inOrder]; simp
  refine ⟨h, ?_⟩
  rw [← h, Mat.invE]
  simp only [map_bind, bind_map_left]
  congr 1; funext B
  congr 1; funext d
  rw [Mat.divSE, Mat.rowMajor_mapM, mapM_eq_inOrder]

/-! ## complex numbers, quaternions, cross products -/
theorem Vec.exists_two (v : Vec T 2) : v = ⟨#v[v[0], v[1]]⟩ := by
  apply Vec.ext_getElem; intro i hi
  interval_cases i <;> rfl
theorem Vec.exists_four (v : Vec T 4) : v = ⟨#v[v[0], v[1], v[2], v[3]]⟩ := by
  apply Vec.ext_getElem; intro i hi
  interval_cases i <;> rfl
theorem Vec.mapM_two (f : T → Eff σ U) (v : Vec T 2) : v.mapM f = (do
    let a ← f v[0]
    let b ← f v[1]
    pure ⟨#v[a, b]⟩) := by
  rw [Vec.exists_two v]
  simp [Vec.mapM, listMapM, Vec.intoArray, Vec.fromArray]
theorem Vec.mapM_four (f : T → Eff σ U) (v : Vec T 4) : v.mapM f = (do
    let a ← f v[0]
    let b ← f v[1]
    let c ← f v[2]
    let d ← f v[3]
    pure ⟨#v[a, b, c, d]⟩) := by
  rw [Vec.exists_four v]
  simp [Vec.mapM, listMapM, Vec.intoArray, Vec.fromArray]

theorem Vec.sumE_two (o : ScalarE σ T) (a b : T) : (⟨#v[a, b]⟩ : Vec T 2).sumE o = o.add a b := by
  have : (⟨#v[a, b]⟩ : Vec T 2).toList = [a, b] := rfl
  rw [Vec.sumE_eq, this]; simp [addUp]
theorem Vec.sumE_four (o : ScalarE σ T) (a b c d : T) : (⟨#v[a, b, c, d]⟩ : Vec T 4).sumE o = addUp o [a, b, c, d] := by
  rw [Vec.sumE_eq]; rfl

/-- Complex product and quotient: the components in order, each evaluated from left to right. -/
theorem C100_complex (o : ScalarE σ T) (z w : Cpx T) :
    z.mulE o w = (do
      let re ← ((z.re : Expr T) * (w.re : Expr T) - (z.im : Expr T) * (w.im : Expr T)).eval o
      let im ← ((z.re : Expr T) * (w.im : Expr T) + (z.im : Expr T) * (w.re : Expr T)).eval o
      pure (Cpx.new re im)) ∧
    z.invE o = (do
      let y ← o.neg z.im
      let n ← ((z.re : Expr T) * (z.re : Expr T) + (z.im : Expr T) * (z.im : Expr T)).eval o
      let a ← o.div z.re n
      let b ← o.div y n
      pure (Cpx.new a b)) ∧
    z.divE o w = (w.invE o >>= z.mulE o) := by
  refine ⟨?_, ?_, rfl⟩
  · show _ = ((Expr.sub (.mul (.lit z.re) (.lit w.re)) (.mul (.lit z.im) (.lit w.im))).eval o >>= fun re =>
      (Expr.add (.mul (.lit z.re) (.lit w.im)) (.mul (.lit z.im) (.lit w.re))).eval o >>= fun im => pure (Cpx.new re im))
    simp [Expr.eval, Cpx.mulE]
  · show _ = (o.neg z.im >>= fun y => (Expr.add (.mul (.lit z.re) (.lit z.re)) (.mul (.lit z.im) (.lit z.im))).eval o >>= fun n =>
      o.div z.re n >>= fun a => o.div y n >>= fun b => pure (Cpx.new a b))
    simp [Expr.eval, Cpx.invE, Cpx.conjE, Cpx.normSqrE, Vec.squareLengthE, Cpx.divSE, Vec.divSE, Vec.mapM_two, Vec.sumE_two]
    rfl

/-- Quaternion product: the components in order, each evaluated from left to right; `inv`: three negations, the four squares, their
sum, four divisions. -/
theorem C100_quaternion (o : ScalarE σ T) (p q : Quat T) :
    let e := fun x : T => (x : Expr T)
    p.mulE o q = (do
      let w ← (e p.w * e q.w - e p.x * e q.x - e p.y * e q.y - e p.z * e q.z).eval o
      let x ← (e p.w * e q.x + e p.x * e q.w + e p.y * e q.z - e p.z * e q.y).eval o
      let y ← (e p.w * e q.y - e p.x * e q.z + e p.y * e q.w + e p.z * e q.x).eval o
      let z ← (e p.w * e q.z + e p.x * e q.y - e p.y * e q.x + e p.z * e q.w).eval o
      pure (Quat.new w x y z)) ∧
    p.invE o = (do
      let c ← inOrder [o.neg p.x, o.neg p.y, o.neg p.z]
      let n ← inOrder [o.mul p.w p.w, o.mul p.x p.x, o.mul p.y p.y, o.mul p.z p.z] >>= addUp o
      let d ← inOrder ((p.w :: c).map fun t => o.div t n)
      pure (Quat.new (d.getD 0 p.w) (d.getD 1 p.w) (d.getD 2 p.w) (d.getD 3 p.w))) ∧
    p.divE o q = (q.invE o >>= p.mulE o) := by
  refine ⟨?_, ?_, rfl⟩
  · simp only [HMul.hMul, Mul.mul, HSub.hSub, Sub.sub, HAdd.hAdd, Add.add]
    simp [Expr.eval, Quat.mulE, Quat.compE]
  · simp [Quat.invE, Quat.conjE, Quat.normSqrE, Vec.squareLengthE, Quat.divSE, Vec.divSE, Vec.mapM_four, Vec.sumE_four, inOrder, Quat.new]
    rfl

/-- Cross products. -/
theorem C100_cross (o : ScalarE σ T) (a b : Vec T 2) (c d : Vec T 3) (u v : Vec T 4) :
    let e := fun x : T => (x : Expr T)
    a.cross2E o b = (e a[0] * e b[1] - e a[1] * e b[0]).eval o ∧
    c.cross3E o d = (do
      let x ← (e c[1] * e d[2] - e c[2] * e d[1]).eval o
      let y ← (e c[2] * e d[0] - e c[0] * e d[2]).eval o
      let z ← (e c[0] * e d[1] - e c[1] * e d[0]).eval o
      pure ⟨#v[x, y, z]⟩) ∧
    u.cross4E o v = (do
      let x ← (e u[1] * e v[2] - e u[2] * e v[1]).eval o
      let y ← (e u[2] * e v[0] - e u[0] * e v[2]).eval o
      let z ← (e u[0] * e v[1] - e u[1] * e v[0]).eval o
      let w ← Expr.zero.eval o
      pure ⟨#v[x, y, z, w]⟩) := by
  simp only [HMul.hMul, Mul.mul, HSub.hSub, Sub.sub]
  refine ⟨?_, ?_, ?_⟩
  · simp [Expr.eval, Vec.cross2E, Vec.mulSubE]
  · simp [Expr.eval, Vec.cross3E, Vec.mulSubE]; rfl
  · simp [Expr.eval, Vec.cross4E, Vec.mulSubE]
    rfl

end Vecmat
