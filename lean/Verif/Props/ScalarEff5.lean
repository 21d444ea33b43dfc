import Verif.Lemmas.ScalarEff
import Verif.Lemmas.Complex
import Verif.Lemmas.Quaternion
/-!
# C100 (continued): compound assignment
`self op= other` when the scalar `op=` panics or has side effects. `f x` is the scalar operation `*component op= x`: a computation on
the component (first part of its state) and the world.
-/
namespace Vecmat
open Spec
variable {T U α ι σ : Type} {M N : Nat}

theorem Mat.forEachIt_yields {ι' A : Type} {next : Eff ι' (Option A)} (body : A → Eff σ Unit) {it : ι'} {l : List A}
    (h : Yields next it l) (n : Nat) (hn : l.length < n) : Mat.forEachIt next body n it = l.forM body := by
  induction h generalizing n with
  | done h =>
    obtain ⟨n, rfl⟩ : ∃ k, n = k + 1 := ⟨n - 1, by omega⟩
    simp only [Mat.forEachIt, h]; rfl
  | step h t ih =>
    simp only [List.length_cons] at hn
    obtain ⟨n, rfl⟩ : ∃ k, n = k + 1 := ⟨n - 1, by omega⟩
    simp only [Mat.forEachIt, h]
    rw [list_forM_cons, ih n (by omega)]

theorem list_forM_map {γ : Type} (g : γ → α) (f : α → Eff σ Unit) (l : List γ) : (l.map g).forM f = l.forM fun x => f (g x) := by
  induction l with
  | nil => rfl
  | cons x l ih => rw [List.map_cons, list_forM_cons, list_forM_cons, ih]

/-- the positions of an `M × N` matrix, row by row -/
def Mat.cells (M N : Nat) : List (Fin M × Fin N) := (List.finRange M).flatMap fun i => (List.finRange N).map fun j => (i, j)
theorem Mat.nodup_cells : (Mat.cells M N).Nodup := by
  unfold Mat.cells
  rw [List.nodup_flatMap]
  constructor
  · intro i _
    exact (List.nodup_finRange N).map fun a b h => (Prod.mk.inj h).2
  · apply List.Pairwise.imp _ (List.nodup_finRange M)
    intro a b hab x hx hy
    simp only [List.mem_map] at hx hy
    obtain ⟨_, _, rfl⟩ := hx
    obtain ⟨_, _, h⟩ := hy
    exact hab (Prod.mk.inj h).1.symm
theorem Mat.positions_cells : Mat.positions M N = (Mat.cells M N).map fun p => (p.1.1, p.2.1) := by
  unfold Mat.positions Mat.cells
  rw [← List.map_coe_finRange_eq_range (n := N), ← List.map_coe_finRange_eq_range (n := M), List.flatMap_map]
  simp only [List.map_map, List.map_flatMap, Function.comp_def]
theorem Mat.zip_cells (B : Mat U M N) :
    (Mat.positions M N).zip (rowMajor B) = (Mat.cells M N).map fun p => ((p.1.1, p.2.1), B[p.1.1][p.2.1]) := by
  rw [Mat.zip_positions, Mat.cells]
  simp only [List.map_map, List.map_flatMap, Function.comp_def]

/-- one component of a vector replaced -/
def Vec.updC (v : Vec T N) (i : Fin N) (x : T) : Vec T N := ⟨v.data.set i.1 x⟩
theorem Vec.exec_atIdx (i : Fin N) (c : Eff (T × σ) Unit) (v : Vec T N) (s : σ) : (Vec.atIdx i.1 c).exec (v, s) =
    ((c.exec (v[i.1], s)).1, (v.updC i (c.exec (v[i.1], s)).2.1, (c.exec (v[i.1], s)).2.2)) := by
  show (if h : i.1 < N then _ else _ : Res Unit × Vec T N × σ) = _
  rw [dif_pos i.2]
  rfl
theorem Vec.oneByOne (g : Fin N → Eff (T × σ) Unit) (v : Vec T N) (s : σ) :
    let c := (List.finRange N).forM fun i => Vec.atIdx i.1 (g i)
    OneByOne g (List.finRange N) (fun i => v[i.1]) (fun i => (c.exec (v, s)).2.1[i.1]) s (c.exec (v, s)).2.2 (c.exec (v, s)).1 := by
  refine (oneByOne_forM (fun (v : Vec T N) (i : Fin N) => v[i.1]) Vec.updC ?_ ?_ _ g (fun i v s => Vec.exec_atIdx i (g i) v s)
    (List.finRange N) (List.nodup_finRange N) v s).1
  · intro v i x
    show (v.data.set i.1 x)[i.1] = x
    simp
  · intro v i j x h
    show (v.data.set i.1 x)[j.1] = v.data[j.1]
    rw [Vector.getElem_set_ne]
    exact fun e => h (Fin.ext e)

/-- one component of a matrix replaced -/
noncomputable def Mat.updC (A : Mat T M N) (p : Fin M × Fin N) (x : T) : Mat T M N :=
  (Mat.indexSet_lt A p.1.1 p.2.1 p.1.2 p.2.2 x).choose
theorem Mat.exec_atPos (p : Fin M × Fin N) (c : Eff (T × σ) Unit) (A : Mat T M N) (s : σ) : (Mat.atPos (p.1.1, p.2.1) c).exec (A, s) =
    ((c.exec (A[p.1.1][p.2.1], s)).1,
      (A.updC p (c.exec (A[p.1.1][p.2.1], s)).2.1, (c.exec (A[p.1.1][p.2.1], s)).2.2)) := by
  show (match A.index (p.1.1, p.2.1) with | .error e => _ | .ok x => _ : Res Unit × Mat T M N × σ) = _
  rw [Mat.index_lt A _ _ p.1.2 p.2.2]
  simp only
  rw [(Mat.indexSet_lt A p.1.1 p.2.1 p.1.2 p.2.2 _).choose_spec.1]
  rfl
theorem Mat.oneByOne (g : Fin M × Fin N → Eff (T × σ) Unit) (A : Mat T M N) (s : σ) :
    let c := (Mat.cells M N).forM fun p => Mat.atPos (p.1.1, p.2.1) (g p)
    OneByOne g (Mat.cells M N) (fun p => A[p.1.1][p.2.1]) (fun p => (c.exec (A, s)).2.1[p.1.1][p.2.1]) s (c.exec (A, s)).2.2
      (c.exec (A, s)).1 := by
  refine (oneByOne_forM (fun (A : Mat T M N) (p : Fin M × Fin N) => A[p.1.1][p.2.1]) Mat.updC ?_ ?_ _ g
    (fun p A s => Mat.exec_atPos p (g p) A s) (Mat.cells M N) Mat.nodup_cells A s).1
  · intro A p x
    rw [Mat.updC, (Mat.indexSet_lt A p.1.1 p.2.1 p.1.2 p.2.2 x).choose_spec.2 _ p.1.2 _ p.2.2]
    simp
  · intro A p q x h
    rw [Mat.updC, (Mat.indexSet_lt A p.1.1 p.2.1 p.1.2 p.2.2 x).choose_spec.2 _ q.1.2 _ q.2.2, if_neg]
    exact fun e => h (Prod.ext (Fin.ext e.1.symm) (Fin.ext e.2.symm))

theorem Vec.assignE_forM (f : U → Eff (T × σ) Unit) (w : Vec U N) :
    Vec.assignE (T := T) f w = (List.finRange N).forM fun i => Vec.atIdx i.1 (f w[i.1]) := by
  rw [Vec.assignE, Vec.assignLoopE_eq _ _ _ (by simp)]
  have : w.toList.zipIdx = (List.finRange N).map fun i => (w[i.1], i.1) := by
    apply List.ext_getElem
    · simp
    · intro n h1 h2
      simp
  rw [this, list_forM_map]

/-- `v op= w` on vectors applies the operator to the components one after another, in index order. If the operator panics, the
components before it keep their new values, the one it panicked at is as the operator left it, and those after it are unchanged. -/
theorem C100_assign_vector (f : U → Eff (T × σ) Unit) (v : Vec T N) (w : Vec U N) (s : σ) :
    let o := (Vec.assignE f w).exec (v, s)
    OneByOne (fun i : Fin N => f w[i.1]) (List.finRange N) (fun i => v[i.1]) (fun i => o.2.1[i.1]) s o.2.2 o.1 := by
  rw [Vec.assignE_forM]
  exact Vec.oneByOne (fun i => f w[i.1]) v s

/-- `v op= a` with a scalar. -/
theorem C100_assign_vector_scalar (c : Eff (T × σ) Unit) (v : Vec T N) (s : σ) :
    let o := (Vec.assignEachE c).exec (v, s)
    OneByOne (fun _ : Fin N => c) (List.finRange N) (fun i => v[i.1]) (fun i => o.2.1[i.1]) s o.2.2 o.1 := by
  have : Vec.assignEachE (N := N) c = (List.finRange N).forM fun i => Vec.atIdx i.1 c := by
    rw [Vec.assignEachE, Vec.forRange_forM, ← List.range_eq_range', ← List.map_coe_finRange_eq_range, list_forM_map]
  rw [this]
  exact Vec.oneByOne (fun _ => c) v s

theorem Mat.exec_assignE (hM : 0 < M) (f : U → Eff (T × σ) Unit) (A : Mat T M N) (B : Mat U M N) (s : σ) :
    (Mat.assignE f B).exec (A, s) = ((Mat.cells M N).forM fun p => Mat.atPos (p.1.1, p.2.1) (f B[p.1.1][p.2.1])).exec (A, s) := by
  obtain ⟨ia, ha1, ha2⟩ := Mat.iterMutNew_yields hM A
  obtain ⟨ib, hb1, hb2⟩ := Mat.iterNew_yields hM B
  rw [Mat.assignE, exec_bind]
  show (liftRes (Mat.iterMutNew A) >>= _ : Eff _ _).exec (A, s) = _
  rw [ha1, hb1]
  simp only [liftRes_ok, pure_bind]
  rw [Mat.forEachIt_yields _ (yields_zip ha2 hb2) _ (by simp [Mat.fuelFor, Mat.length_positions, Mat.length_rowMajor]),
    Mat.zip_cells, list_forM_map]
theorem Mat.exec_assignEachE (hM : 0 < M) (c : Eff (T × σ) Unit) (A : Mat T M N) (s : σ) :
    (Mat.assignEachE c).exec (A, s) = ((Mat.cells M N).forM fun p => Mat.atPos (p.1.1, p.2.1) c).exec (A, s) := by
  obtain ⟨ia, ha1, ha2⟩ := Mat.iterMutNew_yields hM A
  rw [Mat.assignEachE, exec_bind]
  show (liftRes (Mat.iterMutNew A) >>= _ : Eff _ _).exec (A, s) = _
  rw [ha1]
  simp only [liftRes_ok, pure_bind]
  rw [Mat.forEachIt_yields _ ha2 _ (by simp [Mat.fuelFor, Mat.length_positions]), Mat.positions_cells, list_forM_map]

/-- `A op= B` on matrices with at least one row: the same, row by row. Without rows the call panics before the operator is called. -/
theorem C100_assign_matrix (f : U → Eff (T × σ) Unit) (A : Mat T M N) (B : Mat U M N) (s : σ) :
    let o := (Mat.assignE f B).exec (A, s)
    (0 < M → OneByOne (fun p : Fin M × Fin N => f B[p.1.1][p.2.1])
      ((List.finRange M).flatMap fun i => (List.finRange N).map fun j => (i, j))
      (fun p => A[p.1.1][p.2.1]) (fun p => o.2.1[p.1.1][p.2.1]) s o.2.2 o.1) ∧
    (M = 0 → o = (.error .unwrapNone, (A, s))) := by
  constructor
  · intro hM
    rw [Mat.exec_assignE hM]
    exact Mat.oneByOne (fun p => f B[p.1.1][p.2.1]) A s
  · rintro rfl
    show (Mat.assignE f B).exec (A, s) = _
    rw [Mat.assignE, exec_bind]
    show (liftRes (Mat.iterMutNew A) >>= _ : Eff _ _).exec (A, s) = _
    rw [Mat.iterMutNew_zero]
    rfl

/-- `A op= a` with a scalar. -/
theorem C100_assign_matrix_scalar (c : Eff (T × σ) Unit) (A : Mat T M N) (s : σ) :
    let o := (Mat.assignEachE c).exec (A, s)
    (0 < M → OneByOne (fun _ : Fin M × Fin N => c) ((List.finRange M).flatMap fun i => (List.finRange N).map fun j => (i, j))
      (fun p => A[p.1.1][p.2.1]) (fun p => o.2.1[p.1.1][p.2.1]) s o.2.2 o.1) ∧
    (M = 0 → o = (.error .unwrapNone, (A, s))) := by
  constructor
  · intro hM
    rw [Mat.exec_assignEachE hM]
    exact Mat.oneByOne (fun _ => c) A s
  · rintro rfl
    show (Mat.assignEachE c).exec (A, s) = _
    rw [Mat.assignEachE, exec_bind]
    show (liftRes (Mat.iterMutNew A) >>= _ : Eff _ _).exec (A, s) = _
    rw [Mat.iterMutNew_zero]
    rfl

/-- `+=` and `-=` of complex numbers and quaternions work on the components one after another; `*=` and `/=` are all or nothing: when
an operator panics the value is unchanged. -/
theorem C100_assign_complex (f : T → Eff (T × σ) Unit) (o : ScalarE σ T) (z w : Cpx T) (s : σ) :
    (let r := (Cpx.assignE f w).exec (z, s)
     OneByOne (fun i : Fin 2 => f w.vec[i.1]) [0, 1] (fun i => z.vec[i.1]) (fun i => r.2.1.vec[i.1]) s r.2.2 r.1) ∧
    (Cpx.mulAssignE o w).exec (z, s) = (match (z.mulE o w).exec s with
      | (.ok z', s') => (.ok (), (z', s'))
      | (.error e, s') => (.error e, (z, s'))) ∧
    (Cpx.divAssignE o w).exec (z, s) = (match (z.divE o w).exec s with
      | (.ok z', s') => (.ok (), (z', s'))
      | (.error e, s') => (.error e, (z, s'))) :=
  ⟨C100_assign_vector f z.vec w.vec s, rfl, rfl⟩

theorem C100_assign_quaternion (f : T → Eff (T × σ) Unit) (o : ScalarE σ T) (p q : Quat T) (s : σ) :
    (let r := (Quat.assignE f q).exec (p, s)
     OneByOne (fun i : Fin 4 => f q.vec[i.1]) [0, 1, 2, 3] (fun i => p.vec[i.1]) (fun i => r.2.1.vec[i.1]) s r.2.2 r.1) ∧
    (Quat.mulAssignE o q).exec (p, s) = (match (p.mulE o q).exec s with
      | (.ok z', s') => (.ok (), (z', s'))
      | (.error e, s') => (.error e, (p, s'))) ∧
    (Quat.divAssignE o q).exec (p, s) = (match (p.divE o q).exec s with
      | (.ok z', s') => (.ok (), (z', s'))
      | (.error e, s') => (.error e, (p, s'))) :=
  ⟨C100_assign_vector f p.vec q.vec s, rfl, rfl⟩

/-- `q += z` with a complex number: the first component, then the second; the other two are never touched. -/
theorem C100_assign_quaternion_complex (f : T → Eff (T × σ) Unit) (q : Quat T) (z : Cpx T) (s : σ) :
    let r := (Quat.assignCE f z).exec (q, s)
    OneByOne (fun i : Fin 2 => f z.vec[i.1]) [0, 1] (fun i => q.vec[i.1]) (fun i => r.2.1.vec[i.1]) s r.2.2 r.1 ∧
    r.2.1.vec[2] = q.vec[2] ∧ r.2.1.vec[3] = q.vec[3] := by
  obtain ⟨a, b, rfl⟩ : ∃ a b, z = Cpx.new a b := ⟨_, _, z.eq_new⟩
  obtain ⟨w, x, y, z, rfl⟩ : ∃ w x y z, q = Quat.new w x y z := ⟨q.w, q.x, q.y, q.z, Quat.ext' (by simp) (by simp) (by simp) (by simp)⟩
  rcases h : (f a).exec (w, s) with ⟨e | ⟨⟩, w', s1⟩
  · have e1 : (Quat.assignCE f (Cpx.new a b)).exec (Quat.new w x y z, s) = (.error e, (Quat.new w' x y z, s1)) := by
      have h' : (f (Cpx.new a b).intoTuple.1).exec (Quat.w (Quat.new w x y z), s) = (.error e, (w', s1)) := h
      rw [Quat.assignCE, exec_mk]
      simp only [h']
      rfl
    simp only [e1]
    refine ⟨⟨0, fun _ => s, by simp, rfl, by simp, ?_, by simp, ?_⟩, rfl, rfl⟩
    · intro i hi h0
      obtain rfl : i = 1 := by simp at hi; omega
      rfl
    · intro _
      exact ⟨e, rfl, h⟩
  · rcases h2 : (f b).exec (x, s1) with ⟨e | ⟨⟩, x', s2⟩
    · have e1 : (Quat.assignCE f (Cpx.new a b)).exec (Quat.new w x y z, s) = (.error e, (Quat.new w' x' y z, s2)) := by
        have h' : (f (Cpx.new a b).intoTuple.1).exec (Quat.w (Quat.new w x y z), s) = (.ok (), (w', s1)) := h
        have h2' : (f (Cpx.new a b).intoTuple.2).exec (((Quat.new w x y z).setW w').x, s1) = (.error e, (x', s2)) := h2
        rw [Quat.assignCE, exec_mk]
        simp only [h', h2']
        rfl
      simp only [e1]
      refine ⟨⟨1, fun n => if n = 0 then s else s1, by simp, rfl, ?_, ?_, by simp, ?_⟩, rfl, rfl⟩
      · intro i hi h0
        obtain rfl : i = 0 := by omega
        exact h
      · intro i hi h0
        simp at hi; omega
      · intro _
        exact ⟨e, rfl, h2⟩
    · have e1 : (Quat.assignCE f (Cpx.new a b)).exec (Quat.new w x y z, s) = (.ok (), (Quat.new w' x' y z, s2)) := by
        have h' : (f (Cpx.new a b).intoTuple.1).exec (Quat.w (Quat.new w x y z), s) = (.ok (), (w', s1)) := h
        have h2' : (f (Cpx.new a b).intoTuple.2).exec (((Quat.new w x y z).setW w').x, s1) = (.ok (), (x', s2)) := h2
        rw [Quat.assignCE, exec_mk]
        simp only [h', h2']
        rfl
      simp only [e1]
      refine ⟨⟨2, fun n => if n = 0 then s else if n = 1 then s1 else s2, by simp, rfl, ?_, ?_, fun _ => ⟨rfl, rfl⟩, ?_⟩, rfl, rfl⟩
      · intro i hi h0
        obtain rfl | rfl : i = 0 ∨ i = 1 := by omega
        · exact h
        · exact h2
      · intro i hi h0
        simp at hi; omega
      · intro h0
        simp at h0

/-! ## witnesses -/

/-- `*x -= y` on `u8` with overflow checks; the world counts the calls -/
def subAssignW (y : Nat) : Eff (Nat × Nat) Unit := ExceptT.mk fun (x, n) =>
  if y ≤ x then (.ok (), (x - y, n + 1)) else (.error .arithOverflow, (x, n + 1))

/-- `(5, 1, 7) -= (2, 3, 4)` panics at the second component and leaves `(3, 1, 7)`. -/
example : (Vec.assignE subAssignW (Vec.fromArray #v[2, 3, 4])).exec (Vec.fromArray #v[5, 1, 7], 0) =
    (.error .arithOverflow, (Vec.fromArray #v[3, 1, 7], 2)) := rfl

example : let A : Mat Nat 2 2 := Mat.fromArrArr #v[#v[5, 6], #v[1, 7]]
    let o := (Mat.assignE subAssignW (Mat.fromArrArr #v[#v[2, 2], #v[2, 2]])).exec (A, 0)
    o.1 = .error .arithOverflow ∧ o.2.1 = Mat.fromArrArr #v[#v[3, 4], #v[1, 7]] ∧ o.2.2 = 3 := by
  refine ⟨rfl, rfl, rfl⟩

example : (Quat.assignCE subAssignW (Cpx.new 1 1)).exec (Quat.new 5 0 7 8, 0) = (.error .arithOverflow, (Quat.new 4 0 7 8, 2)) := rfl

end Vecmat
