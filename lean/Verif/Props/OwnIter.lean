import Verif.Lemmas.OwnAgree
/-!
# C102: ownership of the functions that take vectors and matrices by value
`map`, `zip`, `enumerate`, `for_each`, `fold`, `fold_first`, `scan`, the binary operators, the compound assignments, and `into_iter` of
a matrix.
-/
namespace Vecmat
open Own
open Spec (callEach foldEach SameUpToPanic inPlace)
variable {σ A S T U W : Type} {M N : Nat}

/-! ## Compositional form: any item type, any memory, any closure that keeps the books -/
section
variable [Ledger W A] [LawfulLedger W]
/-- `Vector::map`: every argument is moved into the closure or dropped, every result ends up in the vector or, after a panic, is dropped;
nothing is leaked, nothing is dropped twice. -/
theorem C102_map_clean (ownT : T → List A) (ownU : U → List A) (dropT : T → Eff W Unit) (dropU : U → Eff W Unit) (f : T → Eff W U)
    (hT : ∀ x, Clean (dropT x) (ownT x) (fun _ => 0)) (hU : ∀ x, Clean (dropU x) (ownU x) (fun _ => 0))
    (hf : ∀ x, Clean (f x) (ownT x) (fun y => ownU y)) (v : Vec T N) :
    Clean (Own.map ownT ownU dropT dropU f v) (ownVec ownT v) (fun u => ownVec ownU u) :=
  goodIf_true.mp (goodIf_map ownT ownU dropT dropU f (fun x => goodIf_true.mpr (hT x)) (fun x => goodIf_true.mpr (hU x))
    (fun x => goodIf_true.mpr (hf x)) v)
theorem C102_for_each_clean (own : T → List A) (drop : T → Eff W Unit) (f : T → Eff W Unit)
    (hd : ∀ x, Clean (drop x) (own x) (fun _ => 0)) (hf : ∀ x, Clean (f x) (own x) (fun _ => 0)) (v : Vec T N) :
    Clean (Own.forEach own drop f v) (ownVec own v) (fun _ => 0) :=
  goodIf_true.mp (goodIf_forEach own drop f (fun x => goodIf_true.mpr (hd x)) (fun x => goodIf_true.mpr (hf x)) v)
theorem C102_fold_clean (own : T → List A) (ownS : S → List A) (drop : T → Eff W Unit) (f : S → T → Eff W S)
    (hd : ∀ x, Clean (drop x) (own x) (fun _ => 0))
    (hf : ∀ s x, Clean (f s x) ((ownS s : Multiset A) + (own x : Multiset A)) (fun s => ownS s)) (s : S) (v : Vec T N) :
    Clean (Own.fold own ownS drop f s v) ((ownS s : Multiset A) + (ownVec own v : Multiset A)) (fun s => ownS s) :=
  goodIf_true.mp (goodIf_fold own ownS drop f (fun x => goodIf_true.mpr (hd x)) (fun s x => goodIf_true.mpr (hf s x)) s v)
theorem C102_fold_first_clean (own : T → List A) (drop : T → Eff W Unit) (f : T → T → Eff W T)
    (hd : ∀ x, Clean (drop x) (own x) (fun _ => 0))
    (hf : ∀ s x, Clean (f s x) ((own s : Multiset A) + (own x : Multiset A)) (fun s => own s)) (v : Vec T N) :
    Clean (Own.foldFirst own drop f v) (ownVec own v) (fun s => own s) :=
  goodIf_true.mp (goodIf_foldFirst own drop f (fun x => goodIf_true.mpr (hd x)) (fun s x => goodIf_true.mpr (hf s x)) v)
/-- `Vector::scan` (built on `try_from_iter`): only `Good`, after a panic the results so far are leaked. -/
theorem C102_scan_good (ownT : T → List A) (ownU : U → List A) (ownS : S → List A) (dropT : T → Eff W Unit) (dropU : U → Eff W Unit)
    (dropS : S → Eff W Unit) (s : S) (f : T → Eff (Local W ownS) U)
    (hT : ∀ x, Good (dropT x) (ownT x) (fun _ => 0)) (hU : ∀ x, Good (dropU x) (ownU x) (fun _ => 0))
    (hS : ∀ x, Good (dropS x) (ownS x) (fun _ => 0)) (hf : ∀ x, Good (f x) (ownT x) (fun y => ownU y)) (v : Vec T N) :
    Good (Own.scan ownT ownU ownS dropT dropU dropS s f v) ((ownVec ownT v : Multiset A) + (ownS s : Multiset A)) (fun u => ownVec ownU u) :=
  goodIf_false.mp (good_scan ownT ownU ownS dropT dropU dropS s f (fun x => goodIf_false.mpr (hT x)) (fun x => goodIf_false.mpr (hU x))
    (fun x => goodIf_false.mpr (hS x)) (fun x => goodIf_false.mpr (hf x)) v)
/-- The binary operators (`+`, `-`, `*`, `/`, `%`, `&`, `|`, `^`, …): operands are moved into the scalar operator or dropped. -/
theorem C102_bin_op_clean (own : T → List A) (drop : T → Eff W Unit) (f : T → T → Eff W T)
    (hd : ∀ x, Clean (drop x) (own x) (fun _ => 0))
    (hf : ∀ x y, Clean (f x y) ((own x : Multiset A) + (own y : Multiset A)) (fun z => own z)) (v u : Vec T N) :
    Clean (Own.binOp own drop f v u) ((ownVec own v : Multiset A) + (ownVec own u : Multiset A)) (fun r => ownVec own r) :=
  goodIf_true.mp (goodIf_binOp own drop f (fun x => goodIf_true.mpr (hd x)) (fun x y => goodIf_true.mpr (hf x y)) v u)
/-- The compound assignments (`+=`, …). -/
theorem C102_op_assign_clean (own : T → List A) (drop : T → Eff W Unit) (f : Nat → T → Eff W Unit)
    (hd : ∀ x, Clean (drop x) (own x) (fun _ => 0)) (hf : ∀ i x, Clean (f i x) (own x) (fun _ => 0)) (v : Vec T N) :
    Clean (Own.opAssign own drop f v) (ownVec own v) (fun _ => 0) :=
  goodIf_true.mp (goodIf_opAssign own drop f (fun x => goodIf_true.mpr (hd x)) (fun i x => goodIf_true.mpr (hf i x)) v)
/-! Matrices -/
theorem C102_matrix_map_clean (ownT : T → List A) (ownU : U → List A) (dropT : T → Eff W Unit) (dropU : U → Eff W Unit) (f : T → Eff W U)
    (hT : ∀ x, Clean (dropT x) (ownT x) (fun _ => 0)) (hU : ∀ x, Clean (dropU x) (ownU x) (fun _ => 0))
    (hf : ∀ x, Clean (f x) (ownT x) (fun y => ownU y)) (C : Mat T M N) :
    Clean (Own.matMap ownT ownU dropT dropU f C) (ownMat ownT C) (fun D => ownMat ownU D) :=
  goodIf_true.mp (goodIf_matMap ownT ownU dropT dropU f (fun x => goodIf_true.mpr (hT x)) (fun x => goodIf_true.mpr (hU x))
    (fun x => goodIf_true.mpr (hf x)) C)
theorem C102_matrix_for_each_clean (own : T → List A) (drop : T → Eff W Unit) (f : T → Eff W Unit)
    (hd : ∀ x, Clean (drop x) (own x) (fun _ => 0)) (hf : ∀ x, Clean (f x) (own x) (fun _ => 0)) (C : Mat T M N) :
    Clean (Own.matForEach own drop f C) (ownMat own C) (fun _ => 0) :=
  goodIf_true.mp (goodIf_matForEach own drop f (fun x => goodIf_true.mpr (hd x)) (fun x => goodIf_true.mpr (hf x)) C)
theorem C102_matrix_fold_clean (own : T → List A) (ownS : S → List A) (drop : T → Eff W Unit) (f : S → T → Eff W S)
    (hd : ∀ x, Clean (drop x) (own x) (fun _ => 0))
    (hf : ∀ s x, Clean (f s x) ((ownS s : Multiset A) + (own x : Multiset A)) (fun s => ownS s)) (s : S) (C : Mat T M N) :
    Clean (Own.matFold own ownS drop f s C) ((ownS s : Multiset A) + (ownMat own C : Multiset A)) (fun s => ownS s) :=
  goodIf_true.mp (goodIf_matFold own ownS drop f (fun x => goodIf_true.mpr (hd x)) (fun s x => goodIf_true.mpr (hf s x)) s C)
theorem C102_matrix_fold_first_clean (own : T → List A) (drop : T → Eff W Unit) (f : T → T → Eff W T)
    (hd : ∀ x, Clean (drop x) (own x) (fun _ => 0))
    (hf : ∀ s x, Clean (f s x) ((own s : Multiset A) + (own x : Multiset A)) (fun s => own s)) (C : Mat T M N) :
    Clean (Own.matFoldFirst own drop f C) (ownMat own C) (fun s => own s) :=
  goodIf_true.mp (goodIf_matFoldFirst own drop f (fun x => goodIf_true.mpr (hd x)) (fun s x => goodIf_true.mpr (hf s x)) C)
theorem C102_matrix_scan_good (ownT : T → List A) (ownU : U → List A) (ownS : S → List A) (dropT : T → Eff W Unit) (dropU : U → Eff W Unit)
    (dropS : S → Eff W Unit) (s : S) (f : T → Eff (Local W ownS) U)
    (hT : ∀ x, Good (dropT x) (ownT x) (fun _ => 0)) (hU : ∀ x, Good (dropU x) (ownU x) (fun _ => 0))
    (hS : ∀ x, Good (dropS x) (ownS x) (fun _ => 0)) (hf : ∀ x, Good (f x) (ownT x) (fun y => ownU y)) (C : Mat T M N) :
    Good (Own.matScan ownT ownU ownS dropT dropU dropS s f C) ((ownMat ownT C : Multiset A) + (ownS s : Multiset A)) (fun D => ownMat ownU D) :=
  goodIf_false.mp (good_matScan ownT ownU ownS dropT dropU dropS s f (fun x => goodIf_false.mpr (hT x)) (fun x => goodIf_false.mpr (hU x))
    (fun x => goodIf_false.mpr (hS x)) (fun x => goodIf_false.mpr (hf x)) C)
theorem C102_matrix_bin_op_clean (own : T → List A) (drop : T → Eff W Unit) (f : T → T → Eff W T)
    (hd : ∀ x, Clean (drop x) (own x) (fun _ => 0))
    (hf : ∀ x y, Clean (f x y) ((own x : Multiset A) + (own y : Multiset A)) (fun z => own z)) (C D : Mat T M N) :
    Clean (Own.matBinOp own drop f C D) ((ownMat own C : Multiset A) + (ownMat own D : Multiset A)) (fun r => ownMat own r) :=
  goodIf_true.mp (goodIf_matBinOp own drop f (fun x => goodIf_true.mpr (hd x)) (fun x y => goodIf_true.mpr (hf x y)) C D)
theorem C102_matrix_op_assign_clean (own : T → List A) (drop : T → Eff W Unit) (f : Nat → T → Eff W Unit)
    (hd : ∀ x, Clean (drop x) (own x) (fun _ => 0)) (hf : ∀ i x, Clean (f i x) (own x) (fun _ => 0)) (C : Mat T M N) :
    Clean (Own.matOpAssign own drop f C) (ownMat own C) (fun _ => 0) :=
  goodIf_true.mp (goodIf_matOpAssign own drop f (fun x => goodIf_true.mpr (hd x)) (fun i x => goodIf_true.mpr (hf i x)) C)
end

/-! ## `zip`, `enumerate`, `unzip`: items are moved, nothing else happens -/
section
variable [Ledger W A]
theorem C102_zip (ownT : T → List A) (ownU : U → List A) (dropT : T → Eff W Unit) (dropU : U → Eff W Unit) (v : Vec T N) (u : Vec U N) (w : W) :
    ∃ z : Vec (T × U) N, (Own.zip ownT ownU dropT dropU v u).exec w = (.ok z, w) ∧ z.toList = v.toList.zip u.toList := by
  refine ⟨_, zip_exec ownT ownU dropT dropU v u w, ?_⟩
  have : Vec.zip v u = Vec.ofList (v.toList.zip u.toList) (by simp) := Res.get_eq (Vec.zipR_eq v u) _
  rw [this]; simp
theorem C102_enumerate (own : T → List A) (drop : T → Eff W Unit) (v : Vec T N) (w : W) :
    ∃ z : Vec (Nat × T) N, (Own.enumerate own drop v).exec w = (.ok z, w) ∧ ∀ i (h : i < N), z[i] = (i, v[i]) := by
  refine ⟨_, enumerate_exec own drop v w, ?_⟩
  intro i h; simp [Vec.enumerate]
theorem C102_matrix_zip (ownT : T → List A) (ownU : U → List A) (dropT : T → Eff W Unit) (dropU : U → Eff W Unit) (C : Mat T M N) (D : Mat U M N)
    (w : W) : ∃ Z : Mat (T × U) M N, (Own.matZip ownT ownU dropT dropU C D).exec w = (.ok Z, w) ∧
      ∀ i (_ : i < M) j (_ : j < N), Z[i][j] = (C[i][j], D[i][j]) := by
  refine ⟨_, matZip_exec ownT ownU dropT dropU C D w, ?_⟩
  intro i _ j _; simp
theorem C102_matrix_unzip (ownT : T → List A) (ownU : U → List A) (dropT : T → Eff W Unit) (dropU : U → Eff W Unit) (C : Mat (T × U) M N) (w : W) :
    ∃ (X : Mat T M N) (Y : Mat U M N), (Own.matUnzip ownT ownU dropT dropU C).exec w = (.ok (X, Y), w) ∧
      ∀ i (_ : i < M) j (_ : j < N), (X[i][j], Y[i][j]) = C[i][j] := by
  refine ⟨_, _, matUnzip_exec ownT ownU dropT dropU C w, ?_⟩
  intro i _ j _; simp; rfl
end

/-! ## The caller's view: which items the closure gets, which are dropped, which are leaked, at every panic point -/
/-- `Vector::map` that returns. -/
theorem C102_map_returns (f : A → Eff σ A) (d : A → Eff σ Unit) (v : Vec A N) (s s' : σ) (g : List A) (log : List (Ev A)) (outs : List A)
    (h : callEach f v.toList s = (outs, none, s')) :
    ∃ u : Vec A N, (Own.map (fun a => [a]) (fun a => [a]) (dropC d) (dropC d) (fun a => hand [a] (fun b => [b]) (f a)) v).exec ⟨s, g, log⟩ =
      (.ok u, ⟨s', g ++ v.toList, (outs.map .got).reverse ++ log⟩) ∧ u.toList = outs := by
  have hr := map_run (W := Client σ A) (fun a => [a]) (fun a => [a]) (dropC d) (dropC d) (fun a => hand [a] (fun b => [b]) (f a)) v ⟨s, g, log⟩
  rw [callEach_hand] at hr
  simp only [h] at hr
  obtain ⟨hk, hr⟩ := hr
  exact ⟨_, by simpa using hr, by simp⟩
/-- `Vector::map` whose closure panics at some call: the arguments up to this call were moved into the closure, the results of the earlier
calls are dropped (once, in order), then the remaining arguments (once, in order); nothing is leaked. -/
theorem C102_map_panics (f : A → Eff σ A) (d : A → Eff σ Unit) (v : Vec A N) (s s' : σ) (g : List A) (log : List (Ev A)) (outs : List A)
    (e : Fault) (h : callEach f v.toList s = (outs, some e, s')) :
    ∃ w, (Own.map (fun a => [a]) (fun a => [a]) (dropC d) (dropC d) (fun a => hand [a] (fun b => [b]) (f a)) v).exec ⟨s, g, log⟩ = (.error e, w) ∧
      w.given = g ++ v.toList.take (outs.length + 1) ∧
      w.log = ((v.toList.drop (outs.length + 1)).map .dropped).reverse ++ (outs.map .dropped).reverse ++ (outs.map .got).reverse ++ log := by
  have hr := map_run (W := Client σ A) (fun a => [a]) (fun a => [a]) (dropC d) (dropC d) (fun a => hand [a] (fun b => [b]) (f a)) v ⟨s, g, log⟩
  rw [callEach_hand] at hr
  simp only [h] at hr
  refine ⟨_, hr, ?_, ?_⟩
  · rw [(dropAll_client d _ _).1, (dropAll_client d _ _).1]
  · rw [(dropAll_client d _ _).2, (dropAll_client d _ _).2]; simp
/-- `Vector::for_each`. -/
theorem C102_for_each_returns (f : A → Eff σ Unit) (d : A → Eff σ Unit) (v : Vec A N) (s s' : σ) (g : List A) (log : List (Ev A)) (outs : List Unit)
    (h : callEach f v.toList s = (outs, none, s')) :
    (Own.forEach (fun a => [a]) (dropC d) (fun a => hand [a] (fun _ => []) (f a)) v).exec ⟨s, g, log⟩ = (.ok (), ⟨s', g ++ v.toList, log⟩) := by
  rw [forEach_run, callEach_hand]
  simp only [h]
  simp
theorem C102_for_each_panics (f : A → Eff σ Unit) (d : A → Eff σ Unit) (v : Vec A N) (s s' : σ) (g : List A) (log : List (Ev A)) (outs : List Unit)
    (e : Fault) (h : callEach f v.toList s = (outs, some e, s')) :
    ∃ w, (Own.forEach (fun a => [a]) (dropC d) (fun a => hand [a] (fun _ => []) (f a)) v).exec ⟨s, g, log⟩ = (.error e, w) ∧
      w.given = g ++ v.toList.take (outs.length + 1) ∧ w.log = ((v.toList.drop (outs.length + 1)).map .dropped).reverse ++ log := by
  rw [forEach_run, callEach_hand]
  simp only [h]
  refine ⟨_, rfl, ?_, ?_⟩
  · rw [(dropAll_client d _ _).1]
  · rw [(dropAll_client d _ _).2]; simp
/-- `Vector::fold` (with an accumulator that owns nothing): the items not reached are dropped. -/
theorem C102_fold_calls (f : S → A → Eff σ S) (d : A → Eff σ Unit) (t : S) (v : Vec A N) (s : σ) (g : List A) (log : List (Ev A))
    (rest : List A) (o : Res S) (s' : σ) (h : foldEach f v.toList t s = (rest, o, s')) :
    ∃ w, (Own.fold (fun a => [a]) (fun _ => []) (dropC d) (fun t a => hand [a] (fun _ => []) (f t a)) t v).exec ⟨s, g, log⟩ = (o, w) ∧
      ∃ k, rest = v.toList.drop k ∧ w.given = g ++ v.toList.take k ∧ w.log = (rest.map .dropped).reverse ++ log := by
  have hh := foldEach_hand f v.toList t (⟨s, g, log⟩ : Client σ A)
  rw [fold_run, hh.1]
  simp only [h]
  refine ⟨_, rfl, v.toList.length - rest.length, ?_, ?_, ?_⟩
  · have h2 := hh.2
    simp only [h] at h2
    obtain ⟨p, hp⟩ := h2
    rw [← hp]; simp
  · rw [(dropAll_client d _ _).1]
  · rw [(dropAll_client d _ _).2]
/-- `Vector::scan` that returns (with a scan state that owns nothing). -/
theorem C102_scan_returns (f : S → A → Eff σ (A × S)) (d : A → Eff σ Unit) (t t' : S) (v : Vec A N) (s s' : σ) (g : List A) (log : List (Ev A))
    (outs : List A) (h : callEach (inPlace f) v.toList (t, s) = (outs, none, (t', s'))) :
    ∃ u : Vec A N, (Own.scan (fun a => [a]) (fun a => [a]) (fun _ => []) (dropC d) (dropC d) (fun _ => pure ()) t
        (withState fun t a => hand [a] (fun p => [p.1]) (f t a)) v).exec ⟨s, g, log⟩ =
      (.ok u, ⟨s', g ++ v.toList, (outs.map .got).reverse ++ log⟩) ∧ u.toList = outs := by
  have hr := scanRef_run (A := A) (W := Local (Client σ A) fun _ : S => ([] : List A)) (fun a => [a]) (fun a => [a]) (fun x => inner (dropC d x))
    (fun x => inner (dropC d x)) (withState fun t a => hand [a] (fun p => [p.1]) (f t a)) v ⟨⟨s, g, log⟩, t⟩
  rw [callEach_handScan] at hr
  simp only [h] at hr
  obtain ⟨hk, hr⟩ := hr
  refine ⟨Vec.ofList outs hk, ?_, by simp⟩
  unfold Own.scan scope
  rw [exec_mk, hr]
  rfl
/-- `Vector::scan` whose closure panics: the results of the earlier calls are *leaked*, the remaining arguments are dropped. -/
theorem C102_scan_panics (f : S → A → Eff σ (A × S)) (d : A → Eff σ Unit) (t t' : S) (v : Vec A N) (s s' : σ) (g : List A) (log : List (Ev A))
    (outs : List A) (e : Fault) (h : callEach (inPlace f) v.toList (t, s) = (outs, some e, (t', s'))) :
    ∃ w, (Own.scan (fun a => [a]) (fun a => [a]) (fun _ => []) (dropC d) (dropC d) (fun _ => pure ()) t
        (withState fun t a => hand [a] (fun p => [p.1]) (f t a)) v).exec ⟨s, g, log⟩ = (.error e, w) ∧
      w.given = g ++ v.toList.take (outs.length + 1) ∧
      w.log = ((v.toList.drop (outs.length + 1)).map .dropped).reverse ++ (outs.map .leaked).reverse ++ (outs.map .got).reverse ++ log := by
  have hr := scanRef_run (A := A) (W := Local (Client σ A) fun _ : S => ([] : List A)) (fun a => [a]) (fun a => [a]) (fun x => inner (dropC d x))
    (fun x => inner (dropC d x)) (withState fun t a => hand [a] (fun p => [p.1]) (f t a)) v ⟨⟨s, g, log⟩, t⟩
  rw [callEach_handScan] at hr
  simp only [h] at hr
  unfold Own.scan scope
  rw [exec_mk, hr, dropAll_inner, leakAll_local, leakAll_client]
  refine ⟨_, rfl, ?_, ?_⟩
  · simp only [exec_pure]
    rw [(dropAll_client d _ _).1]
  · simp only [exec_pure]
    rw [(dropAll_client d _ _).2]; simp
/-- The compound assignments: `f i x` (`self[i] op= x`) is called in index order; after a panic the remaining operands are dropped. -/
theorem C102_op_assign_calls (own : T → List A) [Ledger W A] (drop : T → Eff W Unit) (f : Nat → T → Eff W Unit) (v : Vec T N) (w : W) :
    (Own.opAssign own drop f v).exec w = match callEach (fun p => f p.2 p.1) v.toList.zipIdx w with
      | (_, none, w') => (.ok (), w')
      | (k, some e, w') => (.error e, ((dropAll drop (v.toList.drop (k.length + 1))).exec w').2) := opAssign_run own drop f v w
/-- The compound assignments of matrices with at least one row, in row-major order. -/
theorem C102_matrix_op_assign_calls (f : Nat → A → Eff (Client σ A) Unit) (d : A → Eff σ Unit) (hM : 0 < M) (C : Mat A M N) (w : Client σ A) :
    match callEach (fun p => f p.2 p.1) (Spec.rowMajor C).zipIdx w with
      | (_, none, w') => (Own.matOpAssign (fun a => [a]) (dropC d) f C).exec w = (.ok (), w')
      | (k, some e, w') => ∃ w'', (Own.matOpAssign (fun a => [a]) (dropC d) f C).exec w = (.error e, w'') ∧ w''.given = w'.given ∧
          ∃ l : List A, l.Perm ((Spec.rowMajor C).drop (k.length + 1)) ∧ w''.log = (l.map .dropped).reverse ++ w'.log := by
  obtain ⟨m, rfl⟩ : ∃ m, M = m + 1 := ⟨M - 1, by omega⟩
  have h := same_matOpAssign (fun a : A => [a]) (dropC d) f C w
  rw [Mat.rowMajor_eq]
  generalize callEach (fun p => f p.2 p.1) (C.data.toList.flatMap Vec.toList).zipIdx w = r at h
  obtain ⟨k, _ | e, w'⟩ := r
  · exact h
  · obtain ⟨it, h1, h2⟩ := h
    refine ⟨_, h2, (dropFlat_client d it w').1, _, ?_, (dropFlat_client d it w').2⟩
    rw [← h1]
    exact List.perm_append_comm
/-- `into_iter` of a matrix with at least one row: `k` calls of `next` move the first `k` items out, in row-major order, and touch
nothing else; dropping the iterator then drops each of the other items exactly once, whatever the destructors do. -/
theorem C102_into_iter (hM : 0 < M) (C : Mat A M N) (d : A → Eff σ Unit) (k : Nat) :
    ∃ it it' : List (Vec A N) × List A, Own.flatNew C = .ok it ∧
      (∀ w : Client σ A, (Spec.takeN (Own.flatNext (own := fun a => [a]) (dropC d)) k).exec ⟨w, it⟩ = (.ok ((Spec.rowMajor C).take k), ⟨w, it'⟩)) ∧
      ∃ l : List A, l.Perm ((Spec.rowMajor C).drop k) ∧ ∀ w : Client σ A,
        ((dropFlat (dropC d) it').exec w).2.given = w.given ∧ ((dropFlat (dropC d) it').exec w).2.log = (l.map .dropped).reverse ++ w.log := by
  obtain ⟨m, rfl⟩ : ∃ m, M = m + 1 := ⟨M - 1, by omega⟩
  obtain ⟨it, h1, h2⟩ := flatNew_eq C
  rw [Mat.rowMajor_eq, ← h2]
  have key : ∀ k, ∃ it', restFlat it' = (restFlat it).drop k ∧ ∀ w : Client σ A,
      (Spec.takeN (Own.flatNext (own := fun a => [a]) (dropC d)) k).exec ⟨w, it⟩ = (.ok ((restFlat it).take k), ⟨w, it'⟩) :=
    fun k => takeN_flat_unif (own := fun a : A => [a]) (dropC d) k it
  obtain ⟨it', h3, h4⟩ := key k
  refine ⟨it, it', h1, h4, _, ?_, fun w => dropFlat_client d it' w⟩
  rw [← h3]
  exact List.perm_append_comm

/-! ## Agreement with the models used for the other properties -/
section
variable [Ledger W A]
theorem C102_map_agrees (ownT : T → List A) (ownU : U → List A) (dropT : T → Eff W Unit) (dropU : U → Eff W Unit) (f : T → Eff W U)
    (v : Vec T N) : SameUpToPanic (Own.map ownT ownU dropT dropU f v) (v.mapM f) := same_map ownT ownU dropT dropU f v
theorem C102_fold_agrees (own : T → List A) (ownS : S → List A) (drop : T → Eff W Unit) (f : S → T → Eff W S) (s : S) (v : Vec T N) :
    SameUpToPanic (Own.fold own ownS drop f s v) (v.foldM f s) := same_fold own ownS drop f s v
theorem C102_for_each_agrees (own : T → List A) (drop : T → Eff W Unit) (f : T → Eff W Unit) (v : Vec T N) :
    SameUpToPanic (Own.forEach own drop f v) (v.forEachM f) := same_forEach own drop f v
theorem C102_fold_first_agrees (own : T → List A) (drop : T → Eff W Unit) (f : T → T → Eff W T) (v : Vec T N) :
    SameUpToPanic (Own.foldFirst own drop f v) (v.foldFirstM f) := same_foldFirst own drop f v
theorem C102_scan_agrees (ownT : T → List A) (ownU : U → List A) (ownS : S → List A) (dropT : T → Eff W Unit) (dropU : U → Eff W Unit)
    (dropS : S → Eff W Unit) (hS : ∀ x w, ((dropS x).exec w).1 = .ok ()) (s : S) (f : S → T → Eff W (U × S)) (v : Vec T N) (w : W) :
    ((Own.scan ownT ownU ownS dropT dropU dropS s (withState f) v).exec w).1 = ((v.scanE s f).exec w).1 :=
  scan_fst ownT ownU ownS dropT dropU dropS hS s f v w
theorem C102_bin_op_agrees (own : T → List A) (drop : T → Eff W Unit) (f : T → T → Eff W T) (v u : Vec T N) :
    SameUpToPanic (Own.binOp own drop f v u) ((v.zip u).mapM fun p => f p.1 p.2) := same_binOp own drop f v u
theorem C102_matrix_map_agrees (ownT : T → List A) (ownU : U → List A) (dropT : T → Eff W Unit) (dropU : U → Eff W Unit) (f : T → Eff W U)
    (C : Mat T M N) : SameUpToPanic (Own.matMap ownT ownU dropT dropU f C) (C.mapM f) := same_matMap ownT ownU dropT dropU f C
theorem C102_matrix_fold_agrees (own : T → List A) (ownS : S → List A) (drop : T → Eff W Unit) (f : S → T → Eff W S) (s : S) (C : Mat T M N) :
    SameUpToPanic (Own.matFold own ownS drop f s C) (C.foldM f s) := same_matFold own ownS drop f s C
theorem C102_matrix_for_each_agrees (own : T → List A) (drop : T → Eff W Unit) (f : T → Eff W Unit) (C : Mat T M N) :
    SameUpToPanic (Own.matForEach own drop f C) (C.forEachM f) := same_matForEach own drop f C
theorem C102_matrix_fold_first_agrees (own : T → List A) (drop : T → Eff W Unit) (f : T → T → Eff W T) (C : Mat T M N) :
    SameUpToPanic (Own.matFoldFirst own drop f C) (C.foldFirstM f) := same_matFoldFirst own drop f C
theorem C102_matrix_scan_agrees (ownT : T → List A) (ownU : U → List A) (ownS : S → List A) (dropT : T → Eff W Unit) (dropU : U → Eff W Unit)
    (dropS : S → Eff W Unit) (hS : ∀ x w, ((dropS x).exec w).1 = .ok ()) (s : S) (f : S → T → Eff W (U × S)) (C : Mat T M N) (w : W) :
    ((Own.matScan ownT ownU ownS dropT dropU dropS s (withState f) C).exec w).1 = ((C.scanE s f).exec w).1 :=
  matScan_fst ownT ownU ownS dropT dropU dropS hS s f C w
theorem C102_matrix_bin_op_agrees (own : T → List A) (drop : T → Eff W Unit) (f : T → T → Eff W T) (C D : Mat T M N) :
    SameUpToPanic (Own.matBinOp own drop f C D) ((C.zip D).mapM fun p => f p.1 p.2) := same_matBinOp own drop f C D
end

/-! ## Examples -/
namespace OwnIterEx
/-- A closure that counts its calls, returns ten times its argument and panics at 3. -/
def tenfold (a : Nat) : Eff Nat Nat := ExceptT.mk fun s => if a = 3 then (.error (.user 7), s + 1) else (.ok (10 * a), s + 1)
theorem tenfold_safe (a : Nat) (s : Nat) : ((tenfold a).exec s).1 ≠ .error .ub := by
  unfold tenfold; rw [exec_mk]; split <;> simp
/-- A destructor that panics at 20. -/
def noisy (a : Nat) : Eff Nat Unit := ExceptT.mk fun s => if a = 20 then (.error (.user 8), s) else (.ok (), s)
theorem noisy_safe (a : Nat) (s : Nat) : ((noisy a).exec s).1 ≠ .error .ub := by
  unfold noisy; rw [exec_mk]; split <;> simp
def sink (a : Nat) : Eff Nat Unit := ExceptT.mk fun s => if a = 3 then (.error (.user 7), s) else (.ok (), s + a)
theorem sink_safe (a : Nat) (s : Nat) : ((sink a).exec s).1 ≠ .error .ub := by
  unfold sink; rw [exec_mk]; split <;> simp
def sum (x y : Nat) : Eff Nat Nat := ExceptT.mk fun s => if y = 3 then (.error (.user 7), s) else (.ok (x + y), s + 1)
theorem sum_safe (x y : Nat) (s : Nat) : ((sum x y).exec s).1 ≠ .error .ub := by
  unfold sum; rw [exec_mk]; split <;> simp
/-- Running sums; panics at 3. -/
def run (t a : Nat) : Eff Nat (Nat × Nat) := ExceptT.mk fun s => if a = 3 then (.error (.user 7), s) else (.ok (t + a, t + a), s + 1)
theorem run_safe (t a s : Nat) : ((run t a).exec s).1 ≠ .error .ub := by
  unfold run; rw [exec_mk]; split <;> simp
def one (a : Nat) : List Nat := [a]
theorem clean_drop (a : Nat) : Clean (dropC noisy a) (one a) (fun _ => 0) := clean_dropC noisy noisy_safe a
theorem clean_ten (a : Nat) : Clean (hand [a] one (tenfold a)) (one a) (fun b => one b) := clean_hand _ _ _ (tenfold_safe a)
theorem clean_sink (a : Nat) : Clean (hand [a] (fun _ => []) (sink a)) (one a) (fun _ => 0) := clean_hand _ (fun _ => []) _ (sink_safe a)
theorem clean_sum (x y : Nat) : Clean (hand [x, y] one (sum x y)) ((one x : Multiset Nat) + (one y : Multiset Nat)) (fun b => one b) :=
  clean_hand [x, y] one _ (sum_safe x y)
theorem clean_good {α : Type} {x : Eff (Client Nat Nat) α} {pre : Multiset Nat} {post : α → Multiset Nat} (h : Clean x pre post) : Good x pre post := by
  intro w B hB
  have := h w B hB
  match hx : x.exec w with
  | (.ok a, w') => rw [hx] at this; exact this
  | (.error e, w') => rw [hx] at this; exact ⟨this.1, this.2.1⟩
def v : Vec Nat 5 := ⟨#v[1, 2, 3, 4, 5]⟩
def C : Mat Nat 2 3 := ⟨⟨#v[⟨#v[1, 2, 4]⟩, ⟨#v[3, 5, 6]⟩]⟩⟩
end OwnIterEx
open OwnIterEx
/-- A destructor that panics during the clean-up does not stop it. -/
example : ((Own.map one one (dropC noisy) (dropC noisy) (fun a => hand [a] one (tenfold a)) v).exec ⟨0, [], []⟩).2.log =
    [.dropped 5, .dropped 4, .dropped 20, .dropped 10, .got 20, .got 10] := by decide
example : ((Own.scan one one (fun _ => []) (dropC noisy) (dropC noisy) (fun _ => pure ()) 0
    (withState fun t a => hand [a] (fun p => [p.1]) (run t a)) v).exec ⟨0, [], []⟩).2.log =
    [.dropped 5, .dropped 4, .leaked 3, .leaked 1, .got 3, .got 1] := by decide
/-- Matrices: the finished rows, the results in the current row and the rest are all dropped. -/
example : ((Own.matMap one one (dropC noisy) (dropC noisy) (fun a => hand [a] one (tenfold a)) C).exec ⟨0, [], []⟩).2.log =
    [.dropped 40, .dropped 20, .dropped 10, .dropped 6, .dropped 5, .got 40, .got 20, .got 10] := by decide
example := C102_map_clean one one (dropC noisy) (dropC noisy) (fun a => hand [a] one (tenfold a)) clean_drop clean_drop clean_ten v
example := C102_for_each_clean one (dropC noisy) (fun a => hand [a] (fun _ => []) (sink a)) clean_drop clean_sink v
example := C102_fold_clean one one (dropC noisy) (fun s a => hand [s, a] one (sum s a)) clean_drop clean_sum 100 v
example := C102_fold_first_clean one (dropC noisy) (fun s a => hand [s, a] one (sum s a)) clean_drop clean_sum v
example (u : Vec Nat 5) := C102_bin_op_clean one (dropC noisy) (fun s a => hand [s, a] one (sum s a)) clean_drop clean_sum v u
example := C102_op_assign_clean one (dropC noisy) (fun _ a => hand [a] (fun _ => []) (sink a)) clean_drop (fun _ a => clean_sink a) v
example := C102_matrix_map_clean one one (dropC noisy) (dropC noisy) (fun a => hand [a] one (tenfold a)) clean_drop clean_drop clean_ten C
example := C102_matrix_for_each_clean one (dropC noisy) (fun a => hand [a] (fun _ => []) (sink a)) clean_drop clean_sink C
example := C102_matrix_fold_clean one one (dropC noisy) (fun s a => hand [s, a] one (sum s a)) clean_drop clean_sum 100 C
example := C102_matrix_fold_first_clean one (dropC noisy) (fun s a => hand [s, a] one (sum s a)) clean_drop clean_sum C
example (D : Mat Nat 2 3) := C102_matrix_bin_op_clean one (dropC noisy) (fun s a => hand [s, a] one (sum s a)) clean_drop clean_sum C D
example := C102_matrix_op_assign_clean one (dropC noisy) (fun _ a => hand [a] (fun _ => []) (sink a)) clean_drop (fun _ a => clean_sink a) C
theorem OwnIterEx.good_run (x : Nat) : Good (W := Local (Client Nat Nat) one) (inner (hand [x] one (tenfold x))) (one x) (fun y => one y) :=
  goodIf_false.mp (goodIf_false.mpr (clean_good (clean_ten x))).inner
example := C102_scan_good one one one (dropC noisy) (dropC noisy) (dropC noisy) 100 (fun x => inner (hand [x] one (tenfold x)))
  (fun x => clean_good (clean_drop x)) (fun x => clean_good (clean_drop x)) (fun x => clean_good (clean_drop x)) good_run v
example := C102_matrix_scan_good one one one (dropC noisy) (dropC noisy) (dropC noisy) 100 (fun x => inner (hand [x] one (tenfold x)))
  (fun x => clean_good (clean_drop x)) (fun x => clean_good (clean_drop x)) (fun x => clean_good (clean_drop x)) good_run C
example := C102_map_returns tenfold noisy (⟨#v[1, 2, 4]⟩ : Vec Nat 3) 0 3 [] [] [10, 20, 40] (by rfl)
example := C102_map_panics tenfold noisy v 0 3 [] [] [10, 20] (.user 7) (by rfl)
example := C102_for_each_returns sink noisy (⟨#v[1, 2, 4]⟩ : Vec Nat 3) 0 7 [] [] [(), (), ()] (by rfl)
example := C102_for_each_panics sink noisy v 0 3 [] [] [(), ()] (.user 7) (by rfl)
example := C102_fold_calls sum noisy 100 v 0 [] [] [4, 5] (.error (.user 7)) 2 (by rfl)
example := C102_scan_returns run noisy 0 7 (⟨#v[1, 2, 4]⟩ : Vec Nat 3) 0 3 [] [] [1, 3, 7] (by rfl)
example := C102_scan_panics run noisy 0 3 v 0 2 [] [] [1, 3] (.user 7) (by rfl)
example := C102_matrix_op_assign_calls (fun _ a => hand [a] (fun _ => []) (sink a)) noisy (by decide) C ⟨0, [], []⟩
example := C102_into_iter (by decide) C noisy 4
example (w : Client Nat Nat) := C102_scan_agrees one one (fun _ => []) (dropC noisy) (dropC noisy) (fun _ : Nat => pure ()) (fun _ _ => rfl) 0
  (fun t a => hand [a] (fun p => [p.1]) (run t a)) v w
example (w : Client Nat Nat) := C102_matrix_scan_agrees one one (fun _ => []) (dropC noisy) (dropC noisy) (fun _ : Nat => pure ()) (fun _ _ => rfl) 0
  (fun t a => hand [a] (fun p => [p.1]) (run t a)) C w
end Vecmat
