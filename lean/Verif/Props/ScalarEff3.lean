import Verif.Props.ScalarEff2
/-! # C100, continued: which calls are made, and how many -/
namespace Vecmat
open Spec
variable {T U α β σ : Type} {L M N : Nat}

theorem Spec.Makes.throw (e : Fault) (l : List Op) : Makes (σ := σ) (α := α) (throw e) l := fun s log =>
  ⟨.error e, s, [], by simp [exec_throw], List.nil_prefix, by simp⟩
theorem Vec.makes_mapM (f : T → Eff (σ × List Op) U) (v : Vec T N) (l : List Op) (h : ∀ x, Makes (f x) l) :
    Makes (v.mapM f) (List.replicate N l).flatten := by
  apply Spec.Makes.of_map (f := Vec.toList)
  rw [Vec.toList_mapM_inOrder, ← List.map_id (List.ofFn _), List.ofFn_eq_map, List.map_map]
  have := Spec.Makes.inOrder (List.finRange N) (id ∘ fun i : Fin N => f v[i.1]) (fun _ => l) (fun i _ => h _)
  simpa [List.flatMap_def] using this
theorem Mat.makes_mapM (f : T → Eff (σ × List Op) U) (A : Mat T M N) (l : Nat → Nat → List Op)
    (h : ∀ i (hi : i < M) j (hj : j < N), Makes (f A[i][j]) (l i j)) :
    Makes (A.mapM f) ((List.range M).flatMap fun i => (List.range N).flatMap fun j => l i j) := by
  apply Spec.Makes.of_map (f := rowMajor)
  rw [Mat.rowMajor_mapM_inOrder]
  have := Spec.Makes.inOrder ((List.finRange M).flatMap fun i => (List.finRange N).map fun j => (i, j))
    (fun p : Fin M × Fin N => f A[p.1.1][p.2.1]) (fun p => l p.1 p.2) (fun p _ => h _ p.1.2 _ p.2.2)
  simp only [List.map_flatMap, List.map_map, Function.comp_def, List.flatMap_assoc, List.flatMap_map] at this
  have e : ∀ (n : Nat) (g : Nat → List Op), (List.range n).flatMap g = (List.finRange n).flatMap fun i => g i.1 := by
    intro n g
    rw [← List.map_coe_finRange_eq_range, List.flatMap_map]
  rw [e]; simp only [e]
  exact this
theorem Vec.makes_sumE (o : ScalarE σ T) (v : Vec T N) : Makes (v.sumE (logged o)) (List.replicate (N - 1) .add) := by
  rw [Vec.sumE_eq]
  have hl : v.toList.length = N := by simp
  cases h : v.toList with
  | nil => exact Spec.Makes.throw _ _
  | cons x l =>
    rw [h] at hl
    have := Spec.Makes.foldlM l (logged o).add (fun _ => [.add]) (fun a y _ => Spec.Makes.note .add (o.add a y)) x
    rw [addUp, ← hl]
    simpa [List.flatMap_def] using this

theorem flatten_replicate_singleton (n : Nat) (x : α) : (List.replicate n [x]).flatten = List.replicate n x := by
  induction n with
  | zero => rfl
  | succ n ih => simp [List.replicate_succ, ih]

/-- `sum`, `dot` and `square_length`: `N` multiplications, then `N - 1` additions. -/
theorem C100_calls_dot (o : ScalarE σ T) (v w : Vec T N) :
    Makes (v.sumE (logged o)) (List.replicate (N - 1) .add) ∧
    Makes (v.dotE (logged o) w) (List.replicate N .mul ++ List.replicate (N - 1) .add) ∧
    Makes (v.squareLengthE (logged o)) (List.replicate N .mul ++ List.replicate (N - 1) .add) := by
  refine ⟨Vec.makes_sumE o v, ?_, ?_⟩
  · have := (Vec.makes_mapM (N := N) (fun p : T × T => (logged o).mul p.1 p.2) (v.zip w) [.mul] fun p => Spec.Makes.note _ _).bind
      fun p => Vec.makes_sumE o p
    rwa [flatten_replicate_singleton] at this
  · have := (Vec.makes_mapM (N := N) (fun x : T => (logged o).mul x x) v [.mul] fun p => Spec.Makes.note _ _).bind
      fun p => Vec.makes_sumE o p
    rwa [flatten_replicate_singleton] at this

theorem flatMap_const (n : Nat) (l : List α) : (List.range n).flatMap (fun _ => l) = (List.replicate n l).flatten := by
  induction n with
  | zero => rfl
  | succ n ih => rw [List.range_succ, List.flatMap_append, ih, List.replicate_succ']; simp
theorem flatten_flatten_replicate (m n : Nat) (l : List α) :
    (List.replicate m (List.replicate n l).flatten).flatten = (List.replicate (m * n) l).flatten := by
  induction m with
  | zero => simp
  | succ m ih => rw [List.replicate_succ, List.flatten_cons, ih, Nat.succ_mul, Nat.add_comm, List.replicate_add, List.flatten_append]

/-- Products: one `dot` per component of the result. -/
theorem C100_calls_products (o : ScalarE σ T) (u : Vec T L) (v : Vec T M) (w : Vec T N) (A : Mat T L M) (B : Mat T M N) :
    let dot := fun n => List.replicate n Op.mul ++ List.replicate (n - 1) Op.add
    Makes (Mat.outerE (logged o) v w) (List.replicate (M * N) .mul) ∧
    Makes (A.dotVE (logged o) v) (List.replicate L (dot M)).flatten ∧
    Makes (Mat.vDotE (logged o) u A) (List.replicate M (dot L)).flatten ∧
    Makes (A.dotME (logged o) B) (List.replicate (L * N) (dot M)).flatten := by
  have lift : ∀ {α β : Type} (r : Res α) (f : α → Eff (σ × List Op) β) (l : List Op), (∀ x, Makes (f x) l) →
      Makes (liftRes r >>= f) l := by
    intro α β r f l h
    cases r with
    | ok x => simpa using h x
    | error e => exact Spec.Makes.throw e l
  refine ⟨?_, ?_, ?_, ?_⟩
  · have := Mat.makes_mapM (fun p : Nat × Nat => (do
        let a ← liftRes (v.index p.1)
        let b ← liftRes (w.index p.2)
        (logged o).mul a b : Eff (σ × List Op) T)) (Mat.indices (M := M) (N := N)) (fun _ _ => [.mul])
        (fun i hi j hj => lift _ _ _ fun a => lift _ _ _ fun b => Spec.Makes.note _ _)
    rw [show (fun i : Nat => (List.range N).flatMap fun _ => [Op.mul]) = fun _ => (List.replicate N [Op.mul]).flatten from by
      funext i; exact flatMap_const _ _, flatMap_const, flatten_flatten_replicate, flatten_replicate_singleton] at this
    exact this
  · exact Vec.makes_mapM _ _ _ fun i => lift _ _ _ fun r => (C100_calls_dot o r v).2.1
  · exact Vec.makes_mapM _ _ _ fun i => lift _ _ _ fun r => (C100_calls_dot o u r).2.1
  · have := Mat.makes_mapM (fun p : Nat × Nat => (do
        let r ← liftRes (A.rowR p.1)
        let c ← liftRes (B.colR p.2)
        r.dotE (logged o) c : Eff (σ × List Op) T)) (Mat.indices (M := L) (N := N))
        (fun _ _ => List.replicate M Op.mul ++ List.replicate (M - 1) Op.add)
        (fun i hi j hj => lift _ _ _ fun a => lift _ _ _ fun b => (C100_calls_dot o a b).2.1)
    rw [show (fun i : Nat => (List.range N).flatMap fun _ => List.replicate M Op.mul ++ List.replicate (M - 1) Op.add) =
      fun _ => (List.replicate N (List.replicate M Op.mul ++ List.replicate (M - 1) Op.add)).flatten from by
      funext i; exact flatMap_const _ _, flatMap_const, flatten_flatten_replicate] at this
    exact this

theorem Mat.makes_sgnE (o : ScalarE σ T) (k : Nat) (a : T) : Makes (Mat.sgnE (logged o) k a) (if k % 2 = 1 then [.neg] else []) := by
  rcases Nat.mod_two_eq_zero_or_one k with h | h
  · simp only [Mat.sgnE, h]; exact Spec.Makes.pure a
  · simp only [Mat.sgnE, h]; exact Spec.Makes.note _ _

theorem makes_laplaceN (o : ScalarE σ T) (f : Nat → Nat → T) (R C : List Nat) (h : R.length = C.length) :
    Makes ((Mat.laplaceN f R C).eval (logged o)) (detCalls R.length) := by
  induction R generalizing C with
  | nil => exact Spec.Makes.note _ _
  | cons i R ih =>
    rw [Mat.eval_laplaceN_cons, List.length_cons, detCalls, ← List.singleton_append]
    refine (Spec.Makes.note _ _).bind fun z => ?_
    simp only [List.length_cons] at h
    rw [h]
    refine Spec.Makes.foldlM _ _ (fun k => detCalls R.length ++ (if k % 2 = 1 then [.neg] else []) ++ [.mul, .add]) ?_ z
    intro a k hk
    have hk : k < C.length := by simpa using hk
    refine ((ih (C.eraseIdx k) (by rw [List.length_eraseIdx_of_lt hk]; omega)).bind fun x => Mat.makes_sgnE o k x).bind fun c => ?_
    exact (Spec.Makes.note .mul _).bind fun p => Spec.Makes.note .add _

/-- The calls made by `det` and `cofactor` do not depend on the entries. -/
theorem C100_calls_det (o : ScalarE σ T) (A : Mat T N N) (i j : Nat) :
    Makes (A.detE (logged o)) (detCalls N) ∧
    Makes (A.cofactorE (logged o) i j) (detCalls (N - 1) ++ if (i + j) % 2 = 1 then [.neg] else []) := by
  constructor
  · rcases Nat.eq_zero_or_pos N with rfl | h
    · rw [Mat.detE_zero]; exact Spec.Makes.note _ _
    · rw [Mat.detE_eqN _ (fun i hi j hj => Mat.entN_lt A h i hi j hj)]
      simpa using makes_laplaceN o (Mat.entN A h) (List.range N) (List.range N) rfl
  · by_cases h : i < N ∧ j < N
    · have h0 : 0 < N := by omega
      rw [Mat.cofactorE_eqN _ (fun i hi j hj => Mat.entN_lt A h0 i hi j hj) i j h.1 h.2]
      have := (makes_laplaceN o (Mat.entN A h0) ((List.range N).eraseIdx i) ((List.range N).eraseIdx j) (by
        rw [List.length_eraseIdx_of_lt (by simpa using h.1), List.length_eraseIdx_of_lt (by simpa using h.2)])).bind
        fun x => Mat.makes_sgnE o (i + j) x
      rwa [List.length_eraseIdx_of_lt (by simpa using h.1), List.length_range] at this
    · rw [Mat.cofactorE, if_neg h]
      exact Spec.Makes.throw _ _

/-- `inv`: the cofactors in row-major order, the determinant once, one division per component. -/
theorem C100_calls_inv (o : ScalarE σ T) (A : Mat T N N) :
    let adj := (List.range N).flatMap fun i => (List.range N).flatMap fun j =>
      detCalls (N - 1) ++ if (j + i) % 2 = 1 then [Op.neg] else []
    Makes (A.adjE (logged o)) adj ∧ Makes (A.invE (logged o)) (adj ++ detCalls N ++ List.replicate (N * N) .div) := by
  have h : Makes (A.adjE (logged o)) ((List.range N).flatMap fun i => (List.range N).flatMap fun j =>
      detCalls (N - 1) ++ if (j + i) % 2 = 1 then [Op.neg] else []) :=
    Mat.makes_mapM _ _ _ fun i hi j hj => by
      rw [Mat.getElem_indices i hi j hj]
      exact (C100_calls_det o A j i).2
  refine ⟨h, ?_⟩
  rw [List.append_assoc]
  refine h.bind fun B => (C100_calls_det o A 0 0).1.bind fun d => ?_
  have := Mat.makes_mapM (fun x => (logged o).div x d) B (fun _ _ => [.div]) (fun i hi j hj => Spec.Makes.note _ _)
  rw [show (fun i : Nat => (List.range N).flatMap fun _ => [Op.div]) = fun _ => (List.replicate N [Op.div]).flatten from by
    funext i; exact flatMap_const _ _, flatMap_const, flatten_flatten_replicate, flatten_replicate_singleton] at this
  exact this

/-- Complex and quaternion products and inverses. -/
theorem C100_calls_complex (o : ScalarE σ T) (z w : Cpx T) (p q : Quat T) :
    let norm := fun n => List.replicate n Op.mul ++ List.replicate (n - 1) Op.add
    Makes (z.mulE (logged o) w) [.mul, .mul, .sub, .mul, .mul, .add] ∧
    Makes (z.invE (logged o)) ([.neg] ++ norm 2 ++ [.div, .div]) ∧
    Makes (z.divE (logged o) w) (([.neg] ++ norm 2 ++ [.div, .div]) ++ [.mul, .mul, .sub, .mul, .mul, .add]) ∧
    Makes (p.mulE (logged o) q) [.mul, .mul, .sub, .mul, .sub, .mul, .sub, .mul, .mul, .add, .mul, .add, .mul, .sub,
      .mul, .mul, .sub, .mul, .add, .mul, .add, .mul, .mul, .add, .mul, .sub, .mul, .add] ∧
    Makes (p.invE (logged o)) ([.neg, .neg, .neg] ++ norm 4 ++ [.div, .div, .div, .div]) := by
  have n := fun (n : Op) (c : Eff σ T) => Spec.Makes.note n c
  have fin : ∀ {α β : Type} (c : Eff (σ × List Op) α) (f : α → β) (l : List Op), Makes c l → Makes (c >>= fun x => pure (f x)) l := by
    intro α β c f l h
    have := h.bind (f := fun x => pure (f x)) fun x => Spec.Makes.pure (f x)
    rwa [List.append_nil] at this
  have hm : ∀ z w : Cpx T, Makes (z.mulE (logged o) w) [.mul, .mul, .sub, .mul, .mul, .add] := fun z w =>
    (n .mul _).bind fun a => (n .mul _).bind fun b => (n .sub _).bind fun x => (n .mul _).bind fun c => (n .mul _).bind fun d =>
      fin _ _ _ (n .add _)
  have hi : ∀ z : Cpx T, Makes (z.invE (logged o))
      ([.neg] ++ (List.replicate 2 Op.mul ++ List.replicate (2 - 1) Op.add) ++ [.div, .div]) := fun z => by
    rw [List.append_assoc]
    refine (fin _ _ _ (n .neg _)).bind fun c => (C100_calls_dot o z.vec z.vec).2.2.bind fun m => ?_
    exact fin _ _ _ (Vec.makes_mapM (N := 2) (fun x => (logged o).div x m) c.vec [.div] fun x => n .div _)
  have hc : ∀ (f g h : T → T → Eff (σ × List Op) T) (x y w : Op) (_ : ∀ a b, Makes (f a b) [x]) (_ : ∀ a b, Makes (g a b) [y])
      (_ : ∀ a b, Makes (h a b) [w]) (a b c d e k m n' : T),
      Makes (Quat.compE (logged o) f g h a b c d e k m n') [.mul, .mul, x, .mul, y, .mul, w] := fun f g h x y w hf hg hh a b c d e k m n' =>
    (n .mul _).bind fun p => (n .mul _).bind fun q => (hf _ _).bind fun x => (n .mul _).bind fun r => (hg _ _).bind fun y =>
      (n .mul _).bind fun t => hh _ _
  have ha : ∀ a b, Makes ((logged o).add a b) [.add] := fun a b => n .add _
  have hs : ∀ a b, Makes ((logged o).sub a b) [.sub] := fun a b => n .sub _
  refine ⟨hm z w, hi z, (hi w).bind fun i => hm z i, ?_, ?_⟩
  · exact (hc _ _ _ _ _ _ hs hs hs _ _ _ _ _ _ _ _).bind fun w => (hc _ _ _ _ _ _ ha ha hs _ _ _ _ _ _ _ _).bind fun x =>
      (hc _ _ _ _ _ _ hs ha ha _ _ _ _ _ _ _ _).bind fun y => fin _ _ _ (hc _ _ _ _ _ _ ha hs ha _ _ _ _ _ _ _ _)
  · rw [List.append_assoc]
    have c3 : Makes (p.conjE (logged o)) [.neg, .neg, .neg] :=
      (n .neg _).bind fun x => (n .neg _).bind fun y => fin _ _ _ (n .neg _)
    refine c3.bind fun c => (C100_calls_dot o p.vec p.vec).2.2.bind fun m => ?_
    exact fin _ _ _ (Vec.makes_mapM (N := 4) (fun x => (logged o).div x m) c.vec [.div] fun x => n .div _)

/-! ## how many -/
theorem count_detCalls_succ (x : Op) (n : Nat) : (detCalls (n + 1)).count x =
    [Op.zero].count x + ((n + 1) * ((detCalls n).count x + [Op.mul, Op.add].count x) +
      ((List.range (n + 1)).map fun k => (if k % 2 = 1 then [Op.neg] else []).count x).sum) := by
  rw [detCalls, ← List.singleton_append, List.count_append, List.count_flatMap]
  congr 1
  have : ∀ l : List Nat, (l.map fun k => (detCalls n).count x + (if k % 2 = 1 then [Op.neg] else []).count x + [Op.mul, Op.add].count x).sum =
      l.length * ((detCalls n).count x + [Op.mul, Op.add].count x) + (l.map fun k => (if k % 2 = 1 then [Op.neg] else []).count x).sum := by
    intro l
    induction l with
    | nil => simp
    | cons a l ih => simp only [List.map_cons, List.sum_cons, List.length_cons, ih]; ring
  have h := this (List.range (n + 1))
  rw [List.length_range] at h
  rw [← h]
  simp only [Function.comp_def, List.count_append]

theorem count_sign (x : Op) (hx : x ≠ .neg) (l : List Nat) :
    (l.map fun k => (if k % 2 = 1 then [Op.neg] else []).count x).sum = 0 := by
  induction l with
  | nil => rfl
  | cons k l ih =>
    rw [List.map_cons, List.sum_cons, ih]
    split
    · rw [List.count_singleton]; simp [Ne.symm hx]
    · rfl

theorem sum_descFactorial_succ (n : Nat) : ∑ k ∈ Finset.range (n + 1), (n + 1).descFactorial (k + 1) =
    (n + 1) * (∑ k ∈ Finset.range n, n.descFactorial (k + 1) + 1) := by
  simp only [Nat.succ_descFactorial_succ]
  rw [← Finset.mul_sum, Finset.sum_range_succ']
  simp

/-- The cost of `det`: `N! + N!/1! + N!/2! + … + N!/(N-1)!` multiplications and as many additions, `N!` calls of `one`, no
subtraction, division or remainder. -/
theorem C100_count_det (N : Nat) :
    (detCalls N).count .mul = ∑ k ∈ Finset.range N, N.descFactorial (k + 1) ∧
    (detCalls N).count .add = ∑ k ∈ Finset.range N, N.descFactorial (k + 1) ∧
    (detCalls N).count .one = N.factorial ∧
    (detCalls N).count .sub = 0 ∧ (detCalls N).count .div = 0 ∧ (detCalls N).count .rem = 0 := by
  induction N with
  | zero => simp [detCalls]
  | succ n ih =>
    obtain ⟨h1, h2, h3, h4, h5, h6⟩ := ih
    refine ⟨?_, ?_, ?_, ?_, ?_, ?_⟩
    · rw [count_detCalls_succ, count_sign _ (by simp), h1, sum_descFactorial_succ]; simp
    · rw [count_detCalls_succ, count_sign _ (by simp), h2, sum_descFactorial_succ]; simp
    · rw [count_detCalls_succ, count_sign _ (by simp), h3, Nat.factorial_succ]; simp
    · rw [count_detCalls_succ, count_sign _ (by simp), h4]; simp
    · rw [count_detCalls_succ, count_sign _ (by simp), h5]; simp
    · rw [count_detCalls_succ, count_sign _ (by simp), h6]; simp

/-- Case: a 3 × 3 determinant makes 15 multiplications, and at least `N!` in general. -/
example : (detCalls 3).count .mul = 15 := by rw [(C100_count_det 3).1]; rfl

/-- `i8` with overflow checks: `det` of `(64 1; 1 2)` panics at its first multiplication by an entry, after the calls for the minor
`2 = 0 + 2·1`; of `(3 1; 1 2)` it returns and makes all calls. -/
example : (Mat.detE (logged (checked (-128) 127)) (Mat.fromArrArr #v[#v[64, 1], #v[1, 2]])).exec ((), []) =
      (.error .arithOverflow, ((), [.zero, .zero, .one, .mul, .add, .mul])) ∧
    (Mat.detE (logged (checked (-128) 127)) (Mat.fromArrArr #v[#v[3, 1], #v[1, 2]])).exec ((), []) = (.ok 5, ((), detCalls 2)) := by
  decide +kernel

/-- `(1, 100, 3) · (1, 2, 3)` panics at the second product: no addition is made and the third product is not computed. -/
example : (Vec.dotE (logged (checked (-128) 127)) (Vec.fromArray #v[1, 100, 3]) (Vec.fromArray #v[1, 2, 3])).exec ((), []) =
    (.error .arithOverflow, ((), [.mul, .mul])) := by
  decide +kernel

end Vecmat
