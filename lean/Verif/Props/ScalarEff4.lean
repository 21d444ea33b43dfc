import Verif.Props.ScalarEff3
/-! # C100, continued: overflow-checked integers; compound assignments -/
namespace Vecmat
open Spec
variable {T U α β σ : Type} {L M N : Nat} {lo hi : Int}

/-! ## overflow-checked integers -/
/-- a number as a checked number -/
abbrev Chk.of (x : Int) : Chk lo hi := ⟨some x⟩

theorem outcome_of (x : Int) : (outcome (Chk.of x : Chk lo hi) : Eff σ Int) = pure x := rfl
theorem outcome_check (x : Int) : (outcome (Chk.check x : Chk lo hi) : Eff σ Int) = inRange lo hi x := by
  unfold outcome Chk.check inRange
  split <;> rename_i h <;> split at h <;> simp_all
theorem outcome_add (a b : Chk lo hi) :
    (outcome a >>= fun x => outcome b >>= fun y => (checked lo hi).add x y : Eff σ Int) = outcome (a + b) := by
  obtain ⟨_ | x⟩ := a
  · rfl
  · obtain ⟨_ | y⟩ := b
    · rfl
    · exact (outcome_check (x + y)).symm
theorem outcome_mul (a b : Chk lo hi) :
    (outcome a >>= fun x => outcome b >>= fun y => (checked lo hi).mul x y : Eff σ Int) = outcome (a * b) := by
  obtain ⟨_ | x⟩ := a
  · rfl
  · obtain ⟨_ | y⟩ := b
    · rfl
    · exact (outcome_check (x * y)).symm
theorem outcome_neg (a : Chk lo hi) : (outcome a >>= (checked lo hi).neg : Eff σ Int) = outcome (-a) := by
  obtain ⟨_ | x⟩ := a
  · rfl
  · exact (outcome_check (-x)).symm
theorem outcome_sgn (k : Nat) (a : Chk lo hi) : (outcome a >>= Mat.sgnE (checked lo hi) k : Eff σ Int) = outcome (Mat.sgn k a) := by
  rcases Nat.mod_two_eq_zero_or_one k with h | h
  · rw [show (Mat.sgnE (checked lo hi) k : Int → Eff σ Int) = pure from by funext a; rw [Mat.sgnE, if_neg (by omega)], bind_pure,
      Mat.sgn, if_neg (by omega)]
  · rw [show (Mat.sgnE (checked lo hi) k : Int → Eff σ Int) = (checked lo hi).neg from by funext a; rw [Mat.sgnE, if_pos (by omega)],
      outcome_neg, Mat.sgn, if_pos (by omega)]

theorem foldlM_outcome (g : Nat → Chk lo hi) (l : List Nat) (a : Chk lo hi) :
    (outcome a >>= fun x => l.foldlM (fun x k => outcome (g k) >>= fun y => (checked lo hi).add x y) x : Eff σ Int) =
      outcome (l.foldl (fun a k => a + g k) a) := by
  induction l generalizing a with
  | nil => simp
  | cons k l ih =>
    rw [List.foldl_cons, ← ih, ← outcome_add]
    simp

theorem eval_laplaceN_checked (f : Nat → Nat → Int) (R C : List Nat) :
    (Mat.laplaceN f R C).eval (checked lo hi : ScalarE σ Int) = outcome (Mat.lap (fun i j => (Chk.of (f i j) : Chk lo hi)) R C) := by
  induction R generalizing C with
  | nil => rfl
  | cons i R ih =>
    rw [Mat.eval_laplaceN_cons, Mat.lap, ← foldlM_outcome]
    congr 1
    funext z
    congr 1
    funext a k
    rw [ih, outcome_sgn, ← outcome_mul (Chk.of (f i (C[k]?.getD 0)))]
    simp [outcome_of]

/-- The determinant with overflow checks returns what the model of C37 (in which overflow is a value) returns, and panics when that is
the overflow value. -/
theorem C100_checked_det (A : Mat Int N N) (i j : Nat) (hi' : i < N) (hj : j < N) :
    (A.detE (checked lo hi : ScalarE σ Int)) = outcome (A.map (fun x => (Chk.of x : Chk lo hi))).det ∧
    (A.cofactorE (checked lo hi : ScalarE σ Int) i j) = outcome (A.map (fun x => (Chk.of x : Chk lo hi))).adj[j][i] := by
  have h0 : ∀ (i' : Nat) (h1 : i' < N) (j' : Nat) (h2 : j' < N), Mat.ent A i' j' = A[i'][j'] := fun i hi j hj => Mat.ent_lt A i j hi hj
  have he : ∀ R C : List Nat, Mat.lap (fun i j => (Chk.of (Mat.ent A i j) : Chk lo hi)) R C =
      Mat.lap (Mat.ent (A.map (fun x => (Chk.of x : Chk lo hi)))) R C := by
    intro R C
    congr 1
    funext i j
    unfold Mat.ent
    split
    · simp
    · rfl
  constructor
  · rw [Mat.detE_eqN _ h0, eval_laplaceN_checked, he]
    rw [show (A.map (fun x => (Chk.of x : Chk lo hi))).det = _ from Res.get_eq (Mat.detR_eq _) _]
  · rw [Mat.cofactorE_eqN _ h0 i j hi' hj, eval_laplaceN_checked, he, outcome_sgn]
    obtain ⟨B, hB, hB'⟩ := Mat.adjR_ok (A.map (fun x => (Chk.of x : Chk lo hi)))
    rw [show (A.map (fun x => (Chk.of x : Chk lo hi))).adj = B from Res.get_eq hB _, hB' j hj i hi']

theorem exec_outcome (a : Chk lo hi) (s : σ) : (outcome a : Eff σ Int).exec s =
    (match a.val with | some x => .ok x | none => .error .arithOverflow, s) := by
  obtain ⟨_ | x⟩ := a <;> rfl

/-- With overflow checks `det` returns the exact determinant or panics with an overflow; there is no panic if `N!·B^N` is in range, `B`
bounding the entries. -/
theorem C100_checked_det_exact (A : Mat Int N N) (s : σ) :
    let d := (Matrix.of fun i j : Fin N => A[i.1][j.1]).det
    ((A.detE (checked lo hi)).exec s = (.ok d, s) ∨ (A.detE (checked lo hi)).exec s = (.error .arithOverflow, s)) ∧
    ∀ B : Nat, lo ≤ -hi → 1 ≤ B → (∀ i j : Fin N, |A[i.1][j.1]| ≤ B) → ((N.factorial * B ^ N : Nat) : Int) ≤ hi →
      (A.detE (checked lo hi)).exec s = (.ok d, s) := by
  have hdet : (A.detE (checked lo hi : ScalarE σ Int)) = outcome (A.map (fun x => (Chk.of x : Chk lo hi))).det := by
    rcases Nat.eq_zero_or_pos N with rfl | h
    · rw [Mat.detE_zero]; rfl
    · exact (C100_checked_det A 0 0 h h).1
  have ha : ∀ i j : Fin N, (A.map (fun x => (Chk.of x : Chk lo hi)))[i.1][j.1].val =
      some ((Matrix.of fun i j : Fin N => A[i.1][j.1]) i j) := by intro i j; simp
  constructor
  · rw [hdet, exec_outcome]
    cases h : (A.map (fun x => (Chk.of x : Chk lo hi))).det.val with
    | none => exact Or.inr rfl
    | some x => rw [C37_checked_det _ _ ha h]; exact Or.inl rfl
  · intro B h1 h2 h3 h4
    rw [hdet, exec_outcome, C37_det_no_overflow h1 B h2 _ _ ha (by simpa using h3) h4]

/-- In order, numbers with outcomes: all of them, or the panic. -/
theorem exec_inOrder_outcome (cs : List (Chk lo hi)) (s : σ) :
    (∃ xs, cs.map (·.val) = xs.map some ∧ (inOrder (cs.map (outcome (σ := σ)))).exec s = (.ok xs, s)) ∨
      ((none ∈ cs.map (·.val)) ∧ (inOrder (cs.map (outcome (σ := σ)))).exec s = (.error .arithOverflow, s)) := by
  induction cs with
  | nil => exact Or.inl ⟨[], rfl, rfl⟩
  | cons c cs ih =>
    obtain ⟨_ | x⟩ := c
    · exact Or.inr ⟨by simp, rfl⟩
    · have e : (inOrder ((⟨some x⟩ :: cs : List (Chk lo hi)).map (outcome (σ := σ)))).exec s =
          (inOrder (cs.map (outcome (σ := σ))) >>= fun xs => pure (x :: xs)).exec s := rfl
      rcases ih with ⟨xs, h1, h2⟩ | ⟨h1, h2⟩
      · refine Or.inl ⟨x :: xs, by simp [h1], ?_⟩
        rw [e, exec_bind, h2]; rfl
      · refine Or.inr ⟨by simp at h1 ⊢; exact h1, ?_⟩
        rw [e, exec_bind, h2]

theorem foldl_none (cs : List (Chk lo hi)) : (cs.foldl (· + ·) (⟨none⟩ : Chk lo hi)) = ⟨none⟩ := by
  induction cs with
  | nil => rfl
  | cons c cs ih => rw [List.foldl_cons]; exact ih
theorem add_none (a : Chk lo hi) : a + ⟨none⟩ = ⟨none⟩ := by obtain ⟨_ | x⟩ := a <;> rfl

theorem inOrder_fold_outcome (cs : List (Chk lo hi)) (a : Chk lo hi) :
    (inOrder (cs.map outcome) >>= fun xs => outcome a >>= fun x => xs.foldlM (checked lo hi).add x : Eff σ Int) =
      outcome (cs.foldl (· + ·) a) := by
  induction cs generalizing a with
  | nil => simp [inOrder]
  | cons c cs ih =>
    obtain ⟨_ | x⟩ := c
    · rw [List.foldl_cons, add_none, foldl_none]; rfl
    · rw [List.foldl_cons, ← ih, List.map_cons, inOrder, show outcome (⟨some x⟩ : Chk lo hi) = (pure x : Eff σ Int) from rfl, pure_bind,
        bind_assoc]
      congr 1
      funext xs
      rw [pure_bind, ← outcome_add]
      simp only [bind_assoc]
      congr 1

/-- The same for `dot`. -/
theorem C100_checked_dot [NeZero N] (v w : Vec Int N) :
    v.dotE (checked lo hi : ScalarE σ Int) w =
      outcome ((v.map fun x => (Chk.of x : Chk lo hi)).dot (w.map fun x => (Chk.of x : Chk lo hi))) := by
  obtain ⟨n, rfl⟩ : ∃ n, N = n + 1 := ⟨N - 1, by have := NeZero.ne N; omega⟩
  rw [Vec.dotE_eq]
  have e : (List.ofFn fun i : Fin (n + 1) => (checked lo hi : ScalarE σ Int).mul v[i.1] w[i.1]) =
      (List.ofFn fun i : Fin (n + 1) => (Chk.of v[i.1] * Chk.of w[i.1] : Chk lo hi)).map outcome := by
    rw [List.map_ofFn]
    congr 1
    funext i
    exact (outcome_check (v[i.1] * w[i.1])).symm
  rw [e, List.ofFn_succ, List.map_cons, inOrder]
  have hd : ((v.map fun x => (Chk.of x : Chk lo hi)).dot (w.map fun x => (Chk.of x : Chk lo hi))) =
      (List.ofFn fun i : Fin n => (Chk.of v[i.1 + 1] * Chk.of w[i.1 + 1] : Chk lo hi)).foldl (· + ·) (Chk.of v[0] * Chk.of w[0]) := by
    show (Vec.foldFirst (T := Chk lo hi) _ _) = _
    rw [Vec.foldFirst_congr (Vec.foldFirstR_succ _ _)]
    simp
  rw [hd, ← inOrder_fold_outcome]
  simp only [Fin.val_zero, Fin.val_succ]
  generalize (List.ofFn fun i : Fin n => (Chk.of v[i.1 + 1] * Chk.of w[i.1 + 1] : Chk lo hi)) = cs
  generalize (Chk.of v[0] * Chk.of w[0] : Chk lo hi) = c
  obtain ⟨_ | x⟩ := c
  · apply Mat.eff_ext
    intro s
    rw [exec_bind]
    show (Except.error Fault.arithOverflow, s) = _
    rw [exec_bind]
    rcases exec_inOrder_outcome cs s with ⟨xs, -, h⟩ | ⟨-, h⟩
    · rw [h]; rfl
    · rw [h]
  · show (inOrder (cs.map outcome) >>= fun xs => pure (x :: xs)) >>= addUp _ = _
    rw [bind_assoc]
    rfl

/-- returns `x` without a trace, or panics with an overflow -/
def ValOr (c : Eff σ α) (x : α) : Prop := ∀ s, c.exec s = (.ok x, s) ∨ c.exec s = (.error .arithOverflow, s)

theorem ValOr.pure (x : α) : ValOr (σ := σ) (Pure.pure x) x := fun _ => Or.inl rfl
theorem ValOr.bind {c : Eff σ α} {f : α → Eff σ β} {x : α} {y : β} (h : ValOr c x) (h' : ValOr (f x) y) : ValOr (c >>= f) y := by
  intro s
  rw [exec_bind]
  rcases h s with e | e
  · rw [e]; exact h' s
  · rw [e]; exact Or.inr rfl
theorem ValOr.inOrder {γ : Type} (l : List γ) (c : γ → Eff σ α) (x : γ → α) (h : ∀ g ∈ l, ValOr (c g) (x g)) :
    ValOr (inOrder (l.map c)) (l.map x) := by
  induction l with
  | nil => exact ValOr.pure _
  | cons g l ih =>
    exact (h g (by simp)).bind ((ih fun g hg => h g (by simp [hg])).bind (ValOr.pure _))
theorem ValOr.of_map {c : Eff σ α} {f : α → β} {x : α} (hf : Function.Injective f) (h : ValOr (f <$> c) (f x)) : ValOr c x := by
  intro s
  have := h s
  rw [exec_map] at this
  rcases hc : c.exec s with ⟨e | y, t⟩
  · rw [hc] at this; simpa using this
  · rw [hc] at this
    change ((Except.ok (f y) : Except Fault β), t) = _ ∨ ((Except.ok (f y) : Except Fault β), t) = _ at this
    simp only [Prod.mk.injEq, Except.ok.injEq, reduceCtorEq, false_and, or_false] at this
    rw [hf this.1, this.2]; exact Or.inl rfl
theorem Mat.valOr_mapM (f : T → Eff σ U) (A : Mat T M N) (B : Mat U M N)
    (h : ∀ i (hi : i < M) j (hj : j < N), ValOr (f A[i][j]) B[i][j]) : ValOr (A.mapM f) B := by
  apply ValOr.of_map (f := rowMajor) (fun A B h => Mat.rowMajor_inj h)
  rw [Mat.rowMajor_mapM_inOrder]
  have := ValOr.inOrder ((List.finRange M).flatMap fun i => (List.finRange N).map fun j => (i, j))
    (fun p : Fin M × Fin N => f A[p.1.1][p.2.1]) (fun p => B[p.1.1][p.2.1]) (fun p _ => h _ p.1.2 _ p.2.2)
  simpa [List.map_flatMap, Function.comp_def, rowMajor] using this

/-- `dot` with overflow checks is exact or panics, and does not panic if `N·P·Q` is in range, `P` and `Q` bounding the components. -/
theorem C100_checked_dot_exact [NeZero N] (v w : Vec Int N) (s : σ) :
    let d := ∑ i : Fin N, v[i.1] * w[i.1]
    ((v.dotE (checked lo hi) w).exec s = (.ok d, s) ∨ (v.dotE (checked lo hi) w).exec s = (.error .arithOverflow, s)) ∧
    ∀ P Q : Nat, lo ≤ -hi → 1 ≤ P → 1 ≤ Q → (∀ i : Fin N, |v[i.1]| ≤ P ∧ |w[i.1]| ≤ Q) → ((N * (P * Q) : Nat) : Int) ≤ hi →
      (v.dotE (checked lo hi) w).exec s = (.ok d, s) := by
  have ha : ∀ (v : Vec Int N) (i : Fin N), (v.map (fun x => (Chk.of x : Chk lo hi)))[i.1].val = some v[i.1] := by intro v i; simp
  constructor
  · rw [C100_checked_dot, exec_outcome]
    cases h : ((v.map fun x => (Chk.of x : Chk lo hi)).dot (w.map fun x => (Chk.of x : Chk lo hi))).val with
    | none => exact Or.inr rfl
    | some x =>
      rw [C37_checked_dot _ _ (fun i => v[i.1]) (fun i => w[i.1]) (ha v) (ha w) h]; exact Or.inl rfl
  · intro P Q h1 h2 h3 h4 h5
    rw [C100_checked_dot, exec_outcome, C37_dot_no_overflow h1 P Q h2 h3 _ _ _ _ (ha v) (ha w) (fun i => (h4 i).1) (fun i => (h4 i).2) h5]

/-- The matrix product with overflow checks is exact or panics; nothing in between. -/
theorem C100_checked_mat_mat [NeZero M] (A : Mat Int L M) (B : Mat Int M N) (s : σ) :
    (∃ X : Mat Int L N, (A.dotME (checked lo hi) B).exec s = (.ok X, s) ∧ ∀ (i : Fin L) (j : Fin N),
      X[i.1][j.1] = (Matrix.of (fun (i : Fin L) (k : Fin M) => A[i.1][k.1]) *
        Matrix.of (fun (k : Fin M) (j : Fin N) => B[k.1][j.1])) i j) ∨
    (A.dotME (checked lo hi) B).exec s = (.error .arithOverflow, s) := by
  let X : Mat Int L N := ⟨⟨Vector.ofFn fun i => ⟨Vector.ofFn fun j => ∑ k : Fin M, A[i.1][k.1] * B[k.1][j.1]⟩⟩⟩
  have : ValOr (σ := σ) (A.dotME (checked lo hi) B) X := by
    apply Mat.valOr_mapM
    intro i hi' j hj
    rw [Mat.getElem_indices i hi' j hj]
    simp only [Mat.rowR_lt A i hi', Mat.colR_lt B j hj, liftRes_ok, pure_bind]
    intro s
    have := (C100_checked_dot_exact (lo := lo) (hi := hi) A[i] (B.colOf j hj) s).1
    simpa [X, Mat.colOf] using this
  rcases this s with h | h
  · exact Or.inl ⟨X, h, fun i j => by simp [X, Matrix.mul_apply]⟩
  · exact Or.inr h

/-- The inverse with overflow checks: either it panics (overflow or division by zero), or it returns and then the determinant is not
zero (for a non-empty matrix) and every entry is the entry of the adjugate divided by the determinant, rounded towards zero. -/
theorem C100_checked_inv (A : Mat Int N N) (s : σ) :
    let a : Matrix (Fin N) (Fin N) Int := Matrix.of fun i j => A[i.1][j.1]
    (∃ X : Mat Int N N, (A.invE (checked lo hi)).exec s = (.ok X, s) ∧ ∀ i j : Fin N, a.det ≠ 0 ∧
      X[i.1][j.1] = (a.adjugate i j).tdiv a.det) ∨
    (A.invE (checked lo hi)).exec s = (.error .arithOverflow, s) := by
  intro a
  let B : Mat Int N N := ⟨⟨Vector.ofFn fun i => ⟨Vector.ofFn fun j => a.adjugate i j⟩⟩⟩
  let X : Mat Int N N := ⟨⟨Vector.ofFn fun i => ⟨Vector.ofFn fun j => (a.adjugate i j).tdiv a.det⟩⟩⟩
  have hadj : ValOr (σ := σ) (A.adjE (checked lo hi)) B := by
    apply Mat.valOr_mapM
    intro i hi' j hj
    rw [Mat.getElem_indices i hi' j hj]
    intro s
    rw [(C100_checked_det A j i hj hi').2, exec_outcome]
    cases h : (A.map (fun x => (Chk.of x : Chk lo hi))).adj[i][j].val with
    | none => exact Or.inr rfl
    | some x =>
      rw [C37_checked_adj _ a (by intro i j; simp [a]) ⟨i, hi'⟩ ⟨j, hj⟩ h]
      left; simp [B]
  have hdet : ValOr (σ := σ) (A.detE (checked lo hi)) a.det := fun s => (C100_checked_det_exact A s).1
  have hdiv : (N = 0 ∨ a.det ≠ 0) → ValOr (σ := σ) (B.divSE (checked lo hi) a.det) X := by
    intro hd
    apply Mat.valOr_mapM
    intro i hi' j hj s
    have hd : a.det ≠ 0 := by
      rcases hd with rfl | h
      · omega
      · exact h
    show (if a.det = 0 then _ else inRange lo hi (B[i][j].tdiv a.det) : Eff σ Int).exec s = _ ∨
      (if a.det = 0 then _ else inRange lo hi (B[i][j].tdiv a.det) : Eff σ Int).exec s = _
    rw [if_neg hd, inRange]
    split
    · left; simp [B, X]
    · right; rfl
  by_cases hd : N = 0 ∨ a.det ≠ 0
  · have hall : ValOr (σ := σ) (A.invE (checked lo hi)) X :=
      have h2 : ValOr (σ := σ) (A.detE (checked lo hi) >>= fun d => B.divSE (checked lo hi) d) X := hdet.bind (hdiv hd)
      ValOr.bind (f := fun B' : Mat Int N N => A.detE (checked lo hi : ScalarE σ Int) >>= fun d => B'.divSE (checked lo hi) d) hadj h2
    rcases hall s with h | h
    · refine Or.inl ⟨X, h, fun i j => ⟨?_, by simp [X]⟩⟩
      rcases hd with rfl | h
      · exact i.elim0
      · exact h
    · exact Or.inr h
  · right
    have h0 : a.det = 0 := by by_contra h; exact hd (Or.inr h)
    have hN : 0 < N := by omega
    have hz : ∀ s, (B.divSE (checked lo hi : ScalarE σ Int) a.det).exec s = (.error .arithOverflow, s) := by
      intro s
      have := Mat.rowMajor_mapM_inOrder (fun x => (checked lo hi : ScalarE σ Int).div x a.det) B
      obtain ⟨n, rfl⟩ : ∃ n, N = n + 1 := ⟨N - 1, by omega⟩
      rw [List.finRange_succ, List.flatMap_cons, List.map_cons, List.cons_append, inOrder] at this
      have h1 : (rowMajor <$> B.divSE (checked lo hi : ScalarE σ Int) a.det).exec s = (.error .arithOverflow, s) := by
        rw [Mat.divSE, this, exec_bind]
        have e : ∀ x, ((checked lo hi : ScalarE σ Int).div x a.det).exec s = (.error .arithOverflow, s) := by
          intro x
          show (if a.det = 0 then _ else _ : Eff σ Int).exec s = _
          rw [if_pos h0]; rfl
        rw [e]
      rw [exec_map] at h1
      rcases hc : (B.divSE (checked lo hi : ScalarE σ Int) a.det).exec s with ⟨e | y, t⟩
      · rw [hc] at h1; simpa using h1
      · rw [hc] at h1; simp at h1
    rw [Mat.invE, exec_bind]
    rcases hadj s with h | h
    · rw [h]
      simp only
      rw [exec_bind]
      rcases hdet s with h | h
      · rw [h]; exact hz s
      · rw [h]
    · rw [h]

/-! ## witnesses: `i8` with overflow checks -/

/-- `100 · 2` overflows and the determinant panics; so does `64 · 2`, an intermediate result, although the determinant of the second
matrix is in range; the third is computed. -/
example : (Mat.detE (checked (-128) 127) (Mat.fromArrArr #v[#v[100, 1], #v[1, 2]])).exec () = (.error .arithOverflow, ()) ∧
    (Mat.detE (checked (-128) 127) (Mat.fromArrArr #v[#v[64, 1], #v[1, 2]])).exec () = (.error .arithOverflow, ()) ∧
    (Mat.detE (checked (-128) 127) (Mat.fromArrArr #v[#v[50, 2], #v[3, 1]])).exec () = (.ok 44, ()) := by
  decide +kernel

/-- a matrix without inverse, one with one, and one whose inverse overflows -/
example : (Mat.invE (checked (-128) 127) (Mat.fromArrArr #v[#v[2, 1], #v[4, 2]])).exec () = (.error .arithOverflow, ()) ∧
    (Mat.invE (checked (-128) 127) (Mat.fromArrArr #v[#v[2, 1], #v[1, 1]])).exec () =
      (.ok (Mat.fromArrArr #v[#v[1, -1], #v[-1, 2]]), ()) ∧
    (Mat.invE (checked (-128) 127) (Mat.fromArrArr #v[#v[20, 1], #v[1, 20]])).exec () = (.error .arithOverflow, ()) := by
  decide +kernel

example : (Mat.dotME (checked (-128) 127) (Mat.fromArrArr #v[#v[2, 3]]) (Mat.fromArrArr #v[#v[5], #v[7]])).exec () =
    (.ok (Mat.fromArrArr #v[#v[31]]), ()) := by decide +kernel

end Vecmat
