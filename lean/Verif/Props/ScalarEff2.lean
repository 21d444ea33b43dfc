import Verif.Props.ScalarEff
import Verif.Lemmas.Det
import Mathlib.Algebra.BigOperators.Intervals
import Mathlib.Data.Nat.Factorial.Basic
/-! # C100, continued: operators without effects, call counts, checked integers, compound assignments -/
namespace Vecmat
open Spec
variable {T U α β σ : Type} {L M N : Nat}

/-! ## operators without effects: the functions of the other model files -/
theorem liftRes_bind (r : Res α) (f : α → Res β) : (liftRes (r >>= f) : Eff σ β) = (liftRes r >>= fun x => liftRes (f x)) := by
  cases r <;> rfl
theorem liftRes_pure (x : α) : (liftRes (pure x : Res α) : Eff σ α) = pure x := rfl
theorem listMapM_lift (f : T → Res U) (l : List T) : listMapM (fun x => (liftRes (f x) : Eff σ U)) l = liftRes (listMapM f l) := by
  induction l with
  | nil => rfl
  | cons x l ih => simp only [listMapM, liftRes_bind, ih]; rfl
theorem Vec.mapM_lift (f : T → Res U) (v : Vec T N) : v.mapM (fun x => (liftRes (f x) : Eff σ U)) = liftRes (v.mapM f) := by
  simp only [Vec.mapM, liftRes_bind, listMapM_lift]; rfl
theorem Mat.mapM_lift (f : T → Res U) (A : Mat T M N) : A.mapM (fun x => (liftRes (f x) : Eff σ U)) = liftRes (A.mapM f) := by
  simp only [Mat.mapM, liftRes_bind, Vec.mapM_lift]; rfl
theorem listMapM_pure (f : T → U) (l : List T) : listMapM (fun x => (pure (f x) : Eff σ U)) l =
    pure (Id.run (listMapM (m := Id) (fun x => pure (f x)) l)) := by
  induction l with
  | nil => rfl
  | cons x l ih => simp only [listMapM, ih, pure_bind]; rfl
theorem Vec.mapM_pure' (f : T → U) (v : Vec T N) : v.mapM (fun x => (pure (f x) : Eff σ U)) = pure (v.map f) := by
  simp only [Vec.mapM, listMapM_pure, pure_bind]; rfl
theorem Mat.mapM_pure' (f : T → U) (A : Mat T M N) : A.mapM (fun x => (pure (f x) : Eff σ U)) = pure (A.map f) := by
  simp only [Mat.mapM, Vec.mapM_pure', pure_bind]; rfl
theorem Vec.exec_mapM_pure (f : T → U) (v : Vec T N) (s : σ) : (v.mapM (fun x => (pure (f x) : Eff σ U))).exec s = (.ok (v.map f), s) := by
  rw [Vec.mapM_pure']; rfl
theorem Mat.exec_mapM_pure (f : T → U) (A : Mat T M N) (s : σ) : (A.mapM (fun x => (pure (f x) : Eff σ U))).exec s = (.ok (A.map f), s) := by
  rw [Mat.mapM_pure']; rfl
theorem foldlM_lift (f : T → α → Res T) (l : List α) (x : T) :
    l.foldlM (fun a b => (liftRes (f a b) : Eff σ T)) x = liftRes (l.foldlM f x) := by
  induction l generalizing x with
  | nil => rfl
  | cons y l ih => simp only [List.foldlM_cons, liftRes_bind, ih]
theorem unwrap_lift (x : Option α) : (unwrap x : Eff σ α) = liftRes (unwrap x) := by cases x <;> rfl

section plain
variable [Add T] [Sub T] [Mul T] [Div T] [Mod T] [Neg T] [Zero T] [One T]

theorem Vec.sumE_plain (v : Vec T N) : v.sumE (plain : ScalarE σ T) = liftRes v.sumR := by
  unfold Vec.sumE Vec.sumR Vec.foldFirstR Vec.foldFirstM
  rw [liftRes_bind, unwrap_lift]
  congr 1; funext x
  exact foldlM_lift (fun x y => pure (x + y)) _ _
theorem Vec.dotE_plain (v w : Vec T N) : v.dotE (plain : ScalarE σ T) w = liftRes (v.dotR w) := by
  simp only [Vec.dotE, plain, Vec.mapM_pure', pure_bind, Vec.dotR]
  exact Vec.sumE_plain _
theorem Vec.squareLengthE_plain (v : Vec T N) : v.squareLengthE (plain : ScalarE σ T) = liftRes v.squareLengthR := by
  simp only [Vec.squareLengthE, plain, Vec.mapM_pure', pure_bind, Vec.squareLengthR]
  exact Vec.sumE_plain _
theorem Mat.sumE_plain (A : Mat T M N) : A.sumE (plain : ScalarE σ T) = liftRes A.sumR := by
  unfold Mat.sumE Mat.sumR Mat.foldFirstR Mat.foldFirstM
  rw [liftRes_bind, unwrap_lift]
  congr 1; funext a
  rw [liftRes_bind]
  have : a.foldFirstM (plain : ScalarE σ T).add = liftRes (a.foldFirstM fun x y => (pure (x + y) : Res T)) := Vec.sumE_plain a
  rw [this]
  congr 1; funext s
  have : (fun (t : T) (a : Vec T N) => a.foldM (plain : ScalarE σ T).add t) =
      fun t a => liftRes (a.foldM (fun x y => (pure (x + y) : Res T)) t) := by
    funext t a
    exact foldlM_lift (fun x y => pure (x + y)) _ _
  rw [this, foldlM_lift]

theorem eval_laplaceN_plain (f : Nat → Nat → T) (R C : List Nat) :
    (Mat.laplaceN f R C).eval (plain : ScalarE σ T) = pure (Mat.lap f R C) := by
  induction R generalizing C with
  | nil => rfl
  | cons i R ih =>
    rw [Mat.eval_laplaceN_cons, Mat.lap]
    have : (fun (a : T) (k : Nat) => do
        let c ← (Mat.laplaceN f R (C.eraseIdx k)).eval (plain : ScalarE σ T) >>= Mat.sgnE plain k
        let p ← (plain : ScalarE σ T).mul (f i (C[k]?.getD 0)) c
        (plain : ScalarE σ T).add a p) = fun a k => pure (a + f i (C[k]?.getD 0) * Mat.sgn k (Mat.lap f R (C.eraseIdx k))) := by
      funext a k
      rw [ih]
      rcases Nat.mod_two_eq_zero_or_one k with h | h <;> simp [Mat.sgnE, Mat.sgn, plain, h]
    simp only [this]
    show (pure 0 >>= _) = _
    simp

theorem Mat.detE_plain (A : Mat T N N) : A.detE (plain : ScalarE σ T) = liftRes A.detR := by
  rw [Mat.detR_eq, Mat.detE_eqN plain (f := Mat.ent A) (fun i hi j hj => Mat.ent_lt A i j hi hj), eval_laplaceN_plain]; rfl
theorem Mat.cofactorE_plain (A : Mat T N N) (i j : Nat) : A.cofactorE (plain : ScalarE σ T) i j = liftRes (A.cofactorR i j) := by
  by_cases h : i < N ∧ j < N
  · rw [Mat.cofactorR_eq A i j h.1 h.2, Mat.cofactorE_eqN plain (f := Mat.ent A) (fun i hi j hj => Mat.ent_lt A i j hi hj) i j h.1 h.2,
      eval_laplaceN_plain]
    rcases Nat.mod_two_eq_zero_or_one (i + j) with h | h <;> simp [Mat.sgnE, Mat.sgn, plain, h]
  · rw [Mat.cofactorE, if_neg h, Mat.cofactorR, if_neg h]; rfl
theorem Mat.adjE_plain (A : Mat T N N) : A.adjE (plain : ScalarE σ T) = liftRes A.adjR := by
  simp only [Mat.adjE, Mat.cofactorE_plain, Mat.adjR]
  exact Mat.mapM_lift (fun p : Nat × Nat => A.cofactorR p.2 p.1) _

/-- For operators without effects, the vector functions are those of the pure model. -/
theorem C100_plain_vector (v w : Vec T N) (a : T) (s : σ) :
    (v.negE plain).exec s = (.ok (-v), s) ∧ (v.addE plain w).exec s = (.ok (v + w), s) ∧
    (v.subE plain w).exec s = (.ok (v - w), s) ∧ (v.mulE plain w).exec s = (.ok (v * w), s) ∧
    (v.divE plain w).exec s = (.ok (v / w), s) ∧ (v.remE plain w).exec s = (.ok (v % w), s) ∧
    (v.mulSE plain a).exec s = (.ok (v.mulS a), s) ∧ (v.divSE plain a).exec s = (.ok (v.divS a), s) ∧
    (v.remSE plain a).exec s = (.ok (v.remS a), s) ∧ (v.sumE plain).exec s = (v.sumR, s) ∧
    (v.dotE plain w).exec s = (v.dotR w, s) ∧ (v.squareLengthE plain).exec s = (v.squareLengthR, s) := by
  have hl : ∀ r : Res T, (liftRes r : Eff σ T).exec s = (r, s) := fun r => by cases r <;> rfl
  refine ⟨?_, ?_, ?_, ?_, ?_, ?_, ?_, ?_, ?_, ?_, ?_, ?_⟩
  · rw [Vec.negE, show (plain : ScalarE σ T).neg = fun x => pure (-x) from rfl, Vec.mapM_pure']; rfl
  · rw [Vec.addE, Vec.binE]; exact Vec.exec_mapM_pure (fun p : T × T => p.1 + p.2) _ s
  · rw [Vec.subE, Vec.binE]; exact Vec.exec_mapM_pure (fun p : T × T => p.1 - p.2) _ s
  · rw [Vec.mulE, Vec.binE]; exact Vec.exec_mapM_pure (fun p : T × T => p.1 * p.2) _ s
  · rw [Vec.divE, Vec.binE]; exact Vec.exec_mapM_pure (fun p : T × T => p.1 / p.2) _ s
  · rw [Vec.remE, Vec.binE]; exact Vec.exec_mapM_pure (fun p : T × T => p.1 % p.2) _ s
  · exact Vec.exec_mapM_pure (fun x : T => x * a) _ s
  · exact Vec.exec_mapM_pure (fun x : T => x / a) _ s
  · exact Vec.exec_mapM_pure (fun x : T => x % a) _ s
  · rw [Vec.sumE_plain, hl]
  · rw [Vec.dotE_plain, hl]
  · rw [Vec.squareLengthE_plain, hl]

/-- For operators without effects, the matrix functions are those of the pure model. -/
theorem C100_plain_matrix (A B : Mat T M N) (C : Mat T N L) (v : Vec T M) (w : Vec T N) (a : T) (s : σ) :
    (A.negE plain).exec s = (.ok (-A), s) ∧ (A.addE plain B).exec s = (.ok (A + B), s) ∧
    (A.subE plain B).exec s = (.ok (A - B), s) ∧ (A.mulE plain B).exec s = (.ok (A * B), s) ∧
    (A.divE plain B).exec s = (.ok (A / B), s) ∧ (A.remE plain B).exec s = (.ok (A % B), s) ∧
    (A.mulSE plain a).exec s = (.ok (A.mulS a), s) ∧ (A.divSE plain a).exec s = (.ok (A.divS a), s) ∧
    (A.remSE plain a).exec s = (.ok (A.remS a), s) ∧ (A.sumE plain).exec s = (A.sumR, s) ∧
    (Mat.outerE plain v w).exec s = (Mat.outerR v w, s) ∧ (A.dotVE plain w).exec s = (A.dotVR w, s) ∧
    (Mat.vDotE plain v A).exec s = (Mat.vDotR v A, s) ∧ (A.dotME plain C).exec s = (A.dotMR C, s) := by
  have hl : ∀ {α : Type} (r : Res α), (liftRes r : Eff σ α).exec s = (r, s) := fun r => by cases r <;> rfl
  refine ⟨?_, ?_, ?_, ?_, ?_, ?_, ?_, ?_, ?_, ?_, ?_, ?_, ?_, ?_⟩
  · exact Mat.exec_mapM_pure (fun x : T => -x) _ s
  · exact Mat.exec_mapM_pure (fun p : T × T => p.1 + p.2) _ s
  · exact Mat.exec_mapM_pure (fun p : T × T => p.1 - p.2) _ s
  · exact Mat.exec_mapM_pure (fun p : T × T => p.1 * p.2) _ s
  · exact Mat.exec_mapM_pure (fun p : T × T => p.1 / p.2) _ s
  · exact Mat.exec_mapM_pure (fun p : T × T => p.1 % p.2) _ s
  · exact Mat.exec_mapM_pure (fun x : T => x * a) _ s
  · exact Mat.exec_mapM_pure (fun x : T => x / a) _ s
  · exact Mat.exec_mapM_pure (fun x : T => x % a) _ s
  · rw [Mat.sumE_plain, hl]
  · rw [← hl (Mat.outerR v w), Mat.outerR, ← Mat.mapM_lift, Mat.outerE]
    simp only [liftRes_bind, liftRes_pure, plain]
  · rw [← hl (A.dotVR w), Mat.dotVR, ← Vec.mapM_lift, Mat.dotVE]
    simp only [liftRes_bind, Vec.dotE_plain]
  · rw [← hl (Mat.vDotR v A), Mat.vDotR, ← Vec.mapM_lift, Mat.vDotE]
    simp only [liftRes_bind, Vec.dotE_plain]
  · rw [← hl (A.dotMR C), Mat.dotMR, ← Mat.mapM_lift, Mat.dotME]
    simp only [liftRes_bind, Vec.dotE_plain]

/-- For operators without effects, determinant, cofactors, adjugate and inverse are those of the pure model. -/
theorem C100_plain_det (A : Mat T N N) (i j : Nat) (s : σ) :
    (A.detE plain).exec s = (A.detR, s) ∧ (A.cofactorE plain i j).exec s = (A.cofactorR i j, s) ∧
    (A.adjE plain).exec s = (A.adjR, s) ∧ (A.invE plain).exec s = (A.invR, s) := by
  have hl : ∀ {α : Type} (r : Res α), (liftRes r : Eff σ α).exec s = (r, s) := fun r => by cases r <;> rfl
  refine ⟨by rw [Mat.detE_plain, hl], by rw [Mat.cofactorE_plain, hl], by rw [Mat.adjE_plain, hl], ?_⟩
  rw [← hl A.invR, Mat.invR, Mat.invE, liftRes_bind, Mat.adjE_plain]
  simp only [liftRes_bind, Mat.detE_plain, liftRes_pure]
  have : ∀ (B : Mat T N N) (d : T), B.divSE (plain : ScalarE σ T) d = pure (B.divS d) := fun B d => Mat.mapM_pure' (fun x : T => x / d) _
  simp only [this]

/-- For operators without effects, complex, quaternion and cross products are those of the pure model. -/
theorem C100_plain_complex (z w : Cpx T) (p q : Quat T) (a b : Vec T 2) (c d : Vec T 3) (u v : Vec T 4) (s : σ) :
    (z.mulE plain w).exec s = (.ok (z * w), s) ∧ (z.invE plain).exec s = (.ok z.inv, s) ∧ (z.divE plain w).exec s = (.ok (z / w), s) ∧
    (z.negE plain).exec s = (.ok (-z), s) ∧ (z.addE plain w).exec s = (.ok (z + w), s) ∧ (z.subE plain w).exec s = (.ok (z - w), s) ∧
    (p.mulE plain q).exec s = (.ok (p * q), s) ∧ (p.invE plain).exec s = (.ok p.inv, s) ∧ (p.divE plain q).exec s = (.ok (p / q), s) ∧
    (a.cross2E plain b).exec s = (.ok (a.cross2 b), s) ∧ (c.cross3E plain d).exec s = (.ok (c.cross3 d), s) ∧
    (u.cross4E plain v).exec s = (.ok (u.cross4 v), s) := by
  have hv := fun (v w : Vec T 2) (a : T) => C100_plain_vector v w a s
  have sq2 : ∀ v : Vec T 2, v.squareLengthE (plain : ScalarE σ T) = pure v.squareLength := fun v => by
    simp only [Vec.squareLengthE, plain, Vec.mapM_pure', pure_bind]
    exact (Vec.sumE_plain _).trans (by rw [Vec.sumR, Vec.foldFirst_ok]; rfl)
  have sq4 : ∀ v : Vec T 4, v.squareLengthE (plain : ScalarE σ T) = pure v.squareLength := fun v => by
    simp only [Vec.squareLengthE, plain, Vec.mapM_pure', pure_bind]
    exact (Vec.sumE_plain _).trans (by rw [Vec.sumR, Vec.foldFirst_ok]; rfl)
  have ds2 : ∀ (v : Vec T 2) (d : T), v.divSE (plain : ScalarE σ T) d = pure (v.divS d) := fun v d => Vec.mapM_pure' (fun x : T => x / d) _
  have ds4 : ∀ (v : Vec T 4) (d : T), v.divSE (plain : ScalarE σ T) d = pure (v.divS d) := fun v d => Vec.mapM_pure' (fun x : T => x / d) _
  have ci : ∀ z : Cpx T, z.invE (plain : ScalarE σ T) = pure z.inv := fun z => by
    simp only [Cpx.invE, Cpx.conjE, Cpx.normSqrE, Cpx.divSE, sq2, ds2, pure_bind]
    rfl
  have qi : ∀ z : Quat T, z.invE (plain : ScalarE σ T) = pure z.inv := fun z => by
    simp only [Quat.invE, Quat.conjE, Quat.normSqrE, Quat.divSE, sq4, ds4, pure_bind]
    rfl
  refine ⟨rfl, by rw [ci]; rfl, ?_, ?_, ?_, ?_, rfl, by rw [qi]; rfl, ?_, rfl, rfl, rfl⟩
  · rw [Cpx.divE, ci, pure_bind]; rfl
  · rw [Cpx.negE, exec_bind, (hv z.vec z.vec z.re).1]; rfl
  · rw [Cpx.addE, exec_bind, (hv z.vec w.vec z.re).2.1]; rfl
  · rw [Cpx.subE, exec_bind, (hv z.vec w.vec z.re).2.2.1]; rfl
  · rw [Quat.divE, qi, pure_bind]; rfl
end plain
end Vecmat
