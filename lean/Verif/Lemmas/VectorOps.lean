import Verif.Model.VectorOps
import Verif.Lemmas.VectorPure
import Mathlib.Algebra.BigOperators.Fin
import Mathlib.Data.List.FinRange
/-! Helper lemmas: element access and sums for the vector operators. -/
namespace Vecmat
variable {T U S : Type} {N n : Nat}
namespace Vec

@[simp] theorem getElem_neg [Neg T] (v : Vec T N) (i : Nat) (h : i < N) : (-v)[i] = -v[i] := by
  show (v.map fun x => -x)[i] = _; simp
@[simp] theorem getElem_add [Add T] (v w : Vec T N) (i : Nat) (h : i < N) : (v + w)[i] = v[i] + w[i] := by
  show ((v.zip w).map fun p => p.1 + p.2)[i] = _; simp
@[simp] theorem getElem_sub [Sub T] (v w : Vec T N) (i : Nat) (h : i < N) : (v - w)[i] = v[i] - w[i] := by
  show ((v.zip w).map fun p => p.1 - p.2)[i] = _; simp
@[simp] theorem getElem_mul [Mul T] (v w : Vec T N) (i : Nat) (h : i < N) : (v * w)[i] = v[i] * w[i] := by
  show ((v.zip w).map fun p => p.1 * p.2)[i] = _; simp
@[simp] theorem getElem_div [Div T] (v w : Vec T N) (i : Nat) (h : i < N) : (v / w)[i] = v[i] / w[i] := by
  show ((v.zip w).map fun p => p.1 / p.2)[i] = _; simp
@[simp] theorem getElem_mod [Mod T] (v w : Vec T N) (i : Nat) (h : i < N) : (v % w)[i] = v[i] % w[i] := by
  show ((v.zip w).map fun p => p.1 % p.2)[i] = _; simp
@[simp] theorem getElem_mulS [Mul T] (v : Vec T N) (a : T) (i : Nat) (h : i < N) : (v.mulS a)[i] = v[i] * a := by
  simp [mulS]
@[simp] theorem getElem_sMul [Mul T] (v : Vec T N) (a : T) (i : Nat) (h : i < N) : (sMul a v)[i] = v[i] * a := by
  simp [sMul]
@[simp] theorem getElem_divS [Div T] (v : Vec T N) (a : T) (i : Nat) (h : i < N) : (v.divS a)[i] = v[i] / a := by
  simp [divS]
@[simp] theorem getElem_remS [Mod T] (v : Vec T N) (a : T) (i : Nat) (h : i < N) : (v.remS a)[i] = v[i] % a := by
  simp [remS]
@[simp] theorem getElem_zero [Zero T] (i : Nat) (h : i < N) : (0 : Vec T N)[i] = 0 := by
  show (initS (fun _ : Unit => ((0 : T), ())) ()).1[i] = 0
  exact getElem_fill 0 i h
@[simp] theorem getElem_not [Complement T] (v : Vec T N) (i : Nat) (h : i < N) : v.not[i] = ~~~v[i] := by
  simp [Vec.not]
@[simp] theorem getElem_bitand [AndOp T] (v w : Vec T N) (i : Nat) (h : i < N) : (v.bitand w)[i] = v[i] &&& w[i] := by
  simp [bitand]
@[simp] theorem getElem_bitor [OrOp T] (v w : Vec T N) (i : Nat) (h : i < N) : (v.bitor w)[i] = v[i] ||| w[i] := by
  simp [bitor]
@[simp] theorem getElem_bitxor [XorOp T] (v w : Vec T N) (i : Nat) (h : i < N) : (v.bitxor w)[i] = v[i] ^^^ w[i] := by
  simp [bitxor]

theorem assignLoop_getElem (f : T → U → T) (l : List U) (i : Nat) (a : Vector T N) (j : Nat) (hj : j < N)
    (hl : i + l.length = N) :
    (assignLoop f l i a)[j] = if h : i ≤ j then f a[j] (l[j - i]'(by omega)) else a[j] := by
  induction l generalizing i a with
  | nil => simp at hl; simp [assignLoop, show ¬ i ≤ j by omega]
  | cons x l ih =>
    simp only [List.length_cons] at hl
    have hi : i < N := by omega
    simp only [assignLoop, hi, dite_true]
    rw [ih (i + 1) _ (by omega)]
    by_cases h1 : i + 1 ≤ j
    · rw [dif_pos h1, dif_pos (by omega)]
      rw [Vector.getElem_set, if_neg (by omega)]
      congr 1
      have : j - i = (j - (i + 1)) + 1 := by omega
      simp [this]
    · rw [dif_neg h1, Vector.getElem_set]
      by_cases h2 : i = j
      · subst h2; simp
      · rw [if_neg h2, dif_neg (by omega)]

@[simp] theorem getElem_assignWith (f : T → U → T) (v : Vec T N) (w : Vec U N) (i : Nat) (h : i < N) :
    (assignWith f v w)[i] = f v[i] w[i] := by
  show (assignLoop f w.toList 0 v.data)[i] = _
  rw [assignLoop_getElem f w.toList 0 v.data i h (by simp)]
  simp [data_getElem]

theorem forRange_each (f : T → T) (n lo : Nat) (a : Vector T N) (hn : lo + n = N) (j : Nat) (hj : j < N) :
    (Id.run (forRange n lo a fun i a => pure (if h : i < N then a.set i (f a[i]) else a)))[j] =
      if lo ≤ j then f a[j] else a[j] := by
  induction n generalizing lo a with
  | zero => simp [forRange, show ¬ lo ≤ j by omega]
  | succ n ih =>
    simp only [forRange, pure_bind]
    rw [ih (lo + 1) _ (by omega)]
    have : lo < N := by omega
    simp only [this, dite_true, Vector.getElem_set]
    by_cases h1 : lo = j
    · subst h1; simp
    · simp only [if_neg h1]
      by_cases h2 : lo + 1 ≤ j
      · rw [if_pos h2, if_pos (by omega)]
      · rw [if_neg h2, if_neg (by omega)]

@[simp] theorem getElem_assignEach (f : T → T) (v : Vec T N) (i : Nat) (h : i < N) :
    (assignEach f v)[i] = f v[i] := by
  show (Id.run (forRange N 0 v.data fun i a => pure (if h : i < N then a.set i (f a[i]) else a)))[i] = _
  rw [forRange_each f N 0 v.data (by simp) i h]
  simp [data_getElem]

@[simp] theorem x_eq (v : Vec T (n + 1)) : v.x = v[0] := Res.get_eq (by simp [getUnchecked]; rfl) _
@[simp] theorem y_eq (v : Vec T (n + 2)) : v.y = v[1] := Res.get_eq (by simp [getUnchecked]; rfl) _
@[simp] theorem z_eq (v : Vec T (n + 3)) : v.z = v[2] := Res.get_eq (by simp [getUnchecked]; rfl) _
@[simp] theorem w_eq (v : Vec T (n + 4)) : v.w = v[3] := Res.get_eq (by simp [getUnchecked]; rfl) _

theorem getElem_mk_set (v : Vec T N) (i : Nat) (hi : i < N) (t : T) (j : Nat) (hj : j < N) :
    (Vec.mk (v.data.set i t))[j] = if i = j then t else v[j] := by
  show (v.data.set i t)[j] = _
  rw [Vector.getElem_set]; rfl
@[simp] theorem getElem_setX (v : Vec T (n + 1)) (t : T) (j : Nat) (hj : j < n + 1) :
    (v.setX t)[j] = if 0 = j then t else v[j] := by
  rw [← getElem_mk_set v 0 (by omega)]; congr 1
@[simp] theorem getElem_setY (v : Vec T (n + 2)) (t : T) (j : Nat) (hj : j < n + 2) :
    (v.setY t)[j] = if 1 = j then t else v[j] := by
  rw [← getElem_mk_set v 1 (by omega)]; congr 1
@[simp] theorem getElem_setZ (v : Vec T (n + 3)) (t : T) (j : Nat) (hj : j < n + 3) :
    (v.setZ t)[j] = if 2 = j then t else v[j] := by
  rw [← getElem_mk_set v 2 (by omega)]; congr 1
@[simp] theorem getElem_setW (v : Vec T (n + 4)) (t : T) (j : Nat) (hj : j < n + 4) :
    (v.setW t)[j] = if 3 = j then t else v[j] := by
  rw [← getElem_mk_set v 3 (by omega)]; congr 1

theorem toList_cons (v : Vec T (n + 1)) : v.toList = v[0] :: List.ofFn fun i : Fin n => v[i.1 + 1] := by
  rw [toList_eq_ofFn, List.ofFn_succ]; rfl

theorem toList_zero (v : Vec T 0) : v.toList = [] := by
  rw [toList_eq_ofFn]; rfl

theorem foldFirstR_succ (f : T → T → T) (v : Vec T (n + 1)) :
    v.foldFirstR f = .ok ((List.ofFn fun i : Fin n => v[i.1 + 1]).foldl f v[0]) := by
  rw [foldFirstR_eq, toList_cons]

theorem foldFirst_congr [NeZero N] {f : T → T → T} {v : Vec T N} {a : T} (h : v.foldFirstR f = .ok a) :
    v.foldFirst f = a := Res.get_eq h _

theorem sumR_zero [Add T] (v : Vec T 0) : v.sumR = .error .unwrapNone := by
  simp [sumR, foldFirstR_eq, toList_zero]

theorem sum_ok [NeZero N] [Add T] (v : Vec T N) : v.sumR = .ok v.sum := foldFirst_ok _ v
theorem dot_ok [NeZero N] [Mul T] [Add T] (v w : Vec T N) : v.dotR w = .ok (v.dot w) := sum_ok _
theorem squareLength_ok [NeZero N] [Mul T] [Add T] (v : Vec T N) : v.squareLengthR = .ok v.squareLength := sum_ok _
theorem length_ok [NeZero N] [FloatOps T] [Mul T] [Add T] (v : Vec T N) : v.lengthR = .ok v.length := by
  simp [lengthR, squareLength_ok, length]
theorem normalize_ok [NeZero N] [FloatOps T] [Mul T] [Add T] [Div T] (v : Vec T N) :
    v.normalizeR = .ok v.normalize := by
  simp [normalizeR, length_ok, normalize]

theorem foldl_add_eq [AddCommMonoid T] (l : List T) (x : T) : l.foldl (fun a b => a + b) x = x + l.sum := by
  induction l generalizing x with
  | nil => simp
  | cons y l ih => simp [ih, add_assoc]

theorem sumR_eq_sum [AddCommMonoid T] (hN : 0 < N) (v : Vec T N) : v.sumR = .ok (∑ i : Fin N, v[i.1]) := by
  obtain ⟨n, rfl⟩ : ∃ n, N = n + 1 := ⟨N - 1, by omega⟩
  rw [sumR, foldFirstR_succ, foldl_add_eq, List.sum_ofFn, Fin.sum_univ_succ]
  rfl

theorem sum_eq_sum [NeZero N] [AddCommMonoid T] (v : Vec T N) : v.sum = ∑ i : Fin N, v[i.1] := by
  have h := sumR_eq_sum (Nat.pos_of_ne_zero (NeZero.ne N)) v
  rw [sum_ok] at h
  exact Except.ok.inj h

theorem dot_eq_sum [NeZero N] [NonUnitalNonAssocSemiring T] (v w : Vec T N) :
    v.dot w = ∑ i : Fin N, v[i.1] * w[i.1] := by
  rw [dot, sum_eq_sum]; simp

theorem squareLength_eq_sum [NeZero N] [NonUnitalNonAssocSemiring T] (v : Vec T N) :
    v.squareLength = ∑ i : Fin N, v[i.1] * v[i.1] := by
  rw [squareLength, sum_eq_sum]; simp

theorem intoTuple2R_eq (v : Vec T 2) : v.intoTuple2R = .ok (v[0], v[1]) := by
  unfold intoTuple2R
  rw [toList_eq_ofFn]
  simp [nextUnwrap, exec_bind, List.ofFn_succ]
theorem intoTuple3R_eq (v : Vec T 3) : v.intoTuple3R = .ok (v[0], v[1], v[2]) := by
  unfold intoTuple3R
  rw [toList_eq_ofFn]
  simp [nextUnwrap, exec_bind, List.ofFn_succ]
theorem intoTuple4R_eq (v : Vec T 4) : v.intoTuple4R = .ok (v[0], v[1], v[2], v[3]) := by
  unfold intoTuple4R
  rw [toList_eq_ofFn]
  simp [nextUnwrap, exec_bind, List.ofFn_succ]

@[simp] theorem any_iff (v : Vec Bool N) : v.any = true ↔ ∃ i, ∃ h : i < N, v[i] = true := by
  simp only [any, List.any_eq_true, List.mem_iff_getElem]
  constructor
  · rintro ⟨x, ⟨i, hi, rfl⟩, hx⟩
    exact ⟨i, by simpa using hi, by simpa using hx⟩
  · rintro ⟨i, hi, hx⟩
    exact ⟨_, ⟨i, by simpa using hi, rfl⟩, by simpa using hx⟩
@[simp] theorem all_iff (v : Vec Bool N) : v.all = true ↔ ∀ i (h : i < N), v[i] = true := by
  simp only [all, List.all_eq_true, List.mem_iff_getElem]
  constructor
  · intro H i hi
    exact H _ ⟨i, by simpa using hi, by simp⟩
  · rintro H x ⟨i, hi, rfl⟩
    simpa using H i (by simpa using hi)

end Vec
end Vecmat
