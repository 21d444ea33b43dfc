import Verif.Lemmas.VectorOps
import Verif.Model.Real
import Mathlib.Tactic.Ring
import Mathlib.Tactic.Linarith
import Mathlib.Tactic.FieldSimp
import Mathlib.Tactic.NormNum
import Mathlib.Analysis.InnerProductSpace.PiL2
/-!
# C09, C13–C24 (vector part): operators on `Vector<T, N>`
-/
namespace Vecmat
variable {T U S : Type} {N n : Nat}

/-! ## C09 tuples and named components -/

theorem C09_tuple2 (a b : T) (v : Vec T 2) :
    (Vec.fromTuple2 (a, b)).intoTuple2R = .ok (a, b) ∧
    (∃ t, v.intoTuple2R = .ok t ∧ Vec.fromTuple2 t = v) ∧ v.intoTuple2R = .ok (v.x, v.y) := by
  refine ⟨rfl, ⟨_, Vec.intoTuple2R_eq v, ?_⟩, by simp [Vec.intoTuple2R_eq]⟩
  apply Vec.ext_getElem; intro i hi
  match i, hi with
  | 0, _ => rfl
  | 1, _ => rfl
theorem C09_tuple3 (a b c : T) (v : Vec T 3) :
    (Vec.fromTuple3 (a, b, c)).intoTuple3R = .ok (a, b, c) ∧
    (∃ t, v.intoTuple3R = .ok t ∧ Vec.fromTuple3 t = v) ∧ v.intoTuple3R = .ok (v.x, v.y, v.z) := by
  refine ⟨rfl, ⟨_, Vec.intoTuple3R_eq v, ?_⟩, by simp [Vec.intoTuple3R_eq]⟩
  apply Vec.ext_getElem; intro i hi
  match i, hi with
  | 0, _ => rfl
  | 1, _ => rfl
  | 2, _ => rfl
theorem C09_tuple4 (a b c d : T) (v : Vec T 4) :
    (Vec.fromTuple4 (a, b, c, d)).intoTuple4R = .ok (a, b, c, d) ∧
    (∃ t, v.intoTuple4R = .ok t ∧ Vec.fromTuple4 t = v) ∧ v.intoTuple4R = .ok (v.x, v.y, v.z, v.w) := by
  refine ⟨rfl, ⟨_, Vec.intoTuple4R_eq v, ?_⟩, by simp [Vec.intoTuple4R_eq]⟩
  apply Vec.ext_getElem; intro i hi
  match i, hi with
  | 0, _ => rfl
  | 1, _ => rfl
  | 2, _ => rfl
  | 3, _ => rfl

/-- The named components are the first four components (the unchecked reads are in bounds). -/
theorem C09_components (v2 : Vec T 2) (v3 : Vec T 3) (v4 : Vec T 4) :
    (v2.x = v2[0] ∧ v2.y = v2[1]) ∧ (v3.x = v3[0] ∧ v3.y = v3[1] ∧ v3.z = v3[2]) ∧
    (v4.x = v4[0] ∧ v4.y = v4[1] ∧ v4.z = v4[2] ∧ v4.w = v4[3]) := by simp

/-- Writing through `x_mut`, `y_mut`, `z_mut`, `w_mut` changes exactly the named component. -/
theorem C09_component_mut (v : Vec T 4) (t : T) (i : Nat) (hi : i < 4) :
    (v.setX t)[i] = (if i = 0 then t else v[i]) ∧ (v.setY t)[i] = (if i = 1 then t else v[i]) ∧
    (v.setZ t)[i] = (if i = 2 then t else v[i]) ∧ (v.setW t)[i] = (if i = 3 then t else v[i]) := by
  have e : ∀ k (hk : k < 4), v.setUnchecked k t = .ok ⟨v.data.set k t⟩ := by
    intro k hk; simp [Vec.setUnchecked, hk]
  have g : ∀ k (hk : k < 4), (Vec.mk (v.data.set k t))[i] = if i = k then t else v[i] := by
    intro k hk
    show (v.data.set k t)[i] = _
    rw [Vector.getElem_set]
    by_cases h : k = i
    · subst h; simp
    · rw [if_neg h, if_neg (Ne.symm h)]; rfl
  refine ⟨?_, ?_, ?_, ?_⟩
  · rw [Vec.getElem_congr_vec (show v.setX t = _ from Res.get_eq (e 0 (by omega)) _) i hi, g]
  · rw [Vec.getElem_congr_vec (show v.setY t = _ from Res.get_eq (e 1 (by omega)) _) i hi, g]
  · rw [Vec.getElem_congr_vec (show v.setZ t = _ from Res.get_eq (e 2 (by omega)) _) i hi, g]
  · rw [Vec.getElem_congr_vec (show v.setW t = _ from Res.get_eq (e 3 (by omega)) _) i hi, g]

/-! ## C13 component-wise operators, for law-free scalars -/

theorem C13_vec_arith [Add T] [Sub T] [Mul T] [Div T] [Mod T] [Neg T] (v w : Vec T N) (i : Nat) (h : i < N) :
    (v + w)[i] = v[i] + w[i] ∧ (v - w)[i] = v[i] - w[i] ∧ (v * w)[i] = v[i] * w[i] ∧
    (v / w)[i] = v[i] / w[i] ∧ (v % w)[i] = v[i] % w[i] ∧ (-v)[i] = -v[i] := by simp
theorem C13_vec_scalar [Mul T] [Div T] [Mod T] (v : Vec T N) (a : T) (i : Nat) (h : i < N) :
    (v.mulS a)[i] = v[i] * a ∧ (v.divS a)[i] = v[i] / a ∧ (v.remS a)[i] = v[i] % a ∧
    (Vec.sMul a v)[i] = v[i] * a := by simp
theorem C13_vec_bits [Complement T] [AndOp T] [OrOp T] [XorOp T] (v w : Vec T N) (i : Nat) (h : i < N) :
    v.not[i] = ~~~v[i] ∧ (v.bitand w)[i] = v[i] &&& w[i] ∧ (v.bitor w)[i] = v[i] ||| w[i] ∧
    (v.bitxor w)[i] = v[i] ^^^ w[i] := by simp

example : (⟨#v[7, 5]⟩ : Vec Int 2) - ⟨#v[2, 9]⟩ = ⟨#v[5, -4]⟩ := by decide
example : (⟨#v[7, 5]⟩ : Vec Int 2).mulS 3 = ⟨#v[21, 15]⟩ := by decide

/-! ## C14 compound assignment -/

theorem C14_vec_assign [Add T] [Sub T] [Mul T] [Div T] [Mod T] (v w : Vec T N) :
    v.addAssign w = v + w ∧ v.subAssign w = v - w ∧ v.mulAssign w = v * w ∧ v.divAssign w = v / w ∧
    v.remAssign w = v % w := by
  refine ⟨?_, ?_, ?_, ?_, ?_⟩ <;> apply Vec.ext_getElem <;> intro i hi <;>
    simp [Vec.addAssign, Vec.subAssign, Vec.mulAssign, Vec.divAssign, Vec.remAssign]
theorem C14_vec_assign_scalar [Mul T] [Div T] [Mod T] (v : Vec T N) (a : T) :
    v.mulAssignS a = v.mulS a ∧ v.divAssignS a = v.divS a ∧ v.remAssignS a = v.remS a := by
  refine ⟨?_, ?_, ?_⟩ <;> apply Vec.ext_getElem <;> intro i hi <;>
    simp [Vec.mulAssignS, Vec.divAssignS, Vec.remAssignS]
theorem C14_vec_assign_bits [AndOp T] [OrOp T] [XorOp T] (v w : Vec T N) :
    v.bitandAssign w = v.bitand w ∧ v.bitorAssign w = v.bitor w ∧ v.bitxorAssign w = v.bitxor w := by
  refine ⟨?_, ?_, ?_⟩ <;> apply Vec.ext_getElem <;> intro i hi <;>
    simp [Vec.bitandAssign, Vec.bitorAssign, Vec.bitxorAssign]

example : (⟨#v[7, 5]⟩ : Vec Int 2).subAssign ⟨#v[2, 9]⟩ = ⟨#v[5, -4]⟩ := by decide

/-! ## C15 module laws -/

theorem C15_vec_add_group [AddCommGroup T] (a b c : Vec T N) :
    a + b = b + a ∧ a + b + c = a + (b + c) ∧ a + 0 = a ∧ 0 + a = a ∧ a + -a = 0 ∧ a - b = a + -b := by
  refine ⟨?_, ?_, ?_, ?_, ?_, ?_⟩ <;> apply Vec.ext_getElem <;> intro i hi <;>
    simp only [Vec.getElem_add, Vec.getElem_neg, Vec.getElem_sub, Vec.getElem_zero] <;> abel
theorem C15_vec_module [CommRing T] (a b : Vec T N) (s t : T) :
    (a + b).mulS s = a.mulS s + b.mulS s ∧ a.mulS (s + t) = a.mulS s + a.mulS t ∧
    a.mulS (s * t) = (a.mulS s).mulS t ∧ a.mulS 1 = a ∧ a.mulS 0 = 0 ∧ Vec.sMul s a = a.mulS s := by
  refine ⟨?_, ?_, ?_, ?_, ?_, ?_⟩ <;> apply Vec.ext_getElem <;> intro i hi <;> simp <;> ring
theorem C15_vec_zero [Zero T] (i : Nat) (h : i < N) : (0 : Vec T N)[i] = 0 := by simp
/-- `is_zero()` holds exactly when the scalar test holds at every component; with an exact scalar test, exactly for
`zero()`. -/
theorem C15_vec_is_zero [Zero T] [IsZero T] (v : Vec T N) :
    (IsZero.isZero v = true ↔ ∀ i (h : i < N), IsZero.isZero v[i] = true) ∧
    ((∀ x : T, IsZero.isZero x = true ↔ x = 0) → (IsZero.isZero v = true ↔ v = 0)) := by
  have h1 : IsZero.isZero v = true ↔ ∀ i (h : i < N), IsZero.isZero v[i] = true := by
    show (v.toList.all IsZero.isZero) = true ↔ _
    rw [List.all_eq_true]
    constructor
    · intro H i hi; exact H _ (List.mem_iff_getElem.mpr ⟨i, by simpa using hi, by simp⟩)
    · intro H x hx
      obtain ⟨i, hi, rfl⟩ := List.mem_iff_getElem.mp hx
      simpa using H i (by simpa using hi)
  refine ⟨h1, fun hz => ?_⟩
  rw [h1]
  constructor
  · intro H; apply Vec.ext_getElem; intro i hi; simpa [hz] using H i hi
  · rintro rfl i hi; simp [hz]

/-! ## C16 `sum`, `dot` -/

/-- With any scalar (rounding, non-associative, …) the terms are combined strictly from left to right. -/
theorem C16_sum_order [Add T] (v : Vec T (n + 1)) :
    v.sumR = .ok (Fin.foldl n (fun acc i => acc + v[i.1 + 1]) v[0]) := by
  rw [Vec.sumR, Vec.foldFirstR_succ, List.ofFn_eq_map, List.foldl_map, Fin.foldl_eq_finRange_foldl]
theorem C16_dot_order [Mul T] [Add T] (v w : Vec T (n + 1)) :
    v.dotR w = .ok (Fin.foldl n (fun acc i => acc + v[i.1 + 1] * w[i.1 + 1]) (v[0] * w[0])) := by
  rw [Vec.dotR, C16_sum_order]; simp
/-- With exact scalars `sum` and `dot` are the mathematical sums. -/
theorem C16_sum_exact [AddCommMonoid T] (hN : 0 < N) (v : Vec T N) : v.sumR = .ok (∑ i : Fin N, v[i.1]) :=
  Vec.sumR_eq_sum hN v
theorem C16_dot_exact [NonUnitalNonAssocSemiring T] (hN : 0 < N) (v w : Vec T N) :
    v.dotR w = .ok (∑ i : Fin N, v[i.1] * w[i.1]) := by
  rw [Vec.dotR, Vec.sumR_eq_sum hN]; simp
/-- `sum`, `dot`, `square_length`, `length`, `normalize` panic for `N = 0` … -/
theorem C16_empty_panics [Mul T] [Add T] [Div T] [FloatOps T] (v w : Vec T 0) :
    v.sumR = .error .unwrapNone ∧ v.dotR w = .error .unwrapNone ∧ v.squareLengthR = .error .unwrapNone ∧
    v.lengthR = .error .unwrapNone ∧ v.normalizeR = .error .unwrapNone := by
  simp [Vec.dotR, Vec.squareLengthR, Vec.lengthR, Vec.normalizeR, Vec.sumR_zero]
/-- … and never otherwise. -/
theorem C16_no_panic [Mul T] [Add T] [Div T] [FloatOps T] (hN : 0 < N) (v w : Vec T N) :
    (∃ a, v.sumR = .ok a) ∧ (∃ a, v.dotR w = .ok a) ∧ (∃ a, v.squareLengthR = .ok a) ∧
    (∃ a, v.lengthR = .ok a) ∧ ∃ a, v.normalizeR = .ok a := by
  have : NeZero N := ⟨by omega⟩
  exact ⟨⟨_, Vec.sum_ok v⟩, ⟨_, Vec.dot_ok v w⟩, ⟨_, Vec.squareLength_ok v⟩, ⟨_, Vec.length_ok v⟩,
    ⟨_, Vec.normalize_ok v⟩⟩

example : (⟨#v[1, 2, 3]⟩ : Vec Int 3).dotR ⟨#v[4, 5, 6]⟩ = .ok 32 := by decide

/-! ## C17 `max`, `min` -/

section MaxMin
variable {K : Type} [LinearOrder K] [RPartialOrd T]

private theorem fold_max (key : T → K) (hk : ∀ x y : T, RPartialOrd.pcmp x y = some (compare (key x) (key y)))
    (l : List T) (x : T) :
    ∃ k, ∃ h : k < (x :: l).length, l.foldl (fun x y => if rlt x y then y else x) x = (x :: l)[k] ∧
      (∀ y ∈ x :: l, key y ≤ key (x :: l)[k]) ∧ ∀ i (hi : i < k), key (x :: l)[i] < key (x :: l)[k] := by
  have hlt : ∀ x y : T, rlt x y = true ↔ key x < key y := by
    intro x y; simp [rlt, hk, compare_lt_iff_lt]
  induction l generalizing x with
  | nil => exact ⟨0, by simp, rfl, by simp, by simp⟩
  | cons y l ih =>
    simp only [List.foldl_cons]
    by_cases h : rlt x y = true
    · obtain ⟨k, hk1, hk2, hk3, hk4⟩ := ih y
      have hxy := (hlt x y).mp h
      refine ⟨k + 1, by simpa using hk1, by simpa [h] using hk2, ?_, ?_⟩
      · intro z hz
        rcases List.mem_cons.mp hz with rfl | hz
        · exact le_trans (le_of_lt hxy) (by simpa using hk3 y (by simp))
        · simpa using hk3 z hz
      · intro i hi
        cases i with
        | zero => exact lt_of_lt_of_le hxy (by simpa using hk3 y (by simp))
        | succ i => simpa using hk4 i (by omega)
    · obtain ⟨k, hk1, hk2, hk3, hk4⟩ := ih x
      have hxy : key y ≤ key x := not_lt.mp fun h' => h ((hlt x y).mpr h')
      rw [if_neg h]
      cases k with
      | zero =>
        refine ⟨0, by simp, by simpa using hk2, ?_, by simp⟩
        intro z hz
        simp only [List.mem_cons] at hz
        rcases hz with rfl | rfl | hz
        · simp
        · simpa using hxy
        · simpa using hk3 z (by simp [hz])
      | succ k =>
        have hx := hk4 0 (by omega)
        simp only [List.getElem_cons_zero, List.getElem_cons_succ] at hx hk2 hk3 hk4
        refine ⟨k + 2, by simpa using hk1, by simpa using hk2, ?_, ?_⟩
        · intro z hz
          simp only [List.mem_cons] at hz
          rcases hz with rfl | rfl | hz
          · simpa using le_of_lt hx
          · simpa using le_trans hxy (le_of_lt hx)
          · simpa using hk3 z (by simp [hz])
        · intro i hi
          match i with
          | 0 => simpa using hx
          | 1 => simpa using lt_of_le_of_lt hxy hx
          | i + 2 => simpa using hk4 (i + 1) (by omega)

private theorem fold_min (key : T → K) (hk : ∀ x y : T, RPartialOrd.pcmp x y = some (compare (key x) (key y)))
    (l : List T) (x : T) :
    ∃ k, ∃ h : k < (x :: l).length, l.foldl (fun x y => if rlt x y then x else y) x = (x :: l)[k] ∧
      (∀ y ∈ x :: l, key (x :: l)[k] ≤ key y) ∧
      ∀ i (_ : k < i) (hi : i < (x :: l).length), key (x :: l)[k] < key (x :: l)[i] := by
  have hlt : ∀ x y : T, rlt x y = true ↔ key x < key y := by
    intro x y; simp [rlt, hk, compare_lt_iff_lt]
  induction l generalizing x with
  | nil => exact ⟨0, by simp, rfl, by simp, fun i h1 h2 => by simp at h2; omega⟩
  | cons y l ih =>
    simp only [List.foldl_cons]
    by_cases h : rlt x y = true
    · rw [if_pos h]
      obtain ⟨k, hk1, hk2, hk3, hk4⟩ := ih x
      have hxy := (hlt x y).mp h
      cases k with
      | zero =>
        simp only [List.getElem_cons_zero] at hk2 hk3 hk4
        refine ⟨0, by simp, by simpa using hk2, ?_, ?_⟩
        · intro z hz
          simp only [List.mem_cons] at hz
          rcases hz with rfl | rfl | hz
          · simp
          · simpa using le_of_lt hxy
          · simpa using hk3 z (by simp [hz])
        · intro i hi hil
          match i with
          | 1 => simpa using hxy
          | i + 2 => exact hk4 (i + 1) (by omega) (by simpa using hil)
      | succ k =>
        simp only [List.getElem_cons_succ] at hk2 hk3 hk4
        have hx := hk3 x (by simp)
        refine ⟨k + 2, by simpa using hk1, by simpa using hk2, ?_, ?_⟩
        · intro z hz
          simp only [List.mem_cons] at hz
          rcases hz with rfl | rfl | hz
          · simpa using hx
          · simpa using le_trans hx (le_of_lt hxy)
          · simpa using hk3 z (by simp [hz])
        · intro i hi hil
          match i with
          | i + 2 => exact hk4 (i + 1) (by omega) (by simpa using hil)
    · rw [if_neg h]
      obtain ⟨k, hk1, hk2, hk3, hk4⟩ := ih y
      have hxy : key y ≤ key x := not_lt.mp fun h' => h ((hlt x y).mpr h')
      refine ⟨k + 1, by simpa using hk1, by simpa using hk2, ?_, ?_⟩
      · intro z hz
        rcases List.mem_cons.mp hz with rfl | hz
        · exact le_trans (by simpa using hk3 y (by simp)) hxy
        · simpa using hk3 z hz
      · intro i hi hil
        match i with
        | i + 1 => simpa using hk4 i (by omega) (by simpa using hil)

/-- `max()` returns an element that is `≥` every element, namely the **first** maximal one.  `key` orders the elements
totally, but different elements may have equal keys (ties). -/
theorem C17_max (key : T → K) (hk : ∀ x y : T, RPartialOrd.pcmp x y = some (compare (key x) (key y)))
    (hN : 0 < N) (v : Vec T N) :
    ∃ k, ∃ h : k < N, v.maxR = .ok v[k] ∧ (∀ i (hi : i < N), key v[i] ≤ key v[k]) ∧
      ∀ i (hi : i < k), key v[i] < key v[k] := by
  obtain ⟨n, rfl⟩ : ∃ n, N = n + 1 := ⟨N - 1, by omega⟩
  obtain ⟨k, h1, h2, h3, h4⟩ := fold_max key hk (List.ofFn fun i : Fin n => v[i.1 + 1]) v[0]
  have e := Vec.toList_cons v
  have hk' : k < n + 1 := by simpa using h1
  have ge : ∀ i (hi : i < n + 1), (v[0] :: List.ofFn fun i : Fin n => v[i.1 + 1])[i]'(by simpa using hi) = v[i] := by
    intro i hi
    have := Vec.getElem_toList v i (by simpa using hi)
    simp only [e] at this; exact this
  refine ⟨k, hk', ?_, ?_, ?_⟩
  · rw [Vec.maxR, Vec.foldFirstR_succ, h2, ge k hk']
  · intro i hi
    rw [← ge k hk', ← ge i hi]
    exact h3 _ (List.getElem_mem _)
  · intro i hi
    rw [← ge k hk', ← ge i (by omega)]
    exact h4 i hi

/-- `min()` returns an element that is `≤` every element, namely the **last** minimal one. -/
theorem C17_min (key : T → K) (hk : ∀ x y : T, RPartialOrd.pcmp x y = some (compare (key x) (key y)))
    (hN : 0 < N) (v : Vec T N) :
    ∃ k, ∃ h : k < N, v.minR = .ok v[k] ∧ (∀ i (hi : i < N), key v[k] ≤ key v[i]) ∧
      ∀ i (_ : k < i) (hi : i < N), key v[k] < key v[i] := by
  obtain ⟨n, rfl⟩ : ∃ n, N = n + 1 := ⟨N - 1, by omega⟩
  obtain ⟨k, h1, h2, h3, h4⟩ := fold_min key hk (List.ofFn fun i : Fin n => v[i.1 + 1]) v[0]
  have e := Vec.toList_cons v
  have hk' : k < n + 1 := by simpa using h1
  have ge : ∀ i (hi : i < n + 1), (v[0] :: List.ofFn fun i : Fin n => v[i.1 + 1])[i]'(by simpa using hi) = v[i] := by
    intro i hi
    have := Vec.getElem_toList v i (by simpa using hi)
    simp only [e] at this; exact this
  refine ⟨k, hk', ?_, ?_, ?_⟩
  · rw [Vec.minR, Vec.foldFirstR_succ, h2, ge k hk']
  · intro i hi
    rw [← ge k hk', ← ge i hi]
    exact h3 _ (List.getElem_mem _)
  · intro i hki hi
    rw [← ge k hk', ← ge i hi]
    exact h4 i hki (by simpa using hi)
end MaxMin

/-- Both panic exactly for `N = 0`. -/
theorem C17_panics [RPartialOrd T] (v : Vec T N) :
    ((∃ e, v.maxR = .error e) ↔ N = 0) ∧ ((∃ e, v.minR = .error e) ↔ N = 0) := by
  cases N with
  | zero => simp [Vec.maxR, Vec.minR, Vec.foldFirstR_eq, Vec.toList_zero]
  | succ n => simp [Vec.maxR, Vec.minR, Vec.foldFirstR_succ]

/-- On non-empty vectors `max`, `min`, `sum` return. -/
theorem C17_nonempty [NeZero N] [RPartialOrd T] [Add T] (v : Vec T N) :
    v.maxR = .ok v.max ∧ v.minR = .ok v.min ∧ v.sumR = .ok v.sum := by
  refine ⟨?_, ?_, ?_⟩
  · unfold Vec.maxR Vec.max Vec.foldFirst; exact Res.ok_get _ _
  · unfold Vec.minR Vec.min Vec.foldFirst; exact Res.ok_get _ _
  · exact Res.ok_get _ _

/-- Scalars with an incomparable value (NaN): `none` compares with nothing, not even itself. -/
abbrev NanInt := Option Int
instance : RPartialOrd NanInt := ⟨fun
  | some a, some b => some (compare a b)
  | _, _ => none⟩

/-- With NaN-like scalars the guarantee fails: `max` of a vector starting with NaN is NaN, `max([1, NaN, 0])` ignores
the NaN, and `min([1, NaN])` is NaN while `min([NaN, 1])` is `1`. -/
theorem C17_nan_refuted :
    (⟨#v[none, some 5]⟩ : Vec NanInt 2).maxR = .ok none ∧
    (⟨#v[some 1, none, some 0]⟩ : Vec NanInt 3).maxR = .ok (some 1) ∧
    (⟨#v[some 1, none]⟩ : Vec NanInt 2).minR = .ok none ∧
    (⟨#v[none, some 1]⟩ : Vec NanInt 2).minR = .ok (some 1) := by decide

-- ties: elements are pairs compared by the first component only
private structure Tie where
  key : Int
  tag : Nat
deriving DecidableEq
private instance : RPartialOrd Tie := ⟨fun x y => some (compare x.key y.key)⟩
example : (∀ x y : Tie, RPartialOrd.pcmp x y = some (compare x.key y.key)) ∧
    (⟨#v[⟨1, 0⟩, ⟨2, 1⟩, ⟨2, 2⟩, ⟨1, 3⟩]⟩ : Vec Tie 4).maxR = .ok ⟨2, 1⟩ ∧
    (⟨#v[⟨1, 0⟩, ⟨2, 1⟩, ⟨2, 2⟩, ⟨1, 3⟩]⟩ : Vec Tie 4).minR = .ok ⟨1, 3⟩ := ⟨fun _ _ => rfl, by decide, by decide⟩

/-! ## C18 norms over `ℝ` -/

theorem C18_norm_values (hN : 0 < N) (v : Vec ℝ N) :
    v.normL1R = .ok (∑ i : Fin N, |v[i.1]|) ∧ v.normL2SqrR = .ok (∑ i : Fin N, v[i.1] ^ 2) ∧
    v.normL2R = .ok (Real.sqrt (∑ i : Fin N, v[i.1] ^ 2)) ∧
    ∃ m, v.normLInfR = .ok m ∧ (∃ i : Fin N, m = |v[i.1]|) ∧ ∀ i : Fin N, |v[i.1]| ≤ m := by
  refine ⟨?_, ?_, ?_, ?_⟩
  · rw [Vec.normL1R, Vec.sumR_eq_sum hN]; simp
  · rw [Vec.normL2SqrR, Vec.sumR_eq_sum hN]; simp [pow_two]
  · rw [Vec.normL2R, Vec.normL2SqrR, Vec.sumR_eq_sum hN]; simp [pow_two]
  · obtain ⟨k, hk, h1, h2, _⟩ := C17_max (T := ℝ) (K := ℝ) id (fun _ _ => rfl) hN (v.map ScalarNorm.normLInf)
    refine ⟨|v[k]|, ?_, ⟨⟨k, hk⟩, rfl⟩, ?_⟩
    · rw [Vec.normLInfR, h1]; simp
    · intro i; simpa using h2 i.1 i.2

/-- `norm_l2_sqr` is the square of `norm_l2`. -/
theorem C18_l2_sqr (hN : 0 < N) (v : Vec ℝ N) (a b : ℝ) (ha : v.normL2R = .ok a) (hb : v.normL2SqrR = .ok b) :
    a ^ 2 = b := by
  obtain ⟨_, h2, h3, _⟩ := C18_norm_values hN v
  rw [h3] at ha; rw [h2] at hb
  cases ha; cases hb
  exact Real.sq_sqrt (Finset.sum_nonneg fun i _ => sq_nonneg _)

/-- What it means to be a norm on real vectors (the function may panic, so it is `Res`-valued). -/
structure IsNorm (f : Vec ℝ N → Res ℝ) : Prop where
  total : ∀ v, ∃ a, f v = .ok a
  nonneg : ∀ v a, f v = .ok a → 0 ≤ a
  zero_iff : ∀ v a, f v = .ok a → (a = 0 ↔ v = 0)
  homog : ∀ v a s b, f v = .ok a → f (v.mulS s) = .ok b → b = |s| * a
  triangle : ∀ v w a b c, f v = .ok a → f w = .ok b → f (v + w) = .ok c → c ≤ a + b

private theorem vec_eq_zero_iff (v : Vec ℝ N) : v = 0 ↔ ∀ i : Fin N, v[i.1] = 0 := by
  constructor
  · rintro rfl i; simp
  · intro h; apply Vec.ext_getElem; intro i hi; simpa using h ⟨i, hi⟩

theorem C18_l1_norm (hN : 0 < N) : IsNorm (Vec.normL1R : Vec ℝ N → Res ℝ) := by
  have h := fun v : Vec ℝ N => (C18_norm_values hN v).1
  constructor
  · intro v; exact ⟨_, h v⟩
  · intro v a ha; rw [h] at ha; cases ha; exact Finset.sum_nonneg fun i _ => abs_nonneg _
  · intro v a ha; rw [h] at ha; cases ha
    rw [Finset.sum_eq_zero_iff_of_nonneg (fun i _ => abs_nonneg _), vec_eq_zero_iff]
    simp
  · intro v a s b ha hb; rw [h] at ha hb; cases ha; cases hb
    simp [abs_mul, Finset.mul_sum, mul_comm]
  · intro v w a b c ha hb hc; rw [h] at ha hb hc; cases ha; cases hb; cases hc
    rw [← Finset.sum_add_distrib]
    exact Finset.sum_le_sum fun i _ => by simpa using abs_add_le _ _

theorem C18_l2_norm (hN : 0 < N) : IsNorm (Vec.normL2R : Vec ℝ N → Res ℝ) := by
  have h := fun v : Vec ℝ N => (C18_norm_values hN v).2.2.1
  let e : Vec ℝ N → EuclideanSpace ℝ (Fin N) := fun v => WithLp.toLp 2 fun i => v[i.1]
  have hn : ∀ v : Vec ℝ N, Real.sqrt (∑ i : Fin N, v[i.1] ^ 2) = ‖e v‖ := by
    intro v; rw [EuclideanSpace.norm_eq]; simp [e]
  simp only [hn] at h
  constructor
  · intro v; exact ⟨_, h v⟩
  · intro v a ha; rw [h] at ha; cases ha; exact norm_nonneg _
  · intro v a ha; rw [h] at ha; cases ha
    rw [norm_eq_zero, vec_eq_zero_iff]
    constructor
    · intro h i; simpa [e] using congrArg (fun x : EuclideanSpace ℝ (Fin N) => x i) h
    · intro h; ext i; simpa [e] using h i
  · intro v a s b ha hb; rw [h] at ha hb; cases ha; cases hb
    have : e (v.mulS s) = s • e v := by ext i; simp [e, mul_comm]
    rw [this, norm_smul, Real.norm_eq_abs]
  · intro v w a b c ha hb hc; rw [h] at ha hb hc; cases ha; cases hb; cases hc
    have : e (v + w) = e v + e w := by ext i; simp [e]
    rw [this]; exact norm_add_le _ _

theorem C18_linf_norm (hN : 0 < N) : IsNorm (Vec.normLInfR : Vec ℝ N → Res ℝ) := by
  have h := fun v : Vec ℝ N => (C18_norm_values hN v).2.2.2
  constructor
  · intro v; obtain ⟨m, h1, _⟩ := h v; exact ⟨m, h1⟩
  · intro v a ha; obtain ⟨m, h1, ⟨i, rfl⟩, _⟩ := h v
    rw [h1] at ha; cases ha; exact abs_nonneg _
  · intro v a ha; obtain ⟨m, h1, ⟨i, hi⟩, h3⟩ := h v
    rw [h1] at ha; cases ha
    rw [vec_eq_zero_iff]
    constructor
    · intro h0 j; have := h3 j; rw [h0] at this; exact abs_eq_zero.mp (le_antisymm this (abs_nonneg _))
    · intro h0; rw [hi, h0 i, abs_zero]
  · intro v a s b ha hb
    obtain ⟨m, h1, ⟨i, hi⟩, h3⟩ := h v
    obtain ⟨m', h1', ⟨i', hi'⟩, h3'⟩ := h (v.mulS s)
    rw [h1] at ha; rw [h1'] at hb; cases ha; cases hb
    simp only [Vec.getElem_mulS, abs_mul] at hi' h3'
    apply le_antisymm
    · rw [hi', mul_comm]; exact mul_le_mul_of_nonneg_left (h3 i') (abs_nonneg _)
    · rw [hi, mul_comm]; exact h3' i
  · intro v w a b c ha hb hc
    obtain ⟨m, h1, _, h3⟩ := h v
    obtain ⟨m', h1', _, h3'⟩ := h w
    obtain ⟨m'', h1'', ⟨i, hi⟩, _⟩ := h (v + w)
    rw [h1] at ha; rw [h1'] at hb; rw [h1''] at hc; cases ha; cases hb; cases hc
    rw [hi]; simp only [Vec.getElem_add]
    exact le_trans (abs_add_le _ _) (add_le_add (h3 i) (h3' i))

/-- `norm_l_inf ≤ norm_l2 ≤ norm_l1`. -/
theorem C18_norm_order (hN : 0 < N) (v : Vec ℝ N) (a b c : ℝ)
    (ha : v.normLInfR = .ok a) (hb : v.normL2R = .ok b) (hc : v.normL1R = .ok c) : a ≤ b ∧ b ≤ c := by
  obtain ⟨h1, _, h2, m, h3, ⟨i, hi⟩, _⟩ := C18_norm_values hN v
  rw [h3] at ha; rw [h2] at hb; rw [h1] at hc; cases ha; cases hb; cases hc
  constructor
  · rw [hi]
    apply Real.le_sqrt_of_sq_le
    rw [sq_abs]
    exact Finset.single_le_sum (f := fun i : Fin N => v[i.1] ^ 2) (fun i _ => sq_nonneg _) (Finset.mem_univ i)
  · apply Real.sqrt_le_iff.mpr
    refine ⟨Finset.sum_nonneg fun i _ => abs_nonneg _, ?_⟩
    have key : ∀ t : Finset (Fin N), ∑ i ∈ t, v[i.1] ^ 2 ≤ (∑ i ∈ t, |v[i.1]|) ^ 2 := by
      intro t
      induction t using Finset.induction_on with
      | empty => simp
      | insert a t ha ih =>
        rw [Finset.sum_insert ha, Finset.sum_insert ha]
        have h1 : 0 ≤ ∑ i ∈ t, |v[i.1]| := Finset.sum_nonneg fun i _ => abs_nonneg _
        have h2 : 0 ≤ |v[a.1]| := abs_nonneg _
        have h3 : |v[a.1]| ^ 2 = v[a.1] ^ 2 := sq_abs _
        nlinarith [mul_nonneg h1 h2]
    exact key _

example : ∃ a, (⟨#v[3, -4]⟩ : Vec ℝ 2).normL1R = .ok a ∧ a = 7 := by
  refine ⟨_, (C18_norm_values (by omega) _).1, ?_⟩
  simp [Fin.sum_univ_two]; norm_num

/-! ## C19 dot product geometry -/

theorem C19_dot_bilinear [NeZero N] [CommRing T] (a b c : Vec T N) (s : T) :
    a.dot b = b.dot a ∧ (a + b).dot c = a.dot c + b.dot c ∧ (a.mulS s).dot b = a.dot b * s ∧
    a.dot (b + c) = a.dot b + a.dot c ∧ a.dot (b.mulS s) = a.dot b * s := by
  simp only [Vec.dot_eq_sum, Vec.getElem_add, Vec.getElem_mulS]
  refine ⟨?_, ?_, ?_, ?_, ?_⟩
  · exact Finset.sum_congr rfl fun i _ => mul_comm _ _
  · rw [← Finset.sum_add_distrib]; exact Finset.sum_congr rfl fun i _ => by ring
  · rw [Finset.sum_mul]; exact Finset.sum_congr rfl fun i _ => by ring
  · rw [← Finset.sum_add_distrib]; exact Finset.sum_congr rfl fun i _ => by ring
  · rw [Finset.sum_mul]; exact Finset.sum_congr rfl fun i _ => by ring

theorem C19_dot_self [NeZero N] (a : Vec ℝ N) :
    a.dot a = a.squareLength ∧ a.squareLength = a.length ^ 2 ∧ 0 ≤ a.length := by
  have h0 : 0 ≤ a.squareLength := by
    rw [Vec.squareLength_eq_sum]; exact Finset.sum_nonneg fun i _ => mul_self_nonneg _
  refine ⟨?_, ?_, ?_⟩
  · rw [Vec.dot_eq_sum, Vec.squareLength_eq_sum]
  · show _ = (Real.sqrt _) ^ 2
    rw [Real.sq_sqrt h0]
  · exact Real.sqrt_nonneg _

theorem C19_cauchy_schwarz [NeZero N] (a b : Vec ℝ N) : |a.dot b| ≤ a.length * b.length := by
  have key : (a.dot b) ^ 2 ≤ a.squareLength * b.squareLength := by
    rw [Vec.dot_eq_sum, Vec.squareLength_eq_sum, Vec.squareLength_eq_sum]
    have := Finset.sum_mul_sq_le_sq_mul_sq Finset.univ (fun i : Fin N => a[i.1]) (fun i : Fin N => b[i.1])
    simpa [pow_two] using this
  rw [(C19_dot_self a).2.1, (C19_dot_self b).2.1, ← mul_pow] at key
  exact abs_le_of_sq_le_sq key (mul_nonneg (C19_dot_self a).2.2 (C19_dot_self b).2.2)

/-! ## C20 normalize -/

private theorem length_pos [NeZero N] (v : Vec ℝ N) (hv : v ≠ 0) : 0 < v.length := by
  apply Real.sqrt_pos.mpr
  rw [Vec.squareLength_eq_sum]
  have : ∃ i : Fin N, v[i.1] ≠ 0 := by
    by_contra h; push Not at h
    exact hv ((vec_eq_zero_iff v).mpr h)
  obtain ⟨i, hi⟩ := this
  exact Finset.sum_pos' (fun i _ => mul_self_nonneg _) ⟨i, Finset.mem_univ _, mul_self_pos.mpr hi⟩

theorem C20_length_pos [NeZero N] (v : Vec ℝ N) : 0 < v.length ↔ v ≠ 0 := by
  constructor
  · rintro h rfl
    simp [Vec.length, Vec.squareLength_eq_sum] at h
  · exact length_pos v

/-- `normalize` of a nonzero vector is the vector divided by its length (same direction) and has length 1. -/
theorem C20_normalize [NeZero N] (v : Vec ℝ N) (hv : v ≠ 0) :
    v.normalize.length = 1 ∧ (∀ i (h : i < N), v.normalize[i] = v[i] / v.length) ∧
    v.normalize.mulS v.length = v := by
  have hl := length_pos v hv
  refine ⟨?_, fun i h => by simp [Vec.normalize], ?_⟩
  · have hs : v.normalize.squareLength = 1 := by
      rw [Vec.squareLength_eq_sum]
      simp only [Vec.normalize, Vec.getElem_divS]
      have : ∀ i : Fin N, v[i.1] / v.length * (v[i.1] / v.length) = v[i.1] * v[i.1] / v.length ^ 2 := by
        intro i; field_simp
      simp only [this]
      rw [← Finset.sum_div, ← Vec.squareLength_eq_sum, (C19_dot_self v).2.1]
      exact div_self (pow_ne_zero _ (ne_of_gt hl))
    show Real.sqrt _ = 1
    rw [hs, Real.sqrt_one]
  · apply Vec.ext_getElem; intro i hi
    simp only [Vec.normalize, Vec.getElem_mulS, Vec.getElem_divS]
    exact div_mul_cancel₀ _ (ne_of_gt hl)

theorem C20_normalize_unit [NeZero N] (v : Vec ℝ N) (hv : v.length = 1) : v.normalize = v := by
  apply Vec.ext_getElem; intro i hi; simp [Vec.normalize, hv]

theorem C20_normalize_idem [NeZero N] (v : Vec ℝ N) (hv : v ≠ 0) : v.normalize.normalize = v.normalize :=
  C20_normalize_unit _ (C20_normalize v hv).1

example : (⟨#v[3, 4]⟩ : Vec ℝ 2) ≠ 0 := by
  intro h
  have := Vec.getElem_congr_vec h 0 (by omega)
  simp at this

/-! ## C21 cross product -/

private theorem cross3_eta [Mul T] [Sub T] (a b : Vec T 3) :
    a.cross3 b = ⟨#v[a[1] * b[2] - a[2] * b[1], a[2] * b[0] - a[0] * b[2], a[0] * b[1] - a[1] * b[0]]⟩ := by
  simp [Vec.cross3, Vec.fromArray]
private theorem cross3_0 [Mul T] [Sub T] (a b : Vec T 3) : (a.cross3 b)[0] = a[1] * b[2] - a[2] * b[1] := by
  rw [cross3_eta]; rfl
private theorem cross3_1 [Mul T] [Sub T] (a b : Vec T 3) : (a.cross3 b)[1] = a[2] * b[0] - a[0] * b[2] := by
  rw [cross3_eta]; rfl
private theorem cross3_2 [Mul T] [Sub T] (a b : Vec T 3) : (a.cross3 b)[2] = a[0] * b[1] - a[1] * b[0] := by
  rw [cross3_eta]; rfl

theorem C21_cross3_algebra [CommRing T] (a b c : Vec T 3) (s : T) :
    (a + b).cross3 c = a.cross3 c + b.cross3 c ∧ a.cross3 (b + c) = a.cross3 b + a.cross3 c ∧
    (a.mulS s).cross3 b = (a.cross3 b).mulS s ∧ a.cross3 (b.mulS s) = (a.cross3 b).mulS s ∧
    a.cross3 b = -(b.cross3 a) ∧ a.cross3 a = 0 ∧
    a.cross3 (b.cross3 c) + b.cross3 (c.cross3 a) + c.cross3 (a.cross3 b) = 0 := by
  refine ⟨?_, ?_, ?_, ?_, ?_, ?_, ?_⟩ <;> apply Vec.ext_getElem <;> intro i hi <;>
    match i, hi with
    | 0, _ =>
      simp only [cross3_0, cross3_1, cross3_2, Vec.getElem_add, Vec.getElem_mulS, Vec.getElem_neg, Vec.getElem_zero]; ring
    | 1, _ =>
      simp only [cross3_0, cross3_1, cross3_2, Vec.getElem_add, Vec.getElem_mulS, Vec.getElem_neg, Vec.getElem_zero]; ring
    | 2, _ =>
      simp only [cross3_0, cross3_1, cross3_2, Vec.getElem_add, Vec.getElem_mulS, Vec.getElem_neg, Vec.getElem_zero]; ring

/-- The components are the usual ones; the cross product is orthogonal to both factors and its squared length is
`|a|²|b|² - (a·b)²`. -/
theorem C21_cross3_geometry [CommRing T] (a b : Vec T 3) :
    a.cross3 b = ⟨#v[a[1] * b[2] - a[2] * b[1], a[2] * b[0] - a[0] * b[2], a[0] * b[1] - a[1] * b[0]]⟩ ∧
    a.dot (a.cross3 b) = 0 ∧ b.dot (a.cross3 b) = 0 ∧
    (a.cross3 b).squareLength = a.squareLength * b.squareLength - (a.dot b) ^ 2 := by
  refine ⟨by simp [Vec.cross3, Vec.fromArray], ?_, ?_, ?_⟩ <;>
    simp only [Vec.dot_eq_sum, Vec.squareLength_eq_sum, Fin.sum_univ_three] <;>
    simp [Vec.cross3, Vec.fromArray] <;> ring

theorem C21_cross2 [CommRing T] (a b : Vec T 2) :
    a.cross2 b = a[0] * b[1] - a[1] * b[0] ∧ a.cross2 b = -(b.cross2 a) ∧ a.cross2 a = 0 ∧
    (a.cross2 b) ^ 2 = a.squareLength * b.squareLength - (a.dot b) ^ 2 := by
  refine ⟨by simp [Vec.cross2], ?_, ?_, ?_⟩ <;>
    simp only [Vec.cross2, Vec.dot_eq_sum, Vec.squareLength_eq_sum, Fin.sum_univ_two] <;> simp <;> ring

theorem C21_cross4 [CommRing T] (a b : Vec T 4) :
    a.cross4 b = ⟨#v[a[1] * b[2] - a[2] * b[1], a[2] * b[0] - a[0] * b[2], a[0] * b[1] - a[1] * b[0], 0]⟩ := by
  simp [Vec.cross4, Vec.fromArray]

example : (⟨#v[1, 0, 0]⟩ : Vec Int 3).cross3 ⟨#v[0, 1, 0]⟩ = ⟨#v[0, 0, 1]⟩ := by decide

/-! ## C22 comparison masks -/

theorem C22_masks_eq [BEq T] (v w : Vec T N) (i : Nat) (h : i < N) :
    (v.veq w)[i] = (v[i] == w[i]) ∧ (v.vne w)[i] = (v[i] != w[i]) ∧ (v.vne w)[i] = !(v.veq w)[i] := by
  simp [Vec.veq, Vec.vne, bne]
/-- Each mask bit is the corresponding scalar comparison, for any (even partial) order on the scalars. -/
theorem C22_masks_ord [RPartialOrd T] (v w : Vec T N) (i : Nat) (h : i < N) :
    (v.vlt w)[i] = rlt v[i] w[i] ∧ (v.vle w)[i] = rle v[i] w[i] ∧ (v.vgt w)[i] = rgt v[i] w[i] ∧
    (v.vge w)[i] = rge v[i] w[i] := by
  simp [Vec.vlt, Vec.vle, Vec.vgt, Vec.vge]
/-- For totally ordered scalars the masks are `<`, `≤`, `>`, `≥`, and `vge` is the negation of `vlt`. -/
theorem C22_masks_total [LinearOrder T] (v w : Vec T N) (i : Nat) (h : i < N) :
    ((v.vlt w)[i] = true ↔ v[i] < w[i]) ∧ ((v.vle w)[i] = true ↔ v[i] ≤ w[i]) ∧
    ((v.vgt w)[i] = true ↔ w[i] < v[i]) ∧ ((v.vge w)[i] = true ↔ w[i] ≤ v[i]) ∧
    (v.vge w)[i] = !(v.vlt w)[i] := by
  refine ⟨by simp [Vec.vlt], by simp [Vec.vle], by simp [Vec.vgt], by simp [Vec.vge], ?_⟩
  rw [Bool.eq_iff_iff]
  simp [Vec.vlt, Vec.vge, ← Bool.not_eq_true]
/-- … which fails as soon as a NaN is involved: both are false. -/
theorem C22_nan_refuted :
    ∃ (v w : Vec NanInt 1), (v.vlt w)[0] = false ∧ (v.vge w)[0] = false ∧ (v.vle w)[0] = false ∧ (v.vgt w)[0] = false :=
  ⟨⟨#v[none]⟩, ⟨#v[some 1]⟩, by decide⟩
theorem C22_any_all (v : Vec Bool N) :
    (v.any = true ↔ ∃ i, ∃ h : i < N, v[i] = true) ∧ (v.all = true ↔ ∀ i (h : i < N), v[i] = true) := by simp

/-! ## C23 floor division -/

theorem C23_vec_floor (a b : Vec Int N) (i : Nat) (h : i < N) :
    a[i] = (a.divFloor b)[i] * b[i] + (a.modFloor b)[i] ∧
    (0 < b[i] → 0 ≤ (a.modFloor b)[i] ∧ (a.modFloor b)[i] < b[i]) ∧
    (b[i] < 0 → b[i] < (a.modFloor b)[i] ∧ (a.modFloor b)[i] ≤ 0) := by
  have e1 : (a.divFloor b)[i] = Int.fdiv a[i] b[i] := by simp [Vec.divFloor, FloorDiv.divFloor]
  have e2 : (a.modFloor b)[i] = Int.fmod a[i] b[i] := by simp [Vec.modFloor, FloorDiv.modFloor]
  rw [e1, e2]
  refine ⟨?_, ?_, ?_⟩
  · have := Int.mul_fdiv_add_fmod a[i] b[i]; linarith [mul_comm b[i] (Int.fdiv a[i] b[i])]
  · intro h; exact ⟨Int.fmod_nonneg_of_pos _ h, Int.fmod_lt_of_pos _ h⟩
  · intro h
    have h1 := Int.fmod_nonneg_of_pos (-a[i]) (show 0 < -b[i] by omega)
    have h2 := Int.fmod_lt_of_pos (-a[i]) (show 0 < -b[i] by omega)
    have h3 : Int.fmod (-a[i]) (-b[i]) = -Int.fmod a[i] b[i] := Int.neg_fmod_neg ..
    omega
theorem C23_vec_div_mod [FloorDiv T] (a b : Vec T N)
    (hs : ∀ x y : T, FloorDiv.divModFloor x y = (FloorDiv.divFloor x y, FloorDiv.modFloor x y)) :
    a.divModFloor b = (a.divFloor b, a.modFloor b) := by
  apply Prod.ext <;> apply Vec.ext_getElem <;> intro i hi <;> simp [Vec.divModFloor, Vec.divFloor, Vec.modFloor, hs]

example : ∀ x y : Int, FloorDiv.divModFloor x y = (FloorDiv.divFloor x y, FloorDiv.modFloor x y) := fun _ _ => rfl
example : (⟨#v[-7, 7]⟩ : Vec Int 2).divModFloor ⟨#v[2, -2]⟩ = (⟨#v[-4, -4]⟩, ⟨#v[1, -1]⟩) := by decide

/-! ## C24 iterator `sum` / `product` -/

theorem C24_vec_sum [AddCommMonoid T] (l : List (Vec T N)) (i : Nat) (h : i < N) :
    (Vec.iterSum l)[i] = (l.map fun v => v[i]).sum := by
  have key : ∀ (l : List (Vec T N)) (a : Vec T N), (l.foldl (fun a x => a + x) a)[i] = a[i] + (l.map fun v => v[i]).sum := by
    intro l; induction l with
    | nil => intro a; simp
    | cons x l ih => intro a; simp [ih, add_assoc]
  simp [Vec.iterSum, key]
theorem C24_vec_product [CommMonoid T] (l : List (Vec T N)) (i : Nat) (h : i < N) :
    (Vec.iterProduct l)[i] = (l.map fun v => v[i]).prod := by
  have key : ∀ (l : List (Vec T N)) (a : Vec T N), (l.foldl (fun a x => a * x) a)[i] = a[i] * (l.map fun v => v[i]).prod := by
    intro l; induction l with
    | nil => intro a; simp
    | cons x l ih => intro a; simp [ih, mul_assoc]
  have h1 : (Vec.initS (N := N) (fun _ : Unit => ((1 : T), ())) ()).1[i] = 1 := Vec.getElem_fill 1 i h
  simp [Vec.iterProduct, key, h1]
/-- The empty sum is `zero()`, the empty product is all ones. -/
theorem C24_vec_empty [Zero T] [One T] [Add T] [Mul T] :
    Vec.iterSum ([] : List (Vec T N)) = 0 ∧ Vec.iterProduct ([] : List (Vec T N)) = Vec.fill 1 := ⟨rfl, rfl⟩

example : Vec.iterSum [⟨#v[1, 2]⟩, ⟨#v[3, 4]⟩, (⟨#v[5, 6]⟩ : Vec Int 2)] = ⟨#v[9, 12]⟩ := by decide

/-! ## further cases: the hypotheses are satisfiable -/
example := C16_sum_exact (by decide) (⟨#v[1, 2, 3]⟩ : Vec Int 3)
example := C16_dot_exact (by decide) (⟨#v[1, 2, 3]⟩ : Vec Int 3) ⟨#v[4, 5, 6]⟩
example := C16_no_panic (by decide) (⟨#v[1, 2, 3]⟩ : Vec ℝ 3) ⟨#v[4, 5, 6]⟩
example := C17_max (K := ℤ) id (fun _ _ => rfl) (by decide) (⟨#v[1, 5, 3, 5]⟩ : Vec ℤ 4)
example := C17_min (K := ℤ) id (fun _ _ => rfl) (by decide) (⟨#v[1, 5, 3, 1]⟩ : Vec ℤ 4)
example := C18_l1_norm (N := 3) (by decide)
example := C18_l2_norm (N := 3) (by decide)
example := C18_linf_norm (N := 3) (by decide)
/-- The norms of every three-dimensional vector exist, so their comparison applies. -/
example (v : Vec ℝ 3) : ∃ a b c q, v.normLInfR = .ok a ∧ v.normL2R = .ok b ∧ v.normL1R = .ok c ∧ v.normL2SqrR = .ok q ∧ a ≤ b ∧ b ≤ c ∧ b ^ 2 = q := by
  obtain ⟨a, ha⟩ := (C18_linf_norm (N := 3) (by decide)).1 v
  obtain ⟨b, hb⟩ := (C18_l2_norm (N := 3) (by decide)).1 v
  obtain ⟨c, hc⟩ := (C18_l1_norm (N := 3) (by decide)).1 v
  obtain ⟨q, hq⟩ : ∃ q, v.normL2SqrR = .ok q := ⟨_, Vec.foldFirstR_succ _ _⟩
  have h := C18_norm_order (by decide) v a b c ha hb hc
  exact ⟨a, b, c, q, ha, hb, hc, hq, h.1, h.2, C18_l2_sqr (by decide) v b q hb hq⟩
example : (⟨#v[3, 4]⟩ : Vec ℝ 2).normalize.normalize = (⟨#v[3, 4]⟩ : Vec ℝ 2).normalize ∧ (⟨#v[3, 4]⟩ : Vec ℝ 2).normalize.length = 1 := by
  have h : (⟨#v[3, 4]⟩ : Vec ℝ 2) ≠ 0 := fun h => by
    have := congrArg (fun v : Vec ℝ 2 => v[0]) h
    norm_num [Vec.getElem_zero] at this
  exact ⟨C20_normalize_idem _ h, (C20_normalize _ h).1⟩
example : (⟨#v[3, 4]⟩ : Vec ℝ 2).normalize.normalize = (⟨#v[3, 4]⟩ : Vec ℝ 2).normalize :=
  C20_normalize_unit _ (C20_normalize _ fun h => by
    have := congrArg (fun v : Vec ℝ 2 => v[0]) h
    norm_num [Vec.getElem_zero] at this).1
example := C23_vec_div_mod (⟨#v[-7, 7]⟩ : Vec ℤ 2) ⟨#v[2, -2]⟩ (fun _ _ => rfl)

end Vecmat
