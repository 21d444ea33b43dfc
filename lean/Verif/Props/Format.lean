import Verif.Model.Format
import Verif.Lemmas.MatrixOps
import Verif.Lemmas.Quaternion
import Verif.Lemmas.Complex
import Std.Data.String.ToInt
/-!
# C65: formatting
-/
namespace Vecmat
open Spec
variable {T : Type} {M N : Nat}

namespace Spec
/-- One printed matrix row. -/
def rowText (f : T → String) (row : List T) : String := "  " ++ String.join (row.map fun x => f x ++ ", ") ++ "\n"
/-- The rows of a matrix as a list of lists. -/
def rowLists (A : Mat T M N) : List (List T) := List.ofFn fun i : Fin M => List.ofFn fun j : Fin N => A[i.1][j.1]
end Spec

/-! ## Helper lemmas -/
@[simp] theorem exec_write (s out : String) : (write s).exec out = (.ok (), out ++ s) := rfl

theorem forRange_write (g : Nat → String) (body : Nat → Unit → Eff String Unit) (n lo : Nat) (out : String)
    (h : ∀ i, lo ≤ i → i < lo + n → ∀ o, (body i ()).exec o = (.ok (), o ++ g i)) :
    (forRange n lo () body).exec out = (.ok (), out ++ String.join ((List.range' lo n).map g)) := by
  induction n generalizing lo out with
  | zero => simp [forRange]
  | succ n ih =>
    rw [forRange, exec_bind_ok (h lo (by omega) (by omega) out), ih _ _ fun i h1 h2 => h i (by omega) (by omega)]
    simp [List.range'_succ, String.append_assoc]

theorem intercalate_dropLast (l : List String) (x : String) :
    String.join (l.map (· ++ ", ")) ++ x = String.intercalate ", " (l ++ [x]) := by
  induction l with
  | nil => simp
  | cons a l ih =>
    rw [List.map_cons, String.join_cons, List.cons_append, String.intercalate_cons_of_ne_nil (by simp), ← ih]
    simp [String.append_assoc]

theorem cell_inj {a b s t : List Char} (ha : ',' ∉ a) (hb : ',' ∉ b) (h : a ++ ',' :: s = b ++ ',' :: t) : a = b ∧ s = t := by
  induction a generalizing b with
  | nil =>
    cases b with
    | nil => simpa using h
    | cons c b => simp at h; simp [← h.1] at hb
  | cons c a ih =>
    cases b with
    | nil => simp at h; simp [h.1] at ha
    | cons d b =>
      simp at h ha hb
      obtain ⟨h1, h2⟩ := ih ha.2 hb.2 h.2
      exact ⟨by rw [h.1, h1], h2⟩

theorem intercalate_inj {l k : List String} (hl : ∀ s ∈ l, ',' ∉ s.toList) (hk : ∀ s ∈ k, ',' ∉ s.toList) (hlen : l.length = k.length)
    (h : String.intercalate ", " l = String.intercalate ", " k) : l = k := by
  induction l generalizing k with
  | nil => exact (List.length_eq_zero_iff.mp hlen.symm).symm
  | cons a l ih =>
    cases k with
    | nil => simp at hlen
    | cons b k =>
      simp only [List.length_cons, Nat.add_right_cancel_iff] at hlen
      cases l with
      | nil =>
        obtain rfl := List.length_eq_zero_iff.mp hlen.symm
        simpa using h
      | cons a' l =>
        cases k with
        | nil => simp at hlen
        | cons b' k =>
          rw [String.intercalate_cons_cons, String.intercalate_cons_cons] at h
          have h' := congrArg String.toList h
          simp only [String.toList_append, List.append_assoc] at h'
          obtain ⟨h1, h2⟩ := cell_inj (hl a (by simp)) (hk b (by simp)) h'
          have h3 := (List.cons_inj_right _).mp h2
          rw [String.toList_injective h1, ih (fun s hs => hl s (by simp [hs])) (fun s hs => hk s (by simp [hs])) hlen
            (String.toList_injective (by simpa using h3))]

theorem cells_inj {l k : List String} (hl : ∀ s ∈ l, ',' ∉ s.toList) (hk : ∀ s ∈ k, ',' ∉ s.toList) (hlen : l.length = k.length)
    {t u : List Char} (h : (String.join (l.map (· ++ ", "))).toList ++ t = (String.join (k.map (· ++ ", "))).toList ++ u) :
    l = k ∧ t = u := by
  induction l generalizing k with
  | nil =>
    obtain rfl := (List.length_eq_zero_iff.mp hlen.symm)
    simpa using h
  | cons a l ih =>
    cases k with
    | nil => simp at hlen
    | cons b k =>
      simp only [List.length_cons, Nat.add_right_cancel_iff] at hlen
      simp only [List.map_cons, String.join_cons, String.toList_append, List.append_assoc] at h
      obtain ⟨h1, h2⟩ := cell_inj (hl a (by simp)) (hk b (by simp)) h
      have h3 := (List.cons_inj_right _).mp h2
      obtain ⟨h4, h5⟩ := ih (fun s hs => hl s (by simp [hs])) (fun s hs => hk s (by simp [hs])) hlen h3
      exact ⟨by rw [String.toList_injective h1, h4], h5⟩

/-! ## The printed text -/
/-- `Vector`: `Vector<N>(` components separated by `, ` and `)`. -/
theorem C65_vector (checked : Bool) (w : Nat) (f : T → String) (hN : 0 < N) (v : Vec T N) (out : String) :
    (v.fmt checked w f).exec out =
      (.ok (), out ++ s!"Vector{N}(" ++ String.intercalate ", " (v.toList.map f) ++ ")") := by
  have hs : usizeSub checked w N 1 = .ok (N - 1) := by rw [usizeSub, if_pos (by omega)]
  unfold Vec.fmt
  rw [hs, exec_bind_ok (exec_write _ _), liftRes_ok, pure_bind]
  have h := forRange_write (fun i => ((v.toList.map f)[i]?.getD "") ++ ", ")
    (fun i _ => do let x ← liftRes (v.index i); write (f x ++ ", ")) (N - 1) 0 (out ++ s!"Vector{N}(") (by
      intro i _ hi o
      have hi' : i < N := by omega
      rw [Vec.index_lt v i hi', liftRes_ok, pure_bind, exec_write]
      have : (v.toList.map f)[i]? = some (f v[i]) := by
        rw [List.getElem?_eq_getElem (by simpa using hi')]; simp
      rw [this]; rfl)
  rw [exec_bind_ok h, pure_bind, Vec.index_lt v (N - 1) (by omega), liftRes_ok, pure_bind, exec_write]
  congr 1
  have hl : v.toList.map f = (List.range' 0 (N - 1)).map (fun i => (v.toList.map f)[i]?.getD "") ++ [f v[N - 1]] := by
    apply List.ext_getElem
    · simp; omega
    · intro i h1 h2
      simp at h1
      by_cases hi : i < N - 1
      · rw [List.getElem_append_left (by simpa using hi)]
        have : (v.toList.map f)[i]? = some (f v[i]) := by
          rw [List.getElem?_eq_getElem (by simpa using h1)]; simp
        rw [List.getElem_map, List.getElem_map, List.getElem_range', Nat.zero_add, Nat.one_mul, this]; simp
      · obtain rfl : i = N - 1 := by omega
        rw [List.getElem_append_right (by simp)]
        simp
  conv_rhs => rw [hl, ← intercalate_dropLast, List.map_map]
  simp only [String.append_assoc]
  rfl

/-- An empty vector cannot be printed, neither with overflow checks (debug) nor without (release). -/
theorem C65_vector_zero (checked : Bool) (w : Nat) (hw : 0 < w) (f : T → String) (v : Vec T 0) (out : String) :
    (v.fmt checked w f).exec out = (.error (if checked then .subOverflow else .indexOob), out ++ "Vector0(") := by
  unfold Vec.fmt
  cases checked with
  | true =>
    rw [exec_bind_ok (exec_write _ _)]
    simp [usizeSub]
    rfl
  | false =>
    have hp : 2 ≤ 2 ^ w := by
      calc 2 = 2 ^ 1 := rfl
        _ ≤ 2 ^ w := Nat.pow_le_pow_right (by omega) hw
    have hs : usizeSub false w 0 1 = .ok ((2 ^ w - 2) + 1) := by
      simp [usizeSub]; omega
    rw [exec_bind_ok (exec_write _ _), hs, liftRes_ok, pure_bind, forRange, Vec.index_ge v 0 (by omega), liftRes_error]
    rfl

/-- `Matrix`: a blank line, the header, one line per row. -/
theorem C65_matrix (f : T → String) (A : Mat T M N) (out : String) :
    (A.fmt f).exec out =
      (.ok (), out ++ s!"\nMatrix{M}x{N}(\n" ++ String.join ((rowLists A).map (rowText f)) ++ ")\n") := by
  unfold Mat.fmt
  rw [exec_bind_ok (exec_write _ _), exec_bind_ok (exec_write _ _)]
  have hrow : ∀ j (_ : j < M), ∀ o, (forRange N 0 () fun i _ => do
        let x ← liftRes (A.index (j, i))
        write (f x ++ ", ")).exec o =
      (.ok (), o ++ String.join (((rowLists A)[j]?.getD []).map fun x => f x ++ ", ")) := by
    intro j hj o
    have hA : (rowLists A)[j]?.getD [] = List.ofFn fun i : Fin N => A[j][i.1] := by
      rw [List.getElem?_eq_getElem (by simpa [rowLists] using hj)]
      simp [rowLists]
    rw [hA, forRange_write (fun i => (((List.ofFn fun i : Fin N => A[j][i.1]).map f)[i]?.getD "") ++ ", ")]
    · congr 2
      congr 1
      apply List.ext_getElem (by simp)
      intro i h1 h2
      have hi : i < N := by simpa using h1
      simp [hi]
    · intro i _ hi o
      have hi' : i < N := by omega
      rw [Mat.index_lt A j i hj hi', liftRes_ok, pure_bind, exec_write]
      simp [hi']
  have h := forRange_write (fun j => rowText f ((rowLists A)[j]?.getD []))
    (fun j _ => do
      write "  "
      forRange N 0 () fun i _ => do
        let x ← liftRes (A.index (j, i))
        write (f x ++ ", ")
      write "\n") M 0 (out ++ "\n" ++ s!"Matrix{M}x{N}(\n") (by
    intro j _ hj o
    rw [exec_bind_ok (exec_write _ _), exec_bind_ok (hrow j (by omega) _), exec_write]
    simp [rowText, String.append_assoc])
  rw [exec_bind_ok h, exec_write]
  have hl : (List.range' 0 M).map (fun j => rowText f ((rowLists A)[j]?.getD [])) = (rowLists A).map (rowText f) := by
    apply List.ext_getElem (by simp [rowLists])
    intro j h1 h2
    have hj : j < M := by simpa using h1
    simp [rowLists, hj]
  rw [hl]
  have : (s!"\nMatrix{M}x{N}(\n" : String) = "\n" ++ s!"Matrix{M}x{N}(\n" := by
    simp only [← String.append_assoc]; rfl
  rw [this]
  simp only [String.append_assoc]

theorem C65_complex (f : T → String) (re im : T) (out : String) :
    ((Cpx.new re im).fmt f).exec out = (.ok (), out ++ s!"Complex({f re}, {f im})") := by
  simp [Cpx.fmt, Cpx.new]; rfl

theorem C65_quaternion (f : T → String) (w x y z : T) (out : String) :
    ((Quat.new w x y z).fmt f).exec out = (.ok (), out ++ s!"Quaternion({f w}, {f x}, {f y}, {f z})") := by
  simp [Quat.fmt, Quat.new]; rfl
/-! ## Different values print differently -/
/-- `f` never writes a comma and renders different values differently: true of every integer and floating-point type. -/
structure Spec.PlainText (f : T → String) : Prop where
  inj : Function.Injective f
  noComma : ∀ x, ',' ∉ (f x).toList

/-- The hypothesis holds for decimal integers, of any size. -/
theorem PlainText.int : PlainText (fun z : Int => z.repr) := by
  refine ⟨fun a b h => Int.repr_injective h, fun x h => ?_⟩
  have hd : ∀ n : Nat, ',' ∉ n.repr.toList := fun n hn => by
    rw [Nat.toList_repr] at hn
    have := Nat.isDigit_of_mem_toDigits (by omega) (by omega) hn
    exact absurd this (by decide)
  rw [Int.repr_eq_if] at h
  split at h
  · exact hd _ h
  · rw [String.toList_append, List.mem_append] at h
    rcases h with h | h
    · exact absurd h (by decide)
    · exact hd _ h

theorem C65_vector_inj (checked : Bool) (w : Nat) {f : T → String} (hf : PlainText f) (hN : 0 < N) (v u : Vec T N) (out : String)
    (h : (v.fmt checked w f).exec out = (u.fmt checked w f).exec out) : v = u := by
  rw [C65_vector _ _ _ hN, C65_vector _ _ _ hN] at h
  have h := congrArg Prod.snd h
  simp only [String.append_left_inj, String.append_right_inj] at h
  have h := intercalate_inj (by simp [hf.noComma]) (by simp [hf.noComma]) (by simp) h
  have h := hf.inj.list_map h
  apply Vec.ext_getElem
  intro i hi
  rw [← Vec.getElem_toList v i (by simpa using hi), ← Vec.getElem_toList u i (by simpa using hi)]
  simp [h]

theorem C65_matrix_inj {f : T → String} (hf : PlainText f) (A B : Mat T M N) (out : String)
    (h : (A.fmt f).exec out = (B.fmt f).exec out) : A = B := by
  rw [C65_matrix, C65_matrix] at h
  have h := congrArg Prod.snd h
  simp only [String.append_left_inj, String.append_right_inj] at h
  have key : ∀ l k : List (List T), l.length = k.length → (∀ r ∈ l, r.length = N) → (∀ r ∈ k, r.length = N) →
      String.join (l.map (rowText f)) = String.join (k.map (rowText f)) → l = k := by
    intro l
    induction l with
    | nil => intro k hk _ _ _; exact (List.length_eq_zero_iff.mp hk.symm).symm
    | cons a l ih =>
      intro k hk h1 h2 h
      cases k with
      | nil => simp at hk
      | cons b k =>
        simp only [List.map_cons, String.join_cons, rowText, String.append_assoc, String.append_right_inj] at h
        have h' := congrArg String.toList h
        rw [String.toList_append, String.toList_append] at h'
        have h' := cells_inj (l := a.map f) (k := b.map f) (by simp [hf.noComma]) (by simp [hf.noComma])
          (by simp [h1 a (by simp), h2 b (by simp)]) (by simpa [Function.comp_def] using h')
        rw [hf.inj.list_map h'.1]
        have h3 := (List.cons_inj_right _).mp h'.2
        rw [ih k (by simpa using hk) (fun r hr => h1 r (by simp [hr])) (fun r hr => h2 r (by simp [hr]))
          (String.toList_injective (by simpa [rowText] using h3))]
  have h := key (rowLists A) (rowLists B) (by simp [rowLists]) (by simp [rowLists, List.mem_ofFn]) (by simp [rowLists, List.mem_ofFn]) h
  apply Mat.ext_getElem
  intro i hi j hj
  have h1 := congrFun (List.ofFn_injective h) ⟨i, hi⟩
  exact congrFun (List.ofFn_injective h1) ⟨j, hj⟩

theorem C65_complex_inj {f : T → String} (hf : PlainText f) (z w : Cpx T) (out : String)
    (h : (z.fmt f).exec out = (w.fmt f).exec out) : z = w := by
  have e : ∀ z : Cpx T, (z.fmt f).exec out = (.ok (), out ++ ("Complex(" ++ String.intercalate ", " [f z.re, f z.im] ++ ")")) := by
    intro z
    simp only [Cpx.fmt, exec_write, String.intercalate_cons_cons, String.intercalate_singleton]
    simp only [String.append_assoc]; rfl
  rw [e, e] at h
  have h := congrArg Prod.snd h
  simp only [String.append_left_inj, String.append_right_inj] at h
  have h := intercalate_inj (by simp [hf.noComma]) (by simp [hf.noComma]) (by simp) h
  simp only [List.cons.injEq, and_true] at h
  exact Cpx.ext' (hf.inj h.1) (hf.inj h.2)

theorem C65_quaternion_inj {f : T → String} (hf : PlainText f) (p q : Quat T) (out : String)
    (h : (p.fmt f).exec out = (q.fmt f).exec out) : p = q := by
  have e : ∀ q : Quat T, (q.fmt f).exec out =
      (.ok (), out ++ ("Quaternion(" ++ String.intercalate ", " [f q.w, f q.x, f q.y, f q.z] ++ ")")) := by
    intro z
    simp only [Quat.fmt, exec_write, String.intercalate_cons_cons, String.intercalate_singleton]
    simp only [String.append_assoc]; rfl
  rw [e, e] at h
  have h := congrArg Prod.snd h
  simp only [String.append_left_inj, String.append_right_inj] at h
  have h := intercalate_inj (by simp [hf.noComma]) (by simp [hf.noComma]) (by simp) h
  simp only [List.cons.injEq, and_true] at h
  exact Quat.ext' (hf.inj h.1) (hf.inj h.2.1) (hf.inj h.2.2.1) (hf.inj h.2.2.2)

/-- Without the hypothesis on commas the claim fails: a component whose text contains a comma (such as a string) can imitate a
separator. -/
theorem C65_comma_refuted : ¬ ∀ (f : String → String), Function.Injective f → ∀ v u : Vec String 2,
    (v.fmt true 64 f).exec "" = (u.fmt true 64 f).exec "" → v = u := by
  intro h
  have := h id Function.injective_id (Vec.fromArray #v["a, b", "c"]) (Vec.fromArray #v["a", "b, c"]) (by
    rw [C65_vector _ _ _ (by omega), C65_vector _ _ _ (by omega)]; rfl)
  have := congrArg (fun v => v[0]) this
  simp [Vec.fromArray] at this

example : ((Vec.fromArray #v[(1 : Int), -23]).fmt true 64 Int.repr).exec "" = (.ok (), "Vector2(1, -23)") := by
  rw [C65_vector _ _ _ (by omega)]; rfl

/-! ## further cases: the hypotheses are satisfiable -/
example : ((Vec.fromArray #v[(1 : Int), -23]).fmt true 64 Int.repr).exec "" ≠ ((Vec.fromArray #v[(12 : Int), -3]).fmt true 64 Int.repr).exec "" :=
  fun h => by have := C65_vector_inj true 64 PlainText.int (by decide) _ _ "" h; revert this; decide
example : ((Mat.fromArrArr #v[#v[(1 : Int), 23]]).fmt Int.repr).exec "" ≠ ((Mat.fromArrArr #v[#v[(12 : Int), 3]]).fmt Int.repr).exec "" :=
  fun h => by have := C65_matrix_inj PlainText.int _ _ "" h; revert this; decide
example : ((Cpx.new (1 : Int) 23).fmt Int.repr).exec "" ≠ ((Cpx.new (12 : Int) 3).fmt Int.repr).exec "" :=
  fun h => by have := C65_complex_inj PlainText.int _ _ "" h; revert this; decide
example : ((Quat.new (1 : Int) 23 0 0).fmt Int.repr).exec "" ≠ ((Quat.new (12 : Int) 3 0 0).fmt Int.repr).exec "" :=
  fun h => by have := C65_quaternion_inj PlainText.int _ _ "" h; revert this; decide
example := C65_vector_zero true 64 (by decide) Int.repr ⟨#v[]⟩ ""

end Vecmat
