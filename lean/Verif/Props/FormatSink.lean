import Verif.Model.FormatSink
import Verif.Props.Format
/-!
# C97: formatting into sinks that may refuse, format options, derived `Debug`
-/
namespace Vecmat
open Spec
variable {T A B X : Type} {M N : Nat} {σ : Type}

namespace Spec
/-- Hand pieces of text to a sink one after the other and stop at the first one it refuses: `Ok` if it took all of them, `Err` otherwise. -/
def feed (k : Sink σ) : List String → σ → Res (Except Unit Unit) × σ
  | [], st => (.ok (.ok ()), st)
  | s :: l, st => if (k s st).1 then feed k l (k s st).2 else (.ok (.error ()), (k s st).2)
/-- What correct formatting is: whatever the sink, it is handed pieces that make up the text, in order, up to and including the first
one it refuses and nothing after it; the result is `Ok` exactly if none was refused; there is no panic. -/
def Formats (p : (σ : Type) → Sink σ → Fmting σ Unit) (text : String) : Prop :=
  ∃ pieces : List String, String.join pieces = text ∧ ∀ σ (k : Sink σ) st, (p σ k).run st = feed k pieces st
/-- A sink that appends to a text (a `String`, a file, a buffer of limited size): a piece it accepts is appended as a whole, of a piece it
refuses some beginning may be appended. -/
def Appends (k : Sink σ) (txt : σ → List Char) : Prop :=
  ∀ s st, ∃ u, u <+: s.toList ∧ txt (k s st).2 = txt st ++ u ∧ ((k s st).1 = true → u = s.toList)
/-- The text with four blanks put before every line (`nl`: the first character starts a line). -/
def indent : Bool → List Char → List Char
  | _, [] => []
  | nl, c :: cs => (if nl then [' ', ' ', ' ', ' '] else []) ++ c :: indent (c == '\n') cs
/-- Indented block. -/
def indented (s : String) : String := String.ofList (indent true s.toList)
/-- The text of a component under given options. -/
def compText (c : FmtOpts → T → List String) (o : FmtOpts) (x : T) : String := String.join (c o x)
/-- `Name { field: value, field: value }`. -/
def structText (name : String) (fields : List (String × String)) : String :=
  name ++ " { " ++ String.intercalate ", " (fields.map fun f => f.1 ++ ": " ++ f.2) ++ " }"
/-- The same over several lines. -/
def structTextPretty (name : String) (fields : List (String × String)) : String :=
  name ++ " {\n" ++ String.join (fields.map fun f => indented (f.1 ++ ": " ++ f.2 ++ ",\n")) ++ "}"
end Spec

/-! ## Helper lemmas -/
@[simp] theorem Fmting.run_pure (st : σ) : (pure () : Fmting σ Unit).run st = (.ok (.ok ()), st) := rfl
theorem Fmting.run_bind (p : Fmting σ Unit) (f : Unit → Fmting σ Unit) (st : σ) : (p >>= f).run st =
    match p.run st with
    | (.ok (.ok a), st') => (f a).run st'
    | (.ok (.error e), st') => (.ok (.error e), st')
    | (.error e, st') => (.error e, st') := by
  show Eff.exec (ExceptT.run p >>= ExceptT.bindCont f) st = _
  rw [exec_bind]
  simp only [Fmting.run]
  rcases Eff.exec (ExceptT.run p) st with ⟨_ | (_ | _), st'⟩ <;> rfl
theorem Fmting.lift_ok_bind {α : Type} (a : α) (f : α → Fmting σ Unit) : ((Fmting.lift (.ok a) : Fmting σ α) >>= f) = f a := rfl
theorem Fmting.lift_error_bind {α : Type} (e : Fault) (f : α → Fmting σ Unit) (st : σ) :
    ((Fmting.lift (.error e) : Fmting σ α) >>= f).run st = (.error e, st) := rfl
theorem run_writeStr (k : Sink σ) (s : String) (st : σ) :
    (writeStr k s).run st = (.ok (if (k s st).1 then .ok () else .error ()), (k s st).2) := rfl

theorem feed_append (k : Sink σ) (l m : List String) (st : σ) : feed k (l ++ m) st =
    match feed k l st with
    | (.ok (.ok _), st') => feed k m st'
    | r => r := by
  induction l generalizing st with
  | nil => rfl
  | cons s l ih =>
    simp only [List.cons_append, feed]
    split
    · exact ih _
    · rfl
theorem feed_cases (k : Sink σ) (l : List String) (st : σ) : (feed k l st).1 = .ok (.ok ()) ∨ (feed k l st).1 = .ok (.error ()) := by
  induction l generalizing st with
  | nil => exact .inl rfl
  | cons s l ih =>
    simp only [feed]
    split
    · exact ih _
    · exact .inr rfl

/-- `p` hands exactly these pieces to the sink, up to the first refusal. -/
def Writes (k : Sink σ) (p : Fmting σ Unit) (l : List String) : Prop := ∀ st, p.run st = feed k l st

theorem Writes.nil (k : Sink σ) : Writes k (pure ()) [] := fun _ => rfl
theorem Writes.bind {k : Sink σ} {p : Fmting σ Unit} {f : Unit → Fmting σ Unit} {l m : List String} (hp : Writes k p l)
    (hf : Writes k (f ()) m) : Writes k (p >>= f) (l ++ m) := by
  intro st
  rw [Fmting.run_bind, hp st, feed_append]
  have h := feed_cases k l st
  rcases hr : feed k l st with ⟨_ | (_ | _), st'⟩
  · simp [hr] at h
  · rfl
  · exact hf st'
theorem Writes.str (k : Sink σ) (s : String) : Writes k (writeStr k s) [s] := by
  intro st
  rw [run_writeStr]
  simp only [feed]
  split <;> rfl
theorem Writes.all (k : Sink σ) (l : List String) : Writes k (writeAll k l) l := by
  induction l with
  | nil => exact Writes.nil k
  | cons s l ih => exact (Writes.str k s).bind ih
theorem Writes.lift {α : Type} {k : Sink σ} {r : Res α} {a : α} {f : α → Fmting σ Unit} {l : List String} (h : r = .ok a)
    (hf : Writes k (f a) l) : Writes k (Fmting.lift r >>= f) l := by
  subst h; exact hf
theorem Writes.forRange {k : Sink σ} (g : Nat → List String) (body : Nat → Unit → Fmting σ Unit) (n lo : Nat)
    (h : ∀ i, lo ≤ i → i < lo + n → Writes k (body i ()) (g i)) :
    Writes k (Vecmat.forRange n lo () body) ((List.range' lo n).flatMap g) := by
  induction n generalizing lo with
  | zero => exact Writes.nil k
  | succ n ih =>
    rw [List.range'_succ, List.flatMap_cons]
    exact (h lo (by omega) (by omega)).bind (ih _ fun i h1 h2 => h i (by omega) (by omega))
theorem join_flatMap {α : Type} (l : List α) (g : α → List String) :
    String.join (l.flatMap g) = String.join (l.map fun a => String.join (g a)) := by
  induction l with
  | nil => rfl
  | cons a l ih => simp [ih]

theorem Formats.of {p : (σ : Type) → Sink σ → Fmting σ Unit} {l : List String} {t : String} (h : ∀ σ (k : Sink σ), Writes k (p σ k) l)
    (ht : String.join l = t) : Formats p t := ⟨l, ht, fun σ k st => h σ k st⟩

theorem Writes.vec (k : Sink σ) (checked : Bool) (w : Nat) (c : FmtOpts → T → List String) (hN : 0 < N) (v : Vec T N) (o : FmtOpts) :
    Writes k (v.fmtTo checked w c o k) (["Vector", toString N, "("] ++ ((List.range' 0 (N - 1)).flatMap
      (fun i => ((v.toList.map (c {}))[i]?.getD []) ++ [", "]) ++ (c {} v[N - 1] ++ [")"]))) := by
  have hs : usizeSub checked w N 1 = .ok (N - 1) := by rw [usizeSub, if_pos (by omega)]
  unfold Vec.fmtTo
  refine (Writes.all _ _).bind (.lift hs (.bind (.forRange _ _ _ _ fun i _ hi => ?_)
    (.lift hs (.lift (Vec.index_lt v (N - 1) (by omega)) ((Writes.all _ _).bind (.str _ _))))))
  have hi' : i < N := by omega
  have : (v.toList.map (c {}))[i]? = some (c {} v[i]) := by
    rw [List.getElem?_eq_getElem (by simpa using hi')]; simp
  rw [this]
  exact .lift (Vec.index_lt v i hi') ((Writes.all _ _).bind (.str _ _))

theorem toList_split (f : T → String) (hN : 0 < N) (v : Vec T N) :
    v.toList.map f = (List.range' 0 (N - 1)).map (fun i => (v.toList.map f)[i]?.getD "") ++ [f v[N - 1]] := by
  apply List.ext_getElem
  · simp; omega
  · intro i h1 h2
    simp at h1
    by_cases hi : i < N - 1
    · rw [List.getElem_append_left (by simpa using hi)]
      have : (v.toList.map f)[i]? = some (f v[i]) := by
        rw [List.getElem?_eq_getElem (by simpa using h1)]; simp
      rw [List.getElem_map, List.getElem_map, List.getElem_range', Nat.zero_add, Nat.one_mul, this]; simp
    · obtain rfl : i = N - 1 := by omega
      rw [List.getElem_append_right (by simp)]
      simp

theorem vec_text (c : FmtOpts → T → List String) (hN : 0 < N) (v : Vec T N) :
    String.join (["Vector", toString N, "("] ++ ((List.range' 0 (N - 1)).flatMap
      (fun i => ((v.toList.map (c {}))[i]?.getD []) ++ [", "]) ++ (c {} v[N - 1] ++ [")"]))) =
    s!"Vector{N}(" ++ String.intercalate ", " (v.toList.map (compText c {})) ++ ")" := by
  rw [toList_split _ hN, ← intercalate_dropLast, List.map_map]
  simp only [String.join_append, join_flatMap]
  have : (List.range' 0 (N - 1)).map (fun i => String.join ((v.toList.map (c {}))[i]?.getD []) ++ String.join [", "]) =
      (List.range' 0 (N - 1)).map ((fun x => x ++ ", ") ∘ fun i => (v.toList.map (compText c {}))[i]?.getD "") := by
    apply List.map_congr_left
    intro i hi
    have hi' : i < N := by simp at hi; omega
    simp [hi', compText]
  rw [this]
  simp [compText, String.append_assoc, String.join]
  rfl

/-! ## Formatting -/
/-- `Vector` (`Debug` and `Display`): for every sink, every format option and every component type. The options do not matter; the
components are printed as by `{:?}` / `{}`. -/
theorem C97_vector (checked : Bool) (w : Nat) (c : FmtOpts → T → List String) (hN : 0 < N) (v : Vec T N) (o : FmtOpts) :
    Formats (fun _ => v.fmtTo checked w c o)
      (s!"Vector{N}(" ++ String.intercalate ", " (v.toList.map (compText c {})) ++ ")") :=
  Formats.of (fun _ k => .vec k checked w c hN v o) (vec_text c hN v)

/-- `Matrix`. -/
theorem C97_matrix (c : FmtOpts → T → List String) (A : Mat T M N) (o : FmtOpts) :
    Formats (fun _ => A.fmtTo c o)
      (s!"\nMatrix{M}x{N}(\n" ++ String.join ((rowLists A).map (rowText (compText c {}))) ++ ")\n") := by
  refine Formats.of (l := ["\n"] ++ (["Matrix", toString M, "x", toString N, "(\n"] ++ ((List.range' 0 M).flatMap (fun j =>
    ["  "] ++ ((List.range' 0 N).flatMap (fun i => ((((rowLists A)[j]?.getD []).map (c {}))[i]?.getD []) ++ [", "]) ++ ["\n"])) ++
      [")\n"]))) (fun _ k => ?_) ?_
  · unfold Mat.fmtTo
    refine (Writes.str _ _).bind ((Writes.all _ _).bind (.bind (.forRange _ _ _ _ fun j _ hj => (Writes.str _ _).bind
      (.bind (.forRange _ _ _ _ fun i _ hi => ?_) (.str _ _))) (.str _ _)))
    have hi' : i < N := by omega
    have hj' : j < M := by omega
    have : (((rowLists A)[j]?.getD []).map (c {}))[i]?.getD [] = c {} A[j][i] := by simp [rowLists, hi', hj']
    rw [this]
    exact .lift (Mat.index_lt A j i hj' hi') ((Writes.all _ _).bind (.str _ _))
  · simp only [String.join_append, join_flatMap]
    have h1 : (List.range' 0 M).map (fun j => String.join ["  "] ++ (String.join ((List.range' 0 N).map fun i =>
          String.join ((((rowLists A)[j]?.getD []).map (c {}))[i]?.getD []) ++ String.join [", "]) ++ String.join ["\n"])) =
        (rowLists A).map (rowText (compText c {})) := by
      apply List.ext_getElem (by simp [rowLists])
      intro j h1 h2
      have hj : j < M := by simpa using h1
      have h3 : (List.range' 0 N).map (fun i => String.join ((((rowLists A)[j]?.getD []).map (c {}))[i]?.getD []) ++ String.join [", "]) =
          ((rowLists A)[j]'(by simpa [rowLists] using hj)).map fun x => compText c {} x ++ ", " := by
        apply List.ext_getElem (by simp [rowLists])
        intro i h4 h5
        have hi : i < N := by simpa using h4
        simp [rowLists, hi, hj, compText]
      simp only [List.getElem_map, List.getElem_range', Nat.zero_add, Nat.one_mul]
      rw [h3]
      simp [rowText, String.append_assoc]
    rw [h1]
    have : (s!"\nMatrix{M}x{N}(\n" : String) = "\n" ++ s!"Matrix{M}x{N}(\n" := by
      simp only [← String.append_assoc]; rfl
    rw [this]
    simp [String.append_assoc]
    rfl

theorem C97_complex (c : FmtOpts → T → List String) (z : Cpx T) (o : FmtOpts) :
    Formats (fun _ => z.fmtTo c o) s!"Complex({compText c {} z.re}, {compText c {} z.im})" := by
  refine Formats.of (l := ["Complex("] ++ (c {} z.re ++ ([", "] ++ (c {} z.im ++ [")"])))) (fun _ k => ?_) ?_
  · unfold Cpx.fmtTo
    exact (Writes.str _ _).bind ((Writes.all _ _).bind ((Writes.str _ _).bind ((Writes.all _ _).bind (.str _ _))))
  · simp [compText, String.append_assoc]; rfl

theorem C97_quaternion (c : FmtOpts → T → List String) (q : Quat T) (o : FmtOpts) :
    Formats (fun _ => q.fmtTo c o)
      s!"Quaternion({compText c {} q.w}, {compText c {} q.x}, {compText c {} q.y}, {compText c {} q.z})" := by
  refine Formats.of (l := ["Quaternion("] ++ (c {} q.w ++ ([", "] ++ (c {} q.x ++ ([", "] ++ (c {} q.y ++ ([", "] ++
    (c {} q.z ++ [")"])))))))) (fun _ k => ?_) ?_
  · unfold Quat.fmtTo
    exact (Writes.str _ _).bind ((Writes.all _ _).bind ((Writes.str _ _).bind ((Writes.all _ _).bind ((Writes.str _ _).bind
      ((Writes.all _ _).bind ((Writes.str _ _).bind ((Writes.all _ _).bind (.str _ _))))))))
  · simp [compText, String.append_assoc]; rfl

/-! ## Padding -/
/-- The pieces the lines of a text are handed on as. -/
def padPieces : Bool → List (List Char) → List String
  | _, [] => []
  | nl, l :: ls => (if nl then ["    "] else []) ++ (String.ofList l :: padPieces (l.getLast? == some '\n') ls)
def padFlag : Bool → List (List Char) → Bool
  | nl, [] => nl
  | _, l :: ls => padFlag (l.getLast? == some '\n') ls
def padAll : Bool → List String → List String
  | _, [] => []
  | nl, s :: l => padPieces nl (splitInclusive s.toList) ++ padAll (padFlag nl (splitInclusive s.toList)) l

theorem feed_if (k : Sink σ) (nl : Bool) (m : List String) (st : σ) :
    feed k ((if nl then ["    "] else []) ++ m) st =
      if (if nl then k "    " st else (true, st)).1 then feed k m (if nl then k "    " st else (true, st)).2
      else (.ok (.error ()), (if nl then k "    " st else (true, st)).2) := by
  cases nl <;> simp [feed]

theorem padLines_feed (k : Sink σ) (ls : List (List Char)) (nl : Bool) (st : σ) :
    (((padLines k ls (nl, st)).1 = true ∧ feed k (padPieces nl ls) st = (.ok (.ok ()), (padLines k ls (nl, st)).2.2) ∧
        (padLines k ls (nl, st)).2.1 = padFlag nl ls) ∨
      ((padLines k ls (nl, st)).1 = false ∧ feed k (padPieces nl ls) st = (.ok (.error ()), (padLines k ls (nl, st)).2.2))) := by
  induction ls generalizing nl st with
  | nil => exact .inl ⟨rfl, rfl, rfl⟩
  | cons l ls ih =>
    rw [padPieces, feed_if, padLines]
    generalize hr : (if nl then k "    " st else (true, st)) = r
    obtain ⟨b, st1⟩ := r
    cases b with
    | false => right; simp
    | true =>
      simp only [↓reduceIte, feed, padFlag]
      rcases hb : (k (String.ofList l) st1) with ⟨b, st2⟩
      cases b with
      | false => right; simp
      | true => simpa using ih (l.getLast? == some '\n') st2

theorem feed_padSink (k : Sink σ) (l : List String) (nl : Bool) (st : σ) :
    ((feed (padSink k) l (nl, st)).1, (feed (padSink k) l (nl, st)).2.2) = feed k (padAll nl l) st := by
  induction l generalizing nl st with
  | nil => rfl
  | cons s l ih =>
    rw [padAll, feed_append]
    rcases padLines_feed k (splitInclusive s.toList) nl st with ⟨h1, h2, h3⟩ | ⟨h1, h2⟩
    · rw [h2, ← h3]
      have h1 : (padSink k s (nl, st)).1 = true := h1
      simp only [feed]
      rw [if_pos h1]
      exact ih _ _
    · rw [h2]
      have h1 : ¬ (padSink k s (nl, st)).1 = true := by
        show ¬ (padLines k (splitInclusive s.toList) (nl, st)).1 = true
        simp [h1]
      simp only [feed]
      rw [if_neg h1]
      rfl

theorem Writes.withPad {k : Sink σ} {p : Sink (Bool × σ) → Fmting (Bool × σ) Unit} {l : List String} (h : Writes (padSink k) (p (padSink k)) l) :
    Writes k (Vecmat.withPad k p) (padAll true l) := by
  intro st
  rw [← feed_padSink, ← h (true, st)]
  rfl

theorem indent_append (nl : Bool) (a b : List Char) :
    indent nl (a ++ b) = indent nl a ++ indent (if a = [] then nl else a.getLast? == some '\n') b := by
  induction a generalizing nl with
  | nil => rfl
  | cons c a ih =>
    simp only [List.cons_append, indent, ih, List.append_assoc]
    cases a with
    | nil => simp
    | cons d a => simp
theorem splitInclusive_ne (s : List Char) : ∀ l ∈ splitInclusive s, l ≠ [] := by
  induction s with
  | nil => simp [splitInclusive]
  | cons c s ih =>
    rw [splitInclusive]
    split
    · simpa using ih
    · split <;> simp_all
theorem splitInclusive_flatten (s : List Char) : (splitInclusive s).flatten = s := by
  induction s with
  | nil => rfl
  | cons c s ih =>
    rw [splitInclusive]
    split
    · simp [ih]
    · split <;> simp_all
/-- No line contains a line end before its last character. -/
theorem splitInclusive_line (s : List Char) : ∀ l ∈ splitInclusive s, '\n' ∉ l.dropLast := by
  induction s with
  | nil => simp [splitInclusive]
  | cons c s ih =>
    rw [splitInclusive]
    split
    · simpa using ih
    · rename_i hc
      have hne := splitInclusive_ne s
      split
      · simp
      · rename_i p ps hs
        rw [hs] at ih hne
        intro l hl
        rcases List.mem_cons.mp hl with rfl | hl
        · have : p ≠ [] := hne p (by simp)
          rw [List.dropLast_cons_of_ne_nil this]
          simp only [List.mem_cons, not_or]
          exact ⟨fun h => hc h.symm, ih p (by simp)⟩
        · exact ih l (by simp [hl])
theorem indent_line (nl : Bool) (l : List Char) (hne : l ≠ []) (h : '\n' ∉ l.dropLast) :
    indent nl l = (if nl then [' ', ' ', ' ', ' '] else []) ++ l := by
  induction l generalizing nl with
  | nil => exact absurd rfl hne
  | cons c l ih =>
    cases l with
    | nil => simp [indent]
    | cons d l =>
      rw [List.dropLast_cons_of_ne_nil (by simp)] at h
      simp only [List.mem_cons, not_or] at h
      have hc : (c == '\n') = false := by simpa using fun e : c = '\n' => h.1 e.symm
      rw [indent, hc, ih false (by simp) h.2]
      simp
theorem padPieces_indent (ls : List (List Char)) (nl : Bool) (h1 : ∀ l ∈ ls, l ≠ []) (h2 : ∀ l ∈ ls, '\n' ∉ l.dropLast) :
    (String.join (padPieces nl ls)).toList = indent nl ls.flatten ∧
      padFlag nl ls = if ls.flatten = [] then nl else ls.flatten.getLast? == some '\n' := by
  induction ls generalizing nl with
  | nil => exact ⟨by simp [padPieces, indent], by simp [padFlag]⟩
  | cons l ls ih =>
    have hl := h1 l (by simp)
    obtain ⟨e1, e2⟩ := ih (l.getLast? == some '\n') (fun x hx => h1 x (by simp [hx])) (fun x hx => h2 x (by simp [hx]))
    constructor
    · rw [padPieces, List.flatten_cons, indent_append, if_neg hl, ← e1, indent_line nl l hl (h2 l (by simp))]
      cases nl <;> simp
    · rw [padFlag, e2, List.flatten_cons, if_neg (show ¬ l ++ ls.flatten = [] by simp [hl])]
      split
      · rename_i h; rw [h, List.append_nil]
      · rename_i h; rw [List.getLast?_append_of_ne_nil _ h]
theorem padAll_indent (l : List String) (nl : Bool) :
    (String.join (padAll nl l)).toList = indent nl (String.join l).toList := by
  induction l generalizing nl with
  | nil => simp [padAll, indent]
  | cons s l ih =>
    obtain ⟨e1, e2⟩ := padPieces_indent (splitInclusive s.toList) nl (splitInclusive_ne _) (splitInclusive_line _)
    rw [splitInclusive_flatten] at e1 e2
    rw [padAll, String.join_append, String.toList_append, e1, ih, e2, String.join_cons, String.toList_append, indent_append]
theorem padAll_indented (l : List String) : String.join (padAll true l) = indented (String.join l) := by
  apply String.toList_injective
  rw [padAll_indent, indented, String.toList_ofList]

/-! ## Derived `Debug` -/
theorem debugField_formats (o : FmtOpts) (first : Bool) (name : String) (v : Debuggable) {t : String} (h : Formats (fun σ => v σ o) t) :
    Formats (fun _ k => debugField o k first name v)
      (if o.alternate then (if first then " {\n" else "") ++ indented (name ++ ": " ++ t ++ ",\n")
        else (if first then " { " else ", ") ++ (name ++ ": " ++ t)) := by
  obtain ⟨l, hl, hw⟩ := h
  cases ho : o.alternate with
  | false =>
    refine Formats.of (l := [if first then " { " else ", "] ++ ([name] ++ ([": "] ++ l))) (fun _ k => ?_) ?_
    · unfold debugField
      rw [ho]
      exact (Writes.str _ _).bind ((Writes.str _ _).bind ((Writes.str _ _).bind fun st => hw _ k st))
    · simp [hl, String.append_assoc]
  | true =>
    refine Formats.of (l := (if first then [" {\n"] else []) ++ padAll true ([name] ++ ([": "] ++ (l ++ [",\n"])))) (fun _ k => ?_) ?_
    · unfold debugField
      rw [ho]
      have hf : Writes k (Vecmat.withPad k fun k' => do
          writeStr k' name; writeStr k' ": "; v _ o k'; writeStr k' ",\n") (padAll true ([name] ++ ([": "] ++ (l ++ [",\n"])))) :=
        Writes.withPad ((Writes.str _ _).bind ((Writes.str _ _).bind (Writes.bind (fun st => hw _ _ st) (.str _ _))))
      cases first
      · exact (Writes.nil k).bind (f := fun _ => _) hf
      · exact (Writes.str k _).bind (f := fun _ => _) hf
    · rw [String.join_append, padAll_indented]
      cases first <;> simp [hl, String.append_assoc]

theorem debugFields_formats (o : FmtOpts) (fields : List (String × Debuggable × String))
    (h : ∀ f ∈ fields, Formats (fun σ => f.2.1 σ o) f.2.2) :
    Formats (fun _ k => (fields.map fun f => (f.1, f.2.1)).forM fun f => debugField o k false f.1 f.2)
      (String.join (fields.map fun f => if o.alternate then indented (f.1 ++ ": " ++ f.2.2 ++ ",\n") else ", " ++ (f.1 ++ ": " ++ f.2.2))) := by
  induction fields with
  | nil => exact Formats.of (l := []) (fun _ k => Writes.nil k) rfl
  | cons f fields ih =>
    obtain ⟨l, hl, hw⟩ := debugField_formats o false f.1 f.2.1 (h f (by simp))
    obtain ⟨m, hm, hv⟩ := ih fun g hg => h g (by simp [hg])
    refine Formats.of (l := l ++ m) (fun _ k => ?_) ?_
    · simp only [List.map_cons]
      exact Writes.bind (fun st => hw _ k st) (fun st => hv _ k st)
    · rw [String.join_append, hl, hm, List.map_cons, String.join_cons]
      cases o.alternate <;> simp

theorem join_sep (a : String) (l : List String) : a ++ String.join (l.map fun x => ", " ++ x) = String.intercalate ", " (a :: l) := by
  induction l generalizing a with
  | nil => simp
  | cons b l ih => rw [String.intercalate_cons_cons, ← ih b]; simp [String.append_assoc]

/-- Derived `Debug` of a struct with named fields: `Name { a: …, b: … }` with `{:?}` and one indented field per line with `{:#?}`; whatever
the fields are, into whatever sink, as long as each field is formatted correctly under the options of the caller. -/
theorem C97_derived (o : FmtOpts) (name : String) (fields : List (String × Debuggable × String)) (hne : fields ≠ [])
    (h : ∀ f ∈ fields, Formats (fun σ => f.2.1 σ o) f.2.2) :
    Formats (fun _ k => debugStruct o k name (fields.map fun f => (f.1, f.2.1)))
      (if o.alternate then structTextPretty name (fields.map fun f => (f.1, f.2.2))
        else structText name (fields.map fun f => (f.1, f.2.2))) := by
  cases fields with
  | nil => exact absurd rfl hne
  | cons f fields =>
    obtain ⟨l, hl, hw⟩ := debugField_formats o true f.1 f.2.1 (h f (by simp))
    obtain ⟨m, hm, hv⟩ := debugFields_formats o fields fun g hg => h g (by simp [hg])
    refine Formats.of (l := [name] ++ (l ++ (m ++ [if o.alternate then "}" else " }"]))) (fun _ k => ?_) ?_
    · simp only [List.map_cons, debugStruct]
      exact (Writes.str _ _).bind (Writes.bind (fun st => hw _ k st) (Writes.bind (fun st => hv _ k st) (.str _ _)))
    · simp only [String.join_append, hl, hm]
      cases o.alternate with
      | true =>
        simp [structTextPretty, String.append_assoc, Function.comp_def]
      | false =>
        have := join_sep (f.1 ++ ": " ++ f.2.2) (fields.map fun f => f.1 ++ ": " ++ f.2.2)
        simp only [structText, List.map_cons, List.map_map, Function.comp_def] at this ⊢
        rw [← this]
        simp [String.append_assoc]

/-- The text of a one-field wrapper. -/
def Spec.wrapText (o : FmtOpts) (name field value : String) : String :=
  if o.alternate then structTextPretty name [(field, value)] else structText name [(field, value)]
theorem wrap_formats (o : FmtOpts) (name field : String) (v : Debuggable) {t : String} (h : Formats (fun σ => v σ o) t) :
    Formats (fun _ k => debugStruct o k name [(field, v)]) (wrapText o name field t) :=
  C97_derived o name [(field, v, t)] (by simp) (by simpa using h)

theorem C97_shift (checked : Bool) (w : Nat) (c : FmtOpts → T → List String) (hN : 0 < N) (s : Shift T N) (o : FmtOpts) :
    Formats (fun σ => s.debug checked w c σ o)
      (wrapText o "Shift" "pos" (s!"Vector{N}(" ++ String.intercalate ", " (s.pos.toList.map (compText c {})) ++ ")")) :=
  wrap_formats o _ _ _ (C97_vector checked w c hN s.pos o)
/-- The magnitude of a `Scale`, unlike the components of a vector, is formatted with the caller's options. -/
theorem C97_scale (c : FmtOpts → T → List String) (s : Scale T) (o : FmtOpts) :
    Formats (fun σ => s.debug c σ o) (wrapText o "Scale" "mag" (compText c o s.mag)) :=
  wrap_formats o _ _ (debugOf c s.mag) (Formats.of (fun _ k => Writes.all k _) rfl)
theorem C97_linear (c : FmtOpts → T → List String) (l : Linear T N) (o : FmtOpts) :
    Formats (fun σ => l.debug c σ o)
      (wrapText o "Linear" "lin" (s!"\nMatrix{N}x{N}(\n" ++ String.join ((rowLists l.lin).map (rowText (compText c {}))) ++ ")\n")) :=
  wrap_formats o _ _ _ (C97_matrix c l.lin o)
theorem C97_rotation2 (c : FmtOpts → T → List String) (r : Rotation2 T) (o : FmtOpts) :
    Formats (fun σ => r.debug c σ o)
      (wrapText o "Rotation2" "comp" s!"Complex({compText c {} r.comp.re}, {compText c {} r.comp.im})") :=
  wrap_formats o _ _ _ (C97_complex c r.comp o)
theorem C97_rotation3 (c : FmtOpts → T → List String) (r : Rotation3 T) (o : FmtOpts) :
    Formats (fun σ => r.debug c σ o)
      (wrapText o "Rotation3" "quat"
        s!"Quaternion({compText c {} r.quat.w}, {compText c {} r.quat.x}, {compText c {} r.quat.y}, {compText c {} r.quat.z})") :=
  wrap_formats o _ _ _ (C97_quaternion c r.quat o)
theorem C97_moebius (c : FmtOpts → T → List String) (m : Moebius T) (o : FmtOpts) :
    Formats (fun σ => m.debug c σ o)
      (wrapText o "Moebius" "mat" (s!"\nMatrix2x2(\n" ++ String.join ((rowLists m.mat).map (rowText (compText c {}))) ++ ")\n")) :=
  wrap_formats o _ _ _ (C97_matrix c m.mat o)
theorem C97_chain (ty : String) {a : A → Debuggable} {b : B → Debuggable} (c : Chain A B X) (o : FmtOpts) {s t : String}
    (ha : Formats (fun σ => a c.outer σ o) s) (hb : Formats (fun σ => b c.inner σ o) t) :
    Formats (fun σ => c.debug ty a b σ o)
      (if o.alternate then structTextPretty "Chain" [("outer", s), ("inner", t), ("phantom", "PhantomData<" ++ ty ++ ">")]
        else structText "Chain" [("outer", s), ("inner", t), ("phantom", "PhantomData<" ++ ty ++ ">")]) :=
  C97_derived o "Chain" [("outer", a c.outer, s), ("inner", b c.inner, t),
    ("phantom", (fun _ _ k => writeAll k ["PhantomData<", ty, ">"]), "PhantomData<" ++ ty ++ ">")] (by simp) (by
      intro f hf
      simp only [List.mem_cons, List.not_mem_nil, or_false] at hf
      rcases hf with rfl | rfl | rfl
      · exact ha
      · exact hb
      · exact Formats.of (fun _ k => Writes.all k _) (by simp [String.append_assoc]))

/-! ## What ends up in the sink -/
theorem feed_prefix {k : Sink σ} {txt : σ → List Char} (hk : Appends k txt) (l : List String) (st : σ) :
    (∃ u, u <+: (String.join l).toList ∧ txt (feed k l st).2 = txt st ++ u ∧ ((feed k l st).1 = .ok (.ok ()) → u = (String.join l).toList)) := by
  induction l generalizing st with
  | nil => exact ⟨[], by simp, by simp [feed], by simp⟩
  | cons s l ih =>
    obtain ⟨u, hu, ht, he⟩ := hk s st
    simp only [feed, String.join_cons, String.toList_append]
    split
    · rename_i h
      obtain ⟨v, hv, hs, hf⟩ := ih (k s st).2
      refine ⟨s.toList ++ v, (List.prefix_append_right_inj _).mpr hv, ?_, fun h' => by rw [hf h']⟩
      rw [hs, ht, he h, List.append_assoc]
    · exact ⟨u, hu.trans (List.prefix_append _ _), ht, by simp⟩

/-- Into a sink that appends to a text, the formatted text arrives as a whole if the result is `Ok`, and a beginning of it otherwise;
nothing is written twice, reordered or written after an error. -/
theorem C97_prefix {p : (σ : Type) → Sink σ → Fmting σ Unit} {t : String} (h : Formats p t) {k : Sink σ} {txt : σ → List Char}
    (hk : Appends k txt) (st : σ) :
    ∃ r u, ((p σ k).run st).1 = .ok r ∧ u <+: t.toList ∧ txt ((p σ k).run st).2 = txt st ++ u ∧ (r = .ok () → u = t.toList) := by
  obtain ⟨l, rfl, hw⟩ := h
  obtain ⟨u, h1, h2, h3⟩ := feed_prefix hk l st
  rw [hw]
  rcases feed_cases k l st with h | h
  · exact ⟨.ok (), u, h, h1, h2, fun _ => h3 h⟩
  · exact ⟨.error (), u, h, h1, h2, fun h => nomatch h⟩

/-- A `String`: takes everything. -/
def Spec.stringSink : Sink String := fun s st => (true, st ++ s)
/-- Into a `String` (`format!`, `to_string`) formatting never fails and gives the text. -/
theorem C97_string {p : (σ : Type) → Sink σ → Fmting σ Unit} {t : String} (h : Formats p t) (st : String) :
    (p String stringSink).run st = (.ok (.ok ()), st ++ t) := by
  obtain ⟨l, rfl, hw⟩ := h
  rw [hw]
  clear hw
  induction l generalizing st with
  | nil => simp [feed]
  | cons s l ih =>
    simp only [feed, String.join_cons]
    rw [if_pos (show (stringSink s st).1 = true from rfl), ih]
    simp [stringSink, String.append_assoc]

/-- A text is determined by the formatting function. -/
theorem C97_text_unique {p : (σ : Type) → Sink σ → Fmting σ Unit} {t u : String} (h : Formats p t) (h' : Formats p u) : t = u := by
  have e := (C97_string h "").symm.trans (C97_string h' "")
  simpa using e

/-- An empty vector panics after the opening bracket (debug: `0 - 1` overflows; release: index out of bounds), unless the sink has
refused the text before. -/
theorem C97_vector_empty (checked : Bool) (w : Nat) (hw : 0 < w) (c : FmtOpts → T → List String) (v : Vec T 0) (o : FmtOpts) (k : Sink σ)
    (st : σ) :
    (v.fmtTo checked w c o k).run st =
      match feed k ["Vector", "0", "("] st with
      | (.ok (.ok _), st') => (.error (if checked then .subOverflow else .indexOob), st')
      | r => r := by
  unfold Vec.fmtTo
  rw [Fmting.run_bind, Writes.all k _ st]
  have h0 : toString 0 = "0" := rfl
  rw [h0]
  rcases feed k ["Vector", "0", "("] st with ⟨_ | (_ | _), st'⟩
  · rfl
  · rfl
  · cases checked with
    | true => simp only [usizeSub]; exact Fmting.lift_error_bind _ _ _
    | false =>
      have hp : 2 ≤ 2 ^ w := by
        calc 2 = 2 ^ 1 := rfl
          _ ≤ 2 ^ w := Nat.pow_le_pow_right (by omega) hw
      have hs : usizeSub false w 0 1 = .ok ((2 ^ w - 2) + 1) := by
        simp [usizeSub]; omega
      rw [hs]
      simp only [Fmting.lift_ok_bind, forRange, Vec.index_ge v 0 (by omega)]
      rfl

/-- The options of the caller's format string do not reach the components of a vector: `format!("{:.2}", v)` ignores the precision. -/
theorem C97_options_refuted : ¬ ∀ (c : FmtOpts → ℤ → List String) (v : Vec ℤ 1) (o : FmtOpts),
    Formats (fun _ => v.fmtTo true 64 c o) (s!"Vector1(" ++ String.intercalate ", " (v.toList.map (compText c o)) ++ ")") := by
  intro h
  have h1 := h (fun o _ => if o.precision = some 2 then ["1.00"] else ["1"]) (Vec.fromArray #v[1]) { precision := some 2 }
  have h2 := C97_vector true 64 (fun o _ => if o.precision = some 2 then ["1.00"] else ["1"]) (by decide) (Vec.fromArray #v[(1 : ℤ)])
    { precision := some 2 }
  exact absurd (C97_text_unique h1 h2) (by decide)

/-! ## further cases: the hypotheses are satisfiable -/
namespace Format97
/-- Integers, printed in one piece; the precision is shown to make the options visible. -/
def intPieces (o : FmtOpts) (z : ℤ) : List String := [z.repr, match o.precision with | some p => "." ++ p.repr | none => ""]
def v : Vec ℤ 2 := Vec.fromArray #v[1, -23]
/-- A buffer that holds ten characters and refuses everything after that. -/
def tenChars : Sink (List Char) := fun s st => (decide (st.length + s.toList.length ≤ 10), st ++ s.toList.take (10 - st.length))
theorem tenChars_appends : Appends tenChars id := by
  intro s st
  refine ⟨s.toList.take (10 - st.length), List.take_prefix _ _, rfl, fun h => ?_⟩
  have : st.length + s.toList.length ≤ 10 := by simpa [tenChars] using h
  exact List.take_of_length_le (by omega)
end Format97
open Format97
example := C97_vector_empty true 64 (by decide) intPieces ⟨#v[]⟩ {} tenChars []
example : ((v.fmtTo true 64 intPieces { precision := some 2 } stringSink)).run "" = (.ok (.ok ()), "Vector2(1, -23)") :=
  C97_string (C97_vector true 64 intPieces (by decide) v _) ""
/-- The first ten characters arrive and the result is an error. -/
example : (v.fmtTo true 64 intPieces {} tenChars).run [] = (.ok (.error ()), "Vector2(1,".toList) := by decide +kernel
example := C97_prefix (C97_vector true 64 intPieces (by decide) v {}) tenChars_appends []
example := C97_text_unique (C97_vector true 64 intPieces (by decide) v {}) (C97_vector false 64 intPieces (by decide) v {})
example : ((Shift.debug true 64 intPieces ⟨v⟩ String { alternate := true } stringSink)).run "" =
    (.ok (.ok ()), "Shift {\n    pos: Vector2(1, -23),\n}") :=
  C97_string (C97_shift true 64 intPieces (by decide) ⟨v⟩ _) ""
/-- The matrix begins with a line end, so its lines are indented but not the field. -/
example : ((Linear.debug intPieces (⟨Mat.fromArrArr #v[#v[7]]⟩ : Linear ℤ 1) String { alternate := true } stringSink)).run "" =
    (.ok (.ok ()), "Linear {\n    lin: \n    Matrix1x1(\n      7, \n    )\n    ,\n}") := by
  rw [C97_string (C97_linear intPieces _ _)]
  decide +kernel
example : ((Scale.debug intPieces ⟨5⟩ String { precision := some 2 } stringSink)).run "" = (.ok (.ok ()), "Scale { mag: 5.2 }") :=
  C97_string (C97_scale intPieces ⟨5⟩ _) ""
example : ((Chain.debug "P" (Scale.debug intPieces) (Scale.debug intPieces) (Chain.new (X := ℤ) ⟨5⟩ ⟨6⟩) String {} stringSink)).run "" =
    (.ok (.ok ()), "Chain { outer: Scale { mag: 5 }, inner: Scale { mag: 6 }, phantom: PhantomData<P> }") :=
  by rw [C97_string (C97_chain "P" _ {} (C97_scale intPieces _ _) (C97_scale intPieces _ _)) ""]; rfl
example := C97_derived {} "Scale" [("mag", debugOf intPieces 5, compText intPieces {} 5)] (by simp) (by
  simp only [List.mem_singleton, forall_eq]
  exact Formats.of (fun _ k => Writes.all k _) rfl)

end Vecmat
