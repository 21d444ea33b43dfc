import Verif.Model.Format
import Verif.Model.Transforms
import Verif.Model.Moebius
/-!
# Formatting into an arbitrary sink
Models `src/vector/base/format.rs`, `src/matrix/format.rs`, `src/complex/format.rs` and the derived `Debug` of the remaining types once
more, now with the two things `Model/Format.lean` leaves out: the sink behind the `Formatter` may refuse a piece of text (`fmt::Error`,
propagated by `?`), and the `Formatter` carries the options of the caller's format string (`{:.3}`, `{:>8}`, `{:#?}`).
-/
namespace Vecmat
variable {T A B X : Type} {M N : Nat} {σ : Type}

/-- The options of a `core::fmt::Formatter` (`{:#08.3?}` sets `alternate`, `zeroPad`, `width` and `precision`). The default is what `{}`
and `{:?}` set. The argument `f` in src/complex/format.rs:4-39, src/vector/base/format.rs:7-30, src/matrix/format.rs:7-40. -/
structure FmtOpts where
  alternate : Bool := false
  signPlus : Bool := false
  zeroPad : Bool := false
  fill : Char := ' '
  width : Option Nat := none
  precision : Option Nat := none
deriving DecidableEq

/-- The sink behind a `Formatter` (core `fmt::Write::write_str`) with state `σ`: `false` is `Err(fmt::Error)`. What `f` writes to in src/complex/format.rs:4-39, src/vector/base/format.rs:7-30, src/matrix/format.rs:7-40. -/
abbrev Sink (σ : Type) : Type := String → σ → Bool × σ
/-- A formatting function: it may panic (`Fault`), return `Err(fmt::Error)` (`.error ()`) or `Ok(())`, and changes the sink. `?` is the
bind of the outer `ExceptT`. The `fmt` functions of src/complex/format.rs:4-39, src/vector/base/format.rs:7-30, src/matrix/format.rs:7-40. -/
abbrev Fmting (σ α : Type) : Type := ExceptT Unit (Eff σ) α
/-- Run a formatting function. A call of a `fmt` function, src/complex/format.rs:4-39, src/vector/base/format.rs:7-30, src/matrix/format.rs:7-40. -/
def Fmting.run (p : Fmting σ Unit) (s : σ) : Res (Except Unit Unit) × σ := Eff.exec (ExceptT.run p) s
/-- An operation that may panic but writes nothing. `self[i]` in src/vector/base/format.rs:11. -/
def Fmting.lift {α : Type} (r : Res α) : Fmting σ α := ExceptT.lift (liftRes r)

/-- `f.write_str(s)`. The pieces of `write!` in src/complex/format.rs:6, 11. -/
def writeStr (k : Sink σ) (s : String) : Fmting σ Unit :=
  ExceptT.mk (Eff.ofStep fun st => (if (k s st).1 then .ok () else .error (), (k s st).2))
/-- A formatting function that writes the given pieces one after the other and stops at the first refused one. The component type's
`Debug`/`Display` is assumed to be of this kind (`c : FmtOpts → T → List String`, the pieces it writes under given options). `write!(…)?` in src/vector/base/format.rs:9-13. -/
def writeAll (k : Sink σ) : List String → Fmting σ Unit
  | [] => pure ()
  | s :: l => do writeStr k s; writeAll k l

/-- `Debug`/`Display` for `Vector`, src/vector/base/format.rs:4-15, 17-29. `write!(f, "{:?}, ", x)` formats `x` with fresh default
options, whatever the options of `f`. -/
def Vec.fmtTo (checked : Bool) (w : Nat) (c : FmtOpts → T → List String) (v : Vec T N) (_o : FmtOpts) (k : Sink σ) : Fmting σ Unit := do
  writeAll k ["Vector", toString N, "("]
  let n ← Fmting.lift (usizeSub checked w N 1)
  forRange n 0 () fun i _ => do
    let x ← Fmting.lift (v.index i)
    writeAll k (c {} x)
    writeStr k ", "
  let n ← Fmting.lift (usizeSub checked w N 1)
  let x ← Fmting.lift (v.index n)
  writeAll k (c {} x)
  writeStr k ")"

/-- `Debug`/`Display` for `Matrix`, src/matrix/format.rs:4-21, 23-40. -/
def Mat.fmtTo (c : FmtOpts → T → List String) (A : Mat T M N) (_o : FmtOpts) (k : Sink σ) : Fmting σ Unit := do
  writeStr k "\n"
  writeAll k ["Matrix", toString M, "x", toString N, "(\n"]
  forRange M 0 () fun j _ => do
    writeStr k "  "
    forRange N 0 () fun i _ => do
      let x ← Fmting.lift (A.index (j, i))
      writeAll k (c {} x)
      writeStr k ", "
    writeStr k "\n"
  writeStr k ")\n"

/-- `Debug`/`Display` for `Complex`, src/complex/format.rs:4-13. -/
def Cpx.fmtTo (c : FmtOpts → T → List String) (z : Cpx T) (_o : FmtOpts) (k : Sink σ) : Fmting σ Unit := do
  writeStr k "Complex("; writeAll k (c {} z.re); writeStr k ", "; writeAll k (c {} z.im); writeStr k ")"
/-- `Debug`/`Display` for `Quaternion`, src/complex/format.rs:15-39. -/
def Quat.fmtTo (c : FmtOpts → T → List String) (q : Quat T) (_o : FmtOpts) (k : Sink σ) : Fmting σ Unit := do
  writeStr k "Quaternion("; writeAll k (c {} q.w); writeStr k ", "; writeAll k (c {} q.x); writeStr k ", "
  writeAll k (c {} q.y); writeStr k ", "; writeAll k (c {} q.z); writeStr k ")"

/-! ## Derived `Debug` -/

/-- core `str::split_inclusive('\n')`: the lines of a text with their line ends. Used by the derived `Debug` (`{:#?}`) of src/transform/chain.rs:9. -/
def splitInclusive : List Char → List (List Char)
  | [] => []
  | c :: cs => if c = '\n' then [c] :: splitInclusive cs else
    match splitInclusive cs with
    | [] => [[c]]
    | p :: ps => (c :: p) :: ps

/-- The loop of core `PadAdapter::write_str`: four blanks at the beginning of every line; the flag tells whether the next character
starts a line. As `splitInclusive`: src/transform/chain.rs:9. -/
def padLines (k : Sink σ) : List (List Char) → Bool × σ → Bool × (Bool × σ)
  | [], st => (true, st)
  | l :: ls, (nl, st) =>
    let r := if nl then k "    " st else (true, st)
    if r.1 then
      let nl' := l.getLast? == some '\n'
      let r' := k (String.ofList l) r.2
      if r'.1 then padLines k ls (nl', r'.2) else (false, (nl', r'.2))
    else (false, (nl, r.2))
/-- core `PadAdapter` around a sink. src/transform/chain.rs:9. -/
def padSink (k : Sink σ) : Sink (Bool × σ) := fun s st => padLines k (splitInclusive s.toList) st

/-- Run a formatting function on the padded sink, starting at the beginning of a line. src/transform/chain.rs:9. -/
def withPad (k : Sink σ) (p : Sink (Bool × σ) → Fmting (Bool × σ) Unit) : Fmting σ Unit :=
  ExceptT.mk (ExceptT.mk fun st => let r := Fmting.run (p (padSink k)) (true, st); (r.1, r.2.2))

/-- A value with its `Debug`: it can be formatted into any sink. The fields of src/transform/chain.rs:10-14. -/
def Debuggable : Type 1 := (σ : Type) → FmtOpts → Sink σ → Fmting σ Unit

/-- core `DebugStruct::field` for the fields after (`first = false`) or at (`first = true`) the beginning; the value is formatted with the
options of the outer formatter. src/transform/chain.rs:9-14. -/
def debugField (o : FmtOpts) (k : Sink σ) (first : Bool) (name : String) (value : Debuggable) : Fmting σ Unit :=
  if o.alternate then do
    if first then writeStr k " {\n"
    withPad k fun k' => do
      writeStr k' name; writeStr k' ": "; value _ o k'; writeStr k' ",\n"
  else do
    writeStr k (if first then " { " else ", ")
    writeStr k name
    writeStr k ": "
    value σ o k
/-- core `Formatter::debug_struct_fieldN_finish`, what `#[derive(Debug)]` on a struct with at least one named field expands to. src/transform/chain.rs:9, src/complex/moebius.rs:9, src/transform/{linear.rs:17, scale.rs:15, shift.rs:13, rotation.rs:20,139}. -/
def debugStruct (o : FmtOpts) (k : Sink σ) (name : String) : List (String × Debuggable) → Fmting σ Unit
  | [] => writeStr k name
  | (n, v) :: l => do
    writeStr k name
    debugField o k true n v
    l.forM fun f => debugField o k false f.1 f.2
    writeStr k (if o.alternate then "}" else " }")

/-- The `Debug` of a component. src/complex/format.rs:6. -/
def debugOf (c : FmtOpts → T → List String) (x : T) : Debuggable := fun _ o k => writeAll k (c o x)
/-- derived `Debug` for `Shift`, src/transform/shift.rs:13-16. -/
def Shift.debug (checked : Bool) (w : Nat) (c : FmtOpts → T → List String) (s : Shift T N) : Debuggable := fun _ o k =>
  debugStruct o k "Shift" [("pos", fun _ => s.pos.fmtTo checked w c)]
/-- derived `Debug` for `Scale`, src/transform/scale.rs:15-18. -/
def Scale.debug (c : FmtOpts → T → List String) (s : Scale T) : Debuggable := fun _ o k =>
  debugStruct o k "Scale" [("mag", debugOf c s.mag)]
/-- derived `Debug` for `Linear`, src/transform/linear.rs:17-20. -/
def Linear.debug (c : FmtOpts → T → List String) (l : Linear T N) : Debuggable := fun _ o k =>
  debugStruct o k "Linear" [("lin", fun _ => l.lin.fmtTo c)]
/-- derived `Debug` for `Rotation2`, src/transform/rotation.rs:20-23. -/
def Rotation2.debug (c : FmtOpts → T → List String) (r : Rotation2 T) : Debuggable := fun _ o k =>
  debugStruct o k "Rotation2" [("comp", fun _ => r.comp.fmtTo c)]
/-- derived `Debug` for `Rotation3`, src/transform/rotation.rs:139-142. -/
def Rotation3.debug (c : FmtOpts → T → List String) (r : Rotation3 T) : Debuggable := fun _ o k =>
  debugStruct o k "Rotation3" [("quat", fun _ => r.quat.fmtTo c)]
/-- derived `Debug` for `Moebius`, src/complex/moebius.rs:9-12. -/
def Moebius.debug (c : FmtOpts → T → List String) (m : Moebius T) : Debuggable := fun _ o k =>
  debugStruct o k "Moebius" [("mat", fun _ => m.mat.fmtTo c)]
/-- derived `Debug` for `Chain`, src/transform/chain.rs:9-14; `ty` is the name of the point type that `PhantomData` prints
(`PhantomData<{}>` with `core::any::type_name`). -/
def Chain.debug (ty : String) (a : A → Debuggable) (b : B → Debuggable) (c : Chain A B X) : Debuggable := fun _ o k =>
  debugStruct o k "Chain" [("outer", a c.outer), ("inner", b c.inner),
    ("phantom", fun _ _ k => writeAll k ["PhantomData<", ty, ">"])]

end Vecmat
