import Verif.Model.Quaternion
/-!
# Formatting
Models `src/vector/base/format.rs`, `src/matrix/format.rs`, `src/complex/format.rs`.  The state is the text written so far; the
output sink never fails.  `f` renders one component: the component's `Debug` or `Display` (both impls are the same code).
-/
namespace Vecmat
variable {T : Type} {M N : Nat}

/-- `write!(f, "{}", s)`. src/vector/base/format.rs:9-13, 23-27. -/
def write (s : String) : Eff String Unit := Eff.ofStep fun out => ((), out ++ s)

/-- `a - b` on `usize` of width `w`: with overflow checks (debug builds) it panics, without (release builds) it wraps around. src/vector/base/format.rs:10, 13, 24, 27. -/
def usizeSub (checked : Bool) (w : Nat) (a b : Nat) : Res Nat :=
  if b ≤ a then .ok (a - b) else if checked then .error .subOverflow else .ok (2 ^ w + a - b)

/-- `Debug`/`Display` for `Vector`, src/vector/base/format.rs:4-15, 17-29. -/
def Vec.fmt (checked : Bool) (w : Nat) (f : T → String) (v : Vec T N) : Eff String Unit := do
  write s!"Vector{N}("
  let n ← liftRes (usizeSub checked w N 1)
  forRange n 0 () fun i _ => do
    let x ← liftRes (v.index i)
    write (f x ++ ", ")
  let n ← liftRes (usizeSub checked w N 1)
  let x ← liftRes (v.index n)
  write (f x ++ ")")

/-- `Debug`/`Display` for `Matrix`, src/matrix/format.rs:4-21, 23-40. -/
def Mat.fmt (f : T → String) (A : Mat T M N) : Eff String Unit := do
  write "\n"
  write s!"Matrix{M}x{N}(\n"
  forRange M 0 () fun j _ => do
    write "  "
    forRange N 0 () fun i _ => do
      let x ← liftRes (A.index (j, i))
      write (f x ++ ", ")
    write "\n"
  write ")\n"

/-- `Debug`/`Display` for `Complex`, src/complex/format.rs:4-13. -/
def Cpx.fmt (f : T → String) (z : Cpx T) : Eff String Unit := write s!"Complex({f z.re}, {f z.im})"
/-- `Debug`/`Display` for `Quaternion`, src/complex/format.rs:15-39. -/
def Quat.fmt (f : T → String) (q : Quat T) : Eff String Unit := write s!"Quaternion({f q.w}, {f q.x}, {f q.y}, {f q.z})"
end Vecmat
