import Mathlib.Data.BitVec
/-!
# Machine integers as scalars
The crate is generic; instantiated at `i8 … i128`, `u8 … u128` the scalar operations are those of the Rust language.
* release profile (`overflow-checks = false`): two's complement wrapping = core `BitVec w` arithmetic; `BitVec.toInt` is the
  value of the signed type, `BitVec.toNat` the value of the unsigned type;
* debug profile (`overflow-checks = true`): a result outside `lo..=hi` panics = `Chk lo hi` below.
No function of /repo is modelled here; these are scalar types to which the generic models are applied.
-/
namespace Vecmat

/-- Overflow-checked integer with range `lo..=hi`. `none` is the state after an overflow panic: it is propagated by every
operation, so a computation that returns in Rust is one whose result here is `some`. (Simplification: a panic is carried by the
value instead of aborting the computation; if the panicking value is not used later the model still gives a value, which makes the
theorems about returned values stronger.) Integer scalars of the tests src/vector/tests.rs:30-120 (language, not the crate). -/
@[ext] structure Chk (lo hi : Int) where
  val : Option Int
deriving DecidableEq

namespace Chk
variable {lo hi : Int}
/-- Range check of an exact result. Language; e.g. src/vector/ops/base.rs:28 at an integer type. -/
def check (x : Int) : Chk lo hi := if lo ≤ x ∧ x ≤ hi then ⟨some x⟩ else ⟨none⟩
/-- Checked binary operation. Language; e.g. src/vector/ops/base.rs:28 at an integer type. -/
def lift2 (f : Int → Int → Int) (a b : Chk lo hi) : Chk lo hi :=
  match a.val, b.val with
  | some x, some y => check (f x y)
  | _, _ => ⟨none⟩
/-- Rust `+` on integers with overflow checks. Used at src/vector/ops/base.rs:28. -/
instance : Add (Chk lo hi) := ⟨lift2 (· + ·)⟩
/-- Rust `-` on integers with overflow checks. Used at src/vector/ops/base.rs:37. -/
instance : Sub (Chk lo hi) := ⟨lift2 (· - ·)⟩
/-- Rust `*` on integers with overflow checks. Used at src/vector/ops/base.rs:46. -/
instance : Mul (Chk lo hi) := ⟨lift2 (· * ·)⟩
/-- Rust unary `-` on integers with overflow checks. Used at src/vector/ops/base.rs:18. -/
instance : Neg (Chk lo hi) := ⟨fun a => match a.val with | some x => check (-x) | none => ⟨none⟩⟩
/-- `num_traits::Zero::zero` for integers. Used at src/vector/ops/base.rs:203-209. -/
instance : Zero (Chk lo hi) := ⟨⟨some 0⟩⟩
/-- `num_traits::One::one` for integers. Used at src/vector/ops/iter.rs:16. -/
instance : One (Chk lo hi) := ⟨⟨some 1⟩⟩
end Chk

/-- `i8`/`i16`/… with overflow checks: the signed `w`-bit integer. Scalar type of src/traits.rs:110-178. -/
abbrev ChkI (w : Nat) := Chk (-(2 : Int) ^ (w - 1)) (2 ^ (w - 1) - 1)
/-- `u8`/`u16`/… with overflow checks: the unsigned `w`-bit integer. Scalar type of src/traits.rs:178. -/
abbrev ChkU (w : Nat) := Chk 0 (2 ^ w - 1)

end Vecmat
