import Verif.Model.Square
import Verif.Model.SquarePure
import Verif.Model.VectorOps
import Verif.Model.Format
import Verif.Model.Real
import Verif.Spec.Seq
/-!
# The crate's own unit tests of vectors and matrices, run on the model

Evidence that the model is faithful, **not** proof of any property: the properties are in `Verif/Props`.
Each `example` replays the assertions of one test of the crate, evaluated by the kernel.  `i32`/`usize` values are
replaced by `Int`/`Nat` (no test value overflows; all dividends and divisors are non-negative, so `Int` division
agrees with Rust's), and a panic of the model would make the equation with `.ok _` false.
-/
namespace Vecmat.Conformance
open Vecmat

/-- `PartialOrd for i32` -/
scoped instance : RPartialOrd Int := ⟨fun x y => some (compare x y)⟩
scoped instance : IsZero Int := ⟨fun x => x == 0⟩
scoped instance : IsZero Rat := ⟨fun x => x == 0⟩

section vector

/-- `indices().map(f)` with an `as i32` cast. -/
abbrev V (N : Nat) (f : Nat → Int) : Vec Int N := (Vec.indices (N := N)).map f

/-- src/vector/tests.rs:7-25 `content` -/
example : (forRange 4 0 (Vec.fill 0 : Vec Nat 4) fun i v => v.indexSet i (i + 2)) = .ok ⟨#v[2, 3, 4, 5]⟩ ∧
    (forRange 3 0 (Vec.fill 0 : Vec Nat 3) fun i v => v.indexSet i (i + 2)) = .ok ⟨#v[2, 3, 4]⟩ ∧
    (forRange 2 0 (Vec.fill 0 : Vec Nat 2) fun i v => v.indexSet i (i + 2)) = .ok ⟨#v[2, 3]⟩ := by decide +kernel

/-- src/vector/tests.rs:27-50 `new` -/
example : (Vec.default : Vec Nat 4) = ⟨#v[0, 0, 0, 0]⟩ ∧ (Vec.indices (N := 4)).map (· + 1) = ⟨#v[1, 2, 3, 4]⟩ ∧
    (Vec.fill 5 : Vec Nat 3) = ⟨#v[5, 5, 5]⟩ ∧ (Vec.indices (N := 2)).map (· + 1) = ⟨#v[1, 2]⟩ := by decide +kernel

/-- src/vector/tests.rs:51-78 `new_no_gen`; 97-116 `eq`, 146-165 `index` -/
example : (Vec.fromArray #v[1, 2, 3, 4] : Vec Nat 4).toList = [1, 2, 3, 4] ∧
    (Vec.tryFromSlice [1, 2, 3, 4] : Option (Vec Nat 4)) = some ⟨#v[1, 2, 3, 4]⟩ ∧
    (Vec.tryFromSlice [1, 2, 3] : Option (Vec Nat 4)) = none ∧
    (Vec.tryFromSlice [1, 2, 3, 4, 5] : Option (Vec Nat 4)) = none ∧
    (Vec.fromArray #v[1, 2, 3, 4] : Vec Nat 4).index 2 = .ok 3 := by decide +kernel

/-- src/vector/tests.rs:167-187 `iter` (the `iter_mut` loops are whole-vector assignments) -/
example : ((Vec.indices (N := 3)).map (· + 1)).toList = [1, 2, 3] ∧
    (Vec.fill 0 : Vec Nat 4).assignEach (fun _ => 1) = ⟨#v[1, 1, 1, 1]⟩ := by decide +kernel

/-- src/vector/tests.rs:189-196 `fmt` -/
example : ((Vec.fmt true 64 (fun n : Nat => toString n) ((Vec.indices (N := 3)).map (· + 1))).exec "" : Except Fault Unit × String) =
    (.ok (), "Vector3(1, 2, 3)") := by decide +kernel

/-- src/vector/tests.rs:198-213 `neg` -/
example : -(V 4 (·)) = ⟨#v[0, -1, -2, -3]⟩ ∧ -(V 3 (·)) = ⟨#v[0, -1, -2]⟩ ∧ -(V 2 (·)) = ⟨#v[0, -1]⟩ := by decide +kernel

/-- src/vector/tests.rs:241-279 `vec_add … vec_rem` -/
example : V 4 (fun i => 2 * i + 2) + V 4 (fun i => i + 1) = ⟨#v[3, 6, 9, 12]⟩ ∧
    V 4 (fun i => 2 * i + 2) - V 4 (fun i => i + 1) = ⟨#v[1, 2, 3, 4]⟩ ∧
    V 4 (fun i => 2 * i + 2) * V 4 (fun i => i + 1) = ⟨#v[2, 8, 18, 32]⟩ ∧
    V 4 (fun i => 2 * i + 2) / V 4 (fun i => i + 1) = ⟨#v[2, 2, 2, 2]⟩ ∧
    V 4 (fun i => 2 * i + 2) % V 4 (fun i => i + 1) = ⟨#v[0, 0, 0, 0]⟩ := by decide +kernel

/-- src/vector/tests.rs:281-308 `scal_mul … scal_rem` -/
example : (V 4 fun i => 2 * i + 1).mulS 3 = ⟨#v[3, 9, 15, 21]⟩ ∧ (V 4 fun i => 2 * i + 1).divS 3 = ⟨#v[0, 1, 1, 2]⟩ ∧
    (V 4 fun i => 2 * i + 1).remS 3 = ⟨#v[1, 0, 2, 1]⟩ := by decide +kernel

/-- src/vector/tests.rs:336-402 `vec_*_assign`, `scal_*_assign` -/
example : (V 4 fun i => 2 * i + 2).addAssign (V 4 fun i => i + 1) = ⟨#v[3, 6, 9, 12]⟩ ∧
    (V 4 fun i => 2 * i + 2).subAssign (V 4 fun i => i + 1) = ⟨#v[1, 2, 3, 4]⟩ ∧
    (V 4 fun i => 2 * i + 2).mulAssign (V 4 fun i => i + 1) = ⟨#v[2, 8, 18, 32]⟩ ∧
    (V 4 fun i => 2 * i + 2).divAssign (V 4 fun i => i + 1) = ⟨#v[2, 2, 2, 2]⟩ ∧
    (V 4 fun i => 2 * i + 2).remAssign (V 4 fun i => i + 1) = ⟨#v[0, 0, 0, 0]⟩ ∧
    (V 4 fun i => 2 * i + 1).mulAssignS 3 = ⟨#v[3, 9, 15, 21]⟩ ∧
    (V 4 fun i => 2 * i + 1).divAssignS 3 = ⟨#v[0, 1, 1, 2]⟩ ∧
    (V 4 fun i => 2 * i + 1).remAssignS 3 = ⟨#v[1, 0, 2, 1]⟩ := by decide +kernel

/-- src/vector/tests.rs:403-409 `div_mod_floor` -/
example : (⟨#v[-2, -3, -4, -5]⟩ : Vec Int 4).divModFloor ⟨#v[4, 3, 2, 1]⟩ = (⟨#v[-1, -1, -2, -5]⟩, ⟨#v[2, 0, 0, 0]⟩) := by
  decide +kernel

/-- src/vector/tests.rs:411-424 `dot`; 426-438 `norm` (the exact assertion) -/
example : (∀ N ∈ [2, 3, 4], (Vec.fill 1 : Vec Nat N).dotR ((Vec.indices (N := N)).map (· + 1)) = .ok ((N * (N + 1)) / 2)) ∧
    (∀ N ∈ [2, 3, 4], (Vec.fill 2 : Vec Nat N).squareLengthR = .ok (N * 4)) := by decide +kernel

/-- src/vector/tests.rs:440-455 `zero` -/
example : ∀ N ∈ [2, 3, 4], (0 : Vec Int N) = Vec.fill 0 ∧ IsZero.isZero (0 : Vec Int N) = true ∧
    IsZero.isZero (Vec.fill 1 : Vec Int N) = false := by decide +kernel

/-- src/vector/tests.rs:457-501 `bool_not`, `bool_any`, `bool_all` -/
example : ∀ N ∈ [2, 3, 4], (Vec.fill false : Vec Bool N).map (fun b => !b) = Vec.fill true ∧
    (Vec.fill false : Vec Bool N).any = false ∧
    (((Vec.fill false : Vec Bool N).indexSet 0 true).map Vec.any) = .ok true ∧
    (Vec.fill true : Vec Bool N).all = true ∧
    (((Vec.fill true : Vec Bool N).indexSet 0 false).map Vec.all) = .ok false := by decide +kernel

/-- src/vector/tests.rs:503-557 `vec_eq`, `vec_vcmp` -/
example : ∀ N ∈ [2, 3, 4],
    let va := V N fun i => (N : Int) - i; let vb := V N fun i => (i : Int)
    (va.veq vb).toList = (List.range N).map (fun i => N - i == i) ∧
    (va.vne vb).toList = (List.range N).map (fun i => N - i != i) ∧
    (va.vlt vb).toList = (List.range N).map (fun i => decide (N - i < i)) ∧
    (va.vle vb).toList = (List.range N).map (fun i => decide (N - i ≤ i)) ∧
    (va.vgt vb).toList = (List.range N).map (fun i => decide (N - i > i)) ∧
    (va.vge vb).toList = (List.range N).map (fun i => decide (N - i ≥ i)) := by decide +kernel

/-- src/vector/tests.rs:558-567 `cross` -/
example : (⟨#v[1, 0, 0]⟩ : Vec Int 3).cross3 ⟨#v[0, 1, 0]⟩ = ⟨#v[0, 0, 1]⟩ := by decide +kernel

/-- src/vector/base/tests.rs:104-141 `map`, `zip`, `unzip`, `sum` -/
example : ((Vec.indices (N := 16)).map (15 - ·)).toList = (List.range 16).map (15 - ·) ∧
    ((Vec.indices (N := 16)).zip (V 16 fun i => (i : Int) - 16)).toList = (List.range 16).map (fun i : Nat => (i, (i : Int) - 16)) ∧
    ((Vec.indices (N := 16)).zip (V 16 fun i => (i : Int) - 16)).unzip = (Vec.indices, V 16 fun i => (i : Int) - 16) ∧
    (Vec.indices (N := 16)).sumR = .ok ((15 * 16) / 2) := by decide +kernel

/-- src/vector/ops/iter.rs:20-38 `sum`, `product` -/
example : Vec.iterSum [(⟨#v[1, 2, 3]⟩ : Vec Int 3), ⟨#v[4, 5, 6]⟩, ⟨#v[7, 8, 9]⟩] = ⟨#v[12, 15, 18]⟩ ∧
    Vec.iterProduct [(⟨#v[1, 2, 3]⟩ : Vec Int 3), ⟨#v[4, 5, 6]⟩, ⟨#v[7, 8, 9]⟩] = ⟨#v[28, 80, 162]⟩ := by decide +kernel

end vector

section matrix

/-- `indices().map(f)` with an `as i32` cast. -/
abbrev W (M N : Nat) (f : Nat → Nat → Int) : Mat Int M N := (Mat.indices (M := M) (N := N)).map fun p => f p.1 p.2
/-- The sizes of the crate's tests. -/
abbrev sizes : List (Nat × Nat) := [(2, 2), (2, 3), (2, 4), (3, 2), (3, 3), (3, 4), (4, 2), (4, 3), (4, 4)]
/-- Reads every component through the `Index` operator; equal to the expected value at each index. -/
abbrev Reads {M N : Nat} (A : Mat Int M N) (f : Nat → Nat → Int) : Prop :=
  ∀ i, i < M → ∀ j, j < N → A.index (i, j) = .ok (f i j)

/-- src/matrix/tests.rs:20-52 `new_no_gen` -/
example : Reads (Mat.fromArrArr #v[#v[1, 2], #v[3, 4]]) (fun i j => 2 * i + j + 1) ∧
    (Mat.tryFromSlice [1, 2, 3, 4] : Res (Option (Mat Int 2 2))) = .ok (some ⟨⟨#v[⟨#v[1, 2]⟩, ⟨#v[3, 4]⟩]⟩⟩) ∧
    (Mat.tryFromSlice [1, 2, 3] : Res (Option (Mat Int 2 2))) = .ok none ∧
    (Mat.tryFromSlice [1, 2, 3, 4, 5] : Res (Option (Mat Int 2 2))) = .ok none := by decide +kernel

/-- src/matrix/tests.rs:54-196 `content`, `data`, `index` -/
example : ∀ p ∈ sizes, Reads (W p.1 p.2 fun i j => i + j) (fun i j => i + j) ∧
    Reads (Mat.fill 0 : Mat Int p.1 p.2) (fun _ _ => 0) := by decide +kernel

/-- src/matrix/tests.rs:165-196 `index`: writing every component through `IndexMut`, row by row -/
example : ∀ p ∈ sizes, (forRange p.1 0 (W p.1 p.2 fun i j => i + j) fun i m =>
      forRange p.2 0 m fun j m => m.indexSet (i, j) ((i : Int) * j)) = .ok (W p.1 p.2 fun i j => i * j) := by
  decide +kernel

/-- src/matrix/tests.rs:198-241 `iter`: row-major order -/
example : ∀ p ∈ sizes, (do
      let st ← (W p.1 p.2 fun i j => i * p.2 + j + 1).iterNew
      Spec.drain Mat.iterNext (Mat.fuelFor p.1 p.2) st : Res (List Int)) =
    .ok ((List.range (p.1 * p.2)).map fun k : Nat => (k : Int) + 1) := by decide +kernel

/-- src/matrix/tests.rs:243-265 `neg` -/
example : ∀ p ∈ sizes, Reads (-(W p.1 p.2 fun i j => i + j + 1)) (fun i j => -(i + j + 1)) := by decide +kernel

/-- src/matrix/tests.rs:293-370 `mat_add … mat_rem` -/
example : ∀ p ∈ sizes, let a := W p.1 p.2 fun i j => 2 * (i + j) + 2; let b := W p.1 p.2 fun i j => i + j + 1
    Reads (a + b) (fun i j => (2 * (i + j) + 2) + (i + j + 1)) ∧ Reads (a - b) (fun i j => (2 * (i + j) + 2) - (i + j + 1)) ∧
    Reads (a * b) (fun i j => (2 * (i + j) + 2) * (i + j + 1)) ∧ Reads (a / b) (fun _ _ => 2) ∧ Reads (a % b) (fun _ _ => 0) := by
  decide +kernel

/-- src/matrix/tests.rs:372-421 `scal_mul`, `scal_div`, `scal_rem` -/
example : ∀ p ∈ sizes, let a := W p.1 p.2 fun i j => 2 * (i + j) + 2
    Reads (a.mulS 3) (fun i j => (2 * (i + j) + 2) * 3) ∧ Reads (a.divS 3) (fun i j => (2 * (i + j) + 2) / 3) ∧
    Reads (a.remS 3) (fun i j => (2 * (i + j) + 2) % 3) := by decide +kernel

/-- src/matrix/tests.rs:449-571 `mat_*_assign`, `scal_*_assign` -/
example : ∀ p ∈ sizes, let a := W p.1 p.2 fun i j => 2 * (i + 2 * j) + 2; let b := W p.1 p.2 fun i j => i + j + 1
    a.addAssignR b = .ok (a + b) ∧ a.subAssignR b = .ok (a - b) ∧ a.mulAssignR b = .ok (a * b) ∧
    a.divAssignR b = .ok (a / b) ∧ a.remAssignR b = .ok (a % b) ∧ a.mulAssignSR 3 = .ok (a.mulS 3) ∧
    a.divAssignSR 3 = .ok (a.divS 3) ∧ a.remAssignSR 3 = .ok (a.remS 3) := by decide +kernel

/-- src/matrix/tests.rs:573-601 `zero` -/
example : ∀ p ∈ sizes, Reads (0 : Mat Int p.1 p.2) (fun _ _ => 0) ∧ (0 : Mat Int p.1 p.2).isZeroR = .ok true ∧
    (Mat.fill 1 : Mat Int p.1 p.2).isZeroR = .ok false := by decide +kernel

/-- src/matrix/tests.rs:603-621 `transpose` -/
example : ∀ p ∈ sizes, (W p.1 p.2 fun i j => 2 * i + 3 * j).transposeR = .ok (W p.2 p.1 fun i j => 3 * i + 2 * j) := by
  decide +kernel

/-- src/matrix/tests.rs:623-643 `outer` -/
example : ∀ p ∈ sizes, Mat.outerR (V p.1 (·)) (V p.2 fun i => 2 * i) = .ok (W p.1 p.2 fun i j => 2 * i * j) := by
  decide +kernel

/-- src/matrix/tests.rs:645-667 `row_col` -/
example : ∀ p ∈ sizes, let m := W p.1 p.2 fun i j => 2 * i + 3 * j
    (∀ i, i < p.1 → m.rowR i = .ok (V p.2 fun j => 2 * i + 3 * j)) ∧
    (∀ j, j < p.2 → m.colR j = .ok (V p.1 fun i => 2 * i + 3 * j)) := by decide +kernel

/-- src/matrix/tests.rs:669-709 `mul_mv`, `mul_vm` -/
example : ∀ p ∈ sizes, (Mat.fill 1 : Mat Int p.1 p.2).dotVR (Vec.fill 1) = .ok (Vec.fill (p.2 : Int)) ∧
    Mat.vDotR (Vec.fill 1) (Mat.fill 1 : Mat Int p.1 p.2) = .ok (Vec.fill (p.1 : Int)) := by decide +kernel

/-- src/matrix/tests.rs:711-747 `mul_mm` -/
example : ∀ p ∈ sizes, ∀ N ∈ [2, 3, 4], (Mat.fill 1 : Mat Int p.1 p.2).dotMR (Mat.fill 1 : Mat Int p.2 N) =
    .ok (Mat.fill (p.2 : Int)) := by decide +kernel

/-- src/matrix/tests.rs:749-764 `one` -/
example : ∀ N ∈ [2, 3, 4], Reads (1 : Mat Int N N) (fun i j => if i = j then 1 else 0) := by decide +kernel

/-- src/matrix/tests.rs:765-775 `det` -/
example : (Mat.fromArrArr #v[#v[11, 12], #v[21, 22]] : Mat Int 2 2).detR = .ok (11 * 22 - 12 * 21) ∧
    (Mat.fromArrArr #v[#v[11, 12, 13], #v[21, 22, 23], #v[31, 32, 33]] : Mat Int 3 3).detR =
      .ok (11 * (22 * 33 - 23 * 32) + 12 * (23 * 31 - 21 * 33) + 13 * (21 * 32 - 22 * 31)) := by decide +kernel

/-- src/matrix/tests.rs:777-783 `inv`, exactly, over `ℚ` -/
example : (Mat.fromArrArr #v[#v[11, 12], #v[21, 22]] : Mat Rat 2 2).invR =
    .ok ((Mat.fromArrArr #v[#v[22, -12], #v[-21, 11]]).divS (11 * 22 - 12 * 21)) := by decide +kernel

/-- src/matrix/ops/iter.rs:20-43 `sum`, `product` -/
example : Mat.iterSum [(Mat.fromArrArr #v[#v[1, 2], #v[3, 4]] : Mat Int 2 2), Mat.fromArrArr #v[#v[5, 6], #v[7, 8]],
      Mat.fromArrArr #v[#v[9, 10], #v[11, 12]]] = Mat.fromArrArr #v[#v[15, 18], #v[21, 24]] ∧
    Mat.iterProduct [(Mat.fromArrArr #v[#v[1, 2], #v[3, 4]] : Mat Int 2 2), Mat.fromArrArr #v[#v[5, 6], #v[7, 8]],
      Mat.fromArrArr #v[#v[9, 10], #v[11, 12]]] = Mat.fromArrArr #v[#v[45, 120], #v[231, 384]] := by decide +kernel

end matrix
end Vecmat.Conformance
