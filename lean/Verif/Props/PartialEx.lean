import Verif.Props.Partial5
/-! # C101: cases -/
namespace Vecmat.PartialEx
open Spec
/-- `%` of `Ratio`: the quotient is rounded towards zero. -/
local instance : Mod ℚ := ⟨fun x y => x - ((x / y).num.tdiv (x / y).den : ℤ) * y⟩
def trunc (x : ℚ) : ℚ := (x.num.tdiv x.den : ℤ)
local instance : Mod (Cpx ℚ) := ⟨fun z w => z - w * Cpx.new (trunc (z / w).re) (trunc (z / w).im)⟩
deriving instance DecidableEq for Shift, Linear, Chain, Moebius
abbrev o : ScalarE Unit ℚ := strict
abbrev h : PartialOf o := C101_strict.1
theorem hz : ∀ x, Never (o.div x 0) := C101_strict.2
def A : Mat ℚ 2 2 := Mat.fromArrArr #v[#v[1, 2], #v[3, 4]]
def A' : Mat ℚ 2 2 := Mat.fromArrArr #v[#v[-2, 1], #v[3 / 2, -1 / 2]]
def v : Vec ℚ 2 := Vec.fromArray #v[5, 7]

example : Only (v.divE o v) (.ok (v / v)) := (C101_vector h v v 0).2.2.2.2.1
example : Only (A.dotME o A) (A.dotMR A) := (C101_matrix h A A A v v 0).2.2.2.2.2.2.2.2.2.2.2.2.2
example : Only (A.invE o) (.ok A.inv) := (C101_square h A A v 0 1).2.2.2.2.2.2
example (z w : Cpx ℚ) : Only (z.divE o w) (.ok (z / w)) := (C101_complex h z w).2.2.2.2.2.2
example (z w : Quat ℚ) : Only (z.divE o w) (.ok (z / w)) := (C101_quaternion h z w).2.2.2
example (a b : Vec ℚ 3) : Only (a.cross3E o b) (.ok (a.cross3 b)) := (C101_cross h v v a b 0 0).2.1
example : PartialTransform (shiftE o : TransformE Unit (Shift ℚ 3) (Vec ℚ 3)) := C101_shift h
/-- The reciprocal of `Ratio`, `Never` for zero. -/
def recip (x : ℚ) : Eff Unit ℚ := if x = 0 then throw .arithOverflow else pure x⁻¹
theorem hr (x : ℚ) : Only (recip x) (.ok x⁻¹) := by
  unfold recip; split
  · intro s y t e
    have e : ((Except.error .arithOverflow : Res ℚ), s) = (.ok y, t) := e
    simp at e
  · exact .pure _
example : PartialTransform (scaleE o recip : TransformE Unit (Scale ℚ) (Vec ℚ 3)) := C101_scale h recip hr
example : PartialTransform (linearE o : TransformE Unit (Linear ℚ 3) (Vec ℚ 3)) := C101_linear h
example : PartialTransform (rotation2E o) ∧ PartialTransform (rotation3E o) := ⟨C101_rotation2 h, C101_rotation3 h⟩
example : PartialTransform (affineE o : TransformE Unit (Affine ℚ 3) (Vec ℚ 3)) := C101_affine h
example : PartialTransform (chainE (shiftE o) (scaleE o recip) (reorderShiftE (scaleE o recip)) :
    TransformE Unit (Chain (Shift ℚ 3) (Scale ℚ) (Vec ℚ 3)) (Vec ℚ 3)) :=
  C101_chain (C101_shift h) (C101_scale h recip hr) fun t s => (C101_reorder_scale h recip hr t s).1
example (t : Linear ℚ 3) (s : Shift ℚ 3) := C101_reorder_linear h t s
example (t : Rotation2 ℚ) (s : Shift ℚ 2) (t' : Rotation3 ℚ) (s' : Shift ℚ 3) := C101_reorder_rotation h t s t' s'
example (m : Moebius ℚ) (x : ℚ) : Only (m.applyE o x) (.ok (m.apply x)) := (C101_moebius h m m x).1
/-- Complex matrices over `Ratio`. -/
example (B : Mat (Cpx ℚ) 3 3) : Only (B.invE (cpxE o fun z w => pure (z % w))) (.ok B.inv) :=
  (C101_square (C101_complex_scalars h _ fun _ _ => .pure _) B B 0 0 0).2.2.2.2.2.2
example (m : Moebius (Cpx ℚ)) (p : Cpx ℚ) : Only (m.derivE (cpxE o fun z w => pure (z % w)) p) (.ok (m.deriv p)) :=
  C101_moebius_deriv h _ (fun _ _ => .pure _) m p

/-- `(1 2; 3 4)` has the inverse `(-2 1; 3/2 -1/2)`; `(1 2; 2 4)` has none, and `inv` panics. -/
theorem inv_A : (A.invE o).exec () = (.ok A', ()) := by decide +kernel
example : A.dotM A' = 1 ∧ A'.dotM A = 1 := C101_field_inv h hz A A' () () inv_A
example : Never (Mat.invE o (Mat.fromArrArr #v[#v[1, 2], #v[2, 4]] : Mat ℚ 2 2)) :=
  C101_field_inv_singular h hz _ (by decide) (by decide +kernel)
example : (Mat.invE o (Mat.fromArrArr #v[#v[1, 2], #v[2, 4]] : Mat ℚ 2 2)).exec () = (.error .arithOverflow, ()) := by
  rw [C101_strict_inv]; decide +kernel
example : v = v := C101_field_linear h hz ⟨A⟩ ⟨A'⟩ v (Vec.fromArray #v[19, 43]) v (fun _ => ())
  (by decide +kernel) (Or.inl ⟨by decide +kernel, by decide +kernel⟩)
def a : Affine ℚ 2 := ⟨⟨Vec.fromArray #v[1, 1]⟩, ⟨A⟩⟩
def a' : Affine ℚ 2 := ⟨⟨Vec.fromArray #v[1, -1]⟩, ⟨A'⟩⟩
example : v = v := C101_field_affine h hz a a' v (Vec.fromArray #v[20, 44]) v (fun _ => ())
  (by decide +kernel) (Or.inl ⟨by decide +kernel, by decide +kernel⟩)
example : v = v := C101_ring_affine_chain h a a' ⟨⟨0⟩, ⟨1⟩⟩ v (Vec.fromArray #v[-2, 3]) v v (fun _ => ())
  (by decide +kernel) (by decide +kernel) (by decide +kernel) (by decide +kernel)
example : (20 : ℚ) = (∑ k : Fin 2, a.linear.intoMatrix[0][k.1] * v[k.1]) + a.shift.intoVector[0] :=
  C101_ring_affine_apply h a v (Vec.fromArray #v[20, 44]) () () (by decide +kernel) 0 (by decide)
/-- `1 / (1 + 2i) = 1/5 - 2/5 i`. -/
example : Cpx.new (1 : ℚ) 2 * Cpx.new (1 / 5) (-2 / 5) = 1 :=
  ((C101_field_complex h hz (Cpx.new (1 : ℚ) 2) (Cpx.new (1 / 5) (-2 / 5)) 0 () ()).1 (by decide +kernel)).1
example : Quat.new (1 : ℚ) 2 0 0 * Quat.new (1 / 5) (-2 / 5) 0 0 = 1 :=
  ((C101_field_quaternion h hz (Quat.new (1 : ℚ) 2 0 0) (Quat.new (1 / 5) (-2 / 5) 0 0) 0 () ()).1 (by decide +kernel)).1
def m : Moebius ℚ := Moebius.new 1 2 3 4
example : m.c * 1 + m.d ≠ 0 := (C101_field_moebius_apply h hz m 1 (3 / 7) () () (by decide +kernel)).1
example : (1 : ℚ) = 1 := (C101_field_moebius h hz m m ⟨A'⟩ 1 (3 / 7) 1 0 (fun _ => ()) (by decide +kernel)).2 (by decide +kernel) (by decide +kernel)

/-! ## `i8` with overflow checks -/
abbrev i8 : ScalarE Unit Int := checked (-128) 127
def b : Affine Int 1 := ⟨⟨Vec.fromArray #v[1]⟩, ⟨Mat.fromArrArr #v[#v[3]]⟩⟩
example : (Vec.fromArray #v[22] : Vec Int 1) = Vec.fromArray #v[22] :=
  C101_checked_affine_chain (-128) 127 b b ⟨⟨Vec.fromArray #v[4]⟩, ⟨Mat.fromArrArr #v[#v[9]]⟩⟩ (Vec.fromArray #v[2]) (Vec.fromArray #v[7])
    (Vec.fromArray #v[22]) (Vec.fromArray #v[22]) (fun _ : Fin 8 => ()) (by decide +kernel) (by decide +kernel) (by decide +kernel)
    (by decide +kernel)
example : Cpx.new (-5 : Int) 10 = Cpx.new 1 2 * Cpx.new 3 4 :=
  (C101_checked_products (-128) 127 (Cpx.new 1 2) (Cpx.new 3 4) _ (Quat.new 0 0 0 0) (Quat.new 0 0 0 0) (Quat.new 0 0 0 0) 0 0 0 () ()).1
    (by decide +kernel)
/-- The derivative `3 · 1` at the position 100 panics, because `3 · 100` is computed as well; at the position 10 it is 3. -/
example : ((affineE i8).deriv b (Vec.fromArray #v[100]) (Vec.fromArray #v[1])).exec () = (.error .arithOverflow, ()) ∧
    ((affineE i8).deriv b (Vec.fromArray #v[10]) (Vec.fromArray #v[1])).exec () = (.ok (Vec.fromArray #v[3]), ()) := by
  rw [C101_affine_deriv, C101_affine_deriv]; decide +kernel

/-! ## total operators; calls -/
/-- A rotation followed by a shift. -/
example : TotalTransform (chainE (shiftE plain) (rotation3E plain) (reorderShiftE (rotation3E plain)) :
    TransformE Unit (Chain (Shift ℚ 3) (Rotation3 ℚ) (Vec ℚ 3)) (Vec ℚ 3)) :=
  C101_total_chain C101_total_shift C101_total_rotation3 fun t s w => exec_reorderShift C101_total_rotation3 t s w
/-- Inverting a scaling followed by a shift: one reciprocal (here: a division), the negation of the shift, and its product with the
reciprocal. -/
example (c : Chain (Shift ℚ 3) (Scale ℚ) (Vec ℚ 3)) :
    let L := Spec.logged (o := o)
    Makes ((chainE (shiftE L) (scaleE L fun x => L.div 1 x) (reorderShiftE (scaleE L fun x => L.div 1 x))).inv c)
      [.div, .neg, .neg, .neg, .mul, .mul, .mul] := by
  intro L
  have hs := C101_calls_shift (N := 3) o
  have hn : ∀ t : Scale ℚ, Makes ((scaleE L fun x => L.div 1 x : TransformE _ (Scale ℚ) (Vec ℚ 3)).inv t) [.div] :=
    fun t => (Spec.Makes.note .div _).fin _
  have ha := fun (t : Scale ℚ) (x : Vec ℚ 3) => Vec.makes_mulSE o x t.mag
  exact (C101_calls_chain (hs c.outer c.outer).1 (fun t x => Vec.makes_addE o x t.pos) (fun t x v => Spec.Makes.pure v)
    (fun t => (hs t t).2.1) (fun t u => (hs t u).2.2) (C101_calls_scale o _ c.inner c.inner).1 ha (fun t _ x => ha t x) hn
    (fun t u => (C101_calls_scale (N := 3) o (fun x => L.div 1 x) t u).2.2)
    (fun t u => (C101_calls_reorder ha hn t u).1) c c 0 0).2.2.2.1
end Vecmat.PartialEx
