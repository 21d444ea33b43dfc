import Verif.Model.Complex
import Verif.Model.Real
import Verif.Lemmas.VectorOps
import Verif.Lemmas.Square
import Mathlib.Algebra.Field.Defs
import Mathlib.Tactic.FieldSimp
import Mathlib.Tactic.Linarith
/-! Helper lemmas: components of the complex operations; ring and field instances. -/
namespace Vecmat
variable {T : Type}
namespace Cpx

@[simp] theorem re_eq (z : Cpx T) : z.vec[0] = z.re := by simp [re]
@[simp] theorem im_eq (z : Cpx T) : z.vec[1] = z.im := by simp [im]
theorem ext' {z w : Cpx T} (h1 : z.re = w.re) (h2 : z.im = w.im) : z = w := by
  apply Cpx.ext; apply Vec.ext_getElem; intro i hi
  match i, hi with
  | 0, _ => simpa using h1
  | 1, _ => simpa using h2
@[simp] theorem re_mk (v : Vec T 2) : (Cpx.mk v).re = v[0] := by simp [re]
@[simp] theorem im_mk (v : Vec T 2) : (Cpx.mk v).im = v[1] := by simp [im]
@[simp] theorem re_new (a b : T) : (new a b).re = a := by rw [new, re_mk]; rfl
@[simp] theorem im_new (a b : T) : (new a b).im = b := by rw [new, im_mk]; rfl
theorem eq_new (z : Cpx T) : z = new z.re z.im := ext' (by simp) (by simp)
@[simp] theorem intoTuple_eq (z : Cpx T) : z.intoTuple = (z.re, z.im) := by simp [intoTuple]
@[simp] theorem re_setRe (z : Cpx T) (t : T) : (z.setRe t).re = t := by simp [setRe]
@[simp] theorem im_setRe (z : Cpx T) (t : T) : (z.setRe t).im = z.im := by simp [setRe]
@[simp] theorem re_setIm (z : Cpx T) (t : T) : (z.setIm t).re = z.re := by simp [setIm]
@[simp] theorem im_setIm (z : Cpx T) (t : T) : (z.setIm t).im = t := by simp [setIm]

variable (z w : Cpx T) (s : T)
@[simp] theorem re_neg [Neg T] : (-z).re = -z.re := by show (Cpx.mk (-z.vec)).re = _; simp
@[simp] theorem im_neg [Neg T] : (-z).im = -z.im := by show (Cpx.mk (-z.vec)).im = _; simp
@[simp] theorem re_conj [Neg T] : z.conj.re = z.re := by simp [conj]
@[simp] theorem im_conj [Neg T] : z.conj.im = -z.im := by simp [conj]
@[simp] theorem re_add [Add T] : (z + w).re = z.re + w.re := by show (Cpx.mk (z.vec + w.vec)).re = _; simp
@[simp] theorem im_add [Add T] : (z + w).im = z.im + w.im := by show (Cpx.mk (z.vec + w.vec)).im = _; simp
@[simp] theorem re_sub [Sub T] : (z - w).re = z.re - w.re := by show (Cpx.mk (z.vec - w.vec)).re = _; simp
@[simp] theorem im_sub [Sub T] : (z - w).im = z.im - w.im := by show (Cpx.mk (z.vec - w.vec)).im = _; simp
@[simp] theorem re_addS [Add T] : (z.addS s).re = z.re + s := by simp [addS]
@[simp] theorem im_addS [Add T] : (z.addS s).im = z.im := by simp [addS]
@[simp] theorem re_subS [Sub T] : (z.subS s).re = z.re - s := by simp [subS]
@[simp] theorem im_subS [Sub T] : (z.subS s).im = z.im := by simp [subS]
@[simp] theorem re_zero [Zero T] : (0 : Cpx T).re = 0 := re_new ..
@[simp] theorem im_zero [Zero T] : (0 : Cpx T).im = 0 := im_new ..
@[simp] theorem re_one [Zero T] [One T] : (1 : Cpx T).re = 1 := re_new ..
@[simp] theorem im_one [Zero T] [One T] : (1 : Cpx T).im = 0 := im_new ..
@[simp] theorem re_i [Zero T] [One T] : (i : Cpx T).re = 0 := re_new ..
@[simp] theorem im_i [Zero T] [One T] : (i : Cpx T).im = 1 := im_new ..
@[simp] theorem re_mul [Add T] [Sub T] [Mul T] : (z * w).re = z.re * w.re - z.im * w.im := re_new ..
@[simp] theorem im_mul [Add T] [Sub T] [Mul T] : (z * w).im = z.re * w.im + z.im * w.re := im_new ..
@[simp] theorem re_mulS [Mul T] : (z.mulS s).re = z.re * s := by simp [mulS]
@[simp] theorem im_mulS [Mul T] : (z.mulS s).im = z.im * s := by simp [mulS]
@[simp] theorem re_divS [Div T] : (z.divS s).re = z.re / s := by simp [divS]
@[simp] theorem im_divS [Div T] : (z.divS s).im = z.im / s := by simp [divS]
theorem div_def [Neg T] [Add T] [Sub T] [Mul T] [Div T] : z / w = z * w.inv := rfl

theorem normSqr_eq [NonUnitalNonAssocSemiring T] : z.normSqr = z.re * z.re + z.im * z.im := by
  simp [normSqr, Vec.squareLength_eq_sum, Fin.sum_univ_two]
theorem dot_eq [NonUnitalNonAssocSemiring T] : z.dot w = z.re * w.re + z.im * w.im := by
  simp [dot, Vec.dot_eq_sum, Fin.sum_univ_two]

/-- Over a commutative ring the modelled operations form a commutative ring. -/
instance [CommRing T] : CommRing (Cpx T) where
  add_assoc a b c := by apply ext' <;> simp [add_assoc]
  zero_add a := by apply ext' <;> simp
  add_zero a := by apply ext' <;> simp
  add_comm a b := by apply ext' <;> simp [add_comm]
  neg_add_cancel a := by apply ext' <;> simp
  sub_eq_add_neg a b := by apply ext' <;> simp [sub_eq_add_neg]
  mul_assoc a b c := by apply ext' <;> simp <;> ring
  one_mul a := by apply ext' <;> simp
  mul_one a := by apply ext' <;> simp
  left_distrib a b c := by apply ext' <;> simp <;> ring
  right_distrib a b c := by apply ext' <;> simp <;> ring
  mul_comm a b := by apply ext' <;> simp <;> ring
  zero_mul a := by apply ext' <;> simp
  mul_zero a := by apply ext' <;> simp
  nsmul := nsmulRec
  zsmul := zsmulRec

theorem inv_re [Field T] (z : Cpx T) : z.inv.re = z.re / (z.re * z.re + z.im * z.im) := by simp [inv, normSqr_eq]
theorem inv_im [Field T] (z : Cpx T) : z.inv.im = -z.im / (z.re * z.re + z.im * z.im) := by simp [inv, normSqr_eq]

theorem mul_inv_of_normSqr [Field T] (z : Cpx T) (h : z.normSqr ≠ 0) : z * z.inv = 1 := by
  rw [normSqr_eq] at h
  apply ext' <;> simp only [re_mul, im_mul, inv_re, inv_im, re_one, im_one]
  · rw [← mul_div_assoc, ← mul_div_assoc, mul_neg, neg_div, sub_neg_eq_add, ← add_div, div_self h]
  · ring

theorem normSqr_eq_zero [Field T] [LinearOrder T] [IsStrictOrderedRing T] (z : Cpx T) : z.normSqr = 0 ↔ z = 0 := by
  rw [normSqr_eq]
  constructor
  · intro h
    have h1 : z.re = 0 := by nlinarith [mul_self_nonneg z.re, mul_self_nonneg z.im]
    have h2 : z.im = 0 := by nlinarith [mul_self_nonneg z.re, mul_self_nonneg z.im]
    exact ext' (by simp [h1]) (by simp [h2])
  · rintro rfl; simp

/-- Over an ordered field the modelled operations (with the crate's `inv` and `/`) form a field. -/
instance [Field T] [LinearOrder T] [IsStrictOrderedRing T] : Field (Cpx T) where
  inv := inv
  div_eq_mul_inv _ _ := rfl
  exists_pair_ne := ⟨0, 1, fun h => by simpa using congrArg re h⟩
  mul_inv_cancel z hz := mul_inv_of_normSqr z (fun h => hz ((normSqr_eq_zero z).1 h))
  inv_zero := by apply ext' <;> simp [inv]
  nnqsmul := _
  qsmul := _

end Cpx
end Vecmat
