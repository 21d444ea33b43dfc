import Verif.Model.Quaternion
import Verif.Lemmas.Complex
import Mathlib.Algebra.Quaternion
/-! Helper lemmas: components of the quaternion operations; ring and division ring instances. -/
namespace Vecmat
variable {T : Type}
namespace Quat

@[simp] theorem w_eq (q : Quat T) : q.vec[0] = q.w := by simp [w]
@[simp] theorem x_eq (q : Quat T) : q.vec[1] = q.x := by simp [x]
@[simp] theorem y_eq (q : Quat T) : q.vec[2] = q.y := by simp [y]
@[simp] theorem z_eq (q : Quat T) : q.vec[3] = q.z := by simp [z]
theorem ext' {p q : Quat T} (h0 : p.w = q.w) (h1 : p.x = q.x) (h2 : p.y = q.y) (h3 : p.z = q.z) : p = q := by
  apply Quat.ext; apply Vec.ext_getElem; intro i hi
  match i, hi with
  | 0, _ => simpa using h0
  | 1, _ => simpa using h1
  | 2, _ => simpa using h2
  | 3, _ => simpa using h3
@[simp] theorem w_mk (v : Vec T 4) : (Quat.mk v).w = v[0] := by simp [w]
@[simp] theorem x_mk (v : Vec T 4) : (Quat.mk v).x = v[1] := by simp [x]
@[simp] theorem y_mk (v : Vec T 4) : (Quat.mk v).y = v[2] := by simp [y]
@[simp] theorem z_mk (v : Vec T 4) : (Quat.mk v).z = v[3] := by simp [z]
section
variable (a b c d : T)
@[simp] theorem w_new : (new a b c d).w = a := by rw [new, w_mk]; rfl
@[simp] theorem x_new : (new a b c d).x = b := by rw [new, x_mk]; rfl
@[simp] theorem y_new : (new a b c d).y = c := by rw [new, y_mk]; rfl
@[simp] theorem z_new : (new a b c d).z = d := by rw [new, z_mk]; rfl
end
@[simp] theorem intoTuple_eq (q : Quat T) : q.intoTuple = (q.w, q.x, q.y, q.z) := by simp [intoTuple]
section
variable (q : Quat T) (t : T)
@[simp] theorem w_setW : (q.setW t).w = t := by simp [setW]
@[simp] theorem x_setW : (q.setW t).x = q.x := by simp [setW]
@[simp] theorem y_setW : (q.setW t).y = q.y := by simp [setW]
@[simp] theorem z_setW : (q.setW t).z = q.z := by simp [setW]
@[simp] theorem w_setX : (q.setX t).w = q.w := by simp [setX]
@[simp] theorem x_setX : (q.setX t).x = t := by simp [setX]
@[simp] theorem y_setX : (q.setX t).y = q.y := by simp [setX]
@[simp] theorem z_setX : (q.setX t).z = q.z := by simp [setX]
@[simp] theorem w_setY : (q.setY t).w = q.w := by simp [setY]
@[simp] theorem x_setY : (q.setY t).x = q.x := by simp [setY]
@[simp] theorem y_setY : (q.setY t).y = t := by simp [setY]
@[simp] theorem z_setY : (q.setY t).z = q.z := by simp [setY]
@[simp] theorem w_setZ : (q.setZ t).w = q.w := by simp [setZ]
@[simp] theorem x_setZ : (q.setZ t).x = q.x := by simp [setZ]
@[simp] theorem y_setZ : (q.setZ t).y = q.y := by simp [setZ]
@[simp] theorem z_setZ : (q.setZ t).z = t := by simp [setZ]
end
variable (p q : Quat T) (s : T)
@[simp] theorem w_neg [Neg T] : (-q).w = -q.w := by show (Quat.mk (-q.vec)).w = _; simp
@[simp] theorem x_neg [Neg T] : (-q).x = -q.x := by show (Quat.mk (-q.vec)).x = _; simp
@[simp] theorem y_neg [Neg T] : (-q).y = -q.y := by show (Quat.mk (-q.vec)).y = _; simp
@[simp] theorem z_neg [Neg T] : (-q).z = -q.z := by show (Quat.mk (-q.vec)).z = _; simp
@[simp] theorem w_conj [Neg T] : q.conj.w = q.w := by simp [conj]
@[simp] theorem x_conj [Neg T] : q.conj.x = -q.x := by simp [conj]
@[simp] theorem y_conj [Neg T] : q.conj.y = -q.y := by simp [conj]
@[simp] theorem z_conj [Neg T] : q.conj.z = -q.z := by simp [conj]
@[simp] theorem w_add [Add T] : (p + q).w = p.w + q.w := by show (Quat.mk (p.vec + q.vec)).w = _; simp
@[simp] theorem x_add [Add T] : (p + q).x = p.x + q.x := by show (Quat.mk (p.vec + q.vec)).x = _; simp
@[simp] theorem y_add [Add T] : (p + q).y = p.y + q.y := by show (Quat.mk (p.vec + q.vec)).y = _; simp
@[simp] theorem z_add [Add T] : (p + q).z = p.z + q.z := by show (Quat.mk (p.vec + q.vec)).z = _; simp
@[simp] theorem w_sub [Sub T] : (p - q).w = p.w - q.w := by show (Quat.mk (p.vec - q.vec)).w = _; simp
@[simp] theorem x_sub [Sub T] : (p - q).x = p.x - q.x := by show (Quat.mk (p.vec - q.vec)).x = _; simp
@[simp] theorem y_sub [Sub T] : (p - q).y = p.y - q.y := by show (Quat.mk (p.vec - q.vec)).y = _; simp
@[simp] theorem z_sub [Sub T] : (p - q).z = p.z - q.z := by show (Quat.mk (p.vec - q.vec)).z = _; simp
@[simp] theorem w_zero [Zero T] : (0 : Quat T).w = 0 := w_new ..
@[simp] theorem x_zero [Zero T] : (0 : Quat T).x = 0 := x_new ..
@[simp] theorem y_zero [Zero T] : (0 : Quat T).y = 0 := y_new ..
@[simp] theorem z_zero [Zero T] : (0 : Quat T).z = 0 := z_new ..
@[simp] theorem w_one [Zero T] [One T] : (1 : Quat T).w = 1 := w_new ..
@[simp] theorem x_one [Zero T] [One T] : (1 : Quat T).x = 0 := x_new ..
@[simp] theorem y_one [Zero T] [One T] : (1 : Quat T).y = 0 := y_new ..
@[simp] theorem z_one [Zero T] [One T] : (1 : Quat T).z = 0 := z_new ..
section
variable [Add T] [Sub T] [Mul T]
@[simp] theorem w_mul : (p * q).w = p.w * q.w - p.x * q.x - p.y * q.y - p.z * q.z := w_new ..
@[simp] theorem x_mul : (p * q).x = p.w * q.x + p.x * q.w + p.y * q.z - p.z * q.y := x_new ..
@[simp] theorem y_mul : (p * q).y = p.w * q.y - p.x * q.z + p.y * q.w + p.z * q.x := y_new ..
@[simp] theorem z_mul : (p * q).z = p.w * q.z + p.x * q.y - p.y * q.x + p.z * q.w := z_new ..
end
@[simp] theorem w_mulS [Mul T] : (q.mulS s).w = q.w * s := by simp [mulS]
@[simp] theorem x_mulS [Mul T] : (q.mulS s).x = q.x * s := by simp [mulS]
@[simp] theorem y_mulS [Mul T] : (q.mulS s).y = q.y * s := by simp [mulS]
@[simp] theorem z_mulS [Mul T] : (q.mulS s).z = q.z * s := by simp [mulS]
@[simp] theorem w_divS [Div T] : (q.divS s).w = q.w / s := by simp [divS]
@[simp] theorem x_divS [Div T] : (q.divS s).x = q.x / s := by simp [divS]
@[simp] theorem y_divS [Div T] : (q.divS s).y = q.y / s := by simp [divS]
@[simp] theorem z_divS [Div T] : (q.divS s).z = q.z / s := by simp [divS]
theorem div_def [Neg T] [Add T] [Sub T] [Mul T] [Div T] : p / q = p * q.inv := rfl
@[simp] theorem w_i [Zero T] [One T] : (i : Quat T).w = 0 := w_new ..
@[simp] theorem x_i [Zero T] [One T] : (i : Quat T).x = 1 := x_new ..
@[simp] theorem y_i [Zero T] [One T] : (i : Quat T).y = 0 := y_new ..
@[simp] theorem z_i [Zero T] [One T] : (i : Quat T).z = 0 := z_new ..
@[simp] theorem w_j [Zero T] [One T] : (j : Quat T).w = 0 := w_new ..
@[simp] theorem x_j [Zero T] [One T] : (j : Quat T).x = 0 := x_new ..
@[simp] theorem y_j [Zero T] [One T] : (j : Quat T).y = 1 := y_new ..
@[simp] theorem z_j [Zero T] [One T] : (j : Quat T).z = 0 := z_new ..
@[simp] theorem w_k [Zero T] [One T] : (k : Quat T).w = 0 := w_new ..
@[simp] theorem x_k [Zero T] [One T] : (k : Quat T).x = 0 := x_new ..
@[simp] theorem y_k [Zero T] [One T] : (k : Quat T).y = 0 := y_new ..
@[simp] theorem z_k [Zero T] [One T] : (k : Quat T).z = 1 := z_new ..

theorem normSqr_eq [NonUnitalNonAssocSemiring T] : q.normSqr = q.w * q.w + q.x * q.x + q.y * q.y + q.z * q.z := by
  simp [normSqr, Vec.squareLength_eq_sum, Fin.sum_univ_four]
theorem dot_eq [NonUnitalNonAssocSemiring T] : p.dot q = p.w * q.w + p.x * q.x + p.y * q.y + p.z * q.z := by
  simp [dot, Vec.dot_eq_sum, Fin.sum_univ_four]

/-- Over a commutative ring the modelled operations form a (non-commutative) ring. -/
instance [CommRing T] : Ring (Quat T) where
  add_assoc a b c := by apply ext' <;> simp [add_assoc]
  zero_add a := by apply ext' <;> simp
  add_zero a := by apply ext' <;> simp
  add_comm a b := by apply ext' <;> simp [add_comm]
  neg_add_cancel a := by apply ext' <;> simp
  sub_eq_add_neg a b := by apply ext' <;> simp [sub_eq_add_neg]
  mul_assoc a b c := by apply ext' <;> simp <;> ring
  one_mul a := by apply ext' <;> simp
  mul_one a := by apply ext' <;> simp
  left_distrib a b c := by apply ext' <;> simp <;> ring
  right_distrib a b c := by apply ext' <;> simp <;> ring
  zero_mul a := by apply ext' <;> simp
  mul_zero a := by apply ext' <;> simp
  nsmul := nsmulRec
  zsmul := zsmulRec

theorem mul_conj [CommRing T] : q * q.conj = new q.normSqr 0 0 0 := by
  rw [normSqr_eq]; apply ext' <;> simp <;> ring
theorem conj_mul [CommRing T] : q.conj * q = new q.normSqr 0 0 0 := by
  rw [normSqr_eq]; apply ext' <;> simp <;> ring
theorem divS_eq_mul [Field T] : q.divS s = q * new s⁻¹ 0 0 0 := by
  apply ext' <;> simp [div_eq_mul_inv]
theorem new_mul_comm [CommRing T] : q * new s 0 0 0 = new s 0 0 0 * q := by
  apply ext' <;> simp <;> ring
theorem new_mul_new [CommRing T] (s t : T) : new s 0 0 0 * new t 0 0 0 = new (s * t) 0 0 0 := by
  apply ext' <;> simp

theorem mul_inv_of_normSqr [Field T] (h : q.normSqr ≠ 0) : q * q.inv = 1 := by
  rw [inv, divS_eq_mul, ← mul_assoc, mul_conj, new_mul_new, mul_inv_cancel₀ h]; rfl
theorem inv_mul_of_normSqr [Field T] (h : q.normSqr ≠ 0) : q.inv * q = 1 := by
  rw [inv, divS_eq_mul, new_mul_comm, mul_assoc, conj_mul, new_mul_new, inv_mul_cancel₀ h]; rfl

theorem normSqr_eq_zero [Field T] [LinearOrder T] [IsStrictOrderedRing T] : q.normSqr = 0 ↔ q = 0 := by
  rw [normSqr_eq]
  constructor
  · intro h
    have h0 := mul_self_nonneg q.w
    have h1 := mul_self_nonneg q.x
    have h2 := mul_self_nonneg q.y
    have h3 := mul_self_nonneg q.z
    apply ext' <;> simp only [w_zero, x_zero, y_zero, z_zero] <;> apply mul_self_eq_zero.1 <;> linarith
  · rintro rfl; simp

/-- Over an ordered field the modelled operations (with the crate's `inv` and `/`) form a division ring. -/
instance [Field T] [LinearOrder T] [IsStrictOrderedRing T] : DivisionRing (Quat T) where
  inv := inv
  div_eq_mul_inv _ _ := rfl
  exists_pair_ne := ⟨0, 1, fun h => by simpa using congrArg w h⟩
  mul_inv_cancel q hq := mul_inv_of_normSqr q (fun h => hq ((normSqr_eq_zero q).1 h))
  inv_zero := by apply ext' <;> simp [inv]
  nnqsmul := _
  qsmul := _

end Quat
end Vecmat
