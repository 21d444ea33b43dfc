import Verif.Lemmas.Rel
import Verif.Model.Float
import Verif.Spec.Float
/-!
# Evaluation of floating-point programs on small integers
An integer together with a bound of the magnitudes that occur; used to show that the hypotheses of the rounding theorems are met by concrete
inputs (the interval is evaluated by the kernel).
-/
namespace Vecmat
open Spec

/-- An integer and a bound (at least `1`) of its magnitude. -/
structure BInt where
  b : ℕ
  n : ℤ
namespace BInt
instance : Add BInt := ⟨fun x y => ⟨x.b + y.b, x.n + y.n⟩⟩
instance : Sub BInt := ⟨fun x y => ⟨x.b + y.b, x.n - y.n⟩⟩
instance : Mul BInt := ⟨fun x y => ⟨x.b * y.b, x.n * y.n⟩⟩
instance : Neg BInt := ⟨fun x => ⟨x.b, -x.n⟩⟩
instance : Zero BInt := ⟨⟨1, 0⟩⟩
instance : One BInt := ⟨⟨1, 1⟩⟩
/-- The integer `n`. -/
def of (n : ℤ) : BInt := ⟨max 1 n.natAbs, n⟩
/-- `y` has the value of `x` if the bound of `x` is at most `B`. -/
def R (B : ℕ) {F : ℝ → Option ℝ} (x : BInt) (y : Fl F) : Prop := 1 ≤ x.b ∧ x.n.natAbs ≤ x.b ∧ (x.b ≤ B → y.val = some (x.n : ℝ))
theorem opRel {B : ℕ} {F : ℝ → Option ℝ} (hF : ExactInts B F) : OpRel BInt (Fl F) (R B) where
  add := by
    rintro x y x' y' ⟨h1, h2, h3⟩ ⟨k1, k2, k3⟩
    have hb : (x.n + x'.n).natAbs ≤ x.b + x'.b := (Int.natAbs_add_le _ _).trans (Nat.add_le_add h2 k2)
    refine ⟨Nat.le_add_right_of_le h1, hb, fun h => ?_⟩
    change x.b + x'.b ≤ B at h
    show (y.val.bind fun a => y'.val.bind fun b => F (a + b)) = some ((x.n + x'.n : ℤ) : ℝ)
    rw [h3 (by nlinarith), k3 (by nlinarith)]
    simpa using hF (x.n + x'.n) (hb.trans h)
  sub := by
    rintro x y x' y' ⟨h1, h2, h3⟩ ⟨k1, k2, k3⟩
    have hb : (x.n - x'.n).natAbs ≤ x.b + x'.b := (Int.natAbs_sub_le _ _).trans (Nat.add_le_add h2 k2)
    refine ⟨Nat.le_add_right_of_le h1, hb, fun h => ?_⟩
    change x.b + x'.b ≤ B at h
    show (y.val.bind fun a => y'.val.bind fun b => F (a - b)) = some ((x.n - x'.n : ℤ) : ℝ)
    rw [h3 (by nlinarith), k3 (by nlinarith)]
    simpa using hF (x.n - x'.n) (hb.trans h)
  mul := by
    rintro x y x' y' ⟨h1, h2, h3⟩ ⟨k1, k2, k3⟩
    have hb : (x.n * x'.n).natAbs ≤ x.b * x'.b := by rw [Int.natAbs_mul]; exact Nat.mul_le_mul h2 k2
    refine ⟨Nat.mul_pos h1 k1, hb, fun h => ?_⟩
    change x.b * x'.b ≤ B at h
    show (y.val.bind fun a => y'.val.bind fun b => F (a * b)) = some ((x.n * x'.n : ℤ) : ℝ)
    rw [h3 (by nlinarith), k3 (by nlinarith)]
    simpa using hF (x.n * x'.n) (hb.trans h)
  neg := by
    rintro x y ⟨h1, h2, h3⟩
    refine ⟨h1, (Int.natAbs_neg _).trans_le h2, fun h => ?_⟩
    show y.val.map (fun a => -a) = some ((-x.n : ℤ) : ℝ)
    rw [h3 h]; simp
  zero := ⟨le_rfl, by decide, fun _ => by show some (0:ℝ) = some ((0:ℤ):ℝ); simp⟩
  one := ⟨le_rfl, by decide, fun _ => by show some (1:ℝ) = some ((1:ℤ):ℝ); simp⟩
theorem of_R {B : ℕ} {F : ℝ → Option ℝ} {n : ℤ} {y : Fl F} (h : y.val = some (n : ℝ)) : R B (of n) y :=
  ⟨le_max_left _ _, le_max_right _ _, fun _ => h⟩
/-- Reading the value off. -/
theorem R.eval {B : ℕ} {F : ℝ → Option ℝ} {x : BInt} {y : Fl F} (h : R B x y) (hb : x.b ≤ B) : y.val = some (x.n : ℝ) := h.2.2 hb
/-- A vector of integers. -/
def vec {N : Nat} (a : Fin N → ℤ) : Vec BInt N := ⟨Vector.ofFn fun i => of (a i)⟩
/-- A matrix of integers. -/
def mat {M N : Nat} (a : Matrix (Fin M) (Fin N) ℤ) : Mat BInt M N := ⟨⟨Vector.ofFn fun i => vec (a i)⟩⟩
theorem vec_R {B N : ℕ} {F : ℝ → Option ℝ} {a : Fin N → ℤ} {v : Vec (Fl F) N} (h : ∀ i : Fin N, v[i.1].val = some (a i : ℝ)) :
    RelV (R B) (vec a) v := fun i hi => by
  have : (vec a)[i] = of (a ⟨i, hi⟩) := Vector.getElem_ofFn hi
  rw [this]; exact of_R (h ⟨i, hi⟩)
theorem mat_R {B M N : ℕ} {F : ℝ → Option ℝ} {a : Matrix (Fin M) (Fin N) ℤ} {A : Mat (Fl F) M N}
    (h : ∀ (i : Fin M) (j : Fin N), A[i.1][j.1].val = some (a i j : ℝ)) : RelM (R B) (mat a) A := fun i hi j hj => by
  have : (mat a)[i] = vec (a ⟨i, hi⟩) := Vector.getElem_ofFn hi
  rw [this]; exact vec_R (h ⟨i, hi⟩) j hj
end BInt

namespace FlEx
variable {F : ℝ → Option ℝ} {M N : Nat}
/-- The float vector with integer components. -/
noncomputable def vec (a : Fin N → ℤ) : Vec (Fl F) N := ⟨Vector.ofFn fun i => Fl.of (a i)⟩
/-- The float matrix with integer entries. -/
noncomputable def mat (a : Matrix (Fin M) (Fin N) ℤ) : Mat (Fl F) M N := ⟨⟨Vector.ofFn fun i => vec (a i)⟩⟩
theorem vec_val (a : Fin N → ℤ) (i : Fin N) : (vec a : Vec (Fl F) N)[i.1].val = some (a i : ℝ) := by
  rw [show (vec a : Vec (Fl F) N)[i.1] = Fl.of (a i : ℝ) from Vector.getElem_ofFn i.2]; rfl
theorem mat_val (a : Matrix (Fin M) (Fin N) ℤ) (i : Fin M) (j : Fin N) : (mat a : Mat (Fl F) M N)[i.1][j.1].val = some (a i j : ℝ) := by
  rw [show (mat a : Mat (Fl F) M N)[i.1] = vec (a i) from Vector.getElem_ofFn i.2]; exact vec_val _ j
theorem vec_R {B : ℕ} (a : Fin N → ℤ) : RelV (BInt.R B) (BInt.vec a) (vec a : Vec (Fl F) N) := BInt.vec_R (vec_val a)
theorem mat_R {B : ℕ} (a : Matrix (Fin M) (Fin N) ℤ) : RelM (BInt.R B) (BInt.mat a) (mat a : Mat (Fl F) M N) := BInt.mat_R (mat_val a)
/-- Square root of a perfect square. -/
theorem sqrt_val {B : ℕ} (hF : ExactInts B F) {x : Fl F} {n : ℕ} (hx : x.val = some (((n * n : ℕ) : ℤ) : ℝ)) (hn : n ≤ B) :
    (FloatOps.sqrt x).val = some (n : ℝ) := by
  show (x.val.bind fun x : ℝ => if x < 0 then none else F (Real.sqrt x)) = _
  rw [hx]
  have h := hF n (by simpa using hn)
  have e : Real.sqrt (((n * n : ℕ) : ℤ) : ℝ) = n := by push_cast; exact Real.sqrt_mul_self (by positivity)
  show (if _ then none else _) = _
  rw [if_neg (not_lt.2 (by positivity)), e]; simpa using h
/-- Division without remainder. -/
theorem div_val {B : ℕ} (hF : ExactInts B F) {x y : Fl F} {n m : ℤ} (hx : x.val = some ((n * m : ℤ) : ℝ)) (hy : y.val = some (m : ℝ))
    (hm : m ≠ 0) (hn : n.natAbs ≤ B) : (x / y).val = some (n : ℝ) := by
  show (x.val.bind fun x : ℝ => y.val.bind fun y => if y = 0 then none else F (x / y)) = _
  rw [hx, hy]
  have hm' : (m : ℝ) ≠ 0 := by exact_mod_cast hm
  show (if _ then none else _) = _
  rw [if_neg hm', show ((n * m : ℤ) : ℝ) / m = n by push_cast; field_simp]; exact hF n hn
end FlEx
end Vecmat
