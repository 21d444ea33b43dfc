import Verif.Model.MachineInt
import Verif.Lemmas.Rel
import Mathlib.Data.Nat.Factorial.Basic
import Mathlib.Algebra.Order.Ring.Abs
/-!
# C37 — machine integers
"With wrapping (release) w-bit integers dot, det, cross, quaternion products etc. are the exact integer results reduced modulo
2^w; with overflow-checked (debug) integers, if no panic occurs the result is the exact integer result."

In the statements `BitVec.toInt` / `BitVec.toNat` is the value of a signed / unsigned machine integer, `Int.bmod x (2^w)` is the
representative of `x` modulo `2^w` in the signed range, and `(_ : Chk lo hi).val = some x` says that the checked computation
returned `x` (`none`: an overflow panic happened).
-/
namespace Vecmat
variable {w L M N : Nat} {lo hi : Int}

/-! ## relations between scalar types -/

/-- Wrapping integers are integers modulo `2^w`. -/
theorem wrapRel (w : Nat) : OpRel (BitVec w) Int (fun b z => b = BitVec.ofInt w z) where
  add := by rintro a b c d rfl rfl; rw [BitVec.ofInt_add]
  sub := by rintro a b c d rfl rfl; rw [sub_eq_add_neg b d, BitVec.ofInt_add, BitVec.ofInt_neg, sub_eq_add_neg]
  mul := by rintro a b c d rfl rfl; rw [BitVec.ofInt_mul]
  neg := by rintro a b rfl; rw [BitVec.ofInt_neg]
  zero := by simp
  one := by simp

theorem Chk.check_some {x y : Int} (h : (check x : Chk lo hi).val = some y) : y = x ∧ lo ≤ x ∧ x ≤ hi := by
  unfold check at h; split at h
  · rename_i h2; simp at h; exact ⟨h.symm, h2⟩
  · simp at h
theorem Chk.lift2_some {f : Int → Int → Int} {a b : Chk lo hi} {y : Int} (h : (lift2 f a b).val = some y) :
    ∃ p q, a.val = some p ∧ b.val = some q ∧ y = f p q ∧ lo ≤ y ∧ y ≤ hi := by
  unfold lift2 at h
  split at h
  · rename_i p q hp hq
    have := check_some h
    exact ⟨p, q, hp, hq, this.1, by rw [this.1]; exact this.2.1, by rw [this.1]; exact this.2.2⟩
  · simp at h
theorem Chk.neg_some {a : Chk lo hi} {y : Int} (h : (-a).val = some y) : ∃ p, a.val = some p ∧ y = -p ∧ lo ≤ y ∧ y ≤ hi := by
  change (match a.val with | some x => check (-x) | none => ⟨none⟩ : Chk lo hi).val = some y at h
  split at h
  · rename_i p hp
    have := check_some h
    exact ⟨p, hp, this.1, by rw [this.1]; exact this.2.1, by rw [this.1]; exact this.2.2⟩
  · simp at h

/-- A checked integer that has a value has the exact value. -/
theorem chkRel (lo hi : Int) : OpRel (Chk lo hi) Int (fun c z => ∀ x, c.val = some x → x = z) where
  add := by
    intro a b c d h h' x hx
    obtain ⟨p, q, hp, hq, e, -⟩ := Chk.lift2_some hx
    rw [e, h p hp, h' q hq]
  sub := by
    intro a b c d h h' x hx
    obtain ⟨p, q, hp, hq, e, -⟩ := Chk.lift2_some hx
    rw [e, h p hp, h' q hq]
  mul := by
    intro a b c d h h' x hx
    obtain ⟨p, q, hp, hq, e, -⟩ := Chk.lift2_some hx
    rw [e, h p hp, h' q hq]
  neg := by
    intro a b h x hx
    obtain ⟨p, hp, e, -⟩ := Chk.neg_some hx
    rw [e, h p hp]
  zero := by intro x hx; exact (Option.some.inj hx).symm
  one := by intro x hx; exact (Option.some.inj hx).symm

/-- A checked signed integer that has a value has the value of the wrapping one. -/
theorem chkWrapRel (hw : 2 ≤ w) : OpRel (ChkI w) (BitVec w) (fun c b => ∀ x, c.val = some x → b.toInt = x) := by
  obtain ⟨k, rfl⟩ : ∃ k, w = k + 1 := ⟨w - 1, by omega⟩
  have bm : ∀ y : Int, -(2 : Int) ^ k ≤ y → y ≤ 2 ^ k - 1 → y.bmod (2 ^ (k + 1)) = y := by
    intro y h1 h2
    have e : ((2 ^ (k + 1) : Nat) : Int) = 2 * 2 ^ k := by push_cast; ring
    apply Int.bmod_eq_of_le
    · rw [e]; omega
    · rw [e]; omega
  constructor
  · intro a b c d h h' x hx
    obtain ⟨p, q, hp, hq, e, h1, h2⟩ := Chk.lift2_some hx
    rw [BitVec.toInt_add, h p hp, h' q hq, bm _ (by simpa [e] using h1) (by simpa [e] using h2), e]
  · intro a b c d h h' x hx
    obtain ⟨p, q, hp, hq, e, h1, h2⟩ := Chk.lift2_some hx
    rw [BitVec.toInt_sub, h p hp, h' q hq, bm _ (by simpa [e] using h1) (by simpa [e] using h2), e]
  · intro a b c d h h' x hx
    obtain ⟨p, q, hp, hq, e, h1, h2⟩ := Chk.lift2_some hx
    rw [BitVec.toInt_mul, h p hp, h' q hq, bm _ (by simpa [e] using h1) (by simpa [e] using h2), e]
  · intro a b h x hx
    obtain ⟨p, hp, e, h1, h2⟩ := Chk.neg_some hx
    rw [BitVec.toInt_neg, h p hp, bm _ (by simpa [e] using h1) (by simpa [e] using h2), e]
  · intro x hx; rw [← Option.some.inj hx]; simp
  · intro x hx
    rw [← Option.some.inj hx]
    have h1 : (1 : BitVec (k + 1)) = BitVec.ofInt (k + 1) 1 := by simp
    rw [h1, BitVec.toInt_ofInt]
    have : (2 : Int) ^ 1 ≤ 2 ^ k := pow_le_pow_right₀ (by norm_num) (by omega)
    exact bm 1 (by omega) (by omega)

/-! ## wrapping -/

theorem toInt_of_eq_ofInt {b : BitVec w} {z : Int} (h : b = BitVec.ofInt w z) : b.toInt = z.bmod (2 ^ w) := by
  rw [h, BitVec.toInt_ofInt]
theorem toNat_of_eq_ofInt {b : BitVec w} {z : Int} (h : b = BitVec.ofInt w z) : (b.toNat : Int) = z % 2 ^ w := by
  rw [h, BitVec.toNat_ofInt, Int.toNat_of_nonneg]
  · push_cast; rfl
  · exact Int.emod_nonneg _ (by positivity)

/-- Signed release-mode `dot`. -/
theorem C37_wrap_dot [NeZero N] (v u : Vec (BitVec w) N) :
    (v.dot u).toInt = (∑ i : Fin N, v[i.1].toInt * u[i.1].toInt).bmod (2 ^ w) := by
  refine toInt_of_eq_ofInt ?_
  have := (wrapRel w).vDot (v := v) (w := v.map BitVec.toInt) (v' := u) (w' := u.map BitVec.toInt)
    (by intro i hi; simp) (by intro i hi; simp)
  rw [this, Vec.dot_eq_sum]; simp

/-- Unsigned release-mode `dot`. -/
theorem C37_wrap_dot_unsigned [NeZero N] (v u : Vec (BitVec w) N) :
    (v.dot u).toNat = (∑ i : Fin N, v[i.1].toNat * u[i.1].toNat) % 2 ^ w := by
  have := (wrapRel w).vDot (v := v) (w := v.map fun b => (b.toNat : Int)) (v' := u) (w' := u.map fun b => (b.toNat : Int))
    (by intro i hi; simp) (by intro i hi; simp)
  have := toNat_of_eq_ofInt this
  rw [Vec.dot_eq_sum (T := Int)] at this
  have e : ((v.dot u).toNat : Int) = ((∑ i : Fin N, v[i.1].toNat * u[i.1].toNat) % 2 ^ w : Nat) := by
    rw [this]; push_cast; simp
  exact_mod_cast e

/-- Signed release-mode `sum`. -/
theorem C37_wrap_sum [NeZero N] (v : Vec (BitVec w) N) :
    v.sum.toInt = (∑ i : Fin N, v[i.1].toInt).bmod (2 ^ w) := by
  refine toInt_of_eq_ofInt ?_
  have := (wrapRel w).vSum (v := v) (w := v.map BitVec.toInt) (by intro i hi; simp)
  rw [this, Vec.sum_eq_sum]; simp

/-- Signed release-mode `square_length`. -/
theorem C37_wrap_square_length [NeZero N] (v : Vec (BitVec w) N) :
    v.squareLength.toInt = (∑ i : Fin N, v[i.1].toInt ^ 2).bmod (2 ^ w) := by
  refine toInt_of_eq_ofInt ?_
  have := (wrapRel w).vSquareLength (v := v) (w := v.map BitVec.toInt) (by intro i hi; simp)
  rw [this, Vec.squareLength_eq_sum]; simp [sq]

/-- Signed release-mode matrix-vector product, any shape. -/
theorem C37_wrap_mat_vec [NeZero N] (A : Mat (BitVec w) M N) (v : Vec (BitVec w) N) :
    ∃ x, A.dotVR v = .ok x ∧
      ∀ i (hi : i < M), x[i].toInt = (∑ k : Fin N, A[i][k.1].toInt * v[k.1].toInt).bmod (2 ^ w) := by
  refine ⟨_, Mat.dotVR_get A v, fun i hi => ?_⟩
  simpa using C37_wrap_dot A[i] v

/-- Signed release-mode matrix product, any shapes. -/
theorem C37_wrap_mat_mat [NeZero M] (A : Mat (BitVec w) L M) (B : Mat (BitVec w) M N) :
    ∃ X, A.dotMR B = .ok X ∧ ∀ i (hi : i < L) j (hj : j < N),
      X[i][j].toInt = (∑ k : Fin M, A[i][k.1].toInt * B[k.1][j].toInt).bmod (2 ^ w) := by
  refine ⟨_, Mat.dotMR_get A B, fun i hi j hj => ?_⟩
  simpa using C37_wrap_dot A[i] (B.colOf j hj)

/-- Signed release-mode determinant. -/
theorem C37_wrap_det (A : Mat (BitVec w) N N) :
    A.det.toInt = (Matrix.of fun i j : Fin N => A[i.1][j.1].toInt).det.bmod (2 ^ w) := by
  refine toInt_of_eq_ofInt ?_
  have := (wrapRel w).det (A := A) (B := A.map BitVec.toInt) (by intro i hi j hj; simp)
  rw [this, Mat.det_eq]; congr 2; ext i j; simp

/-- Signed release-mode adjugate. -/
theorem C37_wrap_adj (A : Mat (BitVec w) N N) (i j : Fin N) :
    A.adj[i.1][j.1].toInt = ((Matrix.of fun i j : Fin N => A[i.1][j.1].toInt).adjugate i j).bmod (2 ^ w) := by
  refine toInt_of_eq_ofInt ?_
  have := (wrapRel w).adj (A := A) (B := A.map BitVec.toInt) (by intro i hi j hj; simp) i.1 i.2 j.1 j.2
  rw [this]
  have e := congrFun (congrFun (Mat.toMatrix_adj (A.map BitVec.toInt)) i) j
  rw [Mat.toMatrix_apply] at e
  rw [e]; congr 3; ext i j; simp

/-- Signed release-mode cross products. -/
theorem C37_wrap_cross2 (a b : Vec (BitVec w) 2) :
    (a.cross2 b).toInt = (a[0].toInt * b[1].toInt - a[1].toInt * b[0].toInt).bmod (2 ^ w) := by
  refine toInt_of_eq_ofInt ?_
  have := (wrapRel w).cross2 (v := a) (w := a.map BitVec.toInt) (v' := b) (w' := b.map BitVec.toInt)
    (by intro i hi; simp) (by intro i hi; simp)
  rw [this]; simp [Vec.cross2]
theorem C37_wrap_cross3 (a b : Vec (BitVec w) 3) :
    (a.cross3 b)[0].toInt = (a[1].toInt * b[2].toInt - a[2].toInt * b[1].toInt).bmod (2 ^ w) ∧
    (a.cross3 b)[1].toInt = (a[2].toInt * b[0].toInt - a[0].toInt * b[2].toInt).bmod (2 ^ w) ∧
    (a.cross3 b)[2].toInt = (a[0].toInt * b[1].toInt - a[1].toInt * b[0].toInt).bmod (2 ^ w) := by
  have h := (wrapRel w).cross3 (v := a) (w := a.map BitVec.toInt) (v' := b) (w' := b.map BitVec.toInt)
    (by intro i hi; simp) (by intro i hi; simp)
  refine ⟨?_, ?_, ?_⟩
  · rw [toInt_of_eq_ofInt (h 0 (by omega))]; simp [Vec.cross3, Vec.fromArray]
  · rw [toInt_of_eq_ofInt (h 1 (by omega))]; simp [Vec.cross3, Vec.fromArray]
  · rw [toInt_of_eq_ofInt (h 2 (by omega))]; simp [Vec.cross3, Vec.fromArray]

/-- Signed release-mode complex product. -/
theorem C37_wrap_complex_mul (z u : Cpx (BitVec w)) :
    (z * u).re.toInt = (z.re.toInt * u.re.toInt - z.im.toInt * u.im.toInt).bmod (2 ^ w) ∧
    (z * u).im.toInt = (z.re.toInt * u.im.toInt + z.im.toInt * u.re.toInt).bmod (2 ^ w) := by
  have h := (wrapRel w).cMul (z := z) (w := Cpx.new z.re.toInt z.im.toInt) (z' := u) (w' := Cpx.new u.re.toInt u.im.toInt)
    ⟨by simp, by simp⟩ ⟨by simp, by simp⟩
  exact ⟨by rw [toInt_of_eq_ofInt h.1]; simp, by rw [toInt_of_eq_ofInt h.2]; simp⟩

/-- The exact quaternion with the (signed) values of the components. -/
def Quat.values (q : Quat (BitVec w)) : Quaternion Int := ⟨q.w.toInt, q.x.toInt, q.y.toInt, q.z.toInt⟩

@[simp] theorem Quat.values_re (q : Quat (BitVec w)) : q.values.re = q.w.toInt := rfl
@[simp] theorem Quat.values_imI (q : Quat (BitVec w)) : q.values.imI = q.x.toInt := rfl
@[simp] theorem Quat.values_imJ (q : Quat (BitVec w)) : q.values.imJ = q.y.toInt := rfl
@[simp] theorem Quat.values_imK (q : Quat (BitVec w)) : q.values.imK = q.z.toInt := rfl

/-- Signed release-mode quaternion product, against Mathlib's quaternions over the integers. -/
theorem C37_wrap_quaternion_mul (p q : Quat (BitVec w)) :
    (p * q).w.toInt = (p.values * q.values).re.bmod (2 ^ w) ∧
    (p * q).x.toInt = (p.values * q.values).imI.bmod (2 ^ w) ∧
    (p * q).y.toInt = (p.values * q.values).imJ.bmod (2 ^ w) ∧
    (p * q).z.toInt = (p.values * q.values).imK.bmod (2 ^ w) := by
  have h := (wrapRel w).qMul (p := p) (q := Quat.new p.w.toInt p.x.toInt p.y.toInt p.z.toInt)
    (p' := q) (q' := Quat.new q.w.toInt q.x.toInt q.y.toInt q.z.toInt)
    ⟨by simp, by simp, by simp, by simp⟩ ⟨by simp, by simp, by simp, by simp⟩
  refine ⟨?_, ?_, ?_, ?_⟩
  · rw [toInt_of_eq_ofInt h.1]; simp
  · rw [toInt_of_eq_ofInt h.2.1]; simp
  · rw [toInt_of_eq_ofInt h.2.2.1]; simp
  · rw [toInt_of_eq_ofInt h.2.2.2]; simp

/-- Signed release-mode quaternion `norm_sqr`. -/
theorem C37_wrap_quaternion_norm_sqr (q : Quat (BitVec w)) :
    q.normSqr.toInt = (q.w.toInt ^ 2 + q.x.toInt ^ 2 + q.y.toInt ^ 2 + q.z.toInt ^ 2).bmod (2 ^ w) := by
  have h := (wrapRel w).qNormSqr (p := q) (q := Quat.new q.w.toInt q.x.toInt q.y.toInt q.z.toInt)
    ⟨by simp, by simp, by simp, by simp⟩
  rw [toInt_of_eq_ofInt h]
  simp [Quat.normSqr, Vec.squareLength_eq_sum, Fin.sum_univ_four, sq]

/-- Case: `i8` vectors whose exact dot product 20000 wraps to 32. -/
example : ((⟨#v[100, 100]⟩ : Vec (BitVec 8) 2).dot ⟨#v[100, 100]⟩).toInt = 32 := by
  rw [C37_wrap_dot]; simp [Fin.sum_univ_two]

/-! ## overflow-checked: what is returned is exact -/

/-- Checked `dot` of any integer range. -/
theorem C37_checked_dot [NeZero N] (v u : Vec (Chk lo hi) N) (a b : Fin N → Int)
    (ha : ∀ i, v[i.1].val = some (a i)) (hb : ∀ i, u[i.1].val = some (b i)) {x : Int} (hx : (v.dot u).val = some x) :
    x = ∑ i, a i * b i := by
  have := (chkRel lo hi).vDot (v := v) (w := ⟨Vector.ofFn a⟩) (v' := u) (w' := ⟨Vector.ofFn b⟩)
    (by intro i hi y hy; simpa using hy.symm.trans (ha ⟨i, hi⟩)) (by intro i hi y hy; simpa using hy.symm.trans (hb ⟨i, hi⟩)) x hx
  rw [this, Vec.dot_eq_sum]; simp

/-- Checked determinant. -/
theorem C37_checked_det (A : Mat (Chk lo hi) N N) (a : Matrix (Fin N) (Fin N) Int)
    (ha : ∀ i j : Fin N, A[i.1][j.1].val = some (a i j)) {x : Int} (hx : A.det.val = some x) : x = a.det := by
  have := (chkRel lo hi).det (A := A) (B := ⟨⟨Vector.ofFn fun i => ⟨Vector.ofFn fun j => a i j⟩⟩⟩)
    (by intro i hi j hj y hy; simpa using hy.symm.trans (ha ⟨i, hi⟩ ⟨j, hj⟩)) x hx
  rw [this, Mat.det_eq]; congr 1; ext i j; simp

/-- Checked adjugate. -/
theorem C37_checked_adj (A : Mat (Chk lo hi) N N) (a : Matrix (Fin N) (Fin N) Int)
    (ha : ∀ i j : Fin N, A[i.1][j.1].val = some (a i j)) (i j : Fin N) {x : Int} (hx : A.adj[i.1][j.1].val = some x) :
    x = a.adjugate i j := by
  have := (chkRel lo hi).adj (A := A) (B := ⟨⟨Vector.ofFn fun i => ⟨Vector.ofFn fun j => a i j⟩⟩⟩)
    (by intro i hi j hj y hy; simpa using hy.symm.trans (ha ⟨i, hi⟩ ⟨j, hj⟩)) i.1 i.2 j.1 j.2 x hx
  rw [this]
  have e := congrFun (congrFun (Mat.toMatrix_adj (⟨⟨Vector.ofFn fun i => ⟨Vector.ofFn fun j => a i j⟩⟩⟩ : Mat Int N N)) i) j
  rw [Mat.toMatrix_apply] at e
  rw [e]; congr 2; ext i j; simp

/-- Checked matrix product, any shapes. -/
theorem C37_checked_mat_mat [NeZero M] (A : Mat (Chk lo hi) L M) (B : Mat (Chk lo hi) M N)
    (a : Matrix (Fin L) (Fin M) Int) (b : Matrix (Fin M) (Fin N) Int)
    (ha : ∀ i j, A[i.1][j.1].val = some (a i j)) (hb : ∀ i j, B[i.1][j.1].val = some (b i j)) :
    ∃ X, A.dotMR B = .ok X ∧ ∀ (i : Fin L) (j : Fin N) (x : Int), X[i.1][j.1].val = some x → x = (a * b) i j := by
  refine ⟨_, Mat.dotMR_get A B, fun i j x hx => ?_⟩
  rw [Matrix.mul_apply]
  exact C37_checked_dot A[i.1] (B.colOf j.1 j.2) (fun k => a i k) (fun k => b k j) (fun k => ha i k)
    (fun k => by simpa using hb k j) (by simpa using hx)

/-- Checked quaternion product. -/
theorem C37_checked_quaternion_mul (p q : Quat (Chk lo hi)) (a b : Quaternion Int)
    (ha : p.w.val = some a.re ∧ p.x.val = some a.imI ∧ p.y.val = some a.imJ ∧ p.z.val = some a.imK)
    (hb : q.w.val = some b.re ∧ q.x.val = some b.imI ∧ q.y.val = some b.imJ ∧ q.z.val = some b.imK) :
    (∀ x, (p * q).w.val = some x → x = (a * b).re) ∧ (∀ x, (p * q).x.val = some x → x = (a * b).imI) ∧
    (∀ x, (p * q).y.val = some x → x = (a * b).imJ) ∧ (∀ x, (p * q).z.val = some x → x = (a * b).imK) := by
  have h := (chkRel lo hi).qMul (p := p) (q := Quat.new a.re a.imI a.imJ a.imK)
    (p' := q) (q' := Quat.new b.re b.imI b.imJ b.imK)
    ⟨by simp [ha.1], by simp [ha.2.1], by simp [ha.2.2.1], by simp [ha.2.2.2]⟩
    ⟨by simp [hb.1], by simp [hb.2.1], by simp [hb.2.2.1], by simp [hb.2.2.2]⟩
  refine ⟨fun x hx => ?_, fun x hx => ?_, fun x hx => ?_, fun x hx => ?_⟩
  · rw [h.1 x hx]; simp
  · rw [h.2.1 x hx]; simp
  · rw [h.2.2.1 x hx]; simp
  · rw [h.2.2.2 x hx]; simp

/-! ## debug and release builds agree whenever the debug build returns -/

/-- If the debug build's determinant returns a value, the release build's determinant is the same value. -/
theorem C37_debug_release_det (hw : 2 ≤ w) (A : Mat (ChkI w) N N) (B : Mat (BitVec w) N N)
    (h : ∀ i (hi : i < N) j (hj : j < N), A[i][j].val = some B[i][j].toInt) {x : Int} (hx : A.det.val = some x) :
    B.det.toInt = x :=
  (chkWrapRel hw).det (A := A) (B := B) (by intro i hi j hj y hy; exact Option.some.inj ((h i hi j hj).symm.trans hy)) x hx

/-- The same for `dot`. -/
theorem C37_debug_release_dot [NeZero N] (hw : 2 ≤ w) (v v' : Vec (ChkI w) N) (u u' : Vec (BitVec w) N)
    (h : ∀ i (hi : i < N), v[i].val = some u[i].toInt) (h' : ∀ i (hi : i < N), v'[i].val = some u'[i].toInt)
    {x : Int} (hx : (v.dot v').val = some x) : (u.dot u').toInt = x :=
  (chkWrapRel hw).vDot (v := v) (w := u) (v' := v') (w' := u')
    (by intro i hi y hy; exact Option.some.inj ((h i hi).symm.trans hy))
    (by intro i hi y hy; exact Option.some.inj ((h' i hi).symm.trans hy)) x hx

/-! ## sufficient conditions for not panicking -/

/-- Magnitude bounds, with the operations' effect on magnitudes. -/
structure Bnd where
  n : Nat
namespace Bnd
instance : Add Bnd := ⟨fun a b => ⟨a.n + b.n⟩⟩
instance : Sub Bnd := ⟨fun a b => ⟨a.n + b.n⟩⟩
instance : Mul Bnd := ⟨fun a b => ⟨max a.n 1 * max b.n 1⟩⟩
instance : Neg Bnd := ⟨fun a => a⟩
instance : Zero Bnd := ⟨⟨0⟩⟩
instance : One Bnd := ⟨⟨1⟩⟩
@[simp] theorem n_add (a b : Bnd) : (a + b).n = a.n + b.n := rfl
@[simp] theorem n_sub (a b : Bnd) : (a - b).n = a.n + b.n := rfl
@[simp] theorem n_mul (a b : Bnd) : (a * b).n = max a.n 1 * max b.n 1 := rfl
@[simp] theorem n_neg (a : Bnd) : (-a).n = a.n := rfl
@[simp] theorem n_zero : (0 : Bnd).n = 0 := rfl
@[simp] theorem n_one : (1 : Bnd).n = 1 := rfl
@[simp] theorem n_sgn (k : Nat) (a : Bnd) : (Mat.sgn k a).n = a.n := by unfold Mat.sgn; split <;> rfl
end Bnd

theorem Chk.check_of_abs (hlo : lo ≤ -hi) {x : Int} {b : Nat} (h : |x| ≤ b) (hb : (b : Int) ≤ hi) :
    (check x : Chk lo hi).val = some x := by
  have := abs_le.mp h
  unfold check; rw [if_pos ⟨by omega, by omega⟩]

/-- Within the bound, the checked computation returns a value within the bound. -/
theorem bndRel (hlo : lo ≤ -hi) : OpRel (Chk lo hi) Bnd (fun c b => (b.n : Int) ≤ hi → ∃ x, c.val = some x ∧ |x| ≤ b.n) where
  add := by
    intro a b c d h h' hb
    simp only [Bnd.n_add, Nat.cast_add] at hb
    obtain ⟨x, hx, hx'⟩ := h (by omega)
    obtain ⟨y, hy, hy'⟩ := h' (by omega)
    have e : |x + y| ≤ ((b.n + d.n : Nat) : Int) := by push_cast; exact (abs_add_le x y).trans (by omega)
    refine ⟨x + y, ?_, e⟩
    change (Chk.lift2 (· + ·) a c).val = _
    simp only [Chk.lift2, hx, hy]
    exact Chk.check_of_abs hlo e (by push_cast; exact hb)
  sub := by
    intro a b c d h h' hb
    simp only [Bnd.n_sub, Nat.cast_add] at hb
    obtain ⟨x, hx, hx'⟩ := h (by omega)
    obtain ⟨y, hy, hy'⟩ := h' (by omega)
    have e : |x - y| ≤ ((b.n + d.n : Nat) : Int) := by push_cast; exact (abs_sub x y).trans (by omega)
    refine ⟨x - y, ?_, e⟩
    change (Chk.lift2 (· - ·) a c).val = _
    simp only [Chk.lift2, hx, hy]
    exact Chk.check_of_abs hlo e (by push_cast; exact hb)
  mul := by
    intro a b c d h h' hb
    simp only [Bnd.n_mul] at hb
    have e1 : b.n ≤ max b.n 1 * max d.n 1 :=
      (Nat.le_max_left b.n 1).trans (Nat.le_mul_of_pos_right _ (Nat.le_max_right d.n 1))
    have e2 : d.n ≤ max b.n 1 * max d.n 1 :=
      (Nat.le_max_left d.n 1).trans (Nat.le_mul_of_pos_left _ (Nat.le_max_right b.n 1))
    obtain ⟨x, hx, hx'⟩ := h (by omega)
    obtain ⟨y, hy, hy'⟩ := h' (by omega)
    have e : |x * y| ≤ ((max b.n 1 * max d.n 1 : Nat) : Int) := by
      rw [abs_mul, Nat.cast_mul]
      have l1 := Nat.le_max_left b.n 1
      have l2 := Nat.le_max_left d.n 1
      exact mul_le_mul (by omega) (by omega) (abs_nonneg _) (by omega)
    refine ⟨x * y, ?_, e⟩
    change (Chk.lift2 (· * ·) a c).val = _
    simp only [Chk.lift2, hx, hy]
    exact Chk.check_of_abs hlo e hb
  neg := by
    intro a b h hb
    obtain ⟨x, hx, hx'⟩ := h hb
    have e : |-x| ≤ (b.n : Int) := by rwa [abs_neg]
    refine ⟨-x, ?_, e⟩
    change (match a.val with | some x => Chk.check (-x) | none => ⟨none⟩ : Chk lo hi).val = _
    rw [hx]
    exact Chk.check_of_abs hlo e hb
  zero := by intro _; exact ⟨0, rfl, by simp⟩
  one := by intro _; exact ⟨1, rfl, by simp⟩

theorem foldl_bnd (g : Nat → Bnd) (c : Nat) (n : Nat) (hg : ∀ k, k < n → (g k).n = c) (b : Bnd) :
    ((List.range n).foldl (fun a k => a + g k) b).n = b.n + n * c := by
  induction n with
  | zero => simp
  | succ n ih =>
    rw [List.range_succ, List.foldl_append]
    simp only [List.foldl_cons, List.foldl_nil, Bnd.n_add]
    rw [ih fun k hk => hg k (by omega), hg n (by omega)]; ring

theorem lap_bnd (B : Nat) (hB : 1 ≤ B) (R C : List Nat) (h : R.length = C.length) :
    (Mat.lap (fun _ _ => (⟨B⟩ : Bnd)) R C).n = R.length.factorial * B ^ R.length := by
  induction R generalizing C with
  | nil => simp [Mat.lap]
  | cons i R ih =>
    unfold Mat.lap
    simp only [List.length_cons] at h
    rw [foldl_bnd _ (B * (R.length.factorial * B ^ R.length))]
    · simp only [Bnd.n_zero, List.length_cons, ← h, Nat.factorial_succ, pow_succ]; ring
    · intro k hk
      rw [Bnd.n_mul, Bnd.n_sgn, ih _ (by rw [List.length_eraseIdx_of_lt hk]; omega)]
      have : 1 ≤ R.length.factorial * B ^ R.length :=
        Nat.mul_pos (Nat.factorial_pos _) (Nat.pow_pos hB)
      show max B 1 * max _ 1 = _
      rw [show max B 1 = B from Nat.max_eq_left hB,
        show max _ 1 = _ from Nat.max_eq_left this]

/-- The debug-mode determinant does not overflow, and is exact, when `N! · B^N` is in range, `B` bounding the entries. -/
theorem C37_det_no_overflow (hlo : lo ≤ -hi) (B : Nat) (hB : 1 ≤ B) (A : Mat (Chk lo hi) N N)
    (a : Matrix (Fin N) (Fin N) Int) (ha : ∀ i j : Fin N, A[i.1][j.1].val = some (a i j)) (hb : ∀ i j, |a i j| ≤ B)
    (h : ((N.factorial * B ^ N : Nat) : Int) ≤ hi) : A.det.val = some a.det := by
  have hl := lap_bnd B hB (List.range N) (List.range N) rfl
  rw [List.length_range] at hl
  have := (bndRel hlo).lap (f := Mat.ent A) (g := fun _ _ => ⟨B⟩) (by
    intro i j hh
    unfold Mat.ent
    split
    · rename_i hij
      exact ⟨a ⟨i, hij.1⟩ ⟨j, hij.2⟩, ha ⟨i, hij.1⟩ ⟨j, hij.2⟩, hb _ _⟩
    · exact ⟨0, rfl, by simp⟩) (List.range N) (List.range N) (by rw [hl]; exact h)
  obtain ⟨x, hx, -⟩ := this
  rw [← show A.det = _ from Res.get_eq (Mat.detR_eq A) _] at hx
  rw [hx, C37_checked_det A a ha hx]

/-- The debug-mode `dot` does not overflow, and is exact, when `N · P · Q` is in range, `P`, `Q` bounding the components. -/
theorem C37_dot_no_overflow [NeZero N] (hlo : lo ≤ -hi) (P Q : Nat) (hP : 1 ≤ P) (hQ : 1 ≤ Q) (v u : Vec (Chk lo hi) N)
    (a b : Fin N → Int) (ha : ∀ i, v[i.1].val = some (a i)) (hb : ∀ i, u[i.1].val = some (b i))
    (ha' : ∀ i, |a i| ≤ P) (hb' : ∀ i, |b i| ≤ Q) (h : ((N * (P * Q) : Nat) : Int) ≤ hi) :
    (v.dot u).val = some (∑ i, a i * b i) := by
  have hl : ((Vec.fill ⟨P⟩ : Vec Bnd N).dot (Vec.fill ⟨Q⟩)).n = N * (P * Q) := by
    obtain ⟨n, rfl⟩ : ∃ n, N = n + 1 := ⟨N - 1, by have := NeZero.ne N; omega⟩
    show (Vec.foldFirst (T := Bnd) _ _).n = _
    rw [Vec.foldFirst_congr (Vec.foldFirstR_succ _ _)]
    simp only [Vec.getElem_map, Vec.getElem_zip, Vec.getElem_fill]
    have : ∀ (n : Nat) (c : Bnd), ((List.ofFn fun _ : Fin n => (⟨P⟩ : Bnd) * ⟨Q⟩).foldl (fun x y => x + y) c).n = c.n + n * (P * Q) := by
      intro n
      induction n with
      | zero => intro c; simp
      | succ n ih =>
        intro c
        rw [List.ofFn_succ, List.foldl_cons, ih, Bnd.n_add, Bnd.n_mul]
        show _ + max P 1 * max Q 1 + _ = _
        rw [show max P 1 = P from Nat.max_eq_left hP, show max Q 1 = Q from Nat.max_eq_left hQ]; ring
    rw [this, Bnd.n_mul]
    show max P 1 * max Q 1 + _ = _
    rw [show max P 1 = P from Nat.max_eq_left hP, show max Q 1 = Q from Nat.max_eq_left hQ]; ring
  obtain ⟨x, hx, -⟩ := (bndRel hlo).vDot (v := v) (w := Vec.fill ⟨P⟩) (v' := u) (w' := Vec.fill ⟨Q⟩)
    (by intro i hi _; exact ⟨_, ha ⟨i, hi⟩, by simpa using ha' ⟨i, hi⟩⟩)
    (by intro i hi _; exact ⟨_, hb ⟨i, hi⟩, by simpa using hb' ⟨i, hi⟩⟩) (by rw [hl]; exact h)
  rw [hx, C37_checked_dot v u a b ha hb hx]

/-- Case: `i8` matrix with entries within 4: `2! · 4² = 32 ≤ 127`. -/
example : (⟨⟨#v[⟨#v[⟨some 4⟩, ⟨some (-3)⟩]⟩, ⟨#v[⟨some 2⟩, ⟨some 1⟩]⟩]⟩⟩ : Mat (ChkI 8) 2 2).det.val = some 10 := by
  rw [C37_det_no_overflow (by norm_num) 4 (by norm_num) _ !![4, -3; 2, 1] _ _ (by norm_num [Nat.factorial])]
  · simp [Matrix.det_fin_two]
  · intro i j; fin_cases i <;> fin_cases j <;> rfl
  · intro i j; fin_cases i <;> fin_cases j <;> simp

/-- A representable exact result does not prevent a debug-mode panic: intermediate products overflow (`i8`, all entries 16, exact
determinant 0), while the release build returns the exact 0. -/
theorem C37_intermediate_overflow_refuted :
    ¬ ∀ (A : Mat (ChkI 8) 2 2) (a : Matrix (Fin 2) (Fin 2) Int), (∀ i j : Fin 2, A[i.1][j.1].val = some (a i j)) →
      -128 ≤ a.det → a.det ≤ 127 → A.det.val = some a.det := by
  intro h
  have := h (Mat.fill ⟨some 16⟩) (Matrix.of fun _ _ => 16) (by intro i j; simp) (by simp [Matrix.det_fin_two]) (by simp [Matrix.det_fin_two])
  rw [show (Mat.fill ⟨some 16⟩ : Mat (ChkI 8) 2 2).det = _ from Res.get_eq (Mat.detR_eq _) _] at this
  have e : Mat.ent (Mat.fill ⟨some 16⟩ : Mat (ChkI 8) 2 2) 0 0 = ⟨some 16⟩ ∧ Mat.ent (Mat.fill ⟨some 16⟩ : Mat (ChkI 8) 2 2) 0 1 = ⟨some 16⟩ ∧
    Mat.ent (Mat.fill ⟨some 16⟩ : Mat (ChkI 8) 2 2) 1 0 = ⟨some 16⟩ ∧ Mat.ent (Mat.fill ⟨some 16⟩ : Mat (ChkI 8) 2 2) 1 1 = ⟨some 16⟩ := by
    simp [Mat.ent]
  simp [Mat.lap, List.range_succ, e] at this
  revert this
  decide

/-! ## unsigned types: no spurious overflow -/

/-- "The checked value is the exact natural number `z`, or an overflow when `z` does not fit." -/
private def fits (w : Nat) (z : Nat) : Option Int := if z < 2 ^ w then some z else none

private theorem check_nat (z : Nat) : (Chk.check (z : Int) : ChkU w).val = fits w z := by
  unfold Chk.check fits
  have : ((2 ^ w : Nat) : Int) = 2 ^ w := by push_cast; rfl
  by_cases h : z < 2 ^ w
  · have h' : (z : Int) < 2 ^ w := by rw [← this]; exact_mod_cast h
    rw [if_pos h, if_pos ⟨by omega, by omega⟩]
  · have h' : ¬ (z : Int) < 2 ^ w := by rw [← this]; exact_mod_cast h
    rw [if_neg h, if_neg (by omega)]
private theorem add_nat {a b : ChkU w} {x y : Nat} (ha : a.val = fits w x) (hb : b.val = fits w y) :
    (a + b).val = fits w (x + y) := by
  change (Chk.lift2 (· + ·) a b).val = _
  by_cases hx : x < 2 ^ w
  · by_cases hy : y < 2 ^ w
    · rw [fits, if_pos hx] at ha
      rw [fits, if_pos hy] at hb
      simp only [Chk.lift2, ha, hb]
      rw [← check_nat]; push_cast; rfl
    · rw [fits, if_neg hy] at hb
      rw [fits, if_neg (by omega)]
      simp [Chk.lift2, hb]
  · rw [fits, if_neg hx] at ha
    rw [fits, if_neg (by omega)]
    simp [Chk.lift2, ha]
private theorem mul_nat {a b : ChkU w} {x y : Nat} (ha : a.val = some (x : Int)) (hb : b.val = some (y : Int)) :
    (a * b).val = fits w (x * y) := by
  change (Chk.lift2 (· * ·) a b).val = _
  simp only [Chk.lift2, ha, hb]
  rw [← check_nat]; push_cast; rfl
private theorem sum_nat [NeZero N] (v : Vec (ChkU w) N) (a : Fin N → Nat) (ha : ∀ i : Fin N, v[i.1].val = fits w (a i)) :
    v.sum.val = fits w (∑ i, a i) := by
  have h := Vec.foldFirst_rel (r := fun (c : ChkU w) (z : Nat) => c.val = fits w z) (f := fun x y => x + y) (g := fun x y => x + y)
    (v := v) (w := ⟨Vector.ofFn a⟩) (fun h h' => add_nat h h') (by intro i hi; simpa using ha ⟨i, hi⟩)
  have e := Vec.sum_eq_sum (⟨Vector.ofFn a⟩ : Vec Nat N)
  simp at e
  rw [← e]; exact h

/-- Unsigned integers with overflow checks: the sum, dot product, matrix-vector and matrix-matrix products are returned exactly
when they fit in the type and panic exactly when they do not: there is no overflow of an intermediate value of a result that fits. -/
theorem C37_unsigned_sum [NeZero N] (v : Vec (ChkU w) N) (a : Fin N → Nat) (ha : ∀ i : Fin N, v[i.1].val = some (a i : Int))
    (hw : ∀ i, a i < 2 ^ w) : v.sum.val = if ∑ i, a i < 2 ^ w then some ((∑ i, a i : Nat) : Int) else none :=
  sum_nat v a fun i => by rw [ha, fits, if_pos (hw i)]
theorem C37_unsigned_dot [NeZero N] (v u : Vec (ChkU w) N) (a b : Fin N → Nat)
    (ha : ∀ i : Fin N, v[i.1].val = some (a i : Int)) (hb : ∀ i : Fin N, u[i.1].val = some (b i : Int)) :
    (v.dot u).val = if ∑ i, a i * b i < 2 ^ w then some ((∑ i, a i * b i : Nat) : Int) else none :=
  sum_nat _ _ fun i => by simpa using mul_nat (ha i) (hb i)
theorem C37_unsigned_square_length [NeZero N] (v : Vec (ChkU w) N) (a : Fin N → Nat)
    (ha : ∀ i : Fin N, v[i.1].val = some (a i : Int)) :
    v.squareLength.val = if ∑ i, a i * a i < 2 ^ w then some ((∑ i, a i * a i : Nat) : Int) else none :=
  sum_nat _ _ fun i => by simpa using mul_nat (ha i) (ha i)
theorem C37_unsigned_mat_vec [NeZero N] (A : Mat (ChkU w) M N) (v : Vec (ChkU w) N) (a : Fin M → Fin N → Nat) (b : Fin N → Nat)
    (ha : ∀ (i : Fin M) (j : Fin N), A[i.1][j.1].val = some (a i j : Int)) (hb : ∀ i : Fin N, v[i.1].val = some (b i : Int)) :
    ∃ y, A.dotVR v = .ok y ∧ ∀ i : Fin M, y[i.1].val =
      if ∑ j, a i j * b j < 2 ^ w then some ((∑ j, a i j * b j : Nat) : Int) else none :=
  ⟨_, Mat.dotVR_get A v, fun i => by simpa using C37_unsigned_dot A[i.1] v (a i) b (ha i) hb⟩
theorem C37_unsigned_mat_mat [NeZero M] (A : Mat (ChkU w) L M) (B : Mat (ChkU w) M N) (a : Fin L → Fin M → Nat) (b : Fin M → Fin N → Nat)
    (ha : ∀ (i : Fin L) (j : Fin M), A[i.1][j.1].val = some (a i j : Int))
    (hb : ∀ (i : Fin M) (j : Fin N), B[i.1][j.1].val = some (b i j : Int)) :
    ∃ C, A.dotMR B = .ok C ∧ ∀ (i : Fin L) (j : Fin N), C[i.1][j.1].val =
      if ∑ k, a i k * b k j < 2 ^ w then some ((∑ k, a i k * b k j : Nat) : Int) else none :=
  ⟨_, Mat.dotMR_get A B, fun i j => by
    simpa using C37_unsigned_dot A[i.1] (B.colOf j.1 j.2) (a i) (b · j) (ha i) (fun k => by simpa using hb k j)⟩

/-- `u8`: 15·15 + 5·6 = 255 fits, one more does not. -/
example : ((⟨#v[⟨some 15⟩, ⟨some 5⟩]⟩ : Vec (ChkU 8) 2).dot ⟨#v[⟨some 15⟩, ⟨some 6⟩]⟩).val = some 255 := by
  rw [C37_unsigned_dot _ _ ![15, 5] ![15, 6] (by intro i; fin_cases i <;> rfl) (by intro i; fin_cases i <;> rfl)]
  simp [Fin.sum_univ_two]
example : ((⟨#v[⟨some 16⟩, ⟨some 0⟩]⟩ : Vec (ChkU 8) 2).dot ⟨#v[⟨some 16⟩, ⟨some 6⟩]⟩).val = none := by
  rw [C37_unsigned_dot _ _ ![16, 0] ![16, 6] (by intro i; fin_cases i <;> rfl) (by intro i; fin_cases i <;> rfl)]
  simp [Fin.sum_univ_two]

/-! ## further cases: the hypotheses are satisfiable -/
namespace MachineIntEx
/-- A matrix or vector of checked machine integers. -/
def mat (a : Matrix (Fin M) (Fin N) Int) : Mat (Chk lo hi) M N := Mat.fromArrArr (Vector.ofFn fun i => Vector.ofFn fun j => ⟨some (a i j)⟩)
def vec (a : Fin N → Int) : Vec (Chk lo hi) N := Vec.fromArray (Vector.ofFn fun j => ⟨some (a j)⟩)
theorem vec_val (a : Fin N → Int) (i : Fin N) : (vec a : Vec (Chk lo hi) N)[i.1].val = some (a i) := by
  have : (vec a : Vec (Chk lo hi) N)[i.1] = ⟨some (a i)⟩ := Vector.getElem_ofFn i.2
  rw [this]
theorem mat_val (a : Matrix (Fin M) (Fin N) Int) (i : Fin M) (j : Fin N) : (mat a : Mat (Chk lo hi) M N)[i.1][j.1].val = some (a i j) := by
  have : (mat a : Mat (Chk lo hi) M N)[i.1] = vec (a i) := by
    simp [mat, Mat.fromArrArr, Mat.fromVecVec, Vec.fromArray, vec]
  rw [this, vec_val]
end MachineIntEx
open MachineIntEx
example := C37_checked_det (mat !![4, -3; 2, 1] : Mat (ChkI 8) 2 2) _ (mat_val _) (x := 10) (by decide +kernel)
example := C37_checked_adj (mat !![4, -3; 2, 1] : Mat (ChkI 8) 2 2) _ (mat_val _) 0 1 (x := 3) (by decide +kernel)
example := C37_checked_dot (vec ![4, -3] : Vec (ChkI 8) 2) (vec ![5, 7]) _ _ (vec_val _) (vec_val _) (x := -1) (by decide +kernel)
example := C37_checked_mat_mat (mat !![4, -3; 2, 1] : Mat (ChkI 8) 2 2) (mat !![4, -3, 0; 2, 1, 5]) _ _ (mat_val _) (mat_val _)
example := C37_checked_quaternion_mul (Quat.new ⟨some 1⟩ ⟨some 2⟩ ⟨some (-3)⟩ ⟨some 4⟩ : Quat (ChkI 8)) (Quat.new ⟨some 1⟩ ⟨some 2⟩ ⟨some (-3)⟩ ⟨some 4⟩)
  ⟨1, 2, -3, 4⟩ ⟨1, 2, -3, 4⟩ ⟨rfl, rfl, rfl, rfl⟩ ⟨rfl, rfl, rfl, rfl⟩
example := C37_debug_release_det (w := 8) (by omega) (mat !![4, -3; 2, 1]) ⟨⟨#v[⟨#v[4, -3]⟩, ⟨#v[2, 1]⟩]⟩⟩ (by decide +kernel) (x := 10) (by decide +kernel)
example := C37_debug_release_dot (w := 8) (by omega) (vec ![4, -3]) (vec ![5, 7]) ⟨#v[4, -3]⟩ ⟨#v[5, 7]⟩ (by decide +kernel) (by decide +kernel)
  (x := -1) (by decide +kernel)
example := C37_dot_no_overflow (by norm_num) 4 7 (by omega) (by omega) (vec ![4, -3] : Vec (ChkI 8) 2) (vec ![5, 7]) _ _ (vec_val _) (vec_val _)
  (by decide) (by decide) (by norm_num)
example := C37_unsigned_mat_mat (w := 8) (mat fun i j => ((!![4, 3; 200, 1] : Matrix (Fin 2) (Fin 2) Nat) i j : Int))
  (mat fun i j => ((!![4, 3; 2, 1] : Matrix (Fin 2) (Fin 2) Nat) i j : Int)) _ _ (mat_val _) (mat_val _)
example := C37_unsigned_mat_vec (w := 8) (mat fun i j => ((!![4, 3; 200, 1] : Matrix (Fin 2) (Fin 2) Nat) i j : Int))
  (vec fun i => ((![4, 3] : Fin 2 → Nat) i : Int)) _ _ (mat_val _) (vec_val _)
example := C37_unsigned_square_length (w := 8) (vec fun i => ((![4, 3] : Fin 2 → Nat) i : Int)) _ (vec_val _)
example := C37_unsigned_sum (w := 8) (vec fun i => ((![4, 3] : Fin 2 → Nat) i : Int)) _ (vec_val _) (by decide)

end Vecmat
