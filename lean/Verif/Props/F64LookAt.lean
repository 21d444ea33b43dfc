import Verif.Lemmas.F64Vec
import Verif.Props.Rotation
import Verif.Lemmas.IeeeExact
import Verif.Props.IeeeExact
/-! # C94: lengths, normalisation and `look_at` in double precision -/
namespace Vecmat
open Spec Ieee F64
set_option exponentiation.threshold 3000

/-- `length`: for every number of components up to `2^20`, if the length is between `2^-400` and `2^400` nothing overflows and the relative
error is at most `(N+5)u/2`. -/
theorem C94_length {N : Nat} [NeZero N] (hN : N ≤ 2 ^ 20) (v : Vec F N) (X : Vec ℝ N) (hv : ValV v X) (hl : 1 / 2 ^ 400 ≤ X.length) (hr : X.length ≤ 2 ^ 400) :
    ∃ l, v.length.toReal? = some l ∧ |l - X.length| ≤ (N + 5) / 2 ^ 54 * X.length := len_val hN hv hl hr
/-- `normalize`: under the same conditions, within `(N+9)u/2` of the unit vector in the direction of the argument, so of length `1` up to that
error. -/
theorem C94_normalize {N : Nat} [NeZero N] (hN : N ≤ 2 ^ 20) (v : Vec F N) (X : Vec ℝ N) (hv : ValV v X) (hl : 1 / 2 ^ 400 ≤ X.length) (hr : X.length ≤ 2 ^ 400) :
    ∃ W, ValV v.normalize W ∧ (W - X.normalize).length ≤ (N + 9) / 2 ^ 54 ∧ |W.length - 1| ≤ (N + 9) / 2 ^ 54 := by
  obtain ⟨W, h, e⟩ := nrm_val hN hv hl hr
  refine ⟨W, h, e, ?_⟩
  have := (length_close W X.normalize).trans e
  rwa [normalize_length (lt_of_lt_of_le (by positivity) hl)] at this
/-- `cross`: within `17u/4 |x||y|` of the exact product (plus a quantity below the smallest positive number when a product underflows). -/
theorem C94_cross (v w : Vec F 3) (X Y : Vec ℝ 3) (hv : ValV v X) (hw : ValV w Y) (h : X.length * Y.length ≤ 2 ^ 1000) :
    ∃ W, ValV (v.cross3 w) W ∧ (W - X.cross3 Y).length ≤ 17 / 2 ^ 55 * (X.length * Y.length) + 1 / 2 ^ 1072 := cross_val hv hw h

namespace F64
def cols (a b c : Vec ℝ 3) : Mat ℝ 3 3 := (Mat.fromArrVec #v[a, b, c]).transpose
theorem cols_close {a b c a' b' c' : Vec ℝ 3} {e : ℝ} (ha : (a - a').length ≤ e) (hb : (b - b').length ≤ e) (hc : (c - c').length ≤ e) (i j : Fin 3) :
    |(cols a b c).toMatrix i j - (cols a' b' c').toMatrix i j| ≤ e := by
  have k : ∀ {x y : Vec ℝ 3} (h : (x - y).length ≤ e) (i : Fin 3), |x[i.1] - y[i.1]| ≤ e := fun {x y} h i => by
    have := abs_le_norm (toE (x - y)) i
    rw [norm_toE, toE_apply, Vec.getElem_sub] at this
    exact this.trans h
  rw [cols, cols, Mat.toMatrix_cols3, Mat.toMatrix_cols3]
  fin_cases i <;> fin_cases j
  · exact k ha 0
  · exact k hb 0
  · exact k hc 0
  · exact k ha 1
  · exact k hb 1
  · exact k hc 1
  · exact k ha 2
  · exact k hb 2
  · exact k hc 2
theorem valM_iff {M N : Nat} (A : Mat F M N) (B : Mat ℝ M N) : ValM A B ↔ ∀ i j, (A.toMatrix i j).toReal? = some (B.toMatrix i j) := Iff.rfl
theorem entry {T : Type} {M N : Nat} (A : Mat T M N) (i : Fin M) (j : Fin N) : A[i.1][j.1] = A.toMatrix i j := rfl
theorem lookAt_lin {T : Type} [FloatOps T] [Neg T] [Add T] [Sub T] [Mul T] [Div T] (dir up : Vec T 3) :
    (Linear.lookAt dir up).intoMatrix = (Mat.fromArrVec #v[(dir.cross3 up).normalize, (dir.cross3 up).normalize.cross3 dir, -dir]).transpose := rfl
theorem cols_val {a b c : Vec F 3} {A B C : Vec ℝ 3} (ha : ValV a A) (hb : ValV b B) (hc : ValV c C) :
    ValM (Mat.fromArrVec #v[a, b, c]).transpose (cols A B C) := by
  rw [valM_iff]
  intro i j
  rw [cols, Mat.toMatrix_cols3, Mat.toMatrix_cols3]
  fin_cases i <;> fin_cases j
  · exact ha 0
  · exact hb 0
  · exact hc 0
  · exact ha 1
  · exact hb 1
  · exact hc 1
  · exact ha 2
  · exact hb 2
  · exact hc 2
theorem neg_valV {N : Nat} {v : Vec F N} {X : Vec ℝ N} (h : ValV v X) : ValV (-v) (-X) := fun i => by
  rw [Vec.getElem_neg, Vec.getElem_neg]; exact val_neg_iff.2 (by rw [neg_neg]; exact h i)
theorem length_self_sub {N : Nat} [NeZero N] (X : Vec ℝ N) : (X - X).length = 0 := by rw [← norm_toE, toE_sub, sub_self, norm_zero]
end F64

theorem C94_look_at (dir up : Vec F 3) (D U : Vec ℝ 3) (hd : ValV dir D) (hu : ValV up U) (hD : |D.length - 1| ≤ 1 / 2 ^ 10)
    (ul : 1 / 2 ^ 300 ≤ U.length) (ur : U.length ≤ 2 ^ 300) (σ : ℝ) (hσ : 1 / 2 ^ 40 ≤ σ) (hc : σ * (D.length * U.length) ≤ (D.cross3 U).length) :
    ∃ A, ValM (Linear.lookAt dir up).intoMatrix A ∧
      ∀ i j : Fin 3, |A[i.1][j.1] - (Linear.lookAt D U).intoMatrix[i.1][j.1]| ≤ (11 + 10 / σ) / 2 ^ 53 := by
  obtain ⟨R, S, hR, hS, eR, eS⟩ := frame_val hd hu hD ul ur hσ hc
  have σ0 : 0 < σ := lt_of_lt_of_le (by positivity) hσ
  have e9 : 9 / σ ≤ 10 / σ := by gcongr; norm_num
  rw [lookAt_lin, lookAt_lin]
  refine ⟨_, cols_val hR hS (neg_valV hd), fun i j => ?_⟩
  rw [entry, entry]
  exact cols_close (eR.trans (by gcongr; norm_num)) eS (by rw [length_self_sub]; positivity) i j

namespace F64
variable {φ : Fmt}
theorem dot3_ieee (v w : Vec (Ieee φ) 3) : v.dot w = v[0] * w[0] + v[1] * w[1] + v[2] * w[2] := by
  rw [Vec.dot, Vec.sum, Vec.foldFirst_congr (Vec.foldFirstR_succ _ _)]
  simp [List.ofFn_succ, Vec.getElem_map, Vec.getElem_zip]
theorem row_minus_z {a : Vec (Ieee φ) 3} {x y z : ℝ} (hφ : WF φ) (h0 : a[0].toReal? = some x) (h1 : a[1].toReal? = some y) (h2 : a[2].toReal? = some (-z))
    (hz : Representable φ z) : (a.dot (Vec.fromTuple3 (0, 0, -1))).toReal? = some z := by
  rw [dot3_ieee]
  have r0 := rep_zero hφ
  have e0 : Val (a[0] * (Vec.fromTuple3 ((0 : Ieee φ), 0, -1))[0]) (x * 0) := val_mul h0 val_zero' (by rwa [mul_zero])
  have e1 : Val (a[1] * (Vec.fromTuple3 ((0 : Ieee φ), 0, -1))[1]) (y * 0) := val_mul h1 val_zero' (by rwa [mul_zero])
  have e2 : Val (a[2] * (Vec.fromTuple3 ((0 : Ieee φ), 0, -1))[2]) (-z * -1) := val_mul h2 (val_neg val_one) (by simpa using hz)
  have := val_add (val_add e0 e1 (by simpa using r0)) e2 (by simpa using hz)
  show Val _ z
  simpa using this
end F64

/-- `look_at` maps the `-z` axis to `dir` without any rounding error, in every format, whenever the entries are finite. -/
theorem C94_look_at_forward {φ : Fmt} (hφ : WF φ) (dir up : Vec (Ieee φ) 3) (hd : ∀ i : Fin 3, Datum dir[i.1])
    (hf : ∀ i j : Fin 3, Finite (Linear.lookAt dir up).intoMatrix[i.1][j.1]) (i : Fin 3) :
    Same (Transform.apply (Linear.lookAt dir up) (Vec.fromTuple3 (0, 0, -1)))[i.1] dir[i.1] := by
  have hrow : ∀ j : Fin 3, (Linear.lookAt dir up).intoMatrix[i.1][j.1] = (!![(dir.cross3 up).normalize[0], ((dir.cross3 up).normalize.cross3 dir)[0], (-dir)[0];
      (dir.cross3 up).normalize[1], ((dir.cross3 up).normalize.cross3 dir)[1], (-dir)[1];
      (dir.cross3 up).normalize[2], ((dir.cross3 up).normalize.cross3 dir)[2], (-dir)[2]] : Matrix (Fin 3) (Fin 3) (Ieee φ)) i j := fun j => by
    rw [lookAt_lin, entry, Mat.toMatrix_cols3]
  have e : (Transform.apply (Linear.lookAt dir up) (Vec.fromTuple3 (0, 0, -1)))[i.1] =
    ((Linear.lookAt dir up).intoMatrix[i.1]).dot (Vec.fromTuple3 (0, 0, -1)) := Mat.getElem_dotV _ _ _ _
  have h2 : (Linear.lookAt dir up).intoMatrix[i.1][2] = -dir[i.1] := by
    rw [← Vec.getElem_neg]
    refine (hrow 2).trans ?_
    fin_cases i <;> rfl
  obtain ⟨x, hx⟩ := finite_val (hf i 0)
  obtain ⟨y, hy⟩ := finite_val (hf i 1)
  obtain ⟨z, hz⟩ := finite_val (hf i 2)
  have hz' : dir[i.1].toReal? = some (-z) := by
    rw [show (Linear.lookAt dir up).intoMatrix[i.1][(2 : Fin 3).1] = -dir[i.1] from h2] at hz
    exact val_neg_iff.1 hz
  rw [e]
  exact same_of_val (row_minus_z hφ hx hy (by rw [neg_neg]; exact hz) (Datum.rep hφ (hd i) hz')) hz'

namespace F64
variable {φ : Fmt}
theorem toEReal_of_val {a : Ieee φ} {x : ℝ} (h : a.toReal? = some x) : a.toEReal? = some (x : EReal) := by
  cases a <;> simp [Ieee.toReal?, Ieee.toEReal?] at h ⊢
  · rw [← h]; rfl
  · rw [h]
theorem rlt_val {a b : Ieee φ} {x y : ℝ} (ha : a.toReal? = some x) (hb : b.toReal? = some y) : rlt a b = true ↔ x < y := by
  unfold rlt
  show (match a.toEReal?, b.toEReal? with | some a, some b => some (compare a b) | _, _ => none) == some .lt ↔ _
  rw [toEReal_of_val ha, toEReal_of_val hb]
  simp [compare_lt_iff_lt]
theorem abs_val {a : Ieee φ} {x : ℝ} (ha : a.toReal? = some x) : (FloatOps.abs a).toReal? = some |x| := by
  show a.abs.toReal? = _
  cases a <;> simp [Ieee.toReal?, Ieee.abs] at ha ⊢
  · rw [← ha, abs_zero]
  · rw [ha]
theorem half_val : (half : Ieee φ).toReal? = some (1 / 2) := rfl
/-- The exact rotation next to `look_at_any`. -/
theorem lookAt_normalize_close {D U : Vec ℝ 3} (hD : 0 < D.length) (hc : 0 < (D.cross3 U).length) (i j : Fin 3) :
    |(Linear.lookAt D U).intoMatrix[i.1][j.1] - (Linear.lookAt D.normalize U).intoMatrix[i.1][j.1]| ≤ |D.length - 1| := by
  have en : (D.normalize.cross3 U).normalize = (D.cross3 U).normalize := by
    have e1 : D.normalize.cross3 U = (D.cross3 U).divS D.length := by
      apply Vec.ext3 <;> simp [Vec.normalize] <;> ring
    have e2 : toE (D.normalize.cross3 U).normalize = toE (D.cross3 U).normalize := by
      rw [normalize_eq, normalize_eq, e1, toE_divS, norm_smul, norm_inv, Real.norm_eq_abs, abs_of_pos hD, smul_smul]
      congr 1
      field_simp
    apply Vec.ext_getElem
    intro k hk
    have := congrArg (fun f => f ⟨k, hk⟩) e2
    exact this
  have dd : (D - D.normalize).length = |D.length - 1| := by
    rw [← norm_toE, toE_sub, normalize_eq, norm_toE]
    have : toE D - D.length⁻¹ • toE D = (1 - D.length⁻¹) • toE D := by rw [sub_smul, one_smul]
    rw [this, norm_smul, norm_toE, Real.norm_eq_abs, ← abs_of_pos hD, ← abs_mul, abs_of_pos hD, sub_mul, inv_mul_cancel₀ hD.ne', one_mul]
  rw [lookAt_lin, lookAt_lin, entry, entry, en]
  refine cols_close (by rw [length_self_sub]; positivity) ?_ ?_ i j
  · have e : (D.cross3 U).normalize.cross3 D - (D.cross3 U).normalize.cross3 D.normalize = (D.cross3 U).normalize.cross3 (D - D.normalize) := by
      apply Vec.ext3 <;> simp <;> ring
    rw [e]
    refine (cross_le _ _).trans ?_
    rw [normalize_length hc, one_mul, dd]
  · rw [← dd, ← norm_toE, ← norm_toE, toE_sub, toE_sub, toE_neg, toE_neg, neg_sub_neg, norm_sub_rev]
theorem up_z (D : Vec ℝ 3) : (D.cross3 (Vec.fromArray #v[0, 0, 1])).length ^ 2 = D[0] ^ 2 + D[1] ^ 2 := by
  rw [length3]; simp; ring
theorem up_y (D : Vec ℝ 3) : (D.cross3 (Vec.fromArray #v[0, 1, 0])).length ^ 2 = D[0] ^ 2 + D[2] ^ 2 := by
  rw [length3]; simp; ring
end F64

/-- `Linear::look_at_any`: for a direction of length `1` up to `δ ≤ 2^-10` the matrix is finite and within `32u + δ`, entry by entry, of a
rotation matrix that maps `-z` to the normalised direction. -/
theorem C94_look_at_any (dir : Vec F 3) (D : Vec ℝ 3) (hd : ValV dir D) (δ : ℝ) (hD : |D.length - 1| ≤ δ) (hδ : δ ≤ 1 / 2 ^ 10) :
    ∃ A, ValM (Linear.lookAtAny dir).intoMatrix A ∧ ∃ R : Mat ℝ 3 3, IsRotation R ∧
      Transform.apply (Linear.fromMatrix R) (Vec.fromTuple3 (0, 0, -1)) = D.normalize ∧
      ∀ i j : Fin 3, |A[i.1][j.1] - R[i.1][j.1]| ≤ 32 / 2 ^ 53 + δ := by
  have hD' := hD.trans hδ
  obtain ⟨dl, dr⟩ := abs_le.1 hD'
  have d0 : 0 < D.length := by norm_num at dl ⊢; linarith
  have l3 := length3 D
  have u1 : (Vec.fromArray #v[(0:ℝ), 0, 1]).length = 1 := by
    have := length3 (Vec.fromArray #v[(0:ℝ), 0, 1]); simp at this
    rcases this with h | h
    · exact h
    · have := length_nonneg (Vec.fromArray #v[(0:ℝ), 0, 1]); linarith
  have u2 : (Vec.fromArray #v[(0:ℝ), 1, 0]).length = 1 := by
    have := length3 (Vec.fromArray #v[(0:ℝ), 1, 0]); simp at this
    rcases this with h | h
    · exact h
    · have := length_nonneg (Vec.fromArray #v[(0:ℝ), 1, 0]); linarith
  have key : ∀ (up : Vec F 3) (U : Vec ℝ 3), ValV up U → U.length = 1 → (49 / 100 * D.length) ^ 2 ≤ (D.cross3 U).length ^ 2 →
      ∃ A, ValM (Linear.lookAt dir up).intoMatrix A ∧ ∃ R : Mat ℝ 3 3, IsRotation R ∧
        Transform.apply (Linear.fromMatrix R) (Vec.fromTuple3 (0, 0, -1)) = D.normalize ∧
        ∀ i j : Fin 3, |A[i.1][j.1] - R[i.1][j.1]| ≤ 32 / 2 ^ 53 + δ := by
    intro up U hu hU hc
    have hc' : 49 / 100 * D.length ≤ (D.cross3 U).length := abs_le_of_sq_le_sq' hc (length_nonneg _) |>.2
    have c0 : 0 < (D.cross3 U).length := lt_of_lt_of_le (by positivity) hc'
    obtain ⟨A, hA, eA⟩ := C94_look_at dir up D U hd hu hD' (by rw [hU]; norm_num) (by rw [hU]; norm_num) (49 / 100) (by norm_num) (by rw [hU, mul_one]; exact hc')
    have hne : D.normalize.cross3 U ≠ 0 := by
      intro h
      have e1 : D.normalize.cross3 U = (D.cross3 U).divS D.length := by
        apply Vec.ext3 <;> simp [Vec.normalize] <;> ring
      have e2 : ‖toE (D.normalize.cross3 U)‖ = 0 := by
        rw [h]; rw [norm_eq_zero]; ext i; simp
      rw [e1, toE_divS, norm_smul, norm_inv, Real.norm_eq_abs, abs_of_pos d0, norm_toE] at e2
      have : 0 < D.length⁻¹ * (D.cross3 U).length := by positivity
      linarith
    obtain ⟨hr, hz, -, -⟩ := C57_linear_look_at D.normalize U (normalize_length d0) hne
    refine ⟨A, hA, _, hr, hz, fun i j => ?_⟩
    have h2 := lookAt_normalize_close d0 c0 i j
    refine (abs_sub_le _ _ _).trans ((add_le_add (eA i j) (h2.trans hD)).trans ?_)
    gcongr
    norm_num
  unfold Linear.lookAtAny
  have hb : rlt (FloatOps.abs dir.z) (half : F) = true ↔ |D[2]| < 1 / 2 := rlt_val (abs_val (hd 2)) half_val
  split
  · next h =>
    rw [hb] at h
    refine key _ (Vec.fromArray #v[0, 0, 1]) (fun i => by fin_cases i <;> rfl) u1 ?_
    rw [up_z]
    have h4 : D[2] ^ 2 ≤ 1 / 4 := by rw [← sq_abs]; nlinarith [abs_nonneg D[2]]
    norm_num at dl
    nlinarith
  · next h =>
    rw [hb, not_lt] at h
    refine key _ (Vec.fromArray #v[0, 1, 0]) (fun i => by fin_cases i <;> rfl) u2 ?_
    rw [up_y]
    have h4 : 1 / 4 ≤ D[2] ^ 2 := by rw [← sq_abs]; nlinarith
    norm_num at dr
    nlinarith [sq_nonneg D[0]]

/-! ## `Rotation3::look_at_any` -/
namespace F64
variable {φ : Fmt}
/-- Not below zero: NaN included. -/
def NotNeg (a : Ieee φ) : Prop := rlt a 0 = false
def ZeroOrNan (a : Ieee φ) : Prop := a = .nan ∨ ∃ s, a = .zero s
theorem zero_mul_zn (s : Bool) (a : Ieee φ) : ZeroOrNan (Ieee.zero s * a) := by
  cases a <;> simp [ZeroOrNan, Ieee.mul_def, Ieee.mul]
theorem zn_add {a b : Ieee φ} (ha : ZeroOrNan a) (hb : ZeroOrNan b) : ZeroOrNan (a + b) := by
  rcases ha with rfl | ⟨s, rfl⟩ <;> rcases hb with rfl | ⟨t, rfl⟩ <;> simp [ZeroOrNan, Ieee.add_def, Ieee.add]
theorem notNeg_iff {a : Ieee φ} : NotNeg a ↔ (a = .nan ∨ a = .inf false ∨ (∃ s, a = .zero s) ∨ ∃ x h, 0 < x ∧ a = .num x h) := by
  unfold NotNeg rlt
  show ((match a.toEReal?, (0 : Ieee φ).toEReal? with | some a, some b => some (compare a b) | _, _ => none) == some .lt) = false ↔ _
  have h0 : (0 : Ieee φ).toEReal? = some 0 := rfl
  rw [h0]
  cases a with
  | nan => simp [Ieee.toEReal?]
  | inf s => cases s <;> simp [Ieee.toEReal?, compare_lt_iff_lt]
  | zero s => simp [Ieee.toEReal?]
  | num x h =>
    simp [Ieee.toEReal?, compare_lt_iff_lt]
    exact ⟨fun h' => ⟨lt_of_le_of_ne h' (Ne.symm h), h⟩, fun h' => h'.1.le⟩
theorem notNeg_rnd {x : ℝ} (hx : 0 ≤ x) : NotNeg (rnd x : Ieee φ) := by
  rw [notNeg_iff]
  unfold rnd ofReal
  have hn := Fmt.near_nonneg (φ := φ) hx
  have h0 : ¬ x < 0 := by linarith
  split
  · right; left; simp [h0]
  · split
    · right; right; left; exact ⟨_, rfl⟩
    · next h => right; right; right; exact ⟨_, h, lt_of_le_of_ne hn (Ne.symm h), rfl⟩
theorem zn_add_notNeg {a b : Ieee φ} (ha : ZeroOrNan a) (hb : NotNeg b) : NotNeg (a + b) := by
  rw [notNeg_iff] at hb
  rcases ha with rfl | ⟨s, rfl⟩
  · rw [notNeg_iff]; left; simp [Ieee.add_def, Ieee.add]
  · rcases hb with rfl | rfl | ⟨t, rfl⟩ | ⟨x, h, hx, rfl⟩
    · rw [notNeg_iff]; left; rfl
    · rw [notNeg_iff]; right; left; rfl
    · rw [notNeg_iff]; right; right; left; exact ⟨_, rfl⟩
    · exact notNeg_rnd hx.le
theorem minus_one_mul {a : Ieee φ} (h : NotNeg (-a)) : NotNeg (-1 * a) := by
  have h1 : (-1 : Ieee φ) = .num (-1) (by norm_num) := rfl
  rw [h1]
  rw [notNeg_iff] at h
  cases a with
  | nan => rw [notNeg_iff]; left; rfl
  | inf s =>
    rcases h with h | h | ⟨t, h⟩ | ⟨x, hx, -, h⟩
    · exact absurd h (by simp [Ieee.neg_def, Ieee.neg])
    · rw [notNeg_iff]; right; left
      have : s = true := by simpa [Ieee.neg_def, Ieee.neg] using h
      subst this
      simp [Ieee.mul_def, Ieee.mul]
    · exact absurd h (by simp [Ieee.neg_def, Ieee.neg])
    · exact absurd h (by simp [Ieee.neg_def, Ieee.neg])
  | zero s => rw [notNeg_iff]; right; right; left; exact ⟨_, rfl⟩
  | num x hx =>
    rcases h with h | h | ⟨t, h⟩ | ⟨y, hy, y0, h⟩
    · exact absurd h (by simp [Ieee.neg_def, Ieee.neg])
    · exact absurd h (by simp [Ieee.neg_def, Ieee.neg])
    · exact absurd h (by simp [Ieee.neg_def, Ieee.neg])
    · have : -x = y := by simpa [Ieee.neg_def, Ieee.neg] using h
      exact notNeg_rnd (by linarith)
theorem dot_notNeg {dir : Vec (Ieee φ) 3} (h : NotNeg (-dir[2])) : NotNeg ((Vec.fromTuple3 ((0 : Ieee φ), 0, -1)).dot dir) := by
  rw [dot3_ieee]
  exact zn_add_notNeg (zn_add (zero_mul_zn _ _) (zero_mul_zn _ _)) (minus_one_mul h)
theorem neg_notNeg_of_neg {a : Ieee φ} (h : rlt a 0 = true) : NotNeg (-a) := by
  rw [notNeg_iff]
  have h' : ¬ NotNeg a := by unfold NotNeg; rw [h]; simp
  rw [notNeg_iff] at h'
  push Not at h'
  obtain ⟨h1, h2, h3, h4⟩ := h'
  cases a with
  | nan => exact absurd rfl h1
  | inf s => cases s with
    | false => exact absurd rfl h2
    | true => right; left; rfl
  | zero s => exact absurd rfl (h3 s)
  | num x hx =>
    right; right; right
    refine ⟨-x, neg_ne_zero.2 hx, ?_, rfl⟩
    by_contra hc
    exact h4 x hx (lt_of_le_of_ne (by linarith) (Ne.symm hx)) rfl
theorem neg_neg_ieee (a : Ieee φ) : - -a = a := by cases a <;> simp [Ieee.neg_def, Ieee.neg]
/-- What the second function of the recursion returns when the direction is not behind. -/
def front {T : Type} [FloatOps T] [NumConst T] [Neg T] [Add T] [Sub T] [Mul T] [Div T] [Zero T] [One T] (dir : Vec T 3) : Rotation3 T :=
  Rotation3.fromQuaternion (Quat.fromScalarAndVector3 (FloatOps.sqrt ((1 + (Vec.fromTuple3 ((0 : T), 0, -1)).dot dir) / two))
    (((Vec.fromTuple3 ((0 : T), 0, -1)).cross3 dir).mulS (1 / (two * FloatOps.sqrt ((1 + (Vec.fromTuple3 ((0 : T), 0, -1)).dot dir) / two)))))
section
variable [FloatOps (Ieee φ)]
variable [FloatConst (Ieee φ)]
theorem cont_front {dir : Vec (Ieee φ) 3} (h : NotNeg (-dir[2])) (n : Nat) : Rotation3.lookAtAnyContR (n + 1) dir = .ok (front dir) := by
  rw [Rotation3.lookAtAnyContR]
  have := dot_notNeg h
  simp only [show rlt _ _ = false from this, Bool.false_eq_true, if_false]
  rfl
theorem any_neg {dir : Vec (Ieee φ) 3} (h : rlt dir[2] 0 = true) {fuel : Nat} (hf : 2 ≤ fuel) : Rotation3.lookAtAnyR fuel dir = .ok (front dir) := by
  obtain ⟨n, rfl⟩ : ∃ n, fuel = n + 2 := ⟨fuel - 2, by omega⟩
  rw [Rotation3.lookAtAnyR, Vec.z_eq, if_pos h, cont_front (neg_notNeg_of_neg h)]
theorem any_pos {dir : Vec (Ieee φ) 3} (h : NotNeg dir[2]) {fuel : Nat} (hf : 2 ≤ fuel) : Rotation3.lookAtAnyR fuel dir =
    .ok (Transform.chain (Vec (Ieee φ) 3) (front (-dir)) (Rotation3.new (Vec.fromTuple3 (1, 0, 0)) FloatConst.pi)) := by
  obtain ⟨n, rfl⟩ : ∃ n, fuel = n + 2 := ⟨fuel - 2, by omega⟩
  have h' : ¬ rlt dir.z 0 = true := by rw [Bool.not_eq_true]; exact h
  rw [Rotation3.lookAtAnyR, if_neg h', cont_front (by rw [Vec.getElem_neg, neg_neg_ieee]; exact h)]
  rfl
end
end F64

/-- `Rotation3::look_at_any` returns for every datum: whatever the direction holds (NaN, infinities, zeros, any length), in every format and
with every mathematical library, the mutual recursion ends at the second call. -/
theorem C94_rotation_look_at_any_total {φ : Fmt} [FloatOps (Ieee φ)] [FloatConst (Ieee φ)] (dir : Vec (Ieee φ) 3) :
    ∃ r, ∀ fuel, 2 ≤ fuel → Rotation3.lookAtAnyR fuel dir = .ok r := by
  by_cases hz : rlt dir[2] 0 = true
  · exact ⟨_, fun fuel hf => any_neg hz hf⟩
  · exact ⟨_, fun fuel hf => any_pos (by unfold NotNeg; rw [Bool.eq_false_iff]; exact hz) hf⟩
end Vecmat
