import Verif.Props.IeeeSym
import Verif.Lemmas.Det
import Verif.Lemmas.Moebius
/-!
# C81: NaN propagation
Scalars are IEEE-754 floats.  A NaN component of an input shows up in the result of every operation that uses it.
-/
namespace Vecmat
open Spec Ieee
variable {φ : Fmt} {L M N : Nat}

/-! ## scalar operations -/
namespace Ieee
variable (a : Ieee φ)
@[simp] theorem nan_add : (nan : Ieee φ) + a = nan := by rw [add_def]; cases a <;> rfl
@[simp] theorem add_nan : a + (nan : Ieee φ) = nan := by rw [iadd_comm]; simp
@[simp] theorem neg_nan : -(nan : Ieee φ) = nan := rfl
@[simp] theorem nan_sub : (nan : Ieee φ) - a = nan := by rw [sub_def]; simp
@[simp] theorem sub_nan : a - (nan : Ieee φ) = nan := by rw [sub_def]; simp
@[simp] theorem nan_mul : (nan : Ieee φ) * a = nan := by rw [mul_def]; cases a <;> rfl
@[simp] theorem mul_nan : a * (nan : Ieee φ) = nan := by rw [imul_comm]; simp
@[simp] theorem nan_div : (nan : Ieee φ) / a = nan := by rw [div_def]; cases a <;> rfl
@[simp] theorem div_nan : a / (nan : Ieee φ) = nan := by rw [div_def]; cases a <;> rfl
@[simp] theorem sqrt_nan : FloatOps.sqrt (nan : Ieee φ) = nan := rfl
@[simp] theorem abs_nan : (nan : Ieee φ).abs = nan := rfl
end Ieee

theorem C81_scalar (a : Ieee φ) : .nan + a = (.nan : Ieee φ) ∧ a + .nan = .nan ∧ .nan - a = (.nan : Ieee φ) ∧ a - .nan = .nan ∧
    .nan * a = (.nan : Ieee φ) ∧ a * .nan = .nan ∧ .nan / a = (.nan : Ieee φ) ∧ a / .nan = .nan := by simp

/-! ## vectors -/
theorem foldl_nan (l : List (Ieee φ)) : l.foldl (fun x y => x + y) .nan = .nan := by
  induction l with
  | nil => rfl
  | cons a l ih => simpa using ih
theorem foldl_nan_of_mem (l : List (Ieee φ)) (h : .nan ∈ l) (a : Ieee φ) : l.foldl (fun x y => x + y) a = .nan := by
  induction l generalizing a with
  | nil => simp at h
  | cons b l ih =>
    rcases List.mem_cons.mp h with h | h
    · subst h; simpa using foldl_nan l
    · exact ih h _

theorem C81_sum (v : Vec (Ieee φ) N) (i : Nat) (hi : i < N) (h : v[i] = .nan) : v.sumR = .ok .nan := by
  obtain ⟨n, rfl⟩ : ∃ n, N = n + 1 := ⟨N - 1, by omega⟩
  rw [Vec.sumR, Vec.foldFirstR_succ]
  congr 1
  match i, hi with
  | 0, _ => rw [h]; exact foldl_nan _
  | i + 1, hi => exact foldl_nan_of_mem _ (by rw [List.mem_ofFn]; exact ⟨⟨i, by omega⟩, h⟩) _
theorem C81_dot (v w : Vec (Ieee φ) N) (i : Nat) (hi : i < N) (h : v[i] = .nan ∨ w[i] = .nan) : v.dotR w = .ok .nan := by
  refine C81_sum _ i hi ?_
  rcases h with h | h <;> simp [h]
theorem C81_norms (v : Vec (Ieee φ) N) (i : Nat) (hi : i < N) (h : v[i] = .nan) :
    v.normL1R = .ok .nan ∧ v.normL2SqrR = .ok .nan ∧ v.normL2R = .ok .nan ∧ v.squareLengthR = .ok .nan ∧ v.lengthR = .ok .nan := by
  have h2 : (v.map fun x => x * x).sumR = .ok .nan := C81_sum _ i hi (by simp [h])
  refine ⟨C81_sum _ i hi ?_, h2, ?_, h2, ?_⟩
  · rw [Vec.getElem_map, h]; rfl
  · simp [Vec.normL2R, Vec.normL2SqrR, h2]
  · simp [Vec.lengthR, Vec.squareLengthR, h2]
/-- Normalising a vector with a NaN component gives NaN everywhere. -/
theorem C81_normalize (v : Vec (Ieee φ) N) (i : Nat) (hi : i < N) (h : v[i] = .nan) :
    ∃ w, v.normalizeR = .ok w ∧ ∀ j (hj : j < N), w[j] = .nan := by
  refine ⟨_, by rw [Vec.normalizeR, (C81_norms v i hi h).2.2.2.2]; rfl, fun j hj => by simp⟩
/-- Every comparison with NaN is false, `!=` is true. -/
theorem C81_compare (v w : Vec (Ieee φ) N) (i : Nat) (hi : i < N) (h : v[i] = .nan ∨ w[i] = .nan) :
    (v.veq w)[i] = false ∧ (v.vne w)[i] = true ∧ (v.vlt w)[i] = false ∧ (v.vle w)[i] = false ∧ (v.vgt w)[i] = false ∧
      (v.vge w)[i] = false := by
  have e : (v[i] == w[i]) = false := by
    rcases h with h | h <;> rw [h]
    · rfl
    · show (match v[i].toEReal?, (Ieee.nan : Ieee φ).toEReal? with | some a, some b => decide (a = b) | _, _ => false) = false
      cases v[i] <;> rfl
  have p : RPartialOrd.pcmp v[i] w[i] = none := by
    rcases h with h | h <;> rw [h]
    · rfl
    · show (match v[i].toEReal?, (Ieee.nan : Ieee φ).toEReal? with | some a, some b => some (compare a b) | _, _ => none) = none
      cases v[i] <;> rfl
  simp [Vec.veq, Vec.vne, Vec.vlt, Vec.vle, Vec.vgt, Vec.vge, rlt, rle, rgt, rge, e, p, bne]

/-! ## matrices -/
theorem dot_nan [NeZero N] (v w : Vec (Ieee φ) N) (i : Nat) (hi : i < N) (h : v[i] = .nan ∨ w[i] = .nan) : v.dot w = .nan := by
  have := C81_dot v w i hi h
  rw [Vec.dot_ok] at this; exact Except.ok.inj this
theorem C81_mat_vec (A : Mat (Ieee φ) M N) (v : Vec (Ieee φ) N) (k : Nat) (hk : k < N) :
    ∃ x, A.dotVR v = .ok x ∧ (∀ i (hi : i < M), A[i][k] = .nan → x[i] = .nan) ∧ (v[k] = .nan → ∀ i (hi : i < M), x[i] = .nan) := by
  have : NeZero N := ⟨by omega⟩
  refine ⟨_, Mat.dotVR_get A v, fun i hi h => ?_, fun h i hi => ?_⟩
  · simpa using dot_nan A[i] v k hk (.inl h)
  · simpa using dot_nan A[i] v k hk (.inr h)
theorem C81_mat_mat (A : Mat (Ieee φ) L M) (B : Mat (Ieee φ) M N) (k : Nat) (hk : k < M) :
    ∃ X, A.dotMR B = .ok X ∧ (∀ i (hi : i < L), A[i][k] = .nan → ∀ j (hj : j < N), X[i][j] = .nan) ∧
      (∀ j (hj : j < N), B[k][j] = .nan → ∀ i (hi : i < L), X[i][j] = .nan) := by
  have : NeZero M := ⟨by omega⟩
  refine ⟨_, Mat.dotMR_get A B, fun i hi h j hj => ?_, fun j hj h i hi => ?_⟩
  · simpa using dot_nan A[i] (B.colOf j hj) k hk (.inl h)
  · simpa using dot_nan A[i] (B.colOf j hj) k hk (.inr (by simpa using h))

theorem lap_nan {f : Nat → Nat → Ieee φ} (R C : List Nat) (hl : R.length = C.length) (i : Nat) (hi : i ∈ R) (m : Nat)
    (hm : m < C.length) (h : f i C[m] = .nan) : Mat.lap f R C = .nan := by
  induction R generalizing C m with
  | nil => simp at hi
  | cons i0 R ih =>
    have loop : ∀ (l : List Nat) (a : Ieee φ), (a = .nan ∨ ∃ k ∈ l, f i0 (C[k]?.getD 0) * Mat.sgn k (Mat.lap f R (C.eraseIdx k)) = .nan) →
        l.foldl (fun a k => a + f i0 (C[k]?.getD 0) * Mat.sgn k (Mat.lap f R (C.eraseIdx k))) a = .nan := by
      intro l
      induction l with
      | nil => rintro a (h | ⟨k, hk, -⟩); exact h; simp at hk
      | cons k l ihl =>
        rintro a h
        refine ihl _ ?_
        rcases h with rfl | ⟨k', hk', h⟩
        · left; simp
        · rcases List.mem_cons.mp hk' with rfl | hk'
          · left; simp [h]
          · exact .inr ⟨k', hk', h⟩
    unfold Mat.lap
    refine loop _ _ (.inr ?_)
    by_cases h0 : i = i0
    · subst h0
      refine ⟨m, by simpa using hm, ?_⟩
      simp [List.getElem?_eq_getElem hm, h]
    · have hiR : i ∈ R := by simpa [h0] using hi
      have hR : 0 < R.length := List.length_pos_of_mem hiR
      simp only [List.length_cons] at hl
      obtain ⟨k, hk, hne⟩ : ∃ k, k < C.length ∧ k ≠ m := by
        by_cases hm0 : m = 0
        · exact ⟨1, by omega, by omega⟩
        · exact ⟨0, by omega, by omega⟩
      refine ⟨k, by simpa using hk, ?_⟩
      have hlen : (C.eraseIdx k).length = C.length - 1 := List.length_eraseIdx_of_lt hk
      have : Mat.lap f R (C.eraseIdx k) = .nan := by
        by_cases hlt : m < k
        · refine ih (C.eraseIdx k) (by omega) hiR m (by omega) ?_
          rw [List.getElem_eraseIdx_of_lt _ hlt]; exact h
        · refine ih (C.eraseIdx k) (by omega) hiR (m - 1) (by omega) ?_
          rw [List.getElem_eraseIdx_of_ge _ (by omega)]
          simpa [show m - 1 + 1 = m by omega] using h
      rw [this]
      unfold Mat.sgn; split <;> simp
/-- A NaN anywhere in the matrix makes the determinant NaN. -/
theorem C81_det (A : Mat (Ieee φ) N N) (i j : Nat) (hi : i < N) (hj : j < N) (h : A[i][j] = .nan) : A.detR = .ok .nan := by
  rw [Mat.detR_eq]; congr 1
  refine lap_nan _ _ rfl i (by simpa using hi) j (by simpa using hj) ?_
  simpa [Mat.ent_lt A i j hi hj] using h
/-- ... and every entry of the inverse. -/
theorem C81_inv (A : Mat (Ieee φ) N N) (i j : Nat) (hi : i < N) (hj : j < N) (h : A[i][j] = .nan) :
    ∃ B, A.invR = .ok B ∧ ∀ k (hk : k < N) l (hl : l < N), B[k][l] = .nan := by
  obtain ⟨B, hB, -⟩ := Mat.adjR_ok A
  refine ⟨B.divS .nan, ?_, ?_⟩
  · simp [Mat.invR, hB, C81_det A i j hi hj h]
  · intro k hk l hl; simp

/-! ## complex numbers, quaternions, transformations -/
theorem C81_complex (z w : Cpx (Ieee φ)) (h : z.re = .nan ∨ z.im = .nan) :
    z * w = Cpx.new .nan .nan ∧ w * z = Cpx.new .nan .nan ∧ z.normSqr = .nan ∧ z.norm = .nan ∧ z.inv = Cpx.new .nan .nan ∧
      z / w = Cpx.new .nan .nan ∧ w / z = Cpx.new .nan .nan ∧ z.normalize = Cpx.new .nan .nan := by
  have hm : ∀ w : Cpx (Ieee φ), z * w = Cpx.new .nan .nan := by
    intro w
    apply Cpx.ext' <;> rcases h with h | h <;> simp [h]
  have hn : z.normSqr = .nan := by
    have : z.vec.squareLengthR = .ok .nan := by
      rcases h with h | h
      · exact (C81_norms z.vec 0 (by omega) (by simpa using h)).2.2.2.1
      · exact (C81_norms z.vec 1 (by omega) (by simpa using h)).2.2.2.1
    rw [Vec.squareLength_ok] at this; exact Except.ok.inj this
  have hl : z.norm = .nan := by show FloatOps.sqrt z.normSqr = _; rw [hn]; rfl
  have hi : z.inv = Cpx.new .nan .nan := by
    apply Cpx.ext' <;> simp [Cpx.inv, hn]
  refine ⟨hm w, by rw [C80_complex_mul_comm, hm], hn, hl, hi, hm _, ?_, ?_⟩
  · rw [Cpx.div_def, hi]; apply Cpx.ext' <;> simp
  · apply Cpx.ext' <;> simp [Cpx.normalize, hl]
theorem C81_quaternion (p q : Quat (Ieee φ)) (h : p.w = .nan ∨ p.x = .nan ∨ p.y = .nan ∨ p.z = .nan) :
    p * q = Quat.new .nan .nan .nan .nan ∧ q * p = Quat.new .nan .nan .nan .nan ∧ p.norm = .nan ∧
      p.inv = Quat.new .nan .nan .nan .nan ∧ p / q = Quat.new .nan .nan .nan .nan ∧ q / p = Quat.new .nan .nan .nan .nan ∧
      p.normalize = Quat.new .nan .nan .nan .nan := by
  have hm : ∀ q : Quat (Ieee φ), p * q = Quat.new .nan .nan .nan .nan := by
    intro q
    apply Quat.ext' <;> rcases h with h | h | h | h <;> simp [h]
  have hn : p.normSqr = .nan := by
    have : p.vec.squareLengthR = .ok .nan := by
      rcases h with h | h | h | h
      · exact (C81_norms p.vec 0 (by omega) (by simpa using h)).2.2.2.1
      · exact (C81_norms p.vec 1 (by omega) (by simpa using h)).2.2.2.1
      · exact (C81_norms p.vec 2 (by omega) (by simpa using h)).2.2.2.1
      · exact (C81_norms p.vec 3 (by omega) (by simpa using h)).2.2.2.1
    rw [Vec.squareLength_ok] at this; exact Except.ok.inj this
  have hl : p.norm = .nan := by show FloatOps.sqrt p.normSqr = _; rw [hn]; rfl
  have hi : p.inv = Quat.new .nan .nan .nan .nan := by
    apply Quat.ext' <;> simp [Quat.inv, hn]
  refine ⟨hm q, ?_, hl, hi, hm _, ?_, ?_⟩
  · apply Quat.ext' <;> rcases h with h | h | h | h <;> simp [h]
  · show q * p.inv = _; rw [hi]; apply Quat.ext' <;> simp
  · apply Quat.ext' <;> simp [Quat.normalize, hl]
/-- Moebius transformations of complex points: a NaN in the point or in any coefficient. -/
theorem C81_moebius (m : Moebius (Cpx (Ieee φ))) (z : Cpx (Ieee φ))
    (h : ∃ c ∈ [m.a, m.b, m.c, m.d, z], c.re = .nan ∨ c.im = .nan) :
    (m.apply z).re = .nan ∨ (m.apply z).im = .nan := by
  have key : ∀ x y : Cpx (Ieee φ), (x.re = .nan ∨ x.im = .nan) ∨ (y.re = .nan ∨ y.im = .nan) → (x / y).re = .nan ∨ (x / y).im = .nan := by
    rintro x y (h | h)
    · rw [(C81_complex x y h).2.2.2.2.2.1]; simp
    · rw [(C81_complex y x h).2.2.2.2.2.2.1]; simp
  have kmul : ∀ x y : Cpx (Ieee φ), (x.re = .nan ∨ x.im = .nan) ∨ (y.re = .nan ∨ y.im = .nan) → (x * y).re = .nan ∨ (x * y).im = .nan := by
    rintro x y (h | h)
    · rw [(C81_complex x y h).1]; simp
    · rw [(C81_complex y x h).2.1]; simp
  have kadd : ∀ x y : Cpx (Ieee φ), (x.re = .nan ∨ x.im = .nan) ∨ (y.re = .nan ∨ y.im = .nan) → (x + y).re = .nan ∨ (x + y).im = .nan := by
    rintro x y ((h | h) | (h | h)) <;> simp [h]
  obtain ⟨c, hc, h⟩ := h
  simp only [List.mem_cons, List.not_mem_nil, or_false] at hc
  unfold Moebius.apply
  rcases hc with rfl | rfl | rfl | rfl | rfl
  · exact key _ _ (.inl (kadd _ _ (.inl (kmul _ _ (.inl h)))))
  · exact key _ _ (.inl (kadd _ _ (.inr h)))
  · exact key _ _ (.inr (kadd _ _ (.inl (kmul _ _ (.inl h)))))
  · exact key _ _ (.inr (kadd _ _ (.inr h)))
  · exact key _ _ (.inl (kadd _ _ (.inl (kmul _ _ (.inr h)))))
/-- Rotations in space: a NaN in the quaternion or in the vector makes every component NaN. -/
theorem C81_rotation3 (q : Quat (Ieee φ)) (v : Vec (Ieee φ) 3)
    (h : (q.w = .nan ∨ q.x = .nan ∨ q.y = .nan ∨ q.z = .nan) ∨ ∃ i, ∃ hi : i < 3, v[i] = .nan) (j : Nat) (hj : j < 3) :
    (Transform.apply (Rotation3.mk q) v)[j] = .nan := by
  have hp : q * Quat.fromScalarAndVector3 0 v = Quat.new .nan .nan .nan .nan := by
    rcases h with h | ⟨i, hi, h⟩
    · exact (C81_quaternion q _ h).1
    · refine (C81_quaternion (Quat.fromScalarAndVector3 0 v) q ?_).2.1
      match i, hi with
      | 0, _ => right; left; simpa [Quat.fromScalarAndVector3] using h
      | 1, _ => right; right; left; simpa [Quat.fromScalarAndVector3] using h
      | 2, _ => right; right; right; simpa [Quat.fromScalarAndVector3] using h
  have e : (Transform.apply (Rotation3.mk q) v) =
      Vec.fromArray #v[(q * Quat.fromScalarAndVector3 0 v * q.conj).x, (q * Quat.fromScalarAndVector3 0 v * q.conj).y,
        (q * Quat.fromScalarAndVector3 0 v * q.conj).z] := by
    show (Rotation3.mk q).applyFn v = _
    simp only [Rotation3.applyFn, Quat.intoScalarAndVector3]
    simp only [Vec.intoTuple4_eq, Quat.x_eq, Quat.y_eq, Quat.z_eq]
  rw [e, hp]
  match j, hj with
  | 0, _ => simp [Vec.fromArray]
  | 1, _ => simp [Vec.fromArray]
  | 2, _ => simp [Vec.fromArray]
/-- `max`, `min` and the maximum norm do *not* propagate NaN: it is dropped when it is not the first component
(also C17_nan_refuted). -/
theorem C81_max_refuted : ¬ ∀ (v : Vec (Ieee φ) 2) (i : Nat) (hi : i < 2), v[i] = .nan → v.maxR = .ok .nan := by
  intro h
  have := h (Vec.fromArray #v[1, .nan]) 1 (by omega) rfl
  rw [Vec.maxR, Vec.foldFirstR_succ] at this
  have := Except.ok.inj this
  simp only [List.ofFn_succ, List.ofFn_zero, List.foldl_cons, List.foldl_nil] at this
  have e : rlt ((Vec.fromArray #v[1, .nan] : Vec (Ieee φ) 2)[0]) ((Vec.fromArray #v[1, .nan] : Vec (Ieee φ) 2)[((0 : Fin 1).1 + 1)]) = false := rfl
  rw [e] at this
  exact absurd this (by simp [Vec.fromArray])

/-! ## the converse for lengths -/
/-- Not NaN and not below zero. -/
def NonNeg : Ieee φ → Prop
  | .nan => False
  | .inf s => s = false
  | .zero _ => True
  | .num x _ => 0 < x
theorem rnd_nonneg {x : ℝ} (h : 0 < x) : NonNeg (rnd x : Ieee φ) := by
  have hd : decide (x < 0) = false := decide_eq_false (by linarith)
  unfold rnd ofReal
  split_ifs with h1 h2
  · show decide (x < 0) = false; exact hd
  · trivial
  · exact lt_of_le_of_ne (Fmt.near_nonneg h.le) (Ne.symm h2)
theorem add_nonneg' {a b : Ieee φ} (ha : NonNeg a) (hb : NonNeg b) : NonNeg (a + b) := by
  rw [add_def]
  rcases a with _ | s | s | ⟨x, hx⟩ <;> rcases b with _ | t | t | ⟨y, hy⟩ <;> simp only [NonNeg] at ha hb <;>
    simp only [Ieee.add] <;> first | trivial | exact ha.elim | exact hb.elim | exact rnd_nonneg hb | exact rnd_nonneg ha | skip
  · rw [ha, hb]; simp [NonNeg]
  · rw [if_neg (by positivity)]; exact rnd_nonneg (by positivity)
theorem sq_nonneg' {a : Ieee φ} (ha : a ≠ .nan) : NonNeg (a * a) := by
  rw [mul_def]
  rcases a with _ | s | s | ⟨x, hx⟩ <;> simp only [Ieee.mul] <;> first | trivial | exact absurd rfl ha | skip
  · simp [NonNeg]
  · exact rnd_nonneg (mul_self_pos.mpr hx)
theorem abs_nonneg' {a : Ieee φ} (ha : a ≠ .nan) : NonNeg a.abs := by
  rcases a with _ | s | s | ⟨x, hx⟩ <;> simp only [Ieee.abs] <;> first | trivial | exact absurd rfl ha | skip
  exact abs_pos.mpr hx
theorem sqrt_nonneg' {a : Ieee φ} (ha : NonNeg a) : NonNeg a.sqrt := by
  rcases a with _ | s | s | ⟨x, hx⟩ <;> simp only [NonNeg] at ha <;> simp only [Ieee.sqrt]
  · simp [ha, NonNeg]
  · trivial
  · rw [if_neg (by linarith)]; exact rnd_nonneg (Real.sqrt_pos.mpr ha)
theorem nonneg_iff (a : Ieee φ) : NonNeg a ↔ rge a 0 = true := by
  show _ ↔ ((match a.toEReal?, (Ieee.zero false : Ieee φ).toEReal? with | some a, some b => some (compare a b) | _, _ => none) == some .gt ||
    (match a.toEReal?, (Ieee.zero false : Ieee φ).toEReal? with | some a, some b => some (compare a b) | _, _ => none) == some .eq) = true
  rcases a with _ | s | s | ⟨x, hx⟩ <;> simp only [NonNeg, Ieee.toEReal?]
  · simp
  · cases s <;> simp [compare_gt_iff_gt]
  · simp
  · have : x ≠ 0 := hx
    simp [compare_gt_iff_gt, hx]
theorem foldl_nonneg {l : List (Ieee φ)} (h : ∀ x ∈ l, NonNeg x) {a : Ieee φ} (ha : NonNeg a) : NonNeg (l.foldl (fun x y => x + y) a) := by
  induction l generalizing a with
  | nil => exact ha
  | cons b l ih => exact ih (fun x hx => h x (by simp [hx])) (add_nonneg' ha (h b (by simp)))
theorem sum_nonneg' (v : Vec (Ieee φ) N) (hN : 0 < N) (h : ∀ i (hi : i < N), NonNeg v[i]) : ∃ s, v.sumR = .ok s ∧ NonNeg s := by
  obtain ⟨n, rfl⟩ : ∃ n, N = n + 1 := ⟨N - 1, by omega⟩
  refine ⟨_, Vec.foldFirstR_succ _ _, foldl_nonneg ?_ (h 0 hN)⟩
  intro x hx
  obtain ⟨i, rfl⟩ := (List.mem_ofFn' _ _).mp hx
  exact h _ _
/-- Without NaN components (infinities allowed) lengths and norms are not NaN and not negative: `≥ 0` is true of them. -/
theorem C81_length (v : Vec (Ieee φ) N) (hN : 0 < N) (h : ∀ i (hi : i < N), v[i] ≠ .nan) :
    (∃ s, v.squareLengthR = .ok s ∧ rge s 0 = true) ∧ (∃ s, v.lengthR = .ok s ∧ rge s 0 = true) ∧
      (∃ s, v.normL2R = .ok s ∧ rge s 0 = true) ∧ (∃ s, v.normL1R = .ok s ∧ rge s 0 = true) := by
  obtain ⟨s, hs, hs'⟩ := sum_nonneg' (v.map fun x => x * x) hN (fun i hi => by simpa using sq_nonneg' (h i hi))
  obtain ⟨t, ht, ht'⟩ := sum_nonneg' (v.map ScalarNorm.normL1) hN (fun i hi => by
    rw [Vec.getElem_map]; exact abs_nonneg' (h i hi))
  refine ⟨⟨s, hs, (nonneg_iff _).mp hs'⟩, ⟨s.sqrt, ?_, (nonneg_iff _).mp (sqrt_nonneg' hs')⟩,
    ⟨s.sqrt, ?_, (nonneg_iff _).mp (sqrt_nonneg' hs')⟩, ⟨t, ht, (nonneg_iff _).mp ht'⟩⟩
  · simp [Vec.lengthR, Vec.squareLengthR, hs]; rfl
  · simp [Vec.normL2R, Vec.normL2SqrR, hs]; rfl
example : ∃ v : Vec (Ieee Fmt.f32) 3, v[0] = .inf true ∧ ∀ i (hi : i < 3), v[i] ≠ .nan :=
  ⟨Vec.fromArray #v[.inf true, 1, 0], rfl, fun i hi => by
    match i, hi with
    | 0, _ => simp [Vec.fromArray]
    | 1, _ => intro h; cases h
    | 2, _ => intro h; cases h⟩
example : ∃ A : Mat (Ieee Fmt.f64) 2 2, (A[1])[0] = .nan ∧ A.detR = .ok .nan :=
  ⟨Mat.fromArrArr #v[#v[1, 0], #v[.nan, 1]], rfl, C81_det _ 1 0 (by omega) (by omega) rfl⟩

/-! ## further cases: the hypotheses are satisfiable -/
example := C81_sum (Vec.fromArray #v[1, .nan, 0] : Vec (Ieee Fmt.f64) 3) 1 (by omega) rfl
example := C81_dot (Vec.fromArray #v[1, 0] : Vec (Ieee Fmt.f64) 2) (Vec.fromArray #v[.nan, .inf true]) 0 (by omega) (.inr rfl)
example := C81_norms (Vec.fromArray #v[1, .nan, 0] : Vec (Ieee Fmt.f64) 3) 1 (by omega) rfl
example := C81_normalize (Vec.fromArray #v[1, .nan, 0] : Vec (Ieee Fmt.f64) 3) 1 (by omega) rfl
example := C81_compare (Vec.fromArray #v[1, 0] : Vec (Ieee Fmt.f64) 2) (Vec.fromArray #v[1, .nan]) 1 (by omega) (.inr rfl)
example := C81_inv (Mat.fromArrArr #v[#v[1, 0], #v[.nan, 1]] : Mat (Ieee Fmt.f64) 2 2) 1 0 (by omega) (by omega) rfl
example := C81_complex (Cpx.new 1 .nan) (Cpx.new 0 1 : Cpx (Ieee Fmt.f32)) (.inr rfl)
example := C81_quaternion (Quat.new 1 0 .nan 1) (Quat.new 0 1 1 0 : Quat (Ieee Fmt.f32)) (.inr (.inr (.inl rfl)))
example := C81_moebius (Moebius.new 1 0 (Cpx.new 0 .nan) 1) (Cpx.new 0 1 : Cpx (Ieee Fmt.f32)) ⟨Cpx.new 0 .nan, .tail _ (.tail _ (.head _)), .inr rfl⟩
example := C81_rotation3 (Quat.new 1 0 0 0) (Vec.fromArray #v[1, 0, .nan] : Vec (Ieee Fmt.f64) 3) (.inr ⟨2, by omega, rfl⟩) 0 (by omega)
example := C81_length (IeeeEx.vec ![1, 1e300, -3]) (by omega) (fun i hi => by
  have := IeeeEx.vec_get ![1, 1e300, -3] ⟨i, hi⟩
  simp only at this
  rw [this]; exact (IeeeEx.lit_finite _).1)

end Vecmat
