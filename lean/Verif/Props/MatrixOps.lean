import Verif.Lemmas.Flat
import Verif.Props.VectorOps
/-!
# C13–C18, C22–C24 (matrix part): operators on `Matrix<T, M, N>`
-/
namespace Vecmat
variable {T U S : Type} {M N : Nat}

/-! ## C13 component-wise operators -/

theorem C13_mat_arith [Add T] [Sub T] [Mul T] [Div T] [Mod T] [Neg T] (A B : Mat T M N) (i : Nat) (hi : i < M) (j : Nat)
    (hj : j < N) :
    (A + B)[i][j] = A[i][j] + B[i][j] ∧ (A - B)[i][j] = A[i][j] - B[i][j] ∧ (A * B)[i][j] = A[i][j] * B[i][j] ∧
    (A / B)[i][j] = A[i][j] / B[i][j] ∧ (A % B)[i][j] = A[i][j] % B[i][j] ∧ (-A)[i][j] = -A[i][j] := by simp
theorem C13_mat_scalar [Mul T] [Div T] [Mod T] (A : Mat T M N) (a : T) (i : Nat) (hi : i < M) (j : Nat) (hj : j < N) :
    (A.mulS a)[i][j] = A[i][j] * a ∧ (A.divS a)[i][j] = A[i][j] / a ∧ (A.remS a)[i][j] = A[i][j] % a := by simp
theorem C13_mat_bits [Complement T] [AndOp T] [OrOp T] [XorOp T] (A B : Mat T M N) (i : Nat) (hi : i < M) (j : Nat)
    (hj : j < N) :
    A.not[i][j] = ~~~A[i][j] ∧ (A.bitand B)[i][j] = A[i][j] &&& B[i][j] ∧ (A.bitor B)[i][j] = A[i][j] ||| B[i][j] ∧
    (A.bitxor B)[i][j] = A[i][j] ^^^ B[i][j] := by simp

example : (⟨⟨#v[⟨#v[7, 5]⟩]⟩⟩ : Mat Int 1 2) - ⟨⟨#v[⟨#v[2, 9]⟩]⟩⟩ = ⟨⟨#v[⟨#v[5, -4]⟩]⟩⟩ := by decide

/-! ## C14 compound assignment -/

/-- On a matrix with at least one row `op=` stores exactly the result of `op`. -/
theorem C14_mat_assign [Add T] [Sub T] [Mul T] [Div T] [Mod T] (hM : 0 < M) (A B : Mat T M N) :
    A.addAssignR B = .ok (A + B) ∧ A.subAssignR B = .ok (A - B) ∧ A.mulAssignR B = .ok (A * B) ∧
    A.divAssignR B = .ok (A / B) ∧ A.remAssignR B = .ok (A % B) :=
  ⟨Mat.assignWithR_ok hM _ A B, Mat.assignWithR_ok hM _ A B, Mat.assignWithR_ok hM _ A B, Mat.assignWithR_ok hM _ A B,
    Mat.assignWithR_ok hM _ A B⟩
theorem C14_mat_assign_scalar [Mul T] [Div T] [Mod T] (hM : 0 < M) (A : Mat T M N) (a : T) :
    A.mulAssignSR a = .ok (A.mulS a) ∧ A.divAssignSR a = .ok (A.divS a) ∧ A.remAssignSR a = .ok (A.remS a) :=
  ⟨Mat.assignEachR_ok hM _ A, Mat.assignEachR_ok hM _ A, Mat.assignEachR_ok hM _ A⟩
theorem C14_mat_assign_bits [AndOp T] [OrOp T] [XorOp T] (hM : 0 < M) (A B : Mat T M N) :
    A.bitandAssignR B = .ok (A.bitand B) ∧ A.bitorAssignR B = .ok (A.bitor B) ∧ A.bitxorAssignR B = .ok (A.bitxor B) :=
  ⟨Mat.assignWithR_ok hM _ A B, Mat.assignWithR_ok hM _ A B, Mat.assignWithR_ok hM _ A B⟩
/-- On a matrix without rows every compound assignment panics (although the plain operators return). -/
theorem C14_mat_assign_panics [Add T] [Sub T] [Mul T] [Div T] [Mod T] [AndOp T] [OrOp T] [XorOp T] (A B : Mat T 0 N) (a : T) :
    A.addAssignR B = .error .unwrapNone ∧ A.subAssignR B = .error .unwrapNone ∧ A.mulAssignR B = .error .unwrapNone ∧
    A.divAssignR B = .error .unwrapNone ∧ A.remAssignR B = .error .unwrapNone ∧
    A.mulAssignSR a = .error .unwrapNone ∧ A.divAssignSR a = .error .unwrapNone ∧ A.remAssignSR a = .error .unwrapNone ∧
    A.bitandAssignR B = .error .unwrapNone ∧ A.bitorAssignR B = .error .unwrapNone ∧ A.bitxorAssignR B = .error .unwrapNone := by
  have h1 : ∀ f : T → T → T, Mat.assignWithR f A B = .error .unwrapNone := by
    intro f; simp [Mat.assignWithR, Mat.iterMutNew_zero]
  have h2 : ∀ f : T → T, Mat.assignEachR f A = .error .unwrapNone := by
    intro f; simp [Mat.assignEachR, Mat.iterMutNew_zero]
  exact ⟨h1 _, h1 _, h1 _, h1 _, h1 _, h2 _, h2 _, h2 _, h1 _, h1 _, h1 _⟩

example : (⟨⟨#v[⟨#v[7, 5]⟩, ⟨#v[1, 2]⟩]⟩⟩ : Mat Int 2 2).subAssignR ⟨⟨#v[⟨#v[2, 9]⟩, ⟨#v[1, 1]⟩]⟩⟩ =
    .ok ⟨⟨#v[⟨#v[5, -4]⟩, ⟨#v[0, 1]⟩]⟩⟩ := by decide

/-! ## C15 module laws -/

theorem C15_mat_add_group [AddCommGroup T] (a b c : Mat T M N) :
    a + b = b + a ∧ a + b + c = a + (b + c) ∧ a + 0 = a ∧ 0 + a = a ∧ a + -a = 0 ∧ a - b = a + -b := by
  refine ⟨?_, ?_, ?_, ?_, ?_, ?_⟩ <;> apply Mat.ext_getElem <;> intro i hi j hj <;>
    simp only [Mat.getElem_add, Mat.getElem_neg, Mat.getElem_sub, Mat.getElem_zero] <;> abel
theorem C15_mat_module [CommRing T] (a b : Mat T M N) (s t : T) :
    (a + b).mulS s = a.mulS s + b.mulS s ∧ a.mulS (s + t) = a.mulS s + a.mulS t ∧
    a.mulS (s * t) = (a.mulS s).mulS t ∧ a.mulS 1 = a ∧ a.mulS 0 = 0 := by
  refine ⟨?_, ?_, ?_, ?_, ?_⟩ <;> apply Mat.ext_getElem <;> intro i hi j hj <;> simp <;> ring
theorem C15_mat_zero [Zero T] (i : Nat) (hi : i < M) (j : Nat) (hj : j < N) : (0 : Mat T M N)[i][j] = 0 := by simp
/-- `is_zero()` on a matrix with rows is the conjunction of the scalar tests; with an exact test it holds exactly for
`zero()`. It panics on a matrix without rows – in particular on `zero()` itself. -/
theorem C15_mat_is_zero [Zero T] [IsZero T] (hM : 0 < M) (A : Mat T M N) : ∃ b, A.isZeroR = .ok b ∧
    (b = true ↔ ∀ i (hi : i < M) j (hj : j < N), IsZero.isZero A[i][j] = true) ∧
    ((∀ x : T, IsZero.isZero x = true ↔ x = 0) → (b = true ↔ A = 0)) := by
  refine ⟨_, Mat.isZeroR_ok hM A, Mat.all_rowMajor _ A, fun hz => ?_⟩
  rw [Mat.all_rowMajor]
  constructor
  · intro H; apply Mat.ext_getElem; intro i hi j hj; simpa [hz] using H i hi j hj
  · rintro rfl i hi j hj; simp [hz]
theorem C15_mat_is_zero_panics [IsZero T] (A : Mat T 0 N) : A.isZeroR = .error .unwrapNone := by
  simp [Mat.isZeroR, Mat.iterNew_zero]

example : (0 : Mat Int 2 2).isZeroR = .ok true ∧ (Mat.fill 1 : Mat Int 2 2).isZeroR = .ok false := by decide

/-! ## C16 `sum` -/

/-- The elements are combined strictly left to right in row-major order, whatever the scalar addition does. -/
theorem C16_mat_sum_order [Add T] (A : Mat T M N) (hM : 0 < M) (hN : 0 < N) :
    ∃ x l, Spec.rowMajor A = x :: l ∧ A.sumR = .ok (l.foldl (fun a b => a + b) x) := by
  rw [Mat.sumR_flat, Vec.sumR, Vec.foldFirstR_eq, Mat.toList_flat]
  have hl : (Spec.rowMajor A).length = M * N := Mat.length_rowMajor A
  have : 0 < M * N := Nat.mul_pos hM hN
  cases h : Spec.rowMajor A with
  | nil => rw [h] at hl; simp at hl; omega
  | cons x l => exact ⟨x, l, rfl, rfl⟩
theorem C16_mat_sum_exact [AddCommMonoid T] (hM : 0 < M) (hN : 0 < N) (A : Mat T M N) :
    A.sumR = .ok (∑ i : Fin M, ∑ j : Fin N, A[i.1][j.1]) := by
  rw [Mat.sumR_flat, Vec.sumR_eq_sum (Nat.mul_pos hM hN), Mat.sum_flat]
theorem C16_mat_sum_panics [Add T] (A : Mat T M N) : (∃ e, A.sumR = .error e) ↔ M = 0 ∨ N = 0 := by
  rw [Mat.sumR_flat, Vec.sumR, Vec.foldFirstR_eq, Mat.toList_flat]
  have hl : (Spec.rowMajor A).length = M * N := Mat.length_rowMajor A
  rw [← Nat.mul_eq_zero]
  cases h : Spec.rowMajor A with
  | nil => rw [h, List.length_nil] at hl; rw [← hl]; simp
  | cons x l => rw [h, List.length_cons] at hl; rw [← hl]; simp

example : (⟨⟨#v[⟨#v[1, 2]⟩, ⟨#v[3, 4]⟩]⟩⟩ : Mat Int 2 2).sumR = .ok 10 := by decide

/-! ## C17 `max`, `min` -/

section MaxMin
variable {K : Type} [LinearOrder K] [RPartialOrd T]

/-- `max()` is the first maximal element in row-major order. -/
theorem C17_mat_max (key : T → K) (hk : ∀ x y : T, RPartialOrd.pcmp x y = some (compare (key x) (key y)))
    (hM : 0 < M) (hN : 0 < N) (A : Mat T M N) :
    ∃ i j, ∃ hi : i < M, ∃ hj : j < N, A.maxR = .ok A[i][j] ∧
      (∀ a (ha : a < M) b (hb : b < N), key A[a][b] ≤ key A[i][j]) ∧
      ∀ a (ha : a < M) b (hb : b < N), a < i ∨ a = i ∧ b < j → key A[a][b] < key A[i][j] := by
  obtain ⟨k, hk', h1, h2, h3⟩ := C17_max key hk (Nat.mul_pos hM hN) A.flat
  obtain ⟨i, j, hi, hj, rfl⟩ := Mat.flat_idx hk'
  simp only [Mat.getElem_flat A i j hi hj] at h1 h2 h3
  refine ⟨i, j, hi, hj, by rw [Mat.maxR_flat, h1], ?_, ?_⟩
  · intro a ha b hb
    have := h2 (a * N + b) (Mat.idx_lt ha hb)
    rwa [Mat.getElem_flat A a b ha hb] at this
  · intro a ha b hb hlt
    have hlt : a * N + b < i * N + j := by
      rcases hlt with h | ⟨rfl, h⟩
      · calc a * N + b < (a + 1) * N := by rw [Nat.succ_mul]; omega
          _ ≤ i * N := Nat.mul_le_mul_right _ h
          _ ≤ i * N + j := by omega
      · omega
    have := h3 (a * N + b) hlt
    rwa [Mat.getElem_flat A a b ha hb] at this
/-- `min()` is the last minimal element in row-major order. -/
theorem C17_mat_min (key : T → K) (hk : ∀ x y : T, RPartialOrd.pcmp x y = some (compare (key x) (key y)))
    (hM : 0 < M) (hN : 0 < N) (A : Mat T M N) :
    ∃ i j, ∃ hi : i < M, ∃ hj : j < N, A.minR = .ok A[i][j] ∧
      (∀ a (ha : a < M) b (hb : b < N), key A[i][j] ≤ key A[a][b]) ∧
      ∀ a (ha : a < M) b (hb : b < N), i < a ∨ a = i ∧ j < b → key A[i][j] < key A[a][b] := by
  obtain ⟨k, hk', h1, h2, h3⟩ := C17_min key hk (Nat.mul_pos hM hN) A.flat
  obtain ⟨i, j, hi, hj, rfl⟩ := Mat.flat_idx hk'
  simp only [Mat.getElem_flat A i j hi hj] at h1 h2 h3
  refine ⟨i, j, hi, hj, by rw [Mat.minR_flat, h1], ?_, ?_⟩
  · intro a ha b hb
    have := h2 (a * N + b) (Mat.idx_lt ha hb)
    rwa [Mat.getElem_flat A a b ha hb] at this
  · intro a ha b hb hlt
    have hlt : i * N + j < a * N + b := by
      rcases hlt with h | ⟨rfl, h⟩
      · calc i * N + j < (i + 1) * N := by rw [Nat.succ_mul]; omega
          _ ≤ a * N := Nat.mul_le_mul_right _ h
          _ ≤ a * N + b := by omega
      · omega
    have := h3 (a * N + b) hlt (Mat.idx_lt ha hb)
    rwa [Mat.getElem_flat A a b ha hb] at this
end MaxMin
theorem C17_mat_panics [RPartialOrd T] (A : Mat T M N) :
    ((∃ e, A.maxR = .error e) ↔ M = 0 ∨ N = 0) ∧ ((∃ e, A.minR = .error e) ↔ M = 0 ∨ N = 0) := by
  rw [Mat.maxR_flat, Mat.minR_flat, ← Nat.mul_eq_zero]
  exact C17_panics _

/-! ## C18 norms -/

theorem C18_mat_norm_values (hM : 0 < M) (hN : 0 < N) (A : Mat ℝ M N) :
    A.normL1R = .ok (∑ i : Fin M, ∑ j : Fin N, |A[i.1][j.1]|) ∧
    A.normL2SqrR = .ok (∑ i : Fin M, ∑ j : Fin N, A[i.1][j.1] ^ 2) ∧
    A.normL2R = .ok (Real.sqrt (∑ i : Fin M, ∑ j : Fin N, A[i.1][j.1] ^ 2)) ∧
    ∃ m, A.normLInfR = .ok m ∧ (∃ (i : Fin M) (j : Fin N), m = |A[i.1][j.1]|) ∧
      ∀ (i : Fin M) (j : Fin N), |A[i.1][j.1]| ≤ m := by
  refine ⟨?_, ?_, ?_, ?_⟩
  · rw [Mat.normL1R, C16_mat_sum_exact hM hN]; simp
  · rw [Mat.normL2SqrR, C16_mat_sum_exact hM hN]; simp [pow_two]
  · rw [Mat.normL2R, Mat.normL2SqrR, C16_mat_sum_exact hM hN]; simp [pow_two]
  · obtain ⟨i, j, hi, hj, h1, h2, _⟩ := C17_mat_max (T := ℝ) (K := ℝ) id (fun _ _ => rfl) hM hN (A.map ScalarNorm.normLInf)
    refine ⟨|A[i][j]|, ?_, ⟨⟨i, hi⟩, ⟨j, hj⟩, rfl⟩, ?_⟩
    · rw [Mat.normLInfR, h1]; simp
    · intro a b; simpa using h2 a.1 a.2 b.1 b.2

/-- What it means to be a norm on real matrices. -/
structure IsMatNorm (f : Mat ℝ M N → Res ℝ) : Prop where
  total : ∀ v, ∃ a, f v = .ok a
  nonneg : ∀ v a, f v = .ok a → 0 ≤ a
  zero_iff : ∀ v a, f v = .ok a → (a = 0 ↔ v = 0)
  homog : ∀ v a s b, f v = .ok a → f (v.mulS s) = .ok b → b = |s| * a
  triangle : ∀ v w a b c, f v = .ok a → f w = .ok b → f (v + w) = .ok c → c ≤ a + b

private theorem matNorm_of_flat {f : Mat ℝ M N → Res ℝ} {g : Vec ℝ (M * N) → Res ℝ} (h : ∀ A, f A = g A.flat)
    (hg : IsNorm g) : IsMatNorm f := by
  constructor
  · intro v; rw [h]; exact hg.total _
  · intro v a ha; rw [h] at ha; exact hg.nonneg _ _ ha
  · intro v a ha; rw [h] at ha; rw [hg.zero_iff _ _ ha, ← Mat.flat_zero]
    exact ⟨Mat.flat_inj, fun e => by rw [e]⟩
  · intro v a s b ha hb; rw [h] at ha hb; rw [Mat.flat_mulS] at hb; exact hg.homog _ _ _ _ ha hb
  · intro v w a b c ha hb hc; rw [h] at ha hb hc; rw [Mat.flat_add] at hc; exact hg.triangle _ _ _ _ _ ha hb hc

theorem C18_mat_norms (hM : 0 < M) (hN : 0 < N) :
    IsMatNorm (Mat.normL1R : Mat ℝ M N → Res ℝ) ∧ IsMatNorm (Mat.normL2R : Mat ℝ M N → Res ℝ) ∧
    IsMatNorm (Mat.normLInfR : Mat ℝ M N → Res ℝ) :=
  ⟨matNorm_of_flat Mat.normL1R_flat (C18_l1_norm (Nat.mul_pos hM hN)),
   matNorm_of_flat Mat.normL2R_flat (C18_l2_norm (Nat.mul_pos hM hN)),
   matNorm_of_flat Mat.normLInfR_flat (C18_linf_norm (Nat.mul_pos hM hN))⟩
theorem C18_mat_norm_order (hM : 0 < M) (hN : 0 < N) (A : Mat ℝ M N) (a b c d : ℝ)
    (ha : A.normLInfR = .ok a) (hb : A.normL2R = .ok b) (hc : A.normL1R = .ok c) (hd : A.normL2SqrR = .ok d) :
    a ≤ b ∧ b ≤ c ∧ b ^ 2 = d := by
  rw [Mat.normLInfR_flat] at ha; rw [Mat.normL2R_flat] at hb; rw [Mat.normL1R_flat] at hc; rw [Mat.normL2SqrR_flat] at hd
  obtain ⟨h1, h2⟩ := C18_norm_order (Nat.mul_pos hM hN) _ _ _ _ ha hb hc
  exact ⟨h1, h2, C18_l2_sqr (Nat.mul_pos hM hN) _ _ _ hb hd⟩

/-! ## C22 comparison masks -/

theorem C22_mat_masks_eq [BEq T] (A B : Mat T M N) (i : Nat) (hi : i < M) (j : Nat) (hj : j < N) :
    (A.veq B)[i][j] = (A[i][j] == B[i][j]) ∧ (A.vne B)[i][j] = (A[i][j] != B[i][j]) ∧
    (A.vne B)[i][j] = !(A.veq B)[i][j] := by
  simp [Mat.veq, Mat.vne, bne]
theorem C22_mat_masks_ord [RPartialOrd T] (A B : Mat T M N) (i : Nat) (hi : i < M) (j : Nat) (hj : j < N) :
    (A.vlt B)[i][j] = rlt A[i][j] B[i][j] ∧ (A.vle B)[i][j] = rle A[i][j] B[i][j] ∧
    (A.vgt B)[i][j] = rgt A[i][j] B[i][j] ∧ (A.vge B)[i][j] = rge A[i][j] B[i][j] := by
  simp [Mat.vlt, Mat.vle, Mat.vgt, Mat.vge]
theorem C22_mat_masks_total [LinearOrder T] (A B : Mat T M N) (i : Nat) (hi : i < M) (j : Nat) (hj : j < N) :
    ((A.vlt B)[i][j] = true ↔ A[i][j] < B[i][j]) ∧ ((A.vle B)[i][j] = true ↔ A[i][j] ≤ B[i][j]) ∧
    ((A.vgt B)[i][j] = true ↔ B[i][j] < A[i][j]) ∧ ((A.vge B)[i][j] = true ↔ B[i][j] ≤ A[i][j]) := by
  refine ⟨by simp [Mat.vlt], by simp [Mat.vle], by simp [Mat.vgt], by simp [Mat.vge]⟩
/-- `any()` / `all()` on a matrix with rows are the disjunction / conjunction of all elements … -/
theorem C22_mat_any_all (hM : 0 < M) (A : Mat Bool M N) : ∃ a b, A.anyR = .ok a ∧ A.allR = .ok b ∧
    (a = true ↔ ∃ i, ∃ hi : i < M, ∃ j, ∃ hj : j < N, A[i][j] = true) ∧
    (b = true ↔ ∀ i (hi : i < M) j (hj : j < N), A[i][j] = true) :=
  ⟨_, _, Mat.anyR_ok hM A, Mat.allR_ok hM A, Mat.any_rowMajor _ A, Mat.all_rowMajor _ A⟩
/-- … and panic on a matrix without rows. -/
theorem C22_mat_any_all_panics (A : Mat Bool 0 N) : A.anyR = .error .unwrapNone ∧ A.allR = .error .unwrapNone := by
  simp [Mat.anyR, Mat.allR, Mat.iterNew_zero]

/-! ## C23 floor division -/

theorem C23_mat_floor (A B : Mat Int M N) (i : Nat) (hi : i < M) (j : Nat) (hj : j < N) :
    A[i][j] = (A.divFloor B)[i][j] * B[i][j] + (A.modFloor B)[i][j] ∧
    (0 < B[i][j] → 0 ≤ (A.modFloor B)[i][j] ∧ (A.modFloor B)[i][j] < B[i][j]) ∧
    (B[i][j] < 0 → B[i][j] < (A.modFloor B)[i][j] ∧ (A.modFloor B)[i][j] ≤ 0) := by
  have e1 : (A.divFloor B)[i][j] = (A[i].divFloor B[i])[j] := by simp [Mat.divFloor, Vec.divFloor]
  have e2 : (A.modFloor B)[i][j] = (A[i].modFloor B[i])[j] := by simp [Mat.modFloor, Vec.modFloor]
  rw [e1, e2]
  exact C23_vec_floor A[i] B[i] j hj
theorem C23_mat_div_mod [FloorDiv T] (A B : Mat T M N)
    (hs : ∀ x y : T, FloorDiv.divModFloor x y = (FloorDiv.divFloor x y, FloorDiv.modFloor x y)) :
    A.divModFloor B = (A.divFloor B, A.modFloor B) := by
  apply Prod.ext <;> apply Mat.ext_getElem <;> intro i hi j hj <;> simp [Mat.divModFloor, Mat.divFloor, Mat.modFloor, hs]

/-! ## C24 iterator `sum` / `product` -/

theorem C24_mat_sum [AddCommMonoid T] (l : List (Mat T M N)) (i : Nat) (hi : i < M) (j : Nat) (hj : j < N) :
    (Mat.iterSum l)[i][j] = (l.map fun A => A[i][j]).sum := by
  have key : ∀ (l : List (Mat T M N)) (a : Mat T M N),
      (l.foldl (fun a x => a + x) a)[i][j] = a[i][j] + (l.map fun A => A[i][j]).sum := by
    intro l; induction l with
    | nil => intro a; simp
    | cons x l ih => intro a; simp [ih, add_assoc]
  simp [Mat.iterSum, key]
/-- `Product` multiplies component-wise and starts from all ones (not from the identity matrix). -/
theorem C24_mat_product [CommMonoid T] (l : List (Mat T M N)) (i : Nat) (hi : i < M) (j : Nat) (hj : j < N) :
    (Mat.iterProduct l)[i][j] = (l.map fun A => A[i][j]).prod := by
  have key : ∀ (l : List (Mat T M N)) (a : Mat T M N),
      (l.foldl (fun a x => a * x) a)[i][j] = a[i][j] * (l.map fun A => A[i][j]).prod := by
    intro l; induction l with
    | nil => intro a; simp
    | cons x l ih => intro a; simp [ih, mul_assoc]
  have h1 := Mat.initS_const (M := M) (N := N) (1 : T) i hi j hj
  simp [Mat.iterProduct, key, h1]
theorem C24_mat_empty [Zero T] [One T] [Add T] [Mul T] :
    Mat.iterSum ([] : List (Mat T M N)) = 0 ∧ Mat.iterProduct ([] : List (Mat T M N)) = Mat.fill 1 := ⟨rfl, rfl⟩

/-! ## further cases: the hypotheses are satisfiable -/
/-- `2x3` integer matrices used below. -/
def Ex.A23 : Mat ℤ 2 3 := Mat.fromArrArr #v[#v[1, -2, 3], #v[4, 5, 5]]
def Ex.B23 : Mat ℤ 2 3 := Mat.fromArrArr #v[#v[7, 8, -9], #v[1, 2, 3]]
example := C14_mat_assign (by decide) Ex.A23 Ex.B23
example := C14_mat_assign_bits (T := BitVec 8) (M := 1) (by decide) (Mat.fromArrArr #v[#v[1, 2]]) (Mat.fromArrArr #v[#v[3, 6]])
example := C14_mat_assign_scalar (by decide) Ex.A23 2
example := C15_mat_is_zero (by decide) Ex.A23
example := C16_mat_sum_exact (by decide) (by decide) Ex.A23
example := C16_mat_sum_order Ex.A23 (by decide) (by decide)
example := C17_mat_max (K := ℤ) id (fun _ _ => rfl) (by decide) (by decide) Ex.A23
example := C17_mat_min (K := ℤ) id (fun _ _ => rfl) (by decide) (by decide) Ex.A23
example := C18_mat_norms (M := 2) (N := 3) (by decide) (by decide)
example (A : Mat ℝ 2 3) : ∃ a b c d, A.normLInfR = .ok a ∧ A.normL2R = .ok b ∧ A.normL1R = .ok c ∧ A.normL2SqrR = .ok d ∧ a ≤ b ∧ b ≤ c ∧ b ^ 2 = d := by
  obtain ⟨h1, h2, h3, m, h4, -⟩ := C18_mat_norm_values (by decide) (by decide) A
  exact ⟨_, _, _, _, h4, h3, h1, h2, C18_mat_norm_order (by decide) (by decide) A _ _ _ _ h4 h3 h1 h2⟩
example := C22_mat_any_all (M := 2) (N := 1) (by decide) (Mat.fromArrArr #v[#v[true], #v[false]])
example := C23_mat_div_mod Ex.A23 Ex.B23 (fun _ _ => rfl)

end Vecmat
