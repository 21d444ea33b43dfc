import Verif.Model.IntNorm
import Verif.Lemmas.Matrix
import Verif.Lemmas.VectorOps
import Verif.Props.VectorOps
import Verif.Props.MachineInt
/-!
# C78 — norms of integer vectors
"On vectors of primitive integers `norm_l1` is the sum of the absolute values and `norm_l_inf` the largest absolute value: in the
debug profile exactly when it returns, and it panics exactly when the sum (resp. the absolute value of a component) does not fit; in the
release profile `norm_l1` is the sum modulo 2^w and `norm_l_inf` is right as long as no component is the minimum of the type."

`SInt.value` / `UInt.value` are the mathematical values; `BitVec.intMin w` is `iN::MIN`.
-/
namespace Vecmat
variable {w N : Nat}

/-! ## scalars -/

private theorem SInt.abs_ofInt (x : SInt w) : x.abs.bits = BitVec.ofInt w |x.value| := by
  unfold SInt.abs SInt.value
  split
  · rename_i h
    rw [abs_of_neg h, BitVec.ofInt_neg, BitVec.ofInt_toInt]
  · rename_i h
    rw [abs_of_nonneg (by omega), BitVec.ofInt_toInt]

private theorem bmod_small {y : Int} (h1 : 0 ≤ y) (h2 : y < 2 ^ (w - 1)) : y.bmod (2 ^ w) = y := by
  obtain _ | k := w
  · simp at h2; have : y = 0 := by omega
    subst this; simp
  have e : ((2 ^ (k + 1) : Nat) : Int) = 2 * 2 ^ k := by push_cast; ring
  have h2 : y < 2 ^ k := h2
  apply Int.bmod_eq_of_le
  · rw [e]; omega
  · rw [e]; omega

/-- The scalar norms of a signed integer: `norm_l1 = norm_l2 = norm_l_inf`, the absolute value unless the argument is the minimum, whose
"norm" is itself; `norm_l2_sqr` is the square of `norm_l2` (also for the minimum), `dot` is the product modulo `2^w`. -/
theorem C78_scalar_signed (x y : SInt w) :
    ScalarNorm.normL1 x = x.normL2 ∧ ScalarNorm.normLInf x = x.normL2 ∧
    (x.bits ≠ BitVec.intMin w → x.normL2.value = |x.value|) ∧ (x.bits = BitVec.intMin w → x.normL2 = x) ∧
    x.normL2Sqr = x.normL2 * x.normL2 ∧ (x.dot y).value = (x.value * y.value).bmod (2 ^ w) := by
  refine ⟨rfl, rfl, ?_, ?_, ?_, ?_⟩
  · intro h
    unfold SInt.normL2
    change x.abs.bits.toInt = _
    unfold SInt.abs SInt.value
    split
    · rename_i hn
      rw [BitVec.toInt_neg_of_ne_intMin h, abs_of_neg hn]
    · rename_i hn
      rw [abs_of_nonneg (by omega)]
  · intro h
    ext1
    unfold SInt.normL2 SInt.abs
    split
    · change -x.bits = _; rw [h, BitVec.neg_intMin]
    · rfl
  · ext1
    unfold SInt.normL2Sqr SInt.normL2
    change x.bits * x.bits = x.abs.bits * x.abs.bits
    unfold SInt.abs
    split
    · change _ = -x.bits * -x.bits; rw [neg_mul_neg]
    · rfl
  · change (x.bits * y.bits).toInt = _
    rw [BitVec.toInt_mul]; rfl
/-- The scalar norms of an unsigned integer. -/
theorem C78_scalar_unsigned (x y : UInt w) :
    ScalarNorm.normL1 x = x ∧ ScalarNorm.normLInf x = x ∧ x.normL2 = x ∧
    x.normL2Sqr = x.normL2 * x.normL2 ∧ (x.dot y).value = (x.value * y.value) % 2 ^ w := by
  refine ⟨rfl, rfl, rfl, rfl, ?_⟩
  change (x.bits * y.bits).toNat = _
  rw [BitVec.toNat_mul]; rfl

/-! ## release profile -/

/-- `norm_l1` of a signed vector is `∑ |xᵢ|` modulo `2^w` (always, even with components equal to the minimum) … -/
theorem C78_l1_wrapping (hN : 0 < N) (v : Vec (SInt w) N) :
    ∃ r, v.normL1R = .ok r ∧ r.value = (∑ i : Fin N, |v[i.1].value|).bmod (2 ^ w) := by
  have : NeZero N := ⟨by omega⟩
  refine ⟨_, (C17_nonempty (v.map ScalarNorm.normL1)).2.2, ?_⟩
  have h := Vec.foldFirst_rel (r := fun (b : SInt w) (z : Int) => b.bits = BitVec.ofInt w z) (f := fun x y => x + y)
    (g := fun x y => x + y) (v := v.map ScalarNorm.normL1) (w := ⟨Vector.ofFn fun i : Fin N => |v[i.1].value|⟩)
    (fun {a b c d} h h' => by
      change a.bits + c.bits = _
      rw [h, h', BitVec.ofInt_add])
    (by
      intro i hi
      simp only [Vec.getElem_map, Vec.getElem_mk, Vector.getElem_ofFn]
      exact SInt.abs_ofInt v[i])
  have e := Vec.sum_eq_sum (⟨Vector.ofFn fun i : Fin N => |v[i.1].value|⟩ : Vec Int N)
  simp only [Vec.getElem_mk, Vector.getElem_ofFn] at e
  rw [← e]
  change (Vec.sum (v.map ScalarNorm.normL1)).bits.toInt = _
  unfold Vec.sum at h ⊢
  rw [h, BitVec.toInt_ofInt]
/-- … hence exactly `∑ |xᵢ|` when that sum is at most the maximum of the type. -/
theorem C78_l1_exact (hN : 0 < N) (v : Vec (SInt w) N) (h : ∑ i : Fin N, |v[i.1].value| < 2 ^ (w - 1)) :
    ∃ r, v.normL1R = .ok r ∧ r.value = ∑ i : Fin N, |v[i.1].value| := by
  obtain ⟨r, h1, h2⟩ := C78_l1_wrapping hN v
  exact ⟨r, h1, by rw [h2, bmod_small (Finset.sum_nonneg fun i _ => abs_nonneg _) h]⟩
/-- `norm_l_inf` of a signed vector without component equal to the minimum is the largest absolute value. -/
theorem C78_linf_exact (hN : 0 < N) (v : Vec (SInt w) N) (h : ∀ i : Fin N, v[i.1].bits ≠ BitVec.intMin w) :
    ∃ r, v.normLInfR = .ok r ∧ (∃ i : Fin N, r.value = |v[i.1].value|) ∧ ∀ i : Fin N, |v[i.1].value| ≤ r.value := by
  obtain ⟨k, hk, h1, h2, -⟩ := C17_max (T := SInt w) (K := Int) SInt.value (fun _ _ => rfl) hN (v.map ScalarNorm.normLInf)
  have ha : ∀ i : Fin N, (ScalarNorm.normLInf v[i.1]).value = |v[i.1].value| := fun i => (C78_scalar_signed v[i.1] v[i.1]).2.2.1 (h i)
  refine ⟨_, h1, ⟨⟨k, hk⟩, by simpa using ha ⟨k, hk⟩⟩, fun i => ?_⟩
  have := h2 i.1 i.2
  simp only [Vec.getElem_map] at this ⊢
  rw [ha i] at this; exact this
/-- In general, with components equal to the minimum: if some component is not the minimum, `norm_l_inf` is the largest absolute value
**of the others** (the minimum is ignored although it has the largest absolute value of all); if every component is the minimum, the
result is the (negative) minimum. -/
theorem C78_linf_min (hw : 0 < w) (hN : 0 < N) (v : Vec (SInt w) N) :
    ∃ r, v.normLInfR = .ok r ∧
      ((∃ i : Fin N, v[i.1].bits ≠ BitVec.intMin w) →
        (∃ i : Fin N, v[i.1].bits ≠ BitVec.intMin w ∧ r.value = |v[i.1].value|) ∧
        ∀ i : Fin N, v[i.1].bits ≠ BitVec.intMin w → |v[i.1].value| ≤ r.value) ∧
      ((∀ i : Fin N, v[i.1].bits = BitVec.intMin w) → r.bits = BitVec.intMin w) := by
  obtain ⟨k, hk, h1, h2, -⟩ := C17_max (T := SInt w) (K := Int) SInt.value (fun _ _ => rfl) hN (v.map ScalarNorm.normLInf)
  simp only [Vec.getElem_map] at h1 h2
  have hmin : ∀ i : Fin N, v[i.1].bits = BitVec.intMin w → (ScalarNorm.normLInf v[i.1]).bits = BitVec.intMin w := fun i hi => by
    have := (C78_scalar_signed v[i.1] v[i.1]).2.2.2.1 hi
    change v[i.1].normL2.bits = _
    rw [this, hi]
  have ha : ∀ i : Fin N, v[i.1].bits ≠ BitVec.intMin w → (ScalarNorm.normLInf v[i.1]).value = |v[i.1].value| := fun i hi =>
    (C78_scalar_signed v[i.1] v[i.1]).2.2.1 hi
  have hneg : (BitVec.intMin w).toInt < 0 := by
    rw [BitVec.toInt_intMin_of_pos hw]
    have : (0 : Int) < 2 ^ (w - 1) := by positivity
    omega
  refine ⟨_, h1, ?_, ?_⟩
  · rintro ⟨j, hj⟩
    have hkm : v[k].bits ≠ BitVec.intMin w := by
      intro hkm
      have a1 := h2 j.1 j.2
      rw [ha j hj] at a1
      have a2 := hmin ⟨k, hk⟩ hkm
      have a3 : (ScalarNorm.normLInf v[k]).value < 0 := by
        change (ScalarNorm.normLInf v[k]).bits.toInt < 0
        rw [a2]; exact hneg
      have := abs_nonneg v[j.1].value
      omega
    refine ⟨⟨⟨k, hk⟩, hkm, ha ⟨k, hk⟩ hkm⟩, fun i hi => ?_⟩
    rw [← ha i hi]; exact h2 i.1 i.2
  · intro h; exact hmin ⟨k, hk⟩ (h _)
/-- So the claim "`norm_l_inf` is the largest absolute value" is refuted at the minimum: `norm_l_inf([-128i8, 1]) = 1`. -/
theorem C78_linf_min_refuted : ∃ v : Vec (SInt 8) 2, ∃ r, v.normLInfR = .ok r ∧ ¬ ∀ i : Fin 2, |v[i.1].value| ≤ r.value :=
  ⟨⟨#v[⟨-128⟩, ⟨1⟩]⟩, ⟨1⟩, by decide, by decide⟩
/-- Unsigned vectors: `norm_l1` is the sum modulo `2^w`, `norm_l_inf` the largest component. -/
theorem C78_unsigned (hN : 0 < N) (v : Vec (UInt w) N) :
    (∃ r, v.normL1R = .ok r ∧ r.value = (∑ i : Fin N, v[i.1].value) % 2 ^ w) ∧
    ∃ r, v.normLInfR = .ok r ∧ (∃ i : Fin N, r = v[i.1]) ∧ ∀ i : Fin N, v[i.1].value ≤ r.value := by
  have : NeZero N := ⟨by omega⟩
  constructor
  · refine ⟨_, (C17_nonempty (v.map ScalarNorm.normL1)).2.2, ?_⟩
    have h := Vec.foldFirst_rel (r := fun (b : UInt w) (z : Nat) => b.bits = BitVec.ofNat w z) (f := fun x y => x + y)
      (g := fun x y => x + y) (v := v.map ScalarNorm.normL1) (w := ⟨Vector.ofFn fun i : Fin N => v[i.1].value⟩)
      (fun {a b c d} h h' => by
        change a.bits + c.bits = _
        rw [h, h', BitVec.ofNat_add])
      (by
        intro i hi
        simp only [Vec.getElem_map, Vec.getElem_mk, Vector.getElem_ofFn]
        change v[i].bits = BitVec.ofNat w v[i].bits.toNat
        simp)
    have e := Vec.sum_eq_sum (⟨Vector.ofFn fun i : Fin N => v[i.1].value⟩ : Vec Nat N)
    simp only [Vec.getElem_mk, Vector.getElem_ofFn] at e
    rw [← e]
    change (Vec.sum (v.map ScalarNorm.normL1)).bits.toNat = _
    unfold Vec.sum at h ⊢
    rw [h, BitVec.toNat_ofNat]
  · obtain ⟨k, hk, h1, h2, -⟩ := C17_max (T := UInt w) (K := Nat) UInt.value (fun _ _ => rfl) hN (v.map ScalarNorm.normLInf)
    simp only [Vec.getElem_map] at h1 h2
    exact ⟨_, h1, ⟨⟨k, hk⟩, rfl⟩, fun i => h2 i.1 i.2⟩

/-! ## debug profile -/

private theorem absD_ok {hi x : Int} (hx : -hi - 1 ≤ x ∧ x ≤ hi) (h : |x| ≤ hi) : absD (-hi - 1) hi x = .ok |x| := by
  unfold absD checked
  split
  · rename_i hn
    rw [abs_of_neg hn] at h ⊢
    rw [if_pos ⟨by omega, h⟩]
  · rename_i hn; rw [abs_of_nonneg (by omega)]
private theorem absD_err {hi x : Int} (hx : -hi - 1 ≤ x ∧ x ≤ hi) (h : ¬ |x| ≤ hi) : absD (-hi - 1) hi x = .error .arithOverflow := by
  unfold absD checked
  split
  · rename_i hn
    rw [abs_of_neg hn] at h
    rw [if_neg (by omega)]
  · rename_i hn; rw [abs_of_nonneg (by omega)] at h; omega
private theorem mapM_absD {hi : Int} (v : Vec Int N) (hx : ∀ i : Fin N, -hi - 1 ≤ v[i.1] ∧ v[i.1] ≤ hi) :
    (∀ i : Fin N, |v[i.1]| ≤ hi) ∧ v.mapM (m := Res) (absD (-hi - 1) hi) = .ok ⟨Vector.ofFn fun i : Fin N => |v[i.1]|⟩ ∨
    (¬ ∀ i : Fin N, |v[i.1]| ≤ hi) ∧ v.mapM (m := Res) (absD (-hi - 1) hi) = .error .arithOverflow := by
  by_cases h : ∀ i : Fin N, |v[i.1]| ≤ hi
  · exact .inl ⟨h, Mat.vec_mapM_ok fun i hi' => by simpa using absD_ok (hx ⟨i, hi'⟩) (h ⟨i, hi'⟩)⟩
  · refine .inr ⟨h, ?_⟩
    push Not at h
    obtain ⟨i, hi'⟩ := h
    exact Mat.vec_mapM_error i.1 i.2 (absD_err (hx i) (by omega)) fun j hj => by
      by_cases hjj : |v[j]| ≤ hi
      · exact .inl ⟨_, absD_ok (hx ⟨j, hj⟩) hjj⟩
      · exact .inr (absD_err (hx ⟨j, hj⟩) hjj)
private theorem foldlM_checked {lo hi : Int} (hlo : lo ≤ 0) (l : List Int) (hl : ∀ y ∈ l, 0 ≤ y) (x : Int) (h0 : 0 ≤ x) (hx : x ≤ hi) :
    l.foldlM (m := Res) (fun x y => checked lo hi (x + y)) x = if x + l.sum ≤ hi then .ok (x + l.sum) else .error .arithOverflow := by
  induction l generalizing x with
  | nil => simp [hx]
  | cons y l ih =>
    have hy := hl y (by simp)
    have hs : 0 ≤ l.sum := List.sum_nonneg fun z hz => hl z (by simp [hz])
    rw [List.foldlM_cons, List.sum_cons, ← add_assoc]
    by_cases h : x + y ≤ hi
    · rw [show checked lo hi (x + y) = .ok (x + y) from if_pos ⟨by omega, h⟩]
      simpa using ih (fun z hz => hl z (by simp [hz])) (x + y) (by omega) h
    · rw [show checked lo hi (x + y) = .error .arithOverflow from if_neg (by omega), if_neg (by omega)]
      rfl
private theorem foldlM_max (l : List Int) (x : Int) :
    l.foldlM (m := Res) (fun x y => pure (if x < y then y else x)) x = .ok (l.foldl max x) := by
  induction l generalizing x with
  | nil => rfl
  | cons y l ih =>
    rw [List.foldlM_cons, List.foldl_cons]
    have : (if x < y then y else x) = max x y := by
      split
      · rename_i h; rw [max_eq_right h.le]
      · rename_i h; rw [max_eq_left (by omega)]
    simpa [this] using ih (max x y)
private theorem foldl_max_spec (l : List Int) (x : Int) :
    (l.foldl max x = x ∨ l.foldl max x ∈ l) ∧ x ≤ l.foldl max x ∧ ∀ y ∈ l, y ≤ l.foldl max x := by
  induction l generalizing x with
  | nil => simp
  | cons y l ih =>
    obtain ⟨h1, h2, h3⟩ := ih (max x y)
    refine ⟨?_, (le_max_left x y).trans h2, ?_⟩
    · rcases h1 with h1 | h1
      · rcases max_choice x y with h | h
        · left; simpa [h] using h1
        · right; simp only [List.foldl_cons, List.mem_cons]; left; rw [h1, h]
      · right; simp only [List.foldl_cons, List.mem_cons]; exact .inr h1
    · intro z hz
      rcases List.mem_cons.mp hz with rfl | hz
      · exact (le_max_right x z).trans h2
      · exact h3 z hz

/-- Debug profile, signed type with range `-hi-1 ..= hi`: `norm_l1` returns exactly when `∑ |xᵢ|` fits (in particular no component is the
minimum), and then it is that sum; otherwise it panics with an overflow. -/
theorem C78_debug_l1 (hN : 0 < N) (hi : Int) (v : Vec Int N) (hx : ∀ i : Fin N, -hi - 1 ≤ v[i.1] ∧ v[i.1] ≤ hi) :
    v.normL1D (-hi - 1) hi = if ∑ i : Fin N, |v[i.1]| ≤ hi then .ok (∑ i : Fin N, |v[i.1]|) else .error .arithOverflow := by
  obtain ⟨n, rfl⟩ : ∃ n, N = n + 1 := ⟨N - 1, by omega⟩
  have h0 : 0 ≤ hi + 1 := by have := hx 0; omega
  rcases mapM_absD v hx with ⟨h, e⟩ | ⟨h, e⟩
  · rw [Vec.normL1D, e]
    simp only [Res.bind_ok, Vec.foldFirstM, Vec.toList_cons, List.head?_cons, unwrap_some, List.tail_cons, Res.pure_eq]
    rw [foldlM_checked (by omega) _ _ _ (by simp) (by simpa using h 0)]
    · simp only [List.sum_ofFn, Vec.getElem_mk, Vector.getElem_ofFn, Fin.sum_univ_succ, Fin.val_zero, Fin.val_succ]
    · intro y hy
      obtain ⟨i, rfl⟩ := List.mem_ofFn.mp hy
      simp
  · rw [Vec.normL1D, e, if_neg]
    · rfl
    · intro hs
      apply h
      intro i
      exact (Finset.single_le_sum (f := fun i : Fin (n + 1) => |v[i.1]|) (fun i _ => abs_nonneg _) (Finset.mem_univ i)).trans hs
/-- Debug profile: `norm_l_inf` returns exactly when no component is the minimum, and then it is the largest absolute value. -/
theorem C78_debug_linf (hN : 0 < N) (hi : Int) (v : Vec Int N) (hx : ∀ i : Fin N, -hi - 1 ≤ v[i.1] ∧ v[i.1] ≤ hi) :
    ((∀ i : Fin N, v[i.1] ≠ -hi - 1) → ∃ r, v.normLInfD (-hi - 1) hi = .ok r ∧ (∃ i : Fin N, r = |v[i.1]|) ∧ ∀ i : Fin N, |v[i.1]| ≤ r) ∧
    ((∃ i : Fin N, v[i.1] = -hi - 1) → v.normLInfD (-hi - 1) hi = .error .arithOverflow) := by
  obtain ⟨n, rfl⟩ : ∃ n, N = n + 1 := ⟨N - 1, by omega⟩
  have h0 : 0 ≤ hi + 1 ∧ (hi + 1 = 0 ∨ 0 ≤ hi) := by have := hx 0; omega
  rcases mapM_absD v hx with ⟨h, e⟩ | ⟨h, e⟩
  · constructor
    · intro _
      rw [Vec.normLInfD, e]
      simp only [Res.bind_ok, Vec.foldFirstM, Vec.toList_cons, List.head?_cons, unwrap_some, List.tail_cons, Res.pure_eq]
      have hm := foldlM_max (List.ofFn fun i : Fin n => (⟨Vector.ofFn fun i : Fin (n + 1) => |v[i.1]|⟩ : Vec Int (n + 1))[i.1 + 1]) |v[0]|
      simp only [Res.pure_eq] at hm
      obtain ⟨a1, a2, a3⟩ := foldl_max_spec
        (List.ofFn fun i : Fin n => (⟨Vector.ofFn fun i : Fin (n + 1) => |v[i.1]|⟩ : Vec Int (n + 1))[i.1 + 1]) |v[0]|
      refine ⟨_, by simpa using hm, ?_, ?_⟩
      · rcases a1 with a1 | a1
        · exact ⟨0, by simpa using a1⟩
        · obtain ⟨i, hi'⟩ := List.mem_ofFn.mp a1
          exact ⟨i.succ, by simpa using hi'.symm⟩
      · intro i
        refine Fin.cases ?_ (fun j => ?_) i
        · simpa using a2
        · simpa using a3 _ (List.mem_ofFn.mpr ⟨j, rfl⟩)
    · rintro ⟨i, hi'⟩
      exfalso
      have := h i
      rw [hi', abs_of_nonpos (by omega)] at this
      omega
  · constructor
    · intro hne
      exfalso; apply h
      intro i
      have h1 := hne i
      have h2 := hx i
      exact abs_le.mpr ⟨by omega, by omega⟩
    · intro _; rw [Vec.normLInfD, e]; rfl

-- i8, wrapping: [100, -20, 7] fits, [100, -28] wraps
example : (⟨#v[⟨100⟩, ⟨-20⟩, ⟨7⟩]⟩ : Vec (SInt 8) 3).normL1R = .ok ⟨127⟩ := by decide
example : (⟨#v[⟨100⟩, ⟨-28⟩]⟩ : Vec (SInt 8) 2).normL1R = .ok ⟨-128⟩ := by decide
example : (⟨#v[⟨100⟩, ⟨-120⟩, ⟨7⟩]⟩ : Vec (SInt 8) 3).normLInfR = .ok ⟨120⟩ := by decide
example : ∃ r, (⟨#v[⟨100⟩, ⟨-20⟩, ⟨7⟩]⟩ : Vec (SInt 8) 3).normL1R = .ok r ∧ r.value = 127 := by
  obtain ⟨r, h1, h2⟩ := C78_l1_exact (w := 8) (by norm_num) (⟨#v[⟨100⟩, ⟨-20⟩, ⟨7⟩]⟩ : Vec (SInt 8) 3) (by decide)
  exact ⟨r, h1, by rw [h2]; decide⟩
-- debug: the same at the value level
example : (⟨#v[100, -20, 7]⟩ : Vec Int 3).normL1D (-128) 127 = .ok 127 := by decide
example : (⟨#v[100, -28]⟩ : Vec Int 2).normL1D (-128) 127 = .error .arithOverflow := by decide
example : (⟨#v[1, -128]⟩ : Vec Int 2).normLInfD (-128) 127 = .error .arithOverflow := by decide

/-! ## further cases: the hypotheses are satisfiable -/
example := C78_debug_l1 (by omega) 127 (⟨#v[100, -28]⟩ : Vec Int 2) (by decide)
example := C78_debug_linf (by omega) 127 (⟨#v[1, -128]⟩ : Vec Int 2) (by decide)
example := C78_l1_wrapping (by omega) (⟨#v[⟨100⟩, ⟨-28⟩]⟩ : Vec (SInt 8) 2)
example := C78_linf_exact (by omega) (⟨#v[⟨100⟩, ⟨-120⟩, ⟨7⟩]⟩ : Vec (SInt 8) 3) (by decide)
example := C78_linf_min (by omega) (by omega) (⟨#v[⟨100⟩, ⟨-128⟩, ⟨7⟩]⟩ : Vec (SInt 8) 3)
example := C78_unsigned (by omega) (⟨#v[⟨200⟩, ⟨100⟩, ⟨7⟩]⟩ : Vec (UInt 8) 3)

end Vecmat
