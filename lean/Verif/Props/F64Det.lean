import Verif.Props.F64Angle
import Verif.Props.Quotient
/-!
# C99: determinants, inverses and linear transformations in double precision
Nothing is assumed about the run (no trapping, no absence of underflow): only the range of the inputs.
-/
namespace Vecmat
open Spec Ieee F64
set_option exponentiation.threshold 3000

namespace F64
variable {φ : Fmt}
/-- Error bound with a real number of underflow units. -/
noncomputable def bndR (φ : Fmt) (k : ℕ) (t m : ℝ) : ℝ := gam (roundoff φ) k * m + t * tiny φ * (1 + roundoff φ) ^ k
/-- The datum `a` is finite and approximates `x`, whose terms have total magnitude `m`. -/
structure Bd (k : ℕ) (t m : ℝ) (a : Ieee φ) (x : ℝ) : Prop where
  datum : Datum a
  mag : |x| ≤ m
  tpos : 0 ≤ t
  val : ∃ y, Val a y ∧ |y - x| ≤ bndR φ k t m

theorem gam_nonneg' (k : ℕ) : 0 ≤ gam (roundoff φ) k := sub_nonneg.2 (one_le_pow₀ (by linarith [u_pos (φ := φ)]))
theorem bndR_nonneg (k : ℕ) {t m : ℝ} (ht : 0 ≤ t) (hm : 0 ≤ m) : 0 ≤ bndR φ k t m := by
  have := tiny_pos (φ := φ); have := u_pos (φ := φ); have := gam_nonneg' (φ := φ) k
  unfold bndR; positivity
theorem bndR_mono {k k' : ℕ} {t t' m m' : ℝ} (hk : k ≤ k') (ht0 : 0 ≤ t) (ht : t ≤ t') (hm : 0 ≤ m) (hm' : m ≤ m') : bndR φ k t m ≤ bndR φ k' t' m' := by
  have h0 := u_pos (φ := φ)
  have h1 := gam_nonneg' (φ := φ) k
  have h2 : (1 + roundoff φ) ^ k ≤ (1 + roundoff φ) ^ k' := pow_le_pow_right₀ (by linarith) hk
  have h3 : gam (roundoff φ) k ≤ gam (roundoff φ) k' := sub_le_sub_right h2 _
  have := tiny_pos (φ := φ)
  have ht' := ht0.trans ht
  exact add_le_add (mul_le_mul h3 hm' hm (h1.trans h3)) (mul_le_mul (mul_le_mul_of_nonneg_right ht this.le) h2 (by positivity) (by positivity))
theorem Bd.nonneg {k : ℕ} {t m x : ℝ} {a : Ieee φ} (h : Bd k t m a x) : 0 ≤ m := (abs_nonneg _).trans h.mag
theorem Bd.mono {k k' : ℕ} {t t' m x : ℝ} {a : Ieee φ} (h : Bd k t m a x) (hk : k ≤ k') (ht : t ≤ t') : Bd k' t' m a x := by
  obtain ⟨y, hy, e⟩ := h.val
  exact ⟨h.datum, h.mag, h.tpos.trans ht, y, hy, e.trans (bndR_mono hk h.tpos ht h.nonneg le_rfl)⟩
theorem Bd.zero : Bd 0 0 0 (0 : Ieee φ) 0 := ⟨trivial, by simp, le_rfl, 0, rfl, by simp [bndR]⟩
theorem Bd.neg {k : ℕ} {t m x : ℝ} {a : Ieee φ} (h : Bd k t m a x) : Bd k t m (-a) (-x) := by
  obtain ⟨y, hy, e⟩ := h.val
  exact ⟨datum_neg h.datum, by simpa using h.mag, h.tpos, -y, val_neg hy, by rwa [show -y - -x = -(y - x) by ring, abs_neg]⟩
theorem Bd.add (hφ : WF φ) {k : ℕ} {t t' m m' x y : ℝ} {a b : Ieee φ} (h : Bd k t m a x) (h' : Bd k t' m' b y)
    (hw : (m + m') + bndR φ (k + 1) (t + t') (m + m') < huge φ) : Bd (k + 1) (t + t') (m + m') (a + b) (x + y) := by
  have hu := u_pos (φ := φ)
  obtain ⟨x', hx, e1⟩ := h.val
  obtain ⟨y', hy, e2⟩ := h'.val
  have e5 : |x + y| ≤ m + m' := (abs_add_le _ _).trans (add_le_add h.mag h'.mag)
  have key : |φ.near (x' + y') - (x + y)| ≤ bndR φ (k + 1) (t + t') (m + m') := by
    have e3 := near_add_rel hφ (Datum.rep hφ h.datum hx) (Datum.rep hφ h'.datum hy)
    have e4 : |x' + y' - (x + y)| ≤ bndR φ k (t + t') (m + m') := by
      calc |x' + y' - (x + y)| = |(x' - x) + (y' - y)| := by congr 1; ring
        _ ≤ _ := (abs_add_le _ _).trans (add_le_add e1 e2)
        _ = _ := by unfold bndR; ring
    have e6 : |x' + y'| ≤ |x' + y' - (x + y)| + |x + y| := by
      calc |x' + y'| = |(x' + y' - (x + y)) + (x + y)| := by congr 1; ring
        _ ≤ _ := abs_add_le _ _
    have e7 : |φ.near (x' + y') - (x + y)| ≤ |φ.near (x' + y') - (x' + y')| + |x' + y' - (x + y)| := by
      calc _ = |(φ.near (x' + y') - (x' + y')) + (x' + y' - (x + y))| := by congr 1; ring
        _ ≤ _ := abs_add_le _ _
    have e8 : bndR φ (k + 1) (t + t') (m + m') = (1 + roundoff φ) * bndR φ k (t + t') (m + m') + roundoff φ * (m + m') := by
      unfold bndR gam; ring
    rw [e8]
    nlinarith
  refine ⟨datum_add hφ _ _, e5, add_nonneg h.tpos h'.tpos, _, val_add_iff.2 ⟨x', y', hx, hy, rfl, ?_⟩, key⟩
  calc |φ.near (x' + y')| = |(φ.near (x' + y') - (x + y)) + (x + y)| := by congr 1; ring
    _ ≤ _ := abs_add_le _ _
    _ < _ := by linarith
theorem Bd.mul (hφ : WF φ) {k : ℕ} {t m α y : ℝ} {a b : Ieee φ} (ha : Val a α) (h : Bd k t m b y)
    (hw : |α| * m + bndR φ (k + 1) (|α| * t + 1) (|α| * m) < huge φ) : Bd (k + 1) (|α| * t + 1) (|α| * m) (a * b) (α * y) := by
  have hu := u_pos (φ := φ)
  have ht := tiny_pos (φ := φ)
  have hα := abs_nonneg α
  obtain ⟨y', hy, e1⟩ := h.val
  have e5 : |α * y| ≤ |α| * m := by rw [abs_mul]; exact mul_le_mul_of_nonneg_left h.mag hα
  have key : |φ.near (α * y') - α * y| ≤ bndR φ (k + 1) (|α| * t + 1) (|α| * m) := by
    have e3 := near_err_add (φ := φ) (α * y')
    have e4 : |α * y' - α * y| ≤ |α| * bndR φ k t m := by
      rw [← mul_sub, abs_mul]; exact mul_le_mul_of_nonneg_left e1 hα
    have e6 : |α * y'| ≤ |α * y' - α * y| + |α * y| := by
      calc |α * y'| = |(α * y' - α * y) + α * y| := by congr 1; ring
        _ ≤ _ := abs_add_le _ _
    have e7 : |φ.near (α * y') - α * y| ≤ |φ.near (α * y') - α * y'| + |α * y' - α * y| := by
      calc _ = |(φ.near (α * y') - α * y') + (α * y' - α * y)| := by congr 1; ring
        _ ≤ _ := abs_add_le _ _
    have e8 : (1 + roundoff φ) * (|α| * bndR φ k t m) + roundoff φ * (|α| * m) + tiny φ ≤ bndR φ (k + 1) (|α| * t + 1) (|α| * m) := by
      have : 1 ≤ (1 + roundoff φ) ^ (k + 1) := one_le_pow₀ (by linarith)
      have : tiny φ * 1 ≤ tiny φ * (1 + roundoff φ) ^ (k + 1) := mul_le_mul_of_nonneg_left this ht.le
      have e : bndR φ (k + 1) (|α| * t + 1) (|α| * m) = (1 + roundoff φ) * (|α| * bndR φ k t m) + roundoff φ * (|α| * m) + tiny φ * (1 + roundoff φ) ^ (k + 1) := by
        unfold bndR gam; ring
      rw [e]; linarith
    nlinarith
  refine ⟨datum_mul hφ _ _, e5, add_nonneg (mul_nonneg hα h.tpos) zero_le_one, _, val_mul_iff.2 ⟨α, y', ha, hy, rfl, ?_⟩, key⟩
  calc |φ.near (α * y')| = |(φ.near (α * y') - α * y) + α * y| := by congr 1; ring
    _ ≤ _ := abs_add_le _ _
    _ < _ := by linarith
theorem Bd.foldl (hφ : WF φ) {ι : Type*} (s : List ι) (g : ι → Ieee φ) (e mg : ι → ℝ) {k : ℕ} {t : ℝ}
    (hg : ∀ i ∈ s, Bd k t (mg i) (g i) (e i)) : ∀ {l : ℕ} {t0 m x : ℝ} {a : Ieee φ}, Bd l t0 m a x → k ≤ l → 0 ≤ t →
    (m + (s.map mg).sum) + bndR φ (l + s.length) (t0 + s.length * t) (m + (s.map mg).sum) < huge φ →
    Bd (l + s.length) (t0 + s.length * t) (m + (s.map mg).sum) (s.foldl (fun a i => a + g i) a) (x + (s.map e).sum) := by
  induction s with
  | nil => intro l t0 m x a h _ _ _; simpa using h
  | cons i s ih =>
    intro l t0 m x a h hkl ht hw
    have hgi := hg i (by simp)
    have hs : 0 ≤ (s.map mg).sum := List.sum_nonneg fun y hy => by
      obtain ⟨j, hj, rfl⟩ := List.mem_map.1 hy
      exact (hg j (by simp [hj])).nonneg
    rw [List.map_cons, List.sum_cons, List.length_cons] at hw
    push_cast at hw
    have h1 := h.add hφ (hgi.mono hkl le_rfl) (lt_of_le_of_lt (by
      have := bndR_mono (φ := φ) (k := l + 1) (k' := l + (s.length + 1)) (t := t0 + t) (t' := t0 + (s.length + 1) * t) (m := m + mg i)
        (m' := m + (mg i + (s.map mg).sum)) (by omega) (add_nonneg h.tpos ht) (by nlinarith [Nat.cast_nonneg (α := ℝ) s.length]) (add_nonneg h.nonneg hgi.nonneg) (by linarith)
      linarith) hw)
    have := ih (fun j hj => hg j (by simp [hj])) h1 (by omega) ht (by
      convert hw using 2
      · ring
      · congr 1 <;> first | omega | ring)
    rw [List.map_cons, List.map_cons, List.sum_cons, List.sum_cons, List.length_cons, List.foldl_cons]
    push_cast
    convert this using 1 <;> first | omega | ring

/-- Underflow units of a determinant of size `n` with entries up to `C`. -/
noncomputable def unitsR (C : ℝ) : ℕ → ℝ
  | 0 => 0
  | n + 1 => (n + 1) * (C * unitsR C n + 1)
theorem unitsR_nonneg {C : ℝ} (hC : 0 ≤ C) (n : ℕ) : 0 ≤ unitsR C n := by
  induction n with
  | zero => exact le_rfl
  | succ n ih => unfold unitsR; positivity
theorem unitsR_le {C : ℝ} (hC : 1 ≤ C) (n : ℕ) : unitsR C n ≤ 3 * (n.factorial * C ^ n) := by
  have h : ∀ n : ℕ, unitsR C (n + 1) ≤ (3 * (n + 1).factorial - 2) * C ^ (n + 1) := fun n => by
    induction n with
    | zero => simp [unitsR]; linarith
    | succ n ih =>
      rw [unitsR]
      have c1 : 1 ≤ C ^ (n + 1 + 1) := one_le_pow₀ hC
      have f : (((n + 1 + 1).factorial : ℕ) : ℝ) = (n + 1 + 1) * ((n + 1).factorial : ℝ) := by rw [Nat.factorial_succ]; push_cast; ring
      rw [f]
      push_cast
      have n0 : (0:ℝ) ≤ n := Nat.cast_nonneg n
      calc ((n:ℝ) + 1 + 1) * (C * unitsR C (n + 1) + 1) ≤ (n + 1 + 1) * (C * ((3 * (n + 1).factorial - 2) * C ^ (n + 1)) + C ^ (n + 1 + 1)) := by gcongr
        _ = (3 * ((n + 1 + 1) * (n + 1).factorial) - (n + 2)) * C ^ (n + 1 + 1) := by ring
        _ ≤ _ := by gcongr; linarith
  cases n with
  | zero => simp [unitsR]
  | succ n =>
    refine (h n).trans ?_
    have : 0 ≤ C ^ (n + 1) := by positivity
    nlinarith
theorem plap_nonneg (f : Nat → Nat → ℝ) (hf : ∀ i j, 0 ≤ f i j) (R C : List Nat) : 0 ≤ plap f R C := by
  induction R generalizing C with
  | nil => simp [plap]
  | cons i R ih => rw [plap]; exact Finset.sum_nonneg fun k _ => mul_nonneg (hf _ _) (ih _)
theorem plap_le (f : Nat → Nat → ℝ) {c : ℝ} (hf : ∀ i j, 0 ≤ f i j) (hc : ∀ i j, f i j ≤ c) (n : ℕ) (R C : List Nat) (hR : R.length = n) (hC : C.length = n) :
    plap f R C ≤ n.factorial * c ^ n := by
  have c0 : 0 ≤ c := (hf 0 0).trans (hc 0 0)
  induction n generalizing R C with
  | zero =>
    have : R = [] := List.length_eq_zero_iff.mp hR
    subst this; simp [plap]
  | succ n ih =>
    cases R with
    | nil => simp at hR
    | cons i R =>
      rw [plap]
      calc _ ≤ ∑ k : Fin C.length, c * (n.factorial * c ^ n) := by
            refine Finset.sum_le_sum fun k _ => mul_le_mul (hc _ _) (ih R _ (by simpa using hR) ?_) (plap_nonneg f hf _ _) c0
            rw [List.length_eraseIdx_of_lt k.2]; omega
        _ = _ := by rw [Finset.sum_const, Finset.card_univ, Fintype.card_fin, hC, nsmul_eq_mul, Nat.factorial_succ]; push_cast; ring
theorem fact_pow_mono {C : ℝ} (hC : 1 ≤ C) {n M : ℕ} (h : n ≤ M) : (n.factorial : ℝ) * C ^ n ≤ M.factorial * C ^ M := by
  have : (n.factorial : ℝ) ≤ M.factorial := by exact_mod_cast Nat.factorial_le h
  have := pow_le_pow_right₀ hC h
  gcongr

theorem sgn_bd {k : ℕ} {t m x : ℝ} {a : Ieee φ} (h : Bd k t m a x) (r : ℕ) : Bd k t m (Mat.sgn r a) (Mat.sgn r x) := by
  unfold Mat.sgn; split
  · exact h.neg
  · exact h
theorem lap_bd (hφ : WF φ) (f : Nat → Nat → Ieee φ) (g : Nat → Nat → ℝ) (h : ∀ i j, Val (f i j) (g i j)) {c : ℝ} (hc : 1 ≤ c)
    (hg : ∀ i j, |g i j| ≤ c) (d1 : Datum (1 : Ieee φ)) (M : ℕ)
    (hw : M.factorial * c ^ M + bndR φ (detDepth M) (unitsR c M) (M.factorial * c ^ M) < huge φ)
    (n : ℕ) (hn : n ≤ M) (R C : List Nat) (hR : R.length = n) (hC : C.length = n) :
    Bd (detDepth n) (unitsR c n) (plap (fun i j => |g i j|) R C) (Mat.lap f R C) (Mat.lap g R C) := by
  have c0 : 0 ≤ c := zero_le_one.trans hc
  have dm : ∀ {a b : ℕ}, a ≤ b → detDepth a ≤ detDepth b := fun {a b} hab => by
    unfold detDepth; exact Nat.div_le_div_right (Nat.mul_le_mul hab (by omega))
  have um : ∀ {a b : ℕ}, a ≤ b → unitsR c a ≤ unitsR c b := fun {a b} hab => by
    induction hab with
    | refl => exact le_rfl
    | step _ ih =>
      refine ih.trans ?_
      rw [unitsR]
      have := unitsR_nonneg c0
      nlinarith [this ‹ℕ›, mul_nonneg (sub_nonneg.2 hc) (this ‹ℕ›), Nat.cast_nonneg (α := ℝ) ‹ℕ›]
  induction n generalizing R C with
  | zero =>
    have : R = [] := List.length_eq_zero_iff.mp hR
    subst this; exact ⟨d1, by simp [plap, Mat.lap], le_rfl, 1, rfl, by simp [bndR, detDepth, gam, unitsR, Mat.lap]⟩
  | succ n ih =>
    cases R with
    | nil => simp at hR
    | cons i R =>
      have hp : ∀ i j, 0 ≤ (fun i j => |g i j|) i j := fun i j => abs_nonneg _
      have un := unitsR_nonneg c0 n
      have hwin : ∀ {k : ℕ} {t m : ℝ}, k ≤ detDepth (n + 1) → 0 ≤ t → t ≤ unitsR c (n + 1) → 0 ≤ m → m ≤ (n + 1).factorial * c ^ (n + 1) →
          m + bndR φ k t m < huge φ := fun {k t m} hk t0 ht m0 hm => by
        have hm' := hm.trans (fact_pow_mono hc hn)
        refine lt_of_le_of_lt (add_le_add hm' (bndR_mono (hk.trans (dm hn)) t0 (ht.trans (um hn)) m0 hm')) hw
      have hT : ∀ k ∈ List.range C.length, Bd (detDepth n + 1) (c * unitsR c n + 1)
          (|g i (C[k]?.getD 0)| * plap (fun i j => |g i j|) R (C.eraseIdx k))
          (f i (C[k]?.getD 0) * Mat.sgn k (Mat.lap f R (C.eraseIdx k)))
          (g i (C[k]?.getD 0) * Mat.sgn k (Mat.lap g R (C.eraseIdx k))) := fun k hk => by
        have hl : (C.eraseIdx k).length = n := by rw [List.length_eraseIdx_of_lt (by simpa using hk)]; omega
        have b0 := sgn_bd (ih (by omega) R (C.eraseIdx k) (by simpa using hR) hl) k
        have ga := hg i (C[k]?.getD 0)
        have g0 := abs_nonneg (g i (C[k]?.getD 0))
        have tle : |g i (C[k]?.getD 0)| * unitsR c n + 1 ≤ c * unitsR c n + 1 := by gcongr
        refine (b0.mul hφ (h i (C[k]?.getD 0)) (hwin ?_ (by positivity) (tle.trans ?_) (mul_nonneg g0 b0.nonneg) ?_)).mono le_rfl tle
        · rw [detDepth_succ]; omega
        · rw [unitsR]; nlinarith [mul_nonneg c0 un, Nat.cast_nonneg (α := ℝ) n]
        · have pl := plap_le _ hp hg n R (C.eraseIdx k) (by simpa using hR) hl
          calc _ ≤ c * (n.factorial * c ^ n) := mul_le_mul ga pl (plap_nonneg _ hp _ _) c0
            _ ≤ _ := by
              rw [Nat.factorial_succ]; push_cast
              have : 0 ≤ (n.factorial : ℝ) * c ^ n := by positivity
              rw [pow_succ]
              nlinarith [mul_nonneg (mul_nonneg c0 this) (Nat.cast_nonneg (α := ℝ) n)]
      have e1 : ∀ (c : ℕ → ℝ) (n : ℕ), ((List.range n).map c).sum = ∑ k : Fin n, c k.1 := by
        intro c n
        induction n with
        | zero => simp
        | succ n ih => rw [List.range_succ, List.map_append, List.sum_append, ih, Fin.sum_univ_castSucc]; simp
      have ep : plap (fun i j => |g i j|) (i :: R) C = ∑ k : Fin C.length, |g i (C[k.1]?.getD 0)| * plap (fun i j => |g i j|) R (C.eraseIdx k.1) := by
        rw [plap]
        refine Finset.sum_congr rfl fun k _ => ?_
        rw [List.getElem?_eq_getElem k.2]; rfl
      have eu : (0:ℝ) + (List.range C.length).length * (c * unitsR c n + 1) = unitsR c (n + 1) := by
        rw [List.length_range, hC, unitsR]; push_cast; ring
      have ek : detDepth n + 1 + (List.range C.length).length = detDepth (n + 1) := by rw [detDepth_succ, List.length_range, hC]
      have hpl := plap_le _ hp hg (n + 1) (i :: R) C hR hC
      have hpn := plap_nonneg _ hp (i :: R) C
      have := Bd.foldl hφ (List.range C.length) _ _ _ hT (Bd.zero.mono (Nat.zero_le (detDepth n + 1)) le_rfl) le_rfl (by positivity) (by
        rw [eu, ek, e1, zero_add, ← ep]
        exact hwin le_rfl (unitsR_nonneg c0 _) le_rfl hpn hpl)
      rw [eu, ek, e1, e1, zero_add, zero_add, ← ep] at this
      rw [Mat.lap, Mat.lap, Mat.foldl_range_add]
      convert this using 2

theorem two_pow_le_fact (n : ℕ) : 2 ^ n ≤ (n + 1).factorial := by
  induction n with
  | zero => simp
  | succ n ih => rw [Nat.factorial_succ, pow_succ]; nlinarith [Nat.factorial_pos (n + 1)]
theorem size_le {c : ℝ} (hc : 1 ≤ c) {n : ℕ} (h : n.factorial * c ^ n ≤ 2 ^ 1000) : n ≤ 1001 := by
  cases n with
  | zero => omega
  | succ n =>
    have h1 : ((2 ^ n : ℕ) : ℝ) ≤ (n + 1).factorial := by exact_mod_cast two_pow_le_fact n
    have h2 : ((n + 1).factorial : ℝ) * 1 ≤ (n + 1).factorial * c ^ (n + 1) := mul_le_mul_of_nonneg_left (one_le_pow₀ hc) (by positivity)
    have h3 : ((2:ℝ)) ^ n ≤ 2 ^ 1000 := by push_cast at h1; linarith
    have := (pow_le_pow_iff_right₀ (by norm_num : (1:ℝ) < 2)).1 h3
    omega
theorem depth_le {n : ℕ} (hn : n ≤ 1001) : (detDepth n : ℝ) ≤ n * (n + 3) / 2 ∧ (detDepth n : ℝ) ≤ 2 ^ 19 := by
  have h1 : (detDepth n : ℝ) ≤ n * (n + 3) / 2 := by
    have := Nat.cast_div_le (α := ℝ) (m := n * (n + 3)) (n := 2)
    unfold detDepth; push_cast at this ⊢; exact this
  refine ⟨h1, h1.trans ?_⟩
  have : (n : ℝ) ≤ 1001 := by exact_mod_cast hn
  have : (0:ℝ) ≤ n := Nat.cast_nonneg n
  norm_num; nlinarith
theorem gam_det {n : ℕ} (hn : n ≤ 1001) : gam (roundoff Fmt.f64) (detDepth n) ≤ 101 / 200 * (n * (n + 3)) / 2 ^ 53 ∧
    (1 + roundoff Fmt.f64) ^ detDepth n ≤ 1 + 1 / 2 ^ 30 := by
  obtain ⟨h1, h2⟩ := depth_le hn
  have hk : (detDepth n : ℝ) * (1 / 2 ^ 53) ≤ 1 / 2 ^ 34 := by
    calc _ ≤ (2:ℝ) ^ 19 * (1 / 2 ^ 53) := by gcongr
      _ = _ := by norm_num
  have hg := C70_factor (u := roundoff Fmt.f64) (by rw [u_eq]; positivity) (detDepth n) (by rw [u_eq]; exact lt_of_le_of_lt hk (by norm_num))
  have k0 : (0:ℝ) ≤ detDepth n := Nat.cast_nonneg _
  have hg' : gam (roundoff Fmt.f64) (detDepth n) ≤ 101 / 100 * (detDepth n * (1 / 2 ^ 53)) := by
    refine hg.trans ?_
    rw [u_eq, div_le_iff₀ (by norm_num at hk ⊢; linarith)]
    have : 0 ≤ (detDepth n : ℝ) * (1 / 2 ^ 53) := by positivity
    nlinarith
  constructor
  · refine hg'.trans ?_
    rw [mul_div_assoc]
    calc (101:ℝ) / 100 * (detDepth n * (1 / 2 ^ 53)) ≤ 101 / 100 * ((n:ℝ) * (n + 3) / 2 * (1 / 2 ^ 53)) := by gcongr
      _ = _ := by ring
  · have : gam (roundoff Fmt.f64) (detDepth n) ≤ 1 / 2 ^ 30 := by
      refine hg'.trans ?_
      norm_num at hk ⊢; linarith
    unfold gam at this; linarith
theorem bnd_det {n : ℕ} {c m : ℝ} (hc : 1 ≤ c) (h : n.factorial * c ^ n ≤ 2 ^ 1000) (hm : 0 ≤ m) :
    bndR Fmt.f64 (detDepth n) (unitsR c n) m ≤ 101 / 200 * (n * (n + 3)) / 2 ^ 53 * m + n.factorial * c ^ n / 2 ^ 1073 := by
  obtain ⟨g1, g2⟩ := gam_det (size_le hc h)
  have hu := unitsR_le hc n
  have u0 := unitsR_nonneg (zero_le_one.trans hc) n
  have f0 : 0 ≤ (n.factorial : ℝ) * c ^ n := by positivity
  have p0 : 0 ≤ (1 + roundoff Fmt.f64) ^ detDepth n := by have := u_pos (φ := Fmt.f64); positivity
  unfold bndR
  refine add_le_add (mul_le_mul_of_nonneg_right g1 hm) ?_
  rw [tiny_eq]
  calc unitsR c n * (1 / 2 ^ 1075) * (1 + roundoff Fmt.f64) ^ detDepth n ≤ (3 * (n.factorial * c ^ n)) * (1 / 2 ^ 1075) * (1 + 1 / 2 ^ 30) := by gcongr
    _ = (n.factorial * c ^ n) * (3 * (1 / 2 ^ 1075) * (1 + 1 / 2 ^ 30)) := by ring
    _ ≤ (n.factorial * c ^ n) * (1 / 2 ^ 1073) := by
      refine mul_le_mul_of_nonneg_left ?_ f0; norm_num
    _ = _ := by ring
theorem window_det {n : ℕ} {c : ℝ} (hc : 1 ≤ c) (h : n.factorial * c ^ n ≤ 2 ^ 1000) :
    n.factorial * c ^ n + bndR Fmt.f64 (detDepth n) (unitsR c n) (n.factorial * c ^ n) < huge Fmt.f64 := by
  have f0 : 0 ≤ (n.factorial : ℝ) * c ^ n := by positivity
  have h1 := bnd_det hc h f0
  have hn : (n : ℝ) ≤ 1001 := by exact_mod_cast size_le hc h
  have n0 : (0:ℝ) ≤ n := Nat.cast_nonneg n
  have h2 : 101 / 200 * ((n:ℝ) * (n + 3)) / 2 ^ 53 ≤ 1 := by
    rw [div_le_one (by positivity)]; norm_num; nlinarith
  rw [huge_eq]
  set X := (n.factorial : ℝ) * c ^ n
  have h3 : 101 / 200 * ((n:ℝ) * (n + 3)) / 2 ^ 53 * X ≤ 1 * X := mul_le_mul_of_nonneg_right h2 f0
  have h4 : X / 2 ^ 1073 ≤ X := div_le_self f0 (by norm_num)
  calc X + _ ≤ 2 ^ 1000 + (1 * 2 ^ 1000 + 2 ^ 1000) := by linarith
    _ < _ := by norm_num
theorem one_datum : Datum (1 : F) := ⟨1, 0, by norm_num, by norm_num [Fmt.f64], by norm_num [Fmt.f64], by norm_num [Fmt.f64]⟩

/-- The entry functions of a matrix of doubles and of its values. -/
theorem ent_val {n : ℕ} {A : Mat F n n} {a : Matrix (Fin n) (Fin n) ℝ} (ha : ∀ i j : Fin n, A[i.1][j.1].toReal? = some (a i j)) {c : ℝ} (hc : 1 ≤ c)
    (hb : ∀ i j, |a i j| ≤ c) : ∃ B : Mat ℝ n n, B.toMatrix = a ∧ (∀ i j : Fin n, B[i.1][j.1] = a i j) ∧
      (∀ i j, Val (Mat.ent A i j) (Mat.ent B i j)) ∧ ∀ i j, |Mat.ent B i j| ≤ c := by
  refine ⟨⟨⟨Vector.ofFn fun i => ⟨Vector.ofFn fun j => a i j⟩⟩⟩, by ext i j; simp, by intro i j; simp, fun i j => ?_, fun i j => ?_⟩
  · unfold Mat.ent
    split
    · next h => simpa [Val] using ha ⟨i, h.1⟩ ⟨j, h.2⟩
    · rfl
  · unfold Mat.ent
    split
    · next h => simpa using hb ⟨i, h.1⟩ ⟨j, h.2⟩
    · simpa using zero_le_one.trans hc
end F64

/-- `det` of a matrix of doubles whose entries are at most `c` in absolute value (`N! c^N` not near the overflow threshold): finite, with an
error of at most `0.505 N(N+3) u` times the permanent of the absolute values, plus a quantity that is negligible unless products underflow. -/
theorem C99_det {N : ℕ} (A : Mat F N N) (a : Matrix (Fin N) (Fin N) ℝ) (ha : ∀ i j : Fin N, A[i.1][j.1].toReal? = some (a i j)) (c : ℝ) (hc : 1 ≤ c)
    (hb : ∀ i j, |a i j| ≤ c) (h : N.factorial * c ^ N ≤ 2 ^ 1000) :
    ∃ r, A.det.toReal? = some r ∧
      |r - a.det| ≤ 101 / 200 * (N * (N + 3)) / 2 ^ 53 * (a.map abs).permanent + N.factorial * c ^ N / 2 ^ 1073 := by
  obtain ⟨B, e1, hB, hv, hb'⟩ := ent_val ha hc hb
  have := lap_bd C80_formats.2 _ _ hv hc hb' one_datum N (window_det hc h) N le_rfl (List.range N) (List.range N) (by simp) (by simp)
  rw [← show A.det = _ from Res.get_eq (Mat.detR_eq A) _, ← show B.det = _ from Res.get_eq (Mat.detR_eq B) _,
    plap_eq_permanent _ N _ _ (by simp) (by simp), Mat.det_eq, e1] at this
  have e2 : (Matrix.of fun i j : Fin N => |Mat.ent B ((List.range N)[i.1]'(by simp)) ((List.range N)[j.1]'(by simp))|) = a.map abs := by
    ext i j; simp [Mat.ent_lt, hB]
  rw [e2] at this
  obtain ⟨r, hr, er⟩ := this.val
  exact ⟨r, hr, er.trans (bnd_det hc h this.nonneg)⟩

/-- Entries of the adjugate, under the same conditions. -/
theorem C99_adj {n : ℕ} (A : Mat F (n + 1) (n + 1)) (a : Matrix (Fin (n + 1)) (Fin (n + 1)) ℝ) (ha : ∀ i j : Fin (n + 1), A[i.1][j.1].toReal? = some (a i j))
    (c : ℝ) (hc : 1 ≤ c) (hb : ∀ i j, |a i j| ≤ c) (h : n.factorial * c ^ n ≤ 2 ^ 1000) (i j : Fin (n + 1)) :
    ∃ r, A.adj[i.1][j.1].toReal? = some r ∧
      |r - a.adjugate i j| ≤ 101 / 200 * (n * (n + 3)) / 2 ^ 53 * ((a.map abs).submatrix j.succAbove i.succAbove).permanent +
        n.factorial * c ^ n / 2 ^ 1073 := by
  obtain ⟨B, e1, hB, hv, hb'⟩ := ent_val ha hc hb
  have len : ∀ i : Fin (n + 1), ((List.range (n + 1)).eraseIdx i.1).length = n := by
    intro i; rw [List.length_eraseIdx_of_lt (by simp; omega)]; simp
  have := sgn_bd (lap_bd C80_formats.2 _ _ hv hc hb' one_datum n (window_det hc h) n le_rfl ((List.range (n + 1)).eraseIdx j.1)
    ((List.range (n + 1)).eraseIdx i.1) (len j) (len i)) (j.1 + i.1)
  obtain ⟨C, h1, h2⟩ := Mat.adjR_ok A
  obtain ⟨r, hr, er⟩ := this.val
  refine ⟨r, ?_, ?_⟩
  · rw [Mat.getElem_congr_mat (show A.adj = C from Res.get_eq h1 _) i i.2 j j.2, h2]; exact hr
  have h3 := er.trans (bnd_det hc h this.nonneg)
  rw [plap_eq_permanent _ n _ _ (len j) (len i), Mat.lap_erase, Mat.sgn_eq, e1] at h3
  rw [Matrix.adjugate_fin_succ_eq_det_submatrix]
  have key : ∀ (i : Fin (n + 1)) (a : Fin n) h, ((List.range (n + 1)).eraseIdx i.1)[a.1]'h = (i.succAbove a).1 := by
    intro i a h
    rw [List.getElem_eraseIdx]
    by_cases h : a.1 < i.1
    · rw [dif_pos h]; simp [Fin.succAbove, Fin.lt_def, h]
    · rw [dif_neg h]; simp [Fin.succAbove, Fin.lt_def, h]
  have e2 : (Matrix.of fun p q : Fin n => |Mat.ent B (((List.range (n + 1)).eraseIdx j.1)[p.1]'(by rw [len]; exact p.2))
      (((List.range (n + 1)).eraseIdx i.1)[q.1]'(by rw [len]; exact q.2))|) = (a.map abs).submatrix j.succAbove i.succAbove := by
    ext p q
    simp only [Matrix.of_apply, Matrix.submatrix_apply, Matrix.map_apply, key]
    rw [Mat.ent_lt _ _ _ (Fin.is_lt _) (Fin.is_lt _), hB]
  rw [e2] at h3
  exact h3

namespace F64
theorem abs_det_le_per {n : ℕ} (a : Matrix (Fin n) (Fin n) ℝ) : |a.det| ≤ (a.map abs).permanent := by
  rw [Matrix.det_apply, Matrix.permanent]
  refine (Finset.abs_sum_le_sum_abs _ _).trans (Finset.sum_le_sum fun σ _ => ?_)
  rw [Units.smul_def, zsmul_eq_mul, abs_mul, Finset.abs_prod]
  rcases Int.units_eq_one_or (Equiv.Perm.sign σ) with h | h <;> simp [h]
theorem per_le {n : ℕ} {a : Matrix (Fin n) (Fin n) ℝ} {c : ℝ} (hb : ∀ i j, |a i j| ≤ c) : (a.map abs).permanent ≤ n.factorial * c ^ n := by
  rw [Matrix.permanent]
  calc _ ≤ ∑ _σ : Equiv.Perm (Fin n), c ^ n := by
        refine Finset.sum_le_sum fun σ _ => ?_
        calc _ ≤ ∏ _i : Fin n, c := Finset.prod_le_prod (fun i _ => abs_nonneg _) fun i _ => hb _ _
          _ = _ := by simp
    _ = _ := by simp [Fintype.card_perm]
theorem div_val_err {a b : F} {p q : ℝ} (ha : a.toReal? = some p) (hb : b.toReal? = some q) (hq : q ≠ 0) (h : |p / q| ≤ 2 ^ 1000) :
    ∃ r, (a / b : F).toReal? = some r ∧ |r - p / q| ≤ 1 / 2 ^ 53 * |p / q| + 1 / 2 ^ 1075 := by
  have e := near_err_add (φ := Fmt.f64) (p / q)
  rw [u_eq, tiny_eq] at e
  refine ⟨_, val_div_iff.2 (.inl ⟨p, q, ha, hb, hq, rfl, ?_⟩), e⟩
  rw [huge_eq]
  calc |Fmt.f64.near (p / q)| = |(Fmt.f64.near (p / q) - p / q) + p / q| := by congr 1; ring
    _ ≤ _ := abs_add_le _ _
    _ ≤ (1 / 2 ^ 53 * 2 ^ 1000 + 1 / 2 ^ 1075) + 2 ^ 1000 := by refine add_le_add (e.trans ?_) h; gcongr
    _ < _ := by norm_num
theorem inv_arith {x Y s κ Q : ℝ} (Y0 : 0 ≤ Y) (s0 : 4 ≤ s) (κ1 : 1 ≤ κ) (Q0 : 0 ≤ Q) (eD : x ≤ 101 / 200 * s / 2 ^ 53 * Q + 1 / 2 ^ 273) :
    1.1501 * (x + (101 / 200 * s / 2 ^ 53 * κ + 1 / 2 ^ 273) * Y) + 1 / 2 ^ 53 * Y + 1 / 2 ^ 1075 ≤ s / 2 ^ 53 * (κ * Y + Q) + (1 + Y) / 2 ^ 250 := by
  have f2 : 4 * Y ≤ s * (κ * Y) := by
    calc 4 * Y = 4 * (1 * Y) := by ring
      _ ≤ s * (κ * Y) := by gcongr
  have g2 : 0 ≤ s * Q := by positivity
  have e1 : s / 2 ^ 53 * (κ * Y + Q) + (1 + Y) / 2 ^ 250 = 1 / 2 ^ 53 * (s * (κ * Y)) + 1 / 2 ^ 53 * (s * Q) + 1 / 2 ^ 250 + 1 / 2 ^ 250 * Y := by ring
  have e2 : (101 / 200 * s / 2 ^ 53 * κ + 1 / 2 ^ 273) * Y = 101 / 200 / 2 ^ 53 * (s * (κ * Y)) + 1 / 2 ^ 273 * Y := by ring
  have e3 : 101 / 200 * s / 2 ^ 53 * Q = 101 / 200 / 2 ^ 53 * (s * Q) := by ring
  rw [e1, e2]; rw [e3] at eD
  generalize s * (κ * Y) = z at *
  generalize s * Q = w at *
  have g3 : (1.1501:ℝ) * (1 / 2 ^ 273) + 1 / 2 ^ 1075 ≤ 1 / 2 ^ 250 := by norm_num
  have g4 : (1.1501:ℝ) * (1 / 2 ^ 273) * Y ≤ 1 / 2 ^ 250 * Y := by gcongr; norm_num
  have h5 : (1:ℝ) / 2 ^ 53 * Y ≤ 0.25 / 2 ^ 53 * z := by
    calc (1:ℝ) / 2 ^ 53 * Y = 0.25 / 2 ^ 53 * (4 * Y) := by ring
      _ ≤ _ := by gcongr
  have h6 : (1.1501:ℝ) * (101 / 200 / 2 ^ 53 * z) + 0.25 / 2 ^ 53 * z ≤ 1 / 2 ^ 53 * z := by
    have z0 : 0 ≤ z := le_trans (by positivity) f2
    rw [← mul_assoc, ← add_mul]; exact mul_le_mul_of_nonneg_right (by norm_num) z0
  have h7 : (1.1501:ℝ) * (101 / 200 / 2 ^ 53 * w) ≤ 1 / 2 ^ 53 * w := by
    rw [← mul_assoc]; exact mul_le_mul_of_nonneg_right (by norm_num) g2
  linarith
end F64

set_option maxHeartbeats 1000000 in
/-- Entries of the inverse of a matrix of doubles.  `κ` is a condition number: the ratio of the permanent of the absolute values and the
determinant. -/
theorem C99_inverse {n : ℕ} (A : Mat F (n + 1) (n + 1)) (a : Matrix (Fin (n + 1)) (Fin (n + 1)) ℝ) (ha : ∀ i j : Fin (n + 1), A[i.1][j.1].toReal? = some (a i j))
    (c : ℝ) (hc : 1 ≤ c) (hb : ∀ i j, |a i j| ≤ c) (h : (n + 1).factorial * c ^ (n + 1) ≤ 2 ^ 400) (hd : 1 / 2 ^ 400 ≤ |a.det|)
    (κ : ℝ) (hκ : (a.map abs).permanent ≤ κ * |a.det|) (hs : (n + 1) * (n + 4) * κ ≤ 2 ^ 51) (i j : Fin (n + 1)) :
    ∃ r, A.inv[i.1][j.1].toReal? = some r ∧
      |r - a⁻¹ i j| ≤ (n + 1) * (n + 4) / 2 ^ 53 * (κ * |a⁻¹ i j| + ((a.map abs).submatrix j.succAbove i.succAbove).permanent / |a.det|) +
        (1 + |a⁻¹ i j|) / 2 ^ 250 := by
  have c0 : 0 ≤ c := zero_le_one.trans hc
  have D0 : 0 < |a.det| := lt_of_lt_of_le (by positivity) hd
  have hdet0 : a.det ≠ 0 := abs_pos.1 D0
  have h' : (n.factorial : ℝ) * c ^ n ≤ 2 ^ 400 := (fact_pow_mono hc (Nat.le_succ n)).trans h
  obtain ⟨q, hq, eq⟩ := C99_det A a ha c hc hb (h.trans (by norm_num))
  obtain ⟨p, hp, ep⟩ := C99_adj A a ha c hc hb (h'.trans (by norm_num)) i j
  set D := |a.det| with hD
  set P := ((a.map abs).submatrix j.succAbove i.succAbove).permanent with hP
  set Y := |a⁻¹ i j| with hY
  have Y0 : 0 ≤ Y := abs_nonneg _
  have n0 : (0:ℝ) ≤ n := Nat.cast_nonneg n
  have κ1 : 1 ≤ κ := by
    have := (abs_det_le_per a).trans hκ
    rw [← hD] at this
    by_contra hk
    push Not at hk
    nlinarith
  have einv : a⁻¹ i j = a.adjugate i j / a.det := by
    rw [Matrix.inv_def, Matrix.smul_apply, Ring.inverse_eq_inv', smul_eq_mul]; field_simp
  have P0 : 0 ≤ P := Finset.sum_nonneg fun σ _ => Finset.prod_nonneg fun k _ => abs_nonneg _
  have Pc : P ≤ n.factorial * c ^ n := per_le (a := a.submatrix j.succAbove i.succAbove) fun _ _ => hb _ _
  -- the relative error of the determinant
  set s : ℝ := (n + 1) * (n + 4) with hsd
  set ρ : ℝ := 101 / 200 * s / 2 ^ 53 * κ + 1 / 2 ^ 273 with hρd
  have hρ : |q - a.det| ≤ ρ * D := by
    refine eq.trans ?_
    rw [hρd, add_mul]
    refine add_le_add ?_ ?_
    · push_cast
      rw [show ((n:ℝ) + 1) * (n + 1 + 3) = s by rw [hsd]; ring]
      calc _ ≤ 101 / 200 * s / 2 ^ 53 * (κ * D) := by rw [hsd]; gcongr
        _ = _ := by ring
    · calc _ ≤ (2:ℝ) ^ 400 / 2 ^ 1073 := by gcongr
        _ = 1 / 2 ^ 273 * (1 / 2 ^ 400) := by norm_num
        _ ≤ _ := by gcongr
  have s0 : 4 ≤ s := by rw [hsd]; nlinarith
  have hρs : ρ ≤ 0.13 := by
    have : 101 / 200 * s / 2 ^ 53 * κ = 101 / 200 / 2 ^ 53 * (s * κ) := by ring
    rw [hρd, this]
    calc _ ≤ (101:ℝ) / 200 / 2 ^ 53 * 2 ^ 51 + 1 / 2 ^ 273 := by gcongr
      _ ≤ _ := by norm_num
  have ρ0 : 0 ≤ ρ := by rw [hρd]; positivity
  -- the adjugate
  set e : ℝ := 101 / 200 * s / 2 ^ 53 * P + 1 / 2 ^ 673 with hed
  have he : |p - a.adjugate i j| ≤ e := by
    refine ep.trans (add_le_add ?_ ?_)
    · refine mul_le_mul_of_nonneg_right ?_ P0
      have : (n:ℝ) * (n + 3) ≤ s := by rw [hsd]; nlinarith
      gcongr
    · calc _ ≤ (2:ℝ) ^ 400 / 2 ^ 1073 := by gcongr
        _ = _ := by norm_num
  have q0 : q ≠ 0 := by
    intro h0
    rw [h0, zero_sub, abs_neg] at hρ
    have : ρ * D ≤ 0.13 * D := by gcongr
    linarith
  have hx := quot_err (A := ℝ) (n := a.adjugate i j) (n' := p) (d := a.det) (d' := q) (r := p / q) (e := e) (ρ := ρ) (τ := 0) hdet0
    (by linarith) le_rfl he hρ (by simp)
  rw [← einv] at hx
  simp only [Real.norm_eq_abs, add_zero, one_mul, zero_mul] at hx
  rw [← hD, ← hY] at hx
  -- everything is in range
  have eD : e / D ≤ 101 / 200 * s / 2 ^ 53 * (P / D) + 1 / 2 ^ 273 := by
    rw [hed, add_div]
    refine add_le_add (le_of_eq (by ring)) ?_
    rw [div_le_iff₀ D0]
    calc (1:ℝ) / 2 ^ 673 = 1 / 2 ^ 273 * (1 / 2 ^ 400) := by norm_num
      _ ≤ _ := by gcongr
  have e0 : 0 ≤ e := by rw [hed]; positivity
  have hmain : |p / q - a⁻¹ i j| ≤ 1.15 * (e / D + ρ * Y) := by
    refine hx.trans ?_
    rw [div_le_iff₀ (by linarith)]
    have : 0 ≤ e / D + ρ * Y := by positivity
    nlinarith
  have Yb : Y ≤ 2 ^ 800 := by
    have h1 : |a.adjugate i j| ≤ 2 ^ 400 := by
      rw [Matrix.adjugate_fin_succ_eq_det_submatrix, abs_mul, abs_pow, abs_neg, abs_one, one_pow, one_mul]
      exact (abs_det_le_per _).trans (Pc.trans h')
    rw [hY, einv, abs_div, ← hD, div_le_iff₀ D0]
    calc |a.adjugate i j| ≤ 2 ^ 400 := h1
      _ = 2 ^ 800 * (1 / 2 ^ 400) := by norm_num
      _ ≤ _ := by gcongr
  have PDb : P / D ≤ 2 ^ 800 := by
    rw [div_le_iff₀ D0]
    calc P ≤ 2 ^ 400 := Pc.trans h'
      _ = 2 ^ 800 * (1 / 2 ^ 400) := by norm_num
      _ ≤ _ := by gcongr
  have sk : s ≤ 2 ^ 51 := by
    calc s = s * 1 := (mul_one s).symm
      _ ≤ s * κ := by gcongr
      _ ≤ _ := hs
  have PD0 : 0 ≤ P / D := by positivity
  have hb2 : e / D + ρ * Y ≤ 2 ^ 801 := by
    calc e / D + ρ * Y ≤ (101 / 200 * 2 ^ 51 / 2 ^ 53 * 2 ^ 800 + 1 / 2 ^ 273) + 0.13 * 2 ^ 800 := by
          refine add_le_add (eD.trans ?_) (by gcongr)
          gcongr
      _ ≤ _ := by norm_num
  have tri : |p / q| ≤ |p / q - a⁻¹ i j| + Y := by
    calc |p / q| = |(p / q - a⁻¹ i j) + a⁻¹ i j| := by congr 1; ring
      _ ≤ _ := abs_add_le _ _
  have big : |p / q| ≤ 2 ^ 1000 := by
    calc |p / q| ≤ 1.15 * 2 ^ 801 + 2 ^ 800 := by linarith
      _ ≤ _ := by norm_num
  obtain ⟨r, hr, er⟩ := div_val_err hp hq q0 big
  refine ⟨r, ?_, ?_⟩
  · rw [Mat.getElem_congr_mat (Mat.inv_eq A) i i.2 j j.2, Mat.getElem_divS]; exact hr
  have tri2 : |r - a⁻¹ i j| ≤ |r - p / q| + |p / q - a⁻¹ i j| := by
    calc |r - a⁻¹ i j| = |(r - p / q) + (p / q - a⁻¹ i j)| := by congr 1; ring
      _ ≤ _ := abs_add_le _ _
  have f1 : |r - a⁻¹ i j| ≤ 1.1501 * (e / D + ρ * Y) + 1 / 2 ^ 53 * Y + 1 / 2 ^ 1075 := by
    have h1 : 0 ≤ e / D + ρ * Y := by positivity
    have h2 : (1:ℝ) / 2 ^ 53 * |p / q| ≤ 1 / 2 ^ 53 * (1.15 * (e / D + ρ * Y) + Y) := by gcongr; linarith
    have h3 : (1:ℝ) / 2 ^ 53 * (1.15 * (e / D + ρ * Y) + Y) ≤ 0.0001 * (e / D + ρ * Y) + 1 / 2 ^ 53 * Y := by
      rw [mul_add]
      refine add_le_add ?_ le_rfl
      rw [← mul_assoc]
      exact mul_le_mul_of_nonneg_right (by norm_num) h1
    linarith
  refine f1.trans ?_
  exact inv_arith Y0 s0 κ1 PD0 eD

end Vecmat
