import Verif.Spec.Units
import Verif.Spec.IeeeVal
import Verif.Lemmas.Rel
import Verif.Lemmas.IeeeErr
import Verif.Lemmas.Transforms
import Verif.Props.IeeeTrap
/-! Helper lemmas for C117: rounding commutes with powers of two, and a graded relation between two runs. -/
namespace Vecmat
open Spec Ieee
variable {φ : Fmt} {F : ℝ → Option ℝ} {L M N : Nat}

theorem log_two_zpow_mul (k : ℤ) {a : ℝ} (ha : 0 < a) : Int.log 2 (2 ^ k * a) = k + Int.log 2 a := by
  have hp : (0:ℝ) < 2 ^ k * a := by positivity
  have h1 : (((2:ℕ):ℝ)) ^ Int.log 2 a ≤ a := Int.zpow_log_le_self (by norm_num) ha
  have h2 : a < (((2:ℕ):ℝ)) ^ (Int.log 2 a + 1) := Int.lt_zpow_succ_log_self (by norm_num) a
  apply le_antisymm
  · apply Int.lt_add_one_iff.1
    apply (Int.lt_zpow_iff_log_lt (b := 2) (by norm_num) hp).1
    push_cast at h2 ⊢
    rw [add_assoc, zpow_add₀ (by norm_num)]
    exact mul_lt_mul_of_pos_left h2 (by positivity)
  · apply (Int.zpow_le_iff_le_log (b := 2) (by norm_num) hp).1
    push_cast at h1 ⊢
    rw [zpow_add₀ (by norm_num)]
    exact mul_le_mul_of_nonneg_left h1 (by positivity)
theorem ulp_scale {k : ℤ} {x : ℝ} (h0 : x ≠ 0) (h1 : (2:ℝ) ^ φ.emin ≤ |x|) (h2 : (2:ℝ) ^ φ.emin ≤ |2 ^ k * x|) :
    φ.ulp (2 ^ k * x) = 2 ^ k * φ.ulp x := by
  have e : |(2:ℝ) ^ k * x| = 2 ^ k * |x| := by rw [abs_mul, abs_of_pos (by positivity)]
  have hx : 0 < |x| := abs_pos.2 h0
  have l1 : φ.emin ≤ Int.log 2 |x| := (Int.zpow_le_iff_le_log (b := 2) (by norm_num) hx).1 (by exact_mod_cast h1)
  have l2 : φ.emin ≤ Int.log 2 |2 ^ k * x| :=
    (Int.zpow_le_iff_le_log (b := 2) (by norm_num) (by rw [e]; positivity)).1 (by exact_mod_cast h2)
  rw [e, log_two_zpow_mul k hx] at l2
  unfold Fmt.ulp
  rw [e, log_two_zpow_mul k hx, max_eq_left l1, max_eq_left l2, ← zpow_add₀ (by norm_num)]
  congr 1; ring
theorem near_scale {k : ℤ} {x : ℝ} (h0 : x ≠ 0) (h1 : (2:ℝ) ^ φ.emin ≤ |x|) (h2 : (2:ℝ) ^ φ.emin ≤ |2 ^ k * x|) :
    φ.near (2 ^ k * x) = 2 ^ k * φ.near x := by
  unfold Fmt.near
  have hk : (2:ℝ) ^ k ≠ 0 := by positivity
  rw [ulp_scale h0 h1 h2, mul_div_mul_left _ _ hk]; ring
theorem normal_some {x y : ℝ} : normal φ x = some y ↔ (x = 0 ∧ y = 0) ∨ (x ≠ 0 ∧ 2 ^ φ.emin ≤ |x| ∧ |φ.near x| < huge φ ∧ y = φ.near x) := by
  unfold normal; split
  · next h => simp [h, eq_comm]
  · next h =>
    split
    · next h' => simp [h, h'.1, h'.2, eq_comm]
    · next h' => simp [h]; intro a b; exact absurd ⟨a, b⟩ h'
theorem dyadic_normal : Dyadic (normal φ) := by
  intro k x u v hu hv
  rw [normal_some] at hu hv
  rcases hu with ⟨rfl, rfl⟩ | ⟨h0, h1, -, rfl⟩
  · rcases hv with ⟨-, rfl⟩ | ⟨h, -⟩
    · simp
    · simp at h
  · rcases hv with ⟨h, -⟩ | ⟨-, h2, -, rfl⟩
    · exact absurd h (mul_ne_zero (by positivity) h0)
    · exact near_scale h0 h1 h2

/-! ## the run that stops and the complete semantics -/
namespace Ieee
/-- `a` has the value computed by the arithmetic that stops at overflow and underflow. -/
def SimN (a : Ieee φ) (b : Fl (normal φ)) : Prop := ∀ x, b.val = some x → Val a x
theorem huge_pos' : 0 < huge φ := by unfold huge; positivity
theorem normal_near {x y : ℝ} (h : normal φ x = some y) : y = φ.near x ∧ |φ.near x| < huge φ := by
  rcases normal_some.1 h with ⟨rfl, rfl⟩ | ⟨-, -, h1, h2⟩
  · rw [Fmt.near_zero]; simpa using huge_pos'
  · exact ⟨h2, h1⟩
theorem simN_strict (a : Ieee φ) : SimN a a.strict := fun _ h => h
theorem opRel_simN : OpRel (Ieee φ) (Fl (normal φ)) SimN where
  add := by
    intro a b c d h h' x hx
    simp only [HAdd.hAdd, Add.add, Fl.lift2, Option.bind_eq_some_iff] at hx
    obtain ⟨y, hy, z, hz, hx⟩ := hx
    obtain ⟨rfl, h3⟩ := normal_near hx
    exact val_add_iff.2 ⟨y, z, h y hy, h' z hz, rfl, h3⟩
  sub := by
    intro a b c d h h' x hx
    simp only [HSub.hSub, Sub.sub, Fl.lift2, Option.bind_eq_some_iff] at hx
    obtain ⟨y, hy, z, hz, hx⟩ := hx
    obtain ⟨rfl, h3⟩ := normal_near hx
    exact val_sub_iff.2 ⟨y, z, h y hy, h' z hz, rfl, h3⟩
  mul := by
    intro a b c d h h' x hx
    simp only [HMul.hMul, Mul.mul, Fl.lift2, Option.bind_eq_some_iff] at hx
    obtain ⟨y, hy, z, hz, hx⟩ := hx
    obtain ⟨rfl, h3⟩ := normal_near hx
    exact val_mul_iff.2 ⟨y, z, h y hy, h' z hz, rfl, h3⟩
  neg := by
    intro a b h x hx
    simp only [Neg.neg, Option.map_eq_some_iff] at hx
    obtain ⟨y, hy, rfl⟩ := hx
    exact val_neg (h y hy)
  zero := by intro x hx; cases hx; exact val_zero'
  one := by intro x hx; cases hx; exact val_one
theorem simN_sqrt {a : Ieee φ} {b : Fl (normal φ)} (h : SimN a b) : SimN (FloatOps.sqrt a) (FloatOps.sqrt b) := by
  intro x hx
  simp only [FloatOps.sqrt, Option.bind_eq_some_iff] at hx
  obtain ⟨y, hy, hx⟩ := hx
  split at hx
  · cases hx
  · next h0 =>
    obtain ⟨rfl, h3⟩ := normal_near hx
    exact val_sqrt_iff.2 ⟨y, h y hy, not_lt.1 h0, rfl, h3⟩
theorem simN_div {a c : Ieee φ} {b d : Fl (normal φ)} (h : SimN a b) (h' : SimN c d) : SimN (a / c) (b / d) := by
  intro x hx
  simp only [HDiv.hDiv, Div.div, Option.bind_eq_some_iff] at hx
  obtain ⟨y, hy, z, hz, hx⟩ := hx
  split at hx
  · cases hx
  · next h0 =>
    obtain ⟨rfl, h3⟩ := normal_near hx
    exact val_div_iff.2 (.inl ⟨y, z, h y hy, h' z hz, h0, rfl, h3⟩)
theorem simNV (v : Vec (Ieee φ) N) : RelV SimN v (v.map strict) := fun i hi => by rw [Vec.getElem_map]; exact simN_strict _
theorem simNM (A : Mat (Ieee φ) M N) : RelM SimN A (A.map strict) := fun i hi j hj => by rw [Mat.getElem_map]; exact simN_strict _
theorem simNC (z : Cpx (Ieee φ)) : RelC SimN z (mapC strict z) := by
  refine ⟨?_, ?_⟩ <;> simpa [mapC] using simN_strict _
theorem simNQ (z : Quat (Ieee φ)) : RelQ SimN z (mapQ strict z) := by
  refine ⟨?_, ?_, ?_, ?_⟩ <;> simpa [mapQ] using simN_strict _
end Ieee

/-! ## two runs, one of them rescaled -/
/-- Where both are numbers, `b` is `2^k a`. -/
def W (k : ℤ) (a b : Fl F) : Prop := ∀ x y, a.val = some x → b.val = some y → y = 2 ^ k * x
namespace W
variable {k l : ℤ} {a b c d : Fl F}
theorem of_scaled {x y : Ieee φ} (h : Scaled k x y) : W k x.strict y.strict := by
  obtain ⟨r, h1, h2⟩ := h
  intro s t hs ht
  change x.toReal? = some s at hs
  change y.toReal? = some t at ht
  rw [h1] at hs; rw [h2] at ht; cases hs; cases ht; rfl
theorem cast (h : W k a b) (e : k = l) : W l a b := e ▸ h
theorem add (hF : Dyadic F) (h : W k a b) (h' : W k c d) : W k (a + c) (b + d) := by
  intro x y hx hy
  simp only [HAdd.hAdd, Add.add, Fl.lift2, Option.bind_eq_some_iff] at hx hy
  obtain ⟨x1, e1, x2, e2, hx⟩ := hx
  obtain ⟨y1, f1, y2, f2, hy⟩ := hy
  have g1 := h _ _ e1 f1; have g2 := h' _ _ e2 f2; subst g1 g2
  refine hF k _ _ _ hx ?_
  rw [← hy]; congr 1; show _ = 2 ^ k * x1 + 2 ^ k * x2; show 2 ^ k * (x1 + x2) = _; ring
theorem sub (hF : Dyadic F) (h : W k a b) (h' : W k c d) : W k (a - c) (b - d) := by
  intro x y hx hy
  simp only [HSub.hSub, Sub.sub, Fl.lift2, Option.bind_eq_some_iff] at hx hy
  obtain ⟨x1, e1, x2, e2, hx⟩ := hx
  obtain ⟨y1, f1, y2, f2, hy⟩ := hy
  have g1 := h _ _ e1 f1; have g2 := h' _ _ e2 f2; subst g1 g2
  refine hF k _ _ _ hx ?_
  rw [← hy]; congr 1; show 2 ^ k * (x1 - x2) = 2 ^ k * x1 - 2 ^ k * x2; ring
theorem mul (hF : Dyadic F) (h : W k a b) (h' : W l c d) : W (k + l) (a * c) (b * d) := by
  intro x y hx hy
  simp only [HMul.hMul, Mul.mul, Fl.lift2, Option.bind_eq_some_iff] at hx hy
  obtain ⟨x1, e1, x2, e2, hx⟩ := hx
  obtain ⟨y1, f1, y2, f2, hy⟩ := hy
  have g1 := h _ _ e1 f1; have g2 := h' _ _ e2 f2; subst g1 g2
  refine hF (k + l) _ _ _ hx ?_
  rw [← hy]; congr 1; show 2 ^ (k + l) * (x1 * x2) = 2 ^ k * x1 * (2 ^ l * x2); rw [zpow_add₀ (by norm_num)]; ring
theorem div (hF : Dyadic F) (h : W k a b) (h' : W l c d) : W (k - l) (a / c) (b / d) := by
  intro x y hx hy
  simp only [HDiv.hDiv, Div.div, Option.bind_eq_some_iff] at hx hy
  obtain ⟨x1, e1, x2, e2, hx⟩ := hx
  obtain ⟨y1, f1, y2, f2, hy⟩ := hy
  have g1 := h _ _ e1 f1; have g2 := h' _ _ e2 f2; subst g1 g2
  split at hx
  · cases hx
  · split at hy
    · cases hy
    · refine hF (k - l) _ _ _ hx ?_
      rw [← hy]; congr 1; show 2 ^ (k - l) * (x1 / x2) = 2 ^ k * x1 / (2 ^ l * x2)
      rw [zpow_sub₀ (by norm_num), mul_div_mul_comm]
theorem neg (h : W k a b) : W k (-a) (-b) := by
  intro x y hx hy
  simp only [Neg.neg, Option.map_eq_some_iff] at hx hy
  obtain ⟨x1, e1, rfl⟩ := hx
  obtain ⟨y1, f1, rfl⟩ := hy
  have g1 := h _ _ e1 f1; subst g1
  show -(2 ^ k * x1) = 2 ^ k * (-x1); ring
theorem sqrt (hF : Dyadic F) (h : W (2 * k) a b) : W k (FloatOps.sqrt a) (FloatOps.sqrt b) := by
  intro x y hx hy
  simp only [FloatOps.sqrt, Option.bind_eq_some_iff] at hx hy
  obtain ⟨x1, e1, hx⟩ := hx
  obtain ⟨y1, f1, hy⟩ := hy
  have g1 := h _ _ e1 f1; subst g1
  split at hx
  · cases hx
  · split at hy
    · cases hy
    · refine hF k _ _ _ hx ?_
      rw [← hy]; congr 1
      rw [Real.sqrt_mul (by positivity), two_mul, zpow_add₀ (by norm_num), Real.sqrt_mul_self (by positivity)]
theorem abs (h : W k a b) : W k (FloatOps.abs a) (FloatOps.abs b) := by
  intro x y hx hy
  simp only [FloatOps.abs, Option.map_eq_some_iff] at hx hy
  obtain ⟨x1, e1, rfl⟩ := hx
  obtain ⟨y1, f1, rfl⟩ := hy
  have g1 := h _ _ e1 f1; subst g1
  show |2 ^ k * x1| = 2 ^ k * |x1|; rw [abs_mul, abs_of_pos (by positivity)]
theorem zero (k : ℤ) : W k (0 : Fl F) 0 := by intro x y hx hy; cases hx; cases hy; simp
theorem one : W 0 (1 : Fl F) 1 := by intro x y hx hy; cases hx; cases hy; simp
theorem sgn {n : Nat} (h : W k a b) : W k (Mat.sgn n a) (Mat.sgn n b) := by
  unfold Mat.sgn; split
  · exact h.neg
  · exact h

theorem sum (hF : Dyadic F) [NeZero N] {v w : Vec (Fl F) N} (h : RelV (W k) v w) : W k v.sum w.sum :=
  Vec.foldFirst_rel (W.add hF) h
theorem vAdd (hF : Dyadic F) {v v' w w' : Vec (Fl F) N} (h : RelV (W k) v v') (h' : RelV (W k) w w') : RelV (W k) (v + w) (v' + w') := fun i hi => by
  rw [Vec.getElem_add, Vec.getElem_add]; exact (h i hi).add hF (h' i hi)
theorem dotG (hF : Dyadic F) [NeZero N] {m : ℤ} {p q : Nat → ℤ} (hpq : ∀ i, p i + q i = m) {v v' w w' : Vec (Fl F) N}
    (h : ∀ i (hi : i < N), W (p i) v[i] v'[i]) (h' : ∀ i (hi : i < N), W (q i) w[i] w'[i]) : W m (v.dot w) (v'.dot w') := by
  refine sum hF fun i hi => ?_
  simpa using ((h i hi).mul hF (h' i hi)).cast (hpq i)
theorem dot (hF : Dyadic F) [NeZero N] {v v' w w' : Vec (Fl F) N} (h : RelV (W k) v v') (h' : RelV (W l) w w') :
    W (k + l) (v.dot w) (v'.dot w') := dotG hF (p := fun _ => k) (q := fun _ => l) (fun _ => rfl) h h'
theorem squareLength (hF : Dyadic F) [NeZero N] {v v' : Vec (Fl F) N} (h : RelV (W k) v v') : W (2 * k) v.squareLength v'.squareLength := by
  refine sum hF fun i hi => ?_
  simpa using ((h i hi).mul hF (h i hi)).cast (two_mul k).symm
theorem length (hF : Dyadic F) [NeZero N] {v v' : Vec (Fl F) N} (h : RelV (W k) v v') : W k v.length v'.length := sqrt hF (squareLength hF h)
theorem normalize (hF : Dyadic F) [NeZero N] {v v' : Vec (Fl F) N} (h : RelV (W k) v v') : RelV (W 0) v.normalize v'.normalize := by
  intro i hi
  rw [Vec.normalize, Vec.normalize, Vec.getElem_divS, Vec.getElem_divS]
  exact ((h i hi).div hF (length hF h)).cast (sub_self k)
theorem cross2 (hF : Dyadic F) {v v' w w' : Vec (Fl F) 2} (h : RelV (W k) v v') (h' : RelV (W l) w w') : W (k + l) (v.cross2 w) (v'.cross2 w') := by
  simpa [Vec.cross2] using ((h 0 (by omega)).mul hF (h' 1 (by omega))).sub hF ((h 1 (by omega)).mul hF (h' 0 (by omega)))
theorem cross3 (hF : Dyadic F) {v v' w w' : Vec (Fl F) 3} (h : RelV (W k) v v') (h' : RelV (W l) w w') :
    RelV (W (k + l)) (v.cross3 w) (v'.cross3 w') := by
  have m := fun i hi j hj => (h i hi).mul hF (h' j hj)
  intro i hi
  match i, hi with
  | 0, _ => simpa [Vec.cross3, Vec.fromArray] using (m 1 (by omega) 2 (by omega)).sub hF (m 2 (by omega) 1 (by omega))
  | 1, _ => simpa [Vec.cross3, Vec.fromArray] using (m 2 (by omega) 0 (by omega)).sub hF (m 0 (by omega) 2 (by omega))
  | 2, _ => simpa [Vec.cross3, Vec.fromArray] using (m 0 (by omega) 1 (by omega)).sub hF (m 1 (by omega) 0 (by omega))

/-- Rows rescaled by `2^(p i)`, columns by `2^(q j)`. -/
def MM (p q : Nat → ℤ) (A A' : Mat (Fl F) L N) : Prop := ∀ i (hi : i < L) j (hj : j < N), W (p i + q j) A[i][j] A'[i][j]
theorem dotV (hF : Dyadic F) [NeZero N] {p q : Nat → ℤ} {A A' : Mat (Fl F) N N} {v v' : Vec (Fl F) N} {k : ℤ} (h : MM p q A A')
    (h' : ∀ i (hi : i < N), W (k - q i) v[i] v'[i]) (i : Nat) (hi : i < N) : W (p i + k) (A.dotV v)[i] (A'.dotV v')[i] := by
  rw [show A.dotV v = _ from Res.get_eq (Mat.dotVR_get A v) _, show A'.dotV v' = _ from Res.get_eq (Mat.dotVR_get A' v') _]
  simpa using dotG hF (p := fun j => p i + q j) (q := fun j => k - q j) (m := p i + k) (fun j => by ring) (v := A[i]) (v' := A'[i]) (w := v) (w' := v')
    (fun j hj => h i hi j hj) h'
theorem dotMM (hF : Dyadic F) [NeZero N] {A A' B B' : Mat (Fl F) N N} (h : MM (fun _ => 0) (fun _ => 0) A A') (h' : MM (fun _ => 0) (fun _ => 0) B B') :
    MM (fun _ => 0) (fun _ => 0) (A.dotM B) (A'.dotM B') := by
  intro i hi j hj
  rw [Mat.getElem_dotM _ _ _ hi _ hj, Mat.getElem_dotM _ _ _ hi _ hj]
  refine dotG hF (p := fun _ => 0 + 0) (q := fun _ => 0 + 0) (fun _ => rfl) (h i hi) fun x hx => ?_
  rw [Mat.getElem_colOf, Mat.getElem_colOf]; exact h' x hx j hj
theorem map_sum_eraseIdx (q : Nat → ℤ) (C : List Nat) (k : Nat) (hk : k < C.length) :
    q (C[k]?.getD 0) + ((C.eraseIdx k).map q).sum = (C.map q).sum := by
  induction C generalizing k with
  | nil => simp at hk
  | cons c C ih =>
    cases k with
    | zero => simp
    | succ k =>
      have := ih k (by simpa using hk)
      simp only [List.eraseIdx_cons_succ, List.map_cons, List.sum_cons, List.getElem?_cons_succ]
      omega
theorem lap (hF : Dyadic F) {p q : Nat → ℤ} {f g : Nat → Nat → Fl F} (h : ∀ i j, W (p i + q j) (f i j) (g i j)) (R C : List Nat)
    (hl : R.length = C.length) : W ((R.map p).sum + (C.map q).sum) (Mat.lap f R C) (Mat.lap g R C) := by
  induction R generalizing C with
  | nil =>
    obtain rfl : C = [] := List.length_eq_zero_iff.1 hl.symm
    exact one
  | cons i R ih =>
    unfold Mat.lap
    have : ∀ (l : List Nat) (_ : ∀ k ∈ l, k < C.length) (a b : Fl F), W (((i :: R).map p).sum + (C.map q).sum) a b →
        W (((i :: R).map p).sum + (C.map q).sum) (l.foldl (fun a k => a + f i (C[k]?.getD 0) * Mat.sgn k (Mat.lap f R (C.eraseIdx k))) a)
          (l.foldl (fun a k => a + g i (C[k]?.getD 0) * Mat.sgn k (Mat.lap g R (C.eraseIdx k))) b) := by
      intro l
      induction l with
      | nil => intro _ a b hab; simpa using hab
      | cons k l ihl =>
        intro hk a b hab
        have hkC := hk k (by simp)
        refine ihl (fun k hk' => hk k (by simp [hk'])) _ _ (hab.add hF ?_)
        refine ((h i _).mul hF (sgn (ih (C.eraseIdx k) ?_))).cast ?_
        · rw [List.length_eraseIdx_of_lt hkC]; simp at hl; omega
        · have := map_sum_eraseIdx q C k hkC
          simp only [List.map_cons, List.sum_cons]; omega
    exact this _ (fun k hk => by simpa using hk) _ _ (zero _)
theorem ent {p q : Nat → ℤ} {A A' : Mat (Fl F) N N} (h : MM p q A A') (i j : Nat) : W (p i + q j) (Mat.ent A i j) (Mat.ent A' i j) := by
  unfold Mat.ent; split
  · exact h _ _ _ _
  · exact zero _
theorem det (hF : Dyadic F) {p q : Nat → ℤ} {A A' : Mat (Fl F) N N} (h : MM p q A A') :
    W (((List.range N).map p).sum + ((List.range N).map q).sum) A.det A'.det := by
  rw [show A.det = _ from Res.get_eq (Mat.detR_eq A) _, show A'.det = _ from Res.get_eq (Mat.detR_eq A') _]
  exact lap hF (ent h) _ _ rfl
theorem map_sum_eraseIdx_range (q : Nat → ℤ) (k : Nat) (hk : k < N) :
    q k + (((List.range N).eraseIdx k).map q).sum = ((List.range N).map q).sum := by
  have := map_sum_eraseIdx q (List.range N) k (by simpa using hk)
  rwa [List.getElem?_range hk, Option.getD_some] at this
theorem adj (hF : Dyadic F) {p q : Nat → ℤ} {A A' : Mat (Fl F) N N} (h : MM p q A A') (i : Nat) (hi : i < N) (j : Nat) (hj : j < N) :
    W (((List.range N).map p).sum + ((List.range N).map q).sum - p j - q i) A.adj[i][j] A'.adj[i][j] := by
  obtain ⟨B, hA, hB⟩ := Mat.adjR_ok A
  obtain ⟨B', hA', hB'⟩ := Mat.adjR_ok A'
  rw [show A.adj = _ from Res.get_eq hA _, show A'.adj = _ from Res.get_eq hA' _, hB, hB']
  refine (sgn (lap hF (ent h) _ _ ?_)).cast ?_
  · rw [List.length_eraseIdx_of_lt (by simpa using hj), List.length_eraseIdx_of_lt (by simpa using hi)]
  · have := map_sum_eraseIdx_range p j hj
    have := map_sum_eraseIdx_range q i hi
    omega
theorem inv (hF : Dyadic F) {p q : Nat → ℤ} {A A' : Mat (Fl F) N N} (h : MM p q A A') (i : Nat) (hi : i < N) (j : Nat) (hj : j < N) :
    W (-p j - q i) (A.adj.divS A.det)[i][j] (A'.adj.divS A'.det)[i][j] := by
  rw [Mat.getElem_divS, Mat.getElem_divS]
  exact ((adj hF h i hi j hj).div hF (det hF h)).cast (by ring)

/-! complex numbers and quaternions -/
theorem cAdd (hF : Dyadic F) {z z' w w' : Cpx (Fl F)} (h : RelC (W k) z z') (h' : RelC (W k) w w') : RelC (W k) (z + w) (z' + w') :=
  ⟨by simpa using h.1.add hF h'.1, by simpa using h.2.add hF h'.2⟩
theorem cMul (hF : Dyadic F) {z z' w w' : Cpx (Fl F)} (h : RelC (W k) z z') (h' : RelC (W l) w w') : RelC (W (k + l)) (z * w) (z' * w') :=
  ⟨by simpa using (h.1.mul hF h'.1).sub hF (h.2.mul hF h'.2), by simpa using (h.1.mul hF h'.2).add hF (h.2.mul hF h'.1)⟩
theorem cVec {z z' : Cpx (Fl F)} (h : RelC (W k) z z') : RelV (W k) z.vec z'.vec := by
  intro i hi
  match i, hi with
  | 0, _ => simpa using h.1
  | 1, _ => simpa using h.2
theorem cInv (hF : Dyadic F) {z z' : Cpx (Fl F)} (h : RelC (W k) z z') : RelC (W (-k)) z.inv z'.inv := by
  have hn : W (2 * k) z.normSqr z'.normSqr := squareLength hF (cVec h)
  exact ⟨by simpa [Cpx.inv] using (h.1.div hF hn).cast (show k - 2 * k = -k by ring),
    by simpa [Cpx.inv] using (h.2.neg.div hF hn).cast (show k - 2 * k = -k by ring)⟩
theorem cDiv (hF : Dyadic F) {z z' w w' : Cpx (Fl F)} (h : RelC (W k) z z') (h' : RelC (W l) w w') : RelC (W (k - l)) (z / w) (z' / w') := by
  rw [Cpx.div_def, Cpx.div_def]
  have := cMul hF h (cInv hF h')
  rwa [← sub_eq_add_neg] at this
theorem cSub (hF : Dyadic F) {z z' w w' : Cpx (Fl F)} (h : RelC (W k) z z') (h' : RelC (W k) w w') : RelC (W k) (z - w) (z' - w') :=
  ⟨by simpa using h.1.sub hF h'.1, by simpa using h.2.sub hF h'.2⟩
theorem cNormalize (hF : Dyadic F) {z z' : Cpx (Fl F)} (h : RelC (W k) z z') : RelC (W 0) z.normalize z'.normalize := by
  have hn : W k z.norm z'.norm := length hF (cVec h)
  exact ⟨by simpa [Cpx.normalize] using (h.1.div hF hn).cast (sub_self k), by simpa [Cpx.normalize] using (h.2.div hF hn).cast (sub_self k)⟩
theorem qVec {z z' : Quat (Fl F)} (h : RelQ (W k) z z') : RelV (W k) z.vec z'.vec := by
  intro i hi
  match i, hi with
  | 0, _ => simpa using h.1
  | 1, _ => simpa using h.2.1
  | 2, _ => simpa using h.2.2.1
  | 3, _ => simpa using h.2.2.2
theorem qMul (hF : Dyadic F) {p p' q q' : Quat (Fl F)} (h : RelQ (W k) p p') (h' : RelQ (W l) q q') : RelQ (W (k + l)) (p * q) (p' * q') := by
  obtain ⟨a, b, c, d⟩ := h
  obtain ⟨a', b', c', d'⟩ := h'
  have A := fun {x y : Fl F} {x' y' : Fl F} => @W.add F (k + l) x x' y y' hF
  have S := fun {x y : Fl F} {x' y' : Fl F} => @W.sub F (k + l) x x' y y' hF
  refine ⟨?_, ?_, ?_, ?_⟩
  · simpa using S (S (S (a.mul hF a') (b.mul hF b')) (c.mul hF c')) (d.mul hF d')
  · simpa using S (A (A (a.mul hF b') (b.mul hF a')) (c.mul hF d')) (d.mul hF c')
  · simpa using A (A (S (a.mul hF c') (b.mul hF d')) (c.mul hF a')) (d.mul hF b')
  · simpa using A (S (A (a.mul hF d') (b.mul hF c')) (c.mul hF b')) (d.mul hF a')
theorem qConj {p p' : Quat (Fl F)} (h : RelQ (W k) p p') : RelQ (W k) p.conj p'.conj :=
  ⟨by simpa using h.1, by simpa using h.2.1.neg, by simpa using h.2.2.1.neg, by simpa using h.2.2.2.neg⟩
theorem qInv (hF : Dyadic F) {z z' : Quat (Fl F)} (h : RelQ (W k) z z') : RelQ (W (-k)) z.inv z'.inv := by
  have hn : W (2 * k) z.normSqr z'.normSqr := squareLength hF (qVec h)
  have e : k - 2 * k = -k := by ring
  obtain ⟨a, b, c, d⟩ := h
  exact ⟨by simpa [Quat.inv] using (a.div hF hn).cast e, by simpa [Quat.inv] using (b.neg.div hF hn).cast e,
    by simpa [Quat.inv] using (c.neg.div hF hn).cast e, by simpa [Quat.inv] using (d.neg.div hF hn).cast e⟩
theorem qDiv (hF : Dyadic F) {z z' w w' : Quat (Fl F)} (h : RelQ (W k) z z') (h' : RelQ (W l) w w') : RelQ (W (k - l)) (z / w) (z' / w') := by
  rw [Quat.div_def, Quat.div_def]
  have := qMul hF h (qInv hF h')
  rwa [← sub_eq_add_neg] at this
theorem qAdd (hF : Dyadic F) {z z' w w' : Quat (Fl F)} (h : RelQ (W k) z z') (h' : RelQ (W k) w w') : RelQ (W k) (z + w) (z' + w') :=
  ⟨by simpa using h.1.add hF h'.1, by simpa using h.2.1.add hF h'.2.1, by simpa using h.2.2.1.add hF h'.2.2.1, by simpa using h.2.2.2.add hF h'.2.2.2⟩
theorem qSub (hF : Dyadic F) {z z' w w' : Quat (Fl F)} (h : RelQ (W k) z z') (h' : RelQ (W k) w w') : RelQ (W k) (z - w) (z' - w') :=
  ⟨by simpa using h.1.sub hF h'.1, by simpa using h.2.1.sub hF h'.2.1, by simpa using h.2.2.1.sub hF h'.2.2.1, by simpa using h.2.2.2.sub hF h'.2.2.2⟩
theorem qMulS (hF : Dyadic F) {z z' : Quat (Fl F)} {a a' : Fl F} (h : RelQ (W k) z z') (h' : W l a a') : RelQ (W (k + l)) (z.mulS a) (z'.mulS a') :=
  ⟨by simpa using h.1.mul hF h', by simpa using h.2.1.mul hF h', by simpa using h.2.2.1.mul hF h', by simpa using h.2.2.2.mul hF h'⟩
theorem qDivS (hF : Dyadic F) {z z' : Quat (Fl F)} {a a' : Fl F} (h : RelQ (W k) z z') (h' : W l a a') : RelQ (W (k - l)) (z.divS a) (z'.divS a') :=
  ⟨by simpa using h.1.div hF h', by simpa using h.2.1.div hF h', by simpa using h.2.2.1.div hF h', by simpa using h.2.2.2.div hF h'⟩
theorem qNormalize (hF : Dyadic F) {z z' : Quat (Fl F)} (h : RelQ (W k) z z') : RelQ (W 0) z.normalize z'.normalize := by
  have hn : W k z.norm z'.norm := length hF (qVec h)
  have := qDivS hF h hn
  rwa [sub_self] at this
theorem two : W 0 (NumConst.two : Fl F) NumConst.two := by intro x y hx hy; cases hx; cases hy; simp
/-- A complex number times a quaternion, and their sum. -/
theorem cqMul (hF : Dyadic F) {c c' : Cpx (Fl F)} {q q' : Quat (Fl F)} (h : RelC (W k) c c') (h' : RelQ (W l) q q') : RelQ (W (k + l)) (c * q) (c' * q') := by
  obtain ⟨a, b⟩ := h
  obtain ⟨w, x, y, t⟩ := h'
  refine ⟨?_, ?_, ?_, ?_⟩
  · show W _ (Quat.cMul c q).w (Quat.cMul c' q').w
    simpa [Quat.cMul] using (a.mul hF w).sub hF (b.mul hF x)
  · show W _ (Quat.cMul c q).x (Quat.cMul c' q').x
    simpa [Quat.cMul] using (a.mul hF x).add hF (b.mul hF w)
  · show W _ (Quat.cMul c q).y (Quat.cMul c' q').y
    simpa [Quat.cMul] using (a.mul hF y).sub hF (b.mul hF t)
  · show W _ (Quat.cMul c q).z (Quat.cMul c' q').z
    simpa [Quat.cMul] using (a.mul hF t).add hF (b.mul hF y)
theorem qAddC (hF : Dyadic F) {c c' : Cpx (Fl F)} {q q' : Quat (Fl F)} (h' : RelQ (W k) q q') (h : RelC (W k) c c') : RelQ (W k) (q + c) (q' + c') := by
  obtain ⟨a, b⟩ := h
  obtain ⟨w, x, y, t⟩ := h'
  refine ⟨?_, ?_, ?_, ?_⟩
  · show W _ (Quat.addC q c).w (Quat.addC q' c').w
    simpa [Quat.addC] using w.add hF a
  · show W _ (Quat.addC q c).x (Quat.addC q' c').x
    simpa [Quat.addC] using x.add hF b
  · show W _ (Quat.addC q c).y (Quat.addC q' c').y
    simpa [Quat.addC] using y
  · show W _ (Quat.addC q c).z (Quat.addC q' c').z
    simpa [Quat.addC] using t
end W
end Vecmat
