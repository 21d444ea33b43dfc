import Verif.Lemmas.IeeeExact
/-! Helper lemmas: error of IEEE operations including underflow. -/
namespace Vecmat
open Spec
namespace Ieee
variable {φ : Fmt} {a b c : Ieee φ} {x y r : ℝ}

theorem u_pos : 0 < roundoff φ := by unfold roundoff; positivity
theorem tiny_pos : 0 < tiny φ := by unfold tiny; positivity
theorem huge_pos : 0 < huge φ := by unfold huge; positivity

/-- In the normal range the error is relative. -/
theorem near_rel (h : (2:ℝ) ^ φ.emin ≤ |x|) : |φ.near x - x| ≤ roundoff φ * |x| := by
  have hx : 0 < |x| := lt_of_lt_of_le (by positivity) h
  have hl : φ.emin ≤ Int.log 2 |x| := (Int.zpow_le_iff_le_log (by norm_num) hx).1 (by exact_mod_cast h)
  have h2 : (2:ℝ) ^ Int.log 2 |x| ≤ |x| := by exact_mod_cast Int.zpow_log_le_self (b := 2) (by norm_num) hx
  refine (Fmt.near_err _ x).trans ?_
  unfold Fmt.ulp roundoff
  rw [max_eq_left hl]
  calc (2:ℝ) ^ (Int.log 2 |x| - φ.p + 1) / 2 = 1 / 2 ^ φ.p * 2 ^ Int.log 2 |x| := by
        rw [zpow_add₀ (by norm_num), zpow_sub₀ (by norm_num)]; simp; ring
    _ ≤ _ := by gcongr
/-- Below it is absolute. -/
theorem near_abs (h : |x| < 2 ^ φ.emin) : |φ.near x - x| ≤ tiny φ := by
  by_cases h0 : x = 0
  · subst h0; rw [Fmt.near_zero]; simpa using tiny_pos.le
  have hx : 0 < |x| := abs_pos.mpr h0
  have hl : Int.log 2 |x| < φ.emin := (Int.lt_zpow_iff_log_lt (by norm_num) hx).1 (by exact_mod_cast h)
  refine (Fmt.near_err _ x).trans ?_
  unfold Fmt.ulp tiny
  rw [max_eq_right hl.le, zpow_add₀ (by norm_num)]
  simp
theorem near_err_max (x : ℝ) : |φ.near x - x| ≤ max (roundoff φ * |x|) (tiny φ) := by
  rcases le_or_gt ((2:ℝ) ^ φ.emin) |x| with h | h
  · exact (near_rel h).trans (le_max_left _ _)
  · exact (near_abs h).trans (le_max_right _ _)
theorem near_err_add (x : ℝ) : |φ.near x - x| ≤ roundoff φ * |x| + tiny φ :=
  (near_err_max x).trans (max_le (le_add_of_nonneg_right tiny_pos.le) (le_add_of_nonneg_left (mul_nonneg u_pos.le (abs_nonneg _))))

theorem rep_multiple (h : Representable φ x) : ∃ n : ℤ, x = n * 2 ^ (φ.emin - φ.p + 1) := by
  obtain ⟨m, e, rfl, -, he, -⟩ := h
  refine ⟨m * 2 ^ (e - (φ.emin - φ.p + 1)).toNat, ?_⟩
  push_cast
  rw [mul_assoc, ← zpow_natCast, ← zpow_add₀ (by norm_num)]
  congr 2; omega
/-- Sums and differences do not suffer from underflow. -/
theorem near_add_rel (hφ : WF φ) (hx : Representable φ x) (hy : Representable φ y) :
    |φ.near (x + y) - (x + y)| ≤ roundoff φ * |x + y| := by
  rcases le_or_gt ((2:ℝ) ^ φ.emin) |x + y| with h | h
  · exact near_rel h
  · obtain ⟨m, hm⟩ := rep_multiple hx
    obtain ⟨n, hn⟩ := rep_multiple hy
    have : Representable φ (x + y) := by
      obtain ⟨hp, h1, h2⟩ := hφ
      refine ⟨m + n, φ.emin - φ.p + 1, by rw [hm, hn]; push_cast; ring, ?_, le_rfl, by omega⟩
      have hs : |((m + n : ℤ) : ℝ)| * 2 ^ (φ.emin - φ.p + 1) < 2 ^ φ.emin := by
        rw [← abs_of_pos (show (0:ℝ) < 2 ^ (φ.emin - φ.p + 1) by positivity), ← abs_mul]
        rw [hm, hn] at h
        rwa [show ((m + n : ℤ) : ℝ) * 2 ^ (φ.emin - φ.p + 1) = m * 2 ^ (φ.emin - φ.p + 1) + n * 2 ^ (φ.emin - φ.p + 1) by push_cast; ring]
      have e : (2:ℝ) ^ φ.emin = 2 ^ (φ.p - 1) * 2 ^ (φ.emin - φ.p + 1) := by
        rw [← zpow_natCast, ← zpow_add₀ (by norm_num)]; congr 1; omega
      rw [e] at hs
      have hs' := lt_of_mul_lt_mul_right hs (by positivity)
      have : |m + n| < (2:ℤ) ^ (φ.p - 1) := by exact_mod_cast hs'
      exact this.trans_le (pow_le_pow_right₀ (by norm_num) (by omega))
    rw [Fmt.near_rep this]; simpa using mul_nonneg u_pos.le (abs_nonneg _)

/-! ## values of operations -/
theorem val_rnd_near : Val (rnd x : Ieee φ) r ↔ r = φ.near x ∧ |φ.near x| < huge φ := by
  unfold rnd Val huge
  split
  · next h => simp [toReal?]; intro _; exact h
  · next h =>
    unfold ofReal
    split
    · next h' => simp [toReal?, h'] ; constructor
                 · rintro rfl; exact ⟨rfl, by positivity⟩
                 · rintro ⟨rfl, -⟩; rfl
    · next h' => simp [toReal?]; constructor
                 · rintro rfl; exact ⟨rfl, not_le.1 h⟩
                 · rintro ⟨rfl, -⟩; rfl
theorem not_val_nan : ¬ Val (nan : Ieee φ) r := by simp [Val, toReal?]
theorem not_val_inf (s) : ¬ Val (inf s : Ieee φ) r := by simp [Val, toReal?]
theorem val_zero_iff (s) : Val (zero s : Ieee φ) r ↔ r = 0 := by simp [Val, toReal?, eq_comm]
theorem val_num_iff (h) : Val (num x h : Ieee φ) r ↔ r = x := by simp [Val, toReal?, eq_comm]

theorem val_add_iff : Val (a + b) r ↔ ∃ x y, Val a x ∧ Val b y ∧ r = φ.near (x + y) ∧ |φ.near (x + y)| < huge φ := by
  have hh := huge_pos (φ := φ)
  cases a <;> cases b <;> simp only [add_def, add, not_val_nan, not_val_inf, val_zero_iff, val_num_iff, false_and, exists_false, and_false]
  all_goals try (split <;> simp [not_val_nan, not_val_inf])
  · constructor
    · rintro rfl; exact ⟨0, 0, rfl, rfl, by simp [Fmt.near_zero], by simpa [Fmt.near_zero] using hh⟩
    · rintro ⟨_, _, rfl, rfl, h, -⟩; simpa [Fmt.near_zero] using h
  · next h => rw [val_rnd_near]; simp
  · next h _ => rw [val_rnd_near]; simp
  · next h => simp [h, Fmt.near_zero, val_zero_iff, hh]
  · next h => rw [val_rnd_near]
theorem val_neg_iff : Val (-a) r ↔ Val a (-r) := by
  constructor
  · intro h; simpa [ineg_neg] using val_neg h
  · intro h; simpa using val_neg h
theorem val_sub_iff : Val (a - b) r ↔ ∃ x y, Val a x ∧ Val b y ∧ r = φ.near (x - y) ∧ |φ.near (x - y)| < huge φ := by
  rw [sub_def, val_add_iff]
  constructor
  · rintro ⟨x, y, h1, h2, h3⟩; exact ⟨x, -y, h1, val_neg_iff.1 h2, by simpa using h3⟩
  · rintro ⟨x, y, h1, h2, h3⟩; exact ⟨x, -y, h1, val_neg h2, by simpa [sub_eq_add_neg] using h3⟩
theorem val_mul_iff : Val (a * b) r ↔ ∃ x y, Val a x ∧ Val b y ∧ r = φ.near (x * y) ∧ |φ.near (x * y)| < huge φ := by
  have hh := huge_pos (φ := φ)
  cases a <;> cases b <;> simp only [mul_def, mul, not_val_nan, not_val_inf, val_zero_iff, val_num_iff, false_and, exists_false, and_false]
  · simp [Fmt.near_zero, hh]
  · simp [Fmt.near_zero, hh]
  · simp [Fmt.near_zero, hh]
  · next h _ h' => rw [val_rnd_near]; simp
theorem val_sqrt_iff : Val a.sqrt r ↔ ∃ s, Val a s ∧ 0 ≤ s ∧ r = φ.near (Real.sqrt s) ∧ |φ.near (Real.sqrt s)| < huge φ := by
  have hh := huge_pos (φ := φ)
  cases a with
  | nan => simp [Ieee.sqrt, not_val_nan]
  | inf s => simp only [Ieee.sqrt]; split <;> simp [not_val_nan, not_val_inf]
  | zero s => simp [Ieee.sqrt, val_zero_iff, Fmt.near_zero, hh]
  | num x h =>
    simp only [Ieee.sqrt]; split
    · next hx => simp [not_val_nan, val_num_iff, not_le.2 hx]
    · next hx => rw [val_rnd_near]; simp [val_num_iff, not_lt.1 hx]
theorem val_div_iff : Val (a / b) r ↔ (∃ x y, Val a x ∧ Val b y ∧ y ≠ 0 ∧ r = φ.near (x / y) ∧ |φ.near (x / y)| < huge φ) ∨
    (r = 0 ∧ (∃ x, Val a x) ∧ ∃ s, b = inf s) := by
  have hh := huge_pos (φ := φ)
  cases a <;> cases b <;> simp only [div_def, div, not_val_nan, not_val_inf, val_zero_iff, val_num_iff, false_and, exists_false, and_false]
  all_goals simp_all [Fmt.near_zero, val_rnd_near]
theorem near_sqrt_rel (hφ : WF φ) (hp : (φ.p : ℤ) ≤ 1 - φ.emin) {s : ℝ} (h0 : 0 ≤ s) (hs : Representable φ s) :
    |φ.near (Real.sqrt s) - Real.sqrt s| ≤ roundoff φ * Real.sqrt s := by
  rcases h0.eq_or_lt with rfl | h0
  · simp [Fmt.near_zero]
  have : |φ.near (Real.sqrt s) - Real.sqrt s| ≤ roundoff φ * |Real.sqrt s| := by
    apply near_rel
    rw [abs_of_nonneg (Real.sqrt_nonneg _)]
    apply Real.le_sqrt_of_sq_le
    obtain ⟨n, hn⟩ := rep_multiple hs
    have hn1 : (1:ℤ) ≤ n := by
      by_contra hc
      have : (n : ℝ) ≤ 0 := by exact_mod_cast (by omega : n ≤ 0)
      have : s ≤ 0 := by rw [hn]; exact mul_nonpos_of_nonpos_of_nonneg this (by positivity)
      linarith
    calc ((2:ℝ) ^ φ.emin) ^ 2 = 2 ^ (φ.emin + φ.emin) := by rw [zpow_add₀ (by norm_num)]; ring
      _ ≤ 2 ^ (φ.emin - φ.p + 1) := zpow_le_zpow_right₀ (by norm_num) (by omega)
      _ = 1 * 2 ^ (φ.emin - φ.p + 1) := (one_mul _).symm
      _ ≤ n * 2 ^ (φ.emin - φ.p + 1) := by gcongr; exact_mod_cast hn1
      _ = s := hn.symm
  rwa [abs_of_nonneg (Real.sqrt_nonneg _)] at this
theorem near_sqrt_lt (hφ : WF φ) {s : ℝ} (h0 : 0 ≤ s) (hs : Representable φ s) : |φ.near (Real.sqrt s)| < huge φ := by
  obtain ⟨hp, h1, h2⟩ := id hφ
  rw [abs_of_nonneg (Fmt.near_nonneg (Real.sqrt_nonneg _))]
  rcases le_total s 1 with h | h
  · have := Fmt.near_mono (φ := φ) (by omega) (Real.sqrt_le_one.2 h)
    rw [Fmt.near_rep (rep_one hφ)] at this
    exact this.trans_lt (by unfold huge; exact one_lt_zpow₀ (by norm_num) (by omega))
  · have := Fmt.near_mono (φ := φ) (by omega) (Real.sqrt_le_iff.2 ⟨h0, by nlinarith⟩)
    rw [Fmt.near_rep hs] at this
    refine this.trans_lt ?_
    have := rep_lt hs; rwa [abs_of_nonneg h0] at this

/-! ## running error bounds -/
/-- Running error: `a` approximates `x`, whose terms have total magnitude `m`. -/
structure Ap (k c : ℕ) (m : ℝ) (a : Ieee φ) (x : ℝ) : Prop where
  datum : Datum a
  mag : |x| ≤ m
  err : ∀ y, Val a y → |y - x| ≤ errBound φ k c m
  fin : m + errBound φ k c m < huge φ → ∃ y, Val a y

theorem bnd_succ (k c : ℕ) (m : ℝ) : errBound φ (k + 1) c m = (1 + roundoff φ) * errBound φ k c m + roundoff φ * m := by
  unfold errBound gam; ring
theorem bnd_nonneg (k c : ℕ) {m : ℝ} (hm : 0 ≤ m) : 0 ≤ errBound φ k c m := by
  have h1 : 0 ≤ gam (roundoff φ) k := sub_nonneg.2 (one_le_pow₀ (by linarith [u_pos (φ := φ)]))
  have := tiny_pos (φ := φ); have := u_pos (φ := φ)
  unfold errBound; positivity
theorem bnd_mono {k k' c c' : ℕ} {m m' : ℝ} (hk : k ≤ k') (hc : c ≤ c') (hm : 0 ≤ m) (hm' : m ≤ m') : errBound φ k c m ≤ errBound φ k' c' m' := by
  have h0 := u_pos (φ := φ)
  have h1 : 0 ≤ gam (roundoff φ) k := sub_nonneg.2 (one_le_pow₀ (by linarith))
  have h2 : (1 + roundoff φ) ^ k ≤ (1 + roundoff φ) ^ k' := pow_le_pow_right₀ (by linarith) hk
  have h3 : gam (roundoff φ) k ≤ gam (roundoff φ) k' := sub_le_sub_right h2 _
  have := tiny_pos (φ := φ)
  have hc' : (c : ℝ) ≤ c' := by exact_mod_cast hc
  unfold errBound
  gcongr
  exact h1.trans h3
theorem bnd_add (k c c' : ℕ) (m m' : ℝ) : errBound φ k c m + errBound φ k c' m' = errBound φ k (c + c') (m + m') := by
  unfold errBound; push_cast; ring

variable {k k' c c' : ℕ} {m m' : ℝ}
theorem Ap.nonneg (h : Ap k c m a x) : 0 ≤ m := (abs_nonneg _).trans h.mag
theorem Ap.mono (h : Ap k c m a x) (hk : k ≤ k') (hc : c ≤ c') : Ap k' c' m a x :=
  ⟨h.datum, h.mag, fun y hy => (h.err y hy).trans (bnd_mono hk hc h.nonneg le_rfl), fun hf => h.fin (lt_of_le_of_lt (by
    have := bnd_mono (φ := φ) hk hc h.nonneg le_rfl; linarith) hf)⟩
theorem Ap.of_val (hd : Datum a) (h : Val a x) : Ap 0 0 |x| a x :=
  ⟨hd, le_rfl, fun y hy => by rw [hy.unique h]; simp [errBound, gam], fun _ => ⟨x, h⟩⟩
theorem Ap.neg (h : Ap k c m a x) : Ap k c m (-a) (-x) :=
  ⟨datum_neg h.datum, by simpa using h.mag, fun y hy => by
    have := h.err _ (val_neg_iff.1 hy); rwa [show -y - x = -(y - -x) by ring, abs_neg] at this, fun hf => by
    obtain ⟨y, hy⟩ := h.fin hf; exact ⟨-y, val_neg hy⟩⟩
theorem Ap.add (hφ : WF φ) (h : Ap k c m a x) (h' : Ap k c' m' b y) : Ap (k + 1) (c + c') (m + m') (a + b) (x + y) := by
  have hu := u_pos (φ := φ)
  have hm := h.nonneg; have hm' := h'.nonneg
  have key : ∀ x' y', Val a x' → Val b y' → |φ.near (x' + y') - (x + y)| ≤ errBound φ (k + 1) (c + c') (m + m') := by
    intro x' y' hx hy
    have e1 := h.err _ hx; have e2 := h'.err _ hy
    have e3 := near_add_rel hφ (Datum.rep hφ h.datum hx) (Datum.rep hφ h'.datum hy)
    have e4 : |x' + y' - (x + y)| ≤ errBound φ k (c + c') (m + m') := by
      rw [← bnd_add]
      calc |x' + y' - (x + y)| = |(x' - x) + (y' - y)| := by congr 1; ring
        _ ≤ _ := (abs_add_le _ _).trans (add_le_add e1 e2)
    have e5 : |x + y| ≤ m + m' := (abs_add_le _ _).trans (add_le_add h.mag h'.mag)
    have e6 : |x' + y'| ≤ |x' + y' - (x + y)| + |x + y| := by
      calc |x' + y'| = |(x' + y' - (x + y)) + (x + y)| := by congr 1; ring
        _ ≤ _ := abs_add_le _ _
    have e7 : |φ.near (x' + y') - (x + y)| ≤ |φ.near (x' + y') - (x' + y')| + |x' + y' - (x + y)| := by
      calc _ = |(φ.near (x' + y') - (x' + y')) + (x' + y' - (x + y))| := by congr 1; ring
        _ ≤ _ := abs_add_le _ _
    rw [bnd_succ]
    nlinarith
  refine ⟨datum_add hφ _ _, (abs_add_le _ _).trans (add_le_add h.mag h'.mag), fun r hr => ?_, fun hf => ?_⟩
  · obtain ⟨x', y', hx, hy, rfl, -⟩ := val_add_iff.1 hr
    exact key x' y' hx hy
  · have h1 := bnd_mono (φ := φ) (Nat.le_succ k) (Nat.le_add_right c c') hm (le_add_of_nonneg_right hm')
    have h2 := bnd_mono (φ := φ) (Nat.le_succ k) (Nat.le_add_left c' c) hm' (le_add_of_nonneg_left hm)
    obtain ⟨x', hx⟩ := h.fin (by linarith)
    obtain ⟨y', hy⟩ := h'.fin (by linarith)
    refine ⟨_, val_add_iff.2 ⟨x', y', hx, hy, rfl, ?_⟩⟩
    have := key x' y' hx hy
    have e5 : |x + y| ≤ m + m' := (abs_add_le _ _).trans (add_le_add h.mag h'.mag)
    calc |φ.near (x' + y')| = |(φ.near (x' + y') - (x + y)) + (x + y)| := by congr 1; ring
      _ ≤ _ := abs_add_le _ _
      _ < _ := by linarith
theorem Ap.sub (hφ : WF φ) (h : Ap k c m a x) (h' : Ap k c' m' b y) : Ap (k + 1) (c + c') (m + m') (a - b) (x - y) := by
  rw [sub_def, sub_eq_add_neg]; exact h.add hφ h'.neg
theorem Ap.mono_m (h : Ap k c m a x) (hm : m ≤ m') : Ap k c m' a x :=
  ⟨h.datum, h.mag.trans hm, fun y hy => (h.err y hy).trans (bnd_mono le_rfl le_rfl h.nonneg hm), fun hf => h.fin (lt_of_le_of_lt
    (add_le_add hm (bnd_mono le_rfl le_rfl h.nonneg hm)) hf)⟩
theorem Ap.close (h : Ap k c m a x) : Close k c m a x := ⟨h.err, h.fin⟩
/-- A product of two given numbers. -/
theorem Ap.mul (hφ : WF φ) (ha : Val a x) (hb : Val b y) : Ap 1 1 (|x| * |y|) (a * b) (x * y) := by
  have key : |φ.near (x * y) - x * y| ≤ errBound φ 1 1 (|x| * |y|) := by
    refine (near_err_add _).trans ?_
    have := u_pos (φ := φ); have := tiny_pos (φ := φ)
    rw [abs_mul]; simp only [errBound, gam]; push_cast; nlinarith [mul_pos (u_pos (φ := φ)) (tiny_pos (φ := φ))]
  refine ⟨datum_mul hφ _ _, (abs_mul _ _).le, fun r hr => ?_, fun hf => ⟨_, val_mul_iff.2 ⟨x, y, ha, hb, rfl, ?_⟩⟩⟩
  · obtain ⟨x', y', hx, hy, rfl, -⟩ := val_mul_iff.1 hr
    rwa [hx.unique ha, hy.unique hb]
  · calc |φ.near (x * y)| = |(φ.near (x * y) - x * y) + x * y| := by congr 1; ring
      _ ≤ _ := abs_add_le _ _
      _ < _ := by rw [abs_mul x y]; linarith
theorem Ap.foldl (hφ : WF φ) {c : ℕ} {l : List (Ieee φ)} {xs ms : List ℝ} {k0 : ℕ} (hl : xs.length = l.length) (hl' : ms.length = l.length)
    (h : ∀ i (hi : i < l.length), Ap k0 c (ms[i]'(by omega)) l[i] (xs[i]'(by omega))) :
    ∀ {a : Ieee φ} {x m : ℝ} {k c' : ℕ}, k0 ≤ k → Ap k c' m a x → Ap (k + l.length) (c' + l.length * c) (m + ms.sum) (l.foldl (· + ·) a) (x + xs.sum) := by
  induction l generalizing xs ms with
  | nil => 
    intro a x m k c' _ ha
    rw [List.length_eq_zero_iff.1 hl, List.length_eq_zero_iff.1 hl']; simpa using ha
  | cons b l ih =>
    intro a x m k c' hk ha
    match xs, ms, hl, hl' with
    | y :: xs, n :: ms, hl, hl' =>
    have h0 := h 0 (by simp)
    have := ih (xs := xs) (ms := ms) (by simpa using hl) (by simpa using hl') (fun i hi => h (i + 1) (by simpa using hi)) (Nat.le_succ_of_le hk)
      (ha.add hφ (Ap.mono h0 hk le_rfl))
    simp only [List.foldl_cons, List.sum_cons, List.length_cons]
    rw [show k + (l.length + 1) = k + 1 + l.length by ring, show c' + (l.length + 1) * c = c' + c + l.length * c by ring, ← add_assoc, ← add_assoc]
    exact this
end Ieee

open Ieee in
/-- Left-to-right sum of approximate terms. -/
theorem Vec.sum_ap {φ : Fmt} (hφ : WF φ) {N : Nat} [NeZero N] (v : Vec (Ieee φ) N) (x m : Fin N → ℝ) {k c : ℕ} (h : ∀ i : Fin N, Ap k c (m i) v[i.1] (x i)) :
    Ap (k + (N - 1)) (N * c) (∑ i, m i) v.sum (∑ i, x i) := by
  obtain ⟨n, rfl⟩ : ∃ n, N = n + 1 := ⟨N - 1, by have := NeZero.ne N; omega⟩
  rw [show v.sum = _ from Vec.foldFirst_congr (Vec.foldFirstR_succ (· + ·) v)]
  have := Ap.foldl hφ (l := List.ofFn fun i : Fin n => v[i.1 + 1]) (xs := List.ofFn fun i : Fin n => x i.succ) (ms := List.ofFn fun i : Fin n => m i.succ)
    (k0 := k) (c := c) (by simp) (by simp) (fun i hi => by simpa using h ⟨i + 1, by simpa using hi⟩) le_rfl (h 0)
  simp only [List.length_ofFn, List.sum_ofFn] at this
  rw [Fin.sum_univ_succ, Fin.sum_univ_succ]
  rw [show k + (n + 1 - 1) = k + n by omega, show (n + 1) * c = c + n * c by ring]
  exact this
open Ieee in
theorem Vec.dot_ap {φ : Fmt} (hφ : WF φ) {N : Nat} [NeZero N] (v w : Vec (Ieee φ) N) (x y : Fin N → ℝ) (hv : ∀ i : Fin N, Val v[i.1] (x i))
    (hw : ∀ i : Fin N, Val w[i.1] (y i)) : Ap N N (∑ i, |x i| * |y i|) (v.dot w) (∑ i, x i * y i) := by
  have := Vec.sum_ap hφ (v * w) (fun i => x i * y i) (fun i => |x i| * |y i|) (k := 1) (c := 1) (fun i => by simpa using Ap.mul hφ (hv i) (hw i))
  have hN := NeZero.ne N
  rwa [show 1 + (N - 1) = N by omega, Nat.mul_one] at this
end Vecmat
