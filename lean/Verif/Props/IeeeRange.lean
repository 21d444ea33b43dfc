import Verif.Lemmas.IeeeSqrt
import Verif.Props.IeeeExact
/-!
# C83: range of lengths and normalised vectors in floating point
Scalars are IEEE-754 floats.  The only assumption is that no component is so small that its square underflows.
-/
namespace Vecmat
open Spec Ieee
variable {φ : Fmt} {N : Nat}

/-- `a` is `+∞` or a number of the format not below `c`. -/
def AtLeast (a : Ieee φ) (c : ℝ) : Prop := a = .inf false ∨ ∃ x, a.toReal? = some x ∧ c ≤ x ∧ Representable φ x

theorem AtLeast.mono {a : Ieee φ} {c d : ℝ} (h : AtLeast a c) (hd : d ≤ c) : AtLeast a d := by
  rcases h with h | ⟨x, h1, h2, h3⟩
  · exact .inl h
  · exact .inr ⟨x, h1, hd.trans h2, h3⟩
theorem atLeast_rnd (hφ : WF φ) {x c : ℝ} (hx : 0 < x) (h : c ≤ φ.near x) : AtLeast (rnd x : Ieee φ) c := by
  have hd : decide (x < 0) = false := decide_eq_false (by linarith)
  unfold rnd ofReal
  split_ifs with h1 h2
  · left; rw [hd]
  · right; exact ⟨0, rfl, h2 ▸ h, rep_zero hφ⟩
  · right; exact ⟨_, rfl, h, Fmt.rep_near hφ (not_le.mp h1)⟩
theorem AtLeast.add (hφ : WF φ) {a b : Ieee φ} {c : ℝ} (hc : 0 ≤ c) (ha : AtLeast a c) (hb : AtLeast b 0) : AtLeast (a + b) c := by
  have hp : 1 ≤ φ.p := by have := hφ.1; omega
  rw [add_def]
  rcases ha with rfl | ⟨x, h1, h2, h3⟩
  · rcases hb with rfl | ⟨y, h4, h5, h6⟩
    · left; simp [Ieee.add]
    · rcases Val.cases h4 with ⟨rfl, s, rfl⟩ | ⟨hy, rfl⟩ <;> left <;> rfl
  · rcases hb with rfl | ⟨y, h4, h5, h6⟩
    · rcases Val.cases h1 with ⟨rfl, s, rfl⟩ | ⟨hx, rfl⟩ <;> left <;> rfl
    · rcases Val.cases h1 with ⟨rfl, s, rfl⟩ | ⟨hx, rfl⟩ <;> rcases Val.cases h4 with ⟨rfl, t, rfl⟩ | ⟨hy, rfl⟩ <;> simp only [Ieee.add]
      · right; exact ⟨0, rfl, h2, rep_zero hφ⟩
      · right; refine ⟨y, val_rnd hy h6, h2.trans h5, h6⟩
      · right; refine ⟨x, val_rnd hx h3, h2, h3⟩
      · have hx0 : 0 < x := lt_of_le_of_ne (hc.trans h2) (Ne.symm hx)
        have hy0 : 0 < y := lt_of_le_of_ne h5 (Ne.symm hy)
        rw [if_neg (by positivity)]
        refine atLeast_rnd hφ (by positivity) (h2.trans ?_)
        calc x = φ.near x := (Fmt.near_rep h3).symm
          _ ≤ _ := Fmt.near_mono hp (by linarith)
theorem atLeast_sq (hφ : WF φ) {a : Ieee φ} {x : ℝ} (h : a.toReal? = some x) : AtLeast (a * a) (φ.near (x * x)) := by
  rw [mul_def]
  rcases Val.cases h with ⟨rfl, s, rfl⟩ | ⟨hx, rfl⟩ <;> simp only [Ieee.mul]
  · right; exact ⟨0, rfl, by rw [mul_zero, Fmt.near_zero], rep_zero hφ⟩
  · exact atLeast_rnd hφ (mul_self_pos.mpr hx) le_rfl
theorem near_sq_nonneg (x : ℝ) : 0 ≤ φ.near (x * x) := Fmt.near_nonneg (mul_self_nonneg x)

theorem atLeast_foldl (hφ : WF φ) {l : List (Ieee φ)} (h : ∀ b ∈ l, AtLeast b 0) {a : Ieee φ} {c : ℝ} (hc : 0 ≤ c) (ha : AtLeast a c) :
    AtLeast (l.foldl (fun x y => x + y) a) c := by
  induction l generalizing a with
  | nil => exact ha
  | cons b l ih => exact ih (fun x hx => h x (by simp [hx])) (ha.add hφ hc (h b (by simp)))
theorem atLeast_foldl_mem (hφ : WF φ) {l : List (Ieee φ)} (h : ∀ b ∈ l, AtLeast b 0) {a b : Ieee φ} {c : ℝ} (hc : 0 ≤ c)
    (ha : AtLeast a 0) (hb : b ∈ l) (hbc : AtLeast b c) : AtLeast (l.foldl (fun x y => x + y) a) c := by
  induction l generalizing a with
  | nil => simp at hb
  | cons d l ih =>
    rw [List.foldl_cons]
    rcases List.mem_cons.mp hb with rfl | hb
    · refine atLeast_foldl hφ (fun x hx => h x (by simp [hx])) hc ?_
      rw [iadd_comm]; exact hbc.add hφ hc ha
    · exact ih (fun x hx => h x (by simp [hx])) (ha.add hφ le_rfl (h d (by simp))) hb
theorem atLeast_sum (hφ : WF φ) [NeZero N] (v : Vec (Ieee φ) N) (c : Fin N → ℝ) (hc : ∀ i, 0 ≤ c i)
    (h : ∀ i : Fin N, AtLeast v[i.1] (c i)) (i : Fin N) : AtLeast v.sum (c i) := by
  obtain ⟨n, rfl⟩ : ∃ n, N = n + 1 := ⟨N - 1, by have := NeZero.ne N; omega⟩
  rw [Vec.sum, Vec.foldFirst_congr (Vec.foldFirstR_succ _ v)]
  have h0 : ∀ b ∈ (List.ofFn fun i : Fin n => v[i.1 + 1]), AtLeast b 0 := by
    intro b hb
    obtain ⟨j, rfl⟩ := (List.mem_ofFn' _ _).mp hb
    exact (h j.succ).mono (hc _)
  induction i using Fin.cases with
  | zero => exact atLeast_foldl hφ h0 (hc 0) (h 0)
  | succ j =>
    refine atLeast_foldl_mem hφ h0 (hc _) ((h 0).mono (hc 0)) ?_ (h j.succ)
    rw [List.mem_ofFn]; exact ⟨j, rfl⟩
theorem AtLeast.sqrt (hφ : WF φ) {a : Ieee φ} {x : ℝ} (hx : Representable φ x) (hx2 : x = 0 ∨ (2:ℝ) ^ φ.emin ≤ x * x)
    (h : AtLeast a (φ.near (x * x))) : AtLeast (FloatOps.sqrt a) |x| := by
  have hp : 1 ≤ φ.p := by have := hφ.1; omega
  rcases h with rfl | ⟨y, h1, h2, h3⟩
  · left; rfl
  have hy0 : 0 ≤ y := (near_sq_nonneg x).trans h2
  show AtLeast a.sqrt |x|
  rcases Val.cases h1 with ⟨rfl, s, rfl⟩ | ⟨hy, rfl⟩ <;> simp only [Ieee.sqrt]
  · right
    refine ⟨0, rfl, ?_, rep_zero hφ⟩
    rcases hx2 with rfl | hx2
    · simp
    · have := near_sqrt_near_sq hφ hx hx2
      rw [le_antisymm h2 (near_sq_nonneg x), Real.sqrt_zero, Fmt.near_zero] at this
      rw [← this]
  · rw [if_neg (not_lt.mpr hy0)]
    have hpos : 0 < y := lt_of_le_of_ne hy0 (Ne.symm hy)
    refine atLeast_rnd hφ (Real.sqrt_pos.mpr hpos) ?_
    rcases hx2 with rfl | hx2
    · simpa using Fmt.near_nonneg (Real.sqrt_nonneg y)
    · rw [← near_sqrt_near_sq hφ hx hx2]
      exact Fmt.near_mono hp (Real.sqrt_le_sqrt h2)
theorem atLeast_length (hφ : WF φ) [NeZero N] (v : Vec (Ieee φ) N) (x : Fin N → ℝ) (hv : ∀ i : Fin N, Datum v[i.1])
    (hx : ∀ i : Fin N, v[i.1].toReal? = some (x i)) (hs : ∀ i, x i = 0 ∨ (2:ℝ) ^ φ.emin ≤ x i * x i) (i : Fin N) :
    AtLeast v.length |x i| := by
  refine AtLeast.sqrt hφ (Datum.rep hφ (hv i) (hx i)) (hs i) ?_
  refine atLeast_sum hφ _ (fun i => φ.near (x i * x i)) (fun i => near_sq_nonneg _) (fun i => ?_) i
  rw [Vec.getElem_map]; exact atLeast_sq hφ (hx i)

/-- The computed length is never below the magnitude of a component: it is `+∞` or a number `≥ |x_i|`. -/
theorem C83_length_ge (hφ : WF φ) (v : Vec (Ieee φ) N) (x : Fin N → ℝ) (hv : ∀ i : Fin N, Datum v[i.1])
    (hx : ∀ i : Fin N, v[i.1].toReal? = some (x i)) (hs : ∀ i, x i = 0 ∨ (2:ℝ) ^ φ.emin ≤ x i * x i) (i : Fin N) :
    ∃ l, v.lengthR = .ok l ∧ (l = .inf false ∨ ∃ r, l.toReal? = some r ∧ |x i| ≤ r) := by
  have : NeZero N := ⟨by have := i.2; omega⟩
  refine ⟨_, Vec.length_ok v, ?_⟩
  rcases atLeast_length hφ v x hv hx hs i with h | ⟨r, h1, h2, -⟩
  · exact .inl h
  · exact .inr ⟨r, h1, h2⟩
/-- Every component of a normalised vector is a number in `[-1, 1]`, so `acos`, `asin` of it are defined. -/
theorem C83_normalize_range (hφ : WF φ) (v : Vec (Ieee φ) N) (x : Fin N → ℝ) (hv : ∀ i : Fin N, Datum v[i.1])
    (hx : ∀ i : Fin N, v[i.1].toReal? = some (x i)) (hs : ∀ i, x i = 0 ∨ (2:ℝ) ^ φ.emin ≤ x i * x i) (h0 : ∃ i, x i ≠ 0) :
    ∃ w, v.normalizeR = .ok w ∧ ∀ i : Fin N, ∃ y, w[i.1].toReal? = some y ∧ |y| ≤ 1 := by
  obtain ⟨k, hk⟩ := h0
  have : NeZero N := ⟨by have := k.2; omega⟩
  have hp : 1 ≤ φ.p := by have := hφ.1; omega
  refine ⟨_, Vec.normalize_ok v, fun i => ?_⟩
  rw [Vec.normalize, Vec.getElem_divS, div_def]
  have hl := atLeast_length hφ v x hv hx hs
  generalize v.length = l at *
  have hkp := abs_pos.mpr hk
  rcases hl i with rfl | ⟨r, h1, h2, h3⟩
  · rcases Val.cases (hx i) with ⟨h, s, hvi⟩ | ⟨hxi, hvi⟩ <;> rw [hvi] <;> exact ⟨0, rfl, by simp⟩
  · have hr : 0 < r := by
      rcases hl k with rfl | ⟨r', h1', h2', -⟩
      · cases h1
      · rw [Val.unique h1 h1']; linarith
    have hrl := Val.cases h1
    rcases hrl with ⟨rfl, -⟩ | ⟨hr0, rfl⟩
    · exact absurd hr (lt_irrefl _)
    rcases Val.cases (hx i) with ⟨h, s, hvi⟩ | ⟨hxi, hvi⟩ <;> rw [hvi] <;> simp only [Ieee.div]
    · exact ⟨0, rfl, by simp⟩
    · have hq : |x i / r| ≤ 1 := by rw [abs_div, abs_of_pos hr, div_le_one hr]; exact h2
      rw [abs_le] at hq
      have n1 : φ.near 1 = 1 := Fmt.near_rep (rep_one hφ)
      have hn : |φ.near (x i / r)| ≤ 1 := by
        rw [abs_le]
        have a := Fmt.near_mono (φ := φ) hp hq.1
        have b := Fmt.near_mono (φ := φ) hp hq.2
        rw [Fmt.near_neg, n1] at a
        rw [n1] at b
        exact ⟨a, b⟩
      have hlt : |φ.near (x i / r)| < 2 ^ (φ.emax + 1) := by
        refine lt_of_le_of_lt hn ?_
        have := rep_lt (rep_one hφ)
        simpa using this
      refine ⟨φ.near (x i / r), ?_, hn⟩
      unfold rnd ofReal
      rw [if_neg (not_le.mpr hlt)]
      split_ifs with h
      · rw [h]; rfl
      · rfl
/-- A vector along an axis has an exact length and normalises exactly to the signed unit vector, unless its square overflows or underflows. -/
theorem C83_axis (hφ : WF φ) (v : Vec (Ieee φ) N) (k : Nat) (hk : k < N) {x : ℝ} (hx0 : x ≠ 0) (hx : v[k] = .num x hx0)
    (hr : Representable φ x) (hz : ∀ j (hj : j < N), j ≠ k → ∃ s, v[j] = .zero s)
    (hlo : (2:ℝ) ^ φ.emin ≤ x * x) (hhi : φ.near (x * x) < 2 ^ (φ.emax + 1)) :
    v.lengthR = .ok (.num |x| (abs_ne_zero.mpr hx0)) ∧
      ∃ w, v.normalizeR = .ok w ∧ w[k].toReal? = some (x / |x|) ∧ ∀ j (hj : j < N), j ≠ k → ∃ s, w[j] = .zero s := by
  have : NeZero N := ⟨by omega⟩
  have hpos : 0 < |x| := abs_pos.mpr hx0
  have hra : Representable φ |x| := by rcases abs_choice x with h | h <;> rw [h]; exact hr; exact rep_neg hr
  have hsq : Val (v[k] * v[k]) (φ.near (x * x)) := by
    rw [hx, mul_def]; simp only [Ieee.mul]
    unfold rnd ofReal
    rw [if_neg (not_le.mpr (by rwa [abs_of_nonneg (near_sq_nonneg x)]))]
    split_ifs with h
    · rw [h]; rfl
    · rfl
  have hrs : Representable φ (φ.near (x * x)) := Fmt.rep_near hφ (by rwa [abs_of_nonneg (near_sq_nonneg x)])
  have hsum := (Vec.val_sum_single (v.map fun a => a * a) (fun i => if i.1 = k then φ.near (x * x) else 0)
    (fun i => by
      rw [Vec.getElem_map]
      by_cases h : i.1 = k
      · subst h; simp only [if_true]; exact ⟨hsq, hrs⟩
      · obtain ⟨s, hs⟩ := hz i.1 i.2 h
        rw [if_neg h, hs]; exact ⟨rfl, rep_zero hφ⟩)
    (fun i j hij => by
      by_cases h : i.1 = k
      · right; rw [if_neg]; intro h'; exact hij (Fin.ext (h.trans h'.symm))
      · left; rw [if_neg h])).1
  rw [Finset.sum_eq_single ⟨k, hk⟩ (by
    intro b _ hb; rw [if_neg]; intro h; exact hb (Fin.ext h)) (by simp)] at hsum
  simp only [if_true] at hsum
  have hlen : v.length = .num |x| (abs_ne_zero.mpr hx0) := by
    have h1 := near_sqrt_near_sq hφ hr hlo
    show FloatOps.sqrt v.squareLength = _
    show v.squareLength.sqrt = _
    have hne : φ.near (x * x) ≠ 0 := by
      intro e; rw [e, Real.sqrt_zero, Fmt.near_zero] at h1; exact hpos.ne h1
    rcases Val.cases hsum with ⟨h, -⟩ | ⟨h, e⟩
    · exact absurd h hne
    · rw [show v.squareLength = _ from e]
      simp only [Ieee.sqrt]
      rw [if_neg (not_lt.mpr (near_sq_nonneg x))]
      unfold rnd ofReal
      simp only [h1]
      rw [if_neg (not_le.mpr (by rw [abs_abs]; exact rep_lt hr)), dif_neg hpos.ne']
  refine ⟨by rw [Vec.length_ok, hlen], _, Vec.normalize_ok v, ?_, ?_⟩
  · rw [Vec.normalize, Vec.getElem_divS, hlen, hx]
    refine val_div (val_num hx0) (val_num hpos.ne') hpos.ne' ?_
    rcases lt_or_gt_of_ne hx0 with h | h
    · rw [abs_of_neg h, div_neg, div_self hx0]; exact rep_neg (rep_one hφ)
    · rw [abs_of_pos h, div_self hx0]; exact rep_one hφ
  · intro j hj hjk
    obtain ⟨s, hs⟩ := hz j hj hjk
    rw [Vec.normalize, Vec.getElem_divS, hlen, hs]; exact ⟨_, rfl⟩

/-! ## findings: what happens outside the range -/
/-- A finite vector with a representable length can have an infinite computed length and is then normalised to zero. -/
theorem C83_overflow_refuted (hφ : WF φ) : ∃ v : Vec (Ieee φ) 2, (∀ i (hi : i < 2), Datum v[i] ∧ Finite v[i]) ∧
    v.lengthR = .ok (.inf false) ∧ v.normalizeR = .ok 0 := by
  have hne : (2:ℝ) ^ φ.emax ≠ 0 := by positivity
  obtain ⟨hp, h1, h2⟩ := id hφ
  have hr : Representable φ (2 ^ φ.emax) := rep_pow hφ (by omega) le_rfl
  have e2 : (2:ℝ) ^ φ.emax * 2 ^ φ.emax = 2 ^ (2 * φ.emax) := by rw [← zpow_add₀ (by norm_num)]; congr 1; ring
  have hbig : (2:ℝ) ^ (φ.emax + 1) ≤ φ.near (2 ^ φ.emax * 2 ^ φ.emax) := by
    rw [e2]
    have hpos : (0:ℝ) < 2 ^ (2 * φ.emax) := by positivity
    have hu : φ.ulp (2 ^ (2 * φ.emax)) = 2 ^ (2 * φ.emax - φ.p + 1) := Fmt.ulp_eq (by rw [abs_of_pos hpos])
      (by rw [abs_of_pos hpos]; exact zpow_lt_zpow_right₀ (by norm_num) (by omega)) (by omega)
    refine le_trans (zpow_le_zpow_right₀ (by norm_num) (by omega : φ.emax + 1 ≤ 2 * φ.emax)) (Fmt.le_near_of le_rfl ⟨2 ^ (φ.p - 1), ?_⟩)
    rw [hu]; push_cast
    rw [← zpow_natCast, ← zpow_add₀ (by norm_num)]; congr 1; omega
  have hsq : (.num _ hne * .num _ hne : Ieee φ) = .inf false := by
    rw [mul_def]; simp only [Ieee.mul]
    unfold rnd
    rw [if_pos (hbig.trans (le_abs_self _)), decide_eq_false (not_lt.mpr (by positivity))]
  have hlen : (Vec.fromArray #v[.num _ hne, 0] : Vec (Ieee φ) 2).length = .inf false := by
    show FloatOps.sqrt ((.num _ hne * .num _ hne : Ieee φ) + 0 * 0) = _
    rw [hsq]; rfl
  refine ⟨Vec.fromArray #v[.num _ hne, 0], ?_, by rw [Vec.length_ok, hlen], ?_⟩
  · intro i hi
    match i, hi with
    | 0, _ => exact ⟨hr, (val_num hne).finite⟩
    | 1, _ => exact ⟨trivial, val_zero'.finite⟩
  · rw [Vec.normalize_ok, Vec.normalize, hlen]; congr 1
    ext i hi
    rw [Vec.getElem_divS, Vec.getElem_zero]
    match i, hi with
    | 0, _ =>
      show Ieee.zero (decide ((2:ℝ) ^ φ.emax < 0) ^^ false) = Ieee.zero false
      rw [decide_eq_false (not_lt.mpr (by positivity))]; rfl
    | 1, _ => rfl
/-- The smallest positive number as a component: its square underflows to zero, the computed length is zero and `normalize` returns
`[∞, NaN]`. -/
theorem C83_underflow_refuted (hφ : WF φ) : ∃ v : Vec (Ieee φ) 2, (∀ i (hi : i < 2), Datum v[i] ∧ Finite v[i]) ∧ v ≠ 0 ∧
    v.lengthR = .ok 0 ∧ ∃ w, v.normalizeR = .ok w ∧ w[0] = .inf false ∧ w[1] = .nan := by
  have hne : (2:ℝ) ^ (φ.emin - φ.p + 1) ≠ 0 := by positivity
  obtain ⟨hp, h1, h2⟩ := id hφ
  have hr : Representable φ (2 ^ (φ.emin - φ.p + 1)) := rep_pow hφ le_rfl (by omega)
  have e2 : (2:ℝ) ^ (φ.emin - φ.p + 1) * 2 ^ (φ.emin - φ.p + 1) = 2 ^ (2 * (φ.emin - φ.p + 1)) := by rw [← zpow_add₀ (by norm_num)]; congr 1; ring
  have hsmall : φ.near (2 ^ (φ.emin - φ.p + 1) * 2 ^ (φ.emin - φ.p + 1)) = 0 := by
    rw [e2]
    have hpos : (0:ℝ) < 2 ^ (2 * (φ.emin - φ.p + 1)) := by positivity
    have hl : Int.log 2 |(2:ℝ) ^ (2 * (φ.emin - φ.p + 1))| = 2 * (φ.emin - φ.p + 1) :=
      log_eq (by rw [abs_of_pos hpos]) (by rw [abs_of_pos hpos]; exact zpow_lt_zpow_right₀ (by norm_num) (by omega))
    have hu : φ.ulp (2 ^ (2 * (φ.emin - φ.p + 1))) = 2 ^ (φ.emin - φ.p + 1) := by
      unfold Fmt.ulp; rw [hl, max_eq_right (by omega)]
    unfold Fmt.near
    rw [hu, ← e2, mul_div_assoc, div_self hne, mul_one]
    have : roundEven ((2:ℝ) ^ (φ.emin - φ.p + 1)) = 0 := by
      apply roundEven_eq
      have : (2:ℝ) ^ (φ.emin - φ.p + 1) ≤ 2 ^ (-2 : ℤ) := zpow_le_zpow_right₀ (by norm_num) (by omega)
      rw [Int.cast_zero, sub_zero, abs_of_pos (by positivity)]
      refine lt_of_le_of_lt this (by norm_num)
    rw [this]; simp
  have hsq : (.num _ hne * .num _ hne : Ieee φ) = .zero false := by
    rw [mul_def]; simp only [Ieee.mul]
    unfold rnd ofReal
    rw [hsmall, if_neg (by rw [abs_zero]; exact not_le.mpr (by positivity)), dif_pos rfl, decide_eq_false (not_lt.mpr (by positivity))]
  have hlen : (Vec.fromArray #v[.num _ hne, 0] : Vec (Ieee φ) 2).length = 0 := by
    show FloatOps.sqrt ((.num _ hne * .num _ hne : Ieee φ) + 0 * 0) = _
    rw [hsq]; rfl
  refine ⟨Vec.fromArray #v[.num _ hne, 0], ?_, ?_, by rw [Vec.length_ok, hlen], _, Vec.normalize_ok _, ?_, ?_⟩
  · intro i hi
    match i, hi with
    | 0, _ => exact ⟨hr, (val_num hne).finite⟩
    | 1, _ => exact ⟨trivial, val_zero'.finite⟩
  · intro h
    have := congrArg (fun v : Vec (Ieee φ) 2 => v[0]) h
    simp only [Vec.getElem_zero] at this
    cases this
  · rw [Vec.normalize, hlen, Vec.getElem_divS]
    show Ieee.inf (decide ((2:ℝ) ^ (φ.emin - φ.p + 1) < 0) ^^ false) = _
    rw [decide_eq_false (not_lt.mpr (by positivity))]; rfl
  · rw [Vec.normalize, hlen, Vec.getElem_divS]; rfl

/-- The axis theorem is not vacuous: `[3, 0]` in `f64`. -/
example : ∃ v : Vec (Ieee Fmt.f64) 2, v.lengthR = .ok (.num 3 (by norm_num)) := by
  refine ⟨Vec.fromArray #v[.num 3 (by norm_num), 0], ?_⟩
  have r9 : Representable Fmt.f64 9 := ⟨9, 0, by norm_num, by simp [Fmt.f64], by simp [Fmt.f64], by simp [Fmt.f64]⟩
  have r3 : Representable Fmt.f64 3 := ⟨3, 0, by norm_num, by simp [Fmt.f64], by simp [Fmt.f64], by simp [Fmt.f64]⟩
  have n9 : Fmt.f64.near (3 * 3) = 9 := by rw [show (3 * 3 : ℝ) = 9 by norm_num]; exact Fmt.near_rep r9
  have := (C83_axis (φ := Fmt.f64) C80_formats.2 (Vec.fromArray #v[.num 3 (by norm_num), 0]) 0 (by omega) (x := 3) (by norm_num) rfl r3
    (fun j hj h => by match j, hj with | 1, _ => exact ⟨false, rfl⟩)
    (le_trans (zpow_le_one_of_nonpos₀ (by norm_num) (by decide)) (by norm_num))
    (by rw [n9]; have := rep_lt r9; rwa [abs_of_pos (by norm_num)] at this)).1
  rw [this]; simp

/-! ## further cases: the hypotheses are satisfiable -/
namespace IeeeEx
theorem rangeHyp (i : Fin 3) : (fun i => ((![1, -2, 0] : Fin 3 → ℤ) i : ℝ)) i = 0 ∨
    (2:ℝ) ^ Fmt.f64.emin ≤ (fun i => ((![1, -2, 0] : Fin 3 → ℤ) i : ℝ)) i * (fun i => ((![1, -2, 0] : Fin 3 → ℤ) i : ℝ)) i := by
  have : (2:ℝ) ^ Fmt.f64.emin ≤ 1 := zpow_le_one_of_nonpos₀ (by norm_num) (by decide)
  fin_cases i
  · right; simpa using this
  · right; simp; linarith
  · left; simp
end IeeeEx
example := C83_length_ge C80_formats.2 (IeeeEx.vec fun i => ((![1, -2, 0] : Fin 3 → ℤ) i : ℝ)) _
  (fun i => (IeeeEx.vec_ok _ (by decide) i.1 i.2).1) (IeeeEx.vec_val _) IeeeEx.rangeHyp 1
example := C83_normalize_range C80_formats.2 (IeeeEx.vec fun i => ((![1, -2, 0] : Fin 3 → ℤ) i : ℝ)) _
  (fun i => (IeeeEx.vec_ok _ (by decide) i.1 i.2).1) (IeeeEx.vec_val _) IeeeEx.rangeHyp ⟨1, by simp⟩
example := C83_overflow_refuted C80_formats.1
example := C83_underflow_refuted C80_formats.2

end Vecmat
