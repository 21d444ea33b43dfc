import Verif.Props.IeeeRange
import Verif.Props.IeeeNan
/-!
# C104: division by zero, by infinity and by numbers out of range
Scalars are IEEE-754 floats of any format.  Division, inverse and normalisation never panic and never trap; these theorems say
what they return when the divisor, its computed square norm or the computed determinant is zero or infinite.
-/
namespace Vecmat
open Spec Ieee
variable {φ : Fmt} {N : Nat}

/-! ## scalars -/
namespace Ieee
/-- Not a finite number. -/
theorem notFinite_iff (a : Ieee φ) : ¬ Spec.Finite a ↔ a = nan ∨ ∃ s, a = inf s := by
  rcases a with _ | s | s | ⟨x, hx⟩ <;> simp [Spec.Finite]
theorem nf_mul {a b : Ieee φ} (h : ¬ Spec.Finite b) : ¬ Spec.Finite (a * b) := by
  rw [notFinite_iff] at *
  rw [mul_def]
  rcases h with rfl | ⟨s, rfl⟩ <;> rcases a with _ | s | s | ⟨x, hx⟩ <;> simp [Ieee.mul]
theorem nf_add {a b : Ieee φ} (h : ¬ Spec.Finite b) : ¬ Spec.Finite (a + b) := by
  rw [notFinite_iff] at *
  rw [add_def]
  rcases h with rfl | ⟨s, rfl⟩ <;> rcases a with _ | t | t | ⟨x, hx⟩ <;> simp [Ieee.add]
  by_cases h : t = s <;> simp [h]
theorem nf_neg {b : Ieee φ} (h : ¬ Spec.Finite b) : ¬ Spec.Finite (-b) := by
  rw [notFinite_iff] at *
  rcases h with rfl | ⟨s, rfl⟩
  · exact .inl rfl
  · exact .inr ⟨_, rfl⟩
theorem nf_sub {a b : Ieee φ} (h : ¬ Spec.Finite b) : ¬ Spec.Finite (a - b) := by rw [sub_def]; exact nf_add (nf_neg h)
theorem nf_div_zero (a : Ieee φ) (s : Bool) : ¬ Spec.Finite (a / .zero s) := by
  rw [notFinite_iff, div_def]
  rcases a with _ | t | t | ⟨x, hx⟩ <;> simp [Ieee.div]
/-- `a` is `+0` or `-0`. -/
def IsZ (a : Ieee φ) : Prop := ∃ s, a = .zero s
theorem IsZ.mul {a b : Ieee φ} (ha : Spec.Finite a) (hb : IsZ b) : IsZ (a * b) := by
  obtain ⟨t, rfl⟩ := hb
  rw [mul_def]
  rcases a with _ | s | s | ⟨x, hx⟩
  · exact absurd rfl ha.1
  · exact absurd rfl (ha.2 s)
  · exact ⟨_, rfl⟩
  · exact ⟨_, rfl⟩
theorem IsZ.add {a b : Ieee φ} (ha : IsZ a) (hb : IsZ b) : IsZ (a + b) := by
  obtain ⟨s, rfl⟩ := ha; obtain ⟨t, rfl⟩ := hb; exact ⟨_, rfl⟩
theorem IsZ.neg {a : Ieee φ} (ha : IsZ a) : IsZ (-a) := by obtain ⟨s, rfl⟩ := ha; exact ⟨_, rfl⟩
theorem IsZ.sub {a b : Ieee φ} (ha : IsZ a) (hb : IsZ b) : IsZ (a - b) := by rw [sub_def]; exact ha.add hb.neg
theorem IsZ.finite {a : Ieee φ} (ha : IsZ a) : Spec.Finite a := by obtain ⟨s, rfl⟩ := ha; exact ⟨by simp, by simp⟩
theorem IsZ.div {a b : Ieee φ} (ha : IsZ a) (hb : IsZ b) : a / b = .nan := by
  obtain ⟨s, rfl⟩ := ha; obtain ⟨t, rfl⟩ := hb; rfl
theorem isZ_div_inf {a : Ieee φ} (ha : Spec.Finite a) (s : Bool) : IsZ (a / .inf s) := by
  rw [div_def]
  rcases a with _ | s | s | ⟨x, hx⟩
  · exact absurd rfl ha.1
  · exact absurd rfl (ha.2 s)
  · exact ⟨_, rfl⟩
  · exact ⟨_, rfl⟩
theorem finite_neg {a : Ieee φ} (ha : Spec.Finite a) : Spec.Finite (-a) := by
  rcases a with _ | s | s | ⟨x, hx⟩
  · exact absurd rfl ha.1
  · exact absurd rfl (ha.2 s)
  · exact ⟨nofun, nofun⟩
  · exact ⟨nofun, nofun⟩
theorem inf_add_nonneg {a : Ieee φ} (ha : NonNeg a) : (.inf false : Ieee φ) + a = .inf false := by
  rw [add_def]
  rcases a with _ | s | s | ⟨x, hx⟩ <;> simp only [NonNeg] at ha <;> simp [Ieee.add]
  exact ha
end Ieee

/-- The square of a number of magnitude at least `√(2^(emax+1))` overflows. -/
theorem sq_overflow (hφ : WF φ) {a : Ieee φ} {x : ℝ} (h : a.toReal? = some x) (hx : (2:ℝ) ^ (φ.emax + 1) ≤ x * x) :
    a * a = .inf false := by
  have hp : 1 ≤ φ.p := by have := hφ.1; omega
  obtain ⟨-, h1, h2⟩ := id hφ
  have hbig : (2:ℝ) ^ (φ.emax + 1) ≤ φ.near (x * x) := by
    refine le_trans ?_ (Fmt.near_mono hp hx)
    have hpos : (0:ℝ) < 2 ^ (φ.emax + 1) := by positivity
    have hu : φ.ulp (2 ^ (φ.emax + 1)) = 2 ^ (φ.emax + 1 - φ.p + 1) := Fmt.ulp_eq (by rw [abs_of_pos hpos])
      (by rw [abs_of_pos hpos]; exact zpow_lt_zpow_right₀ (by norm_num) (by omega)) (by omega)
    refine Fmt.le_near_of le_rfl ⟨2 ^ (φ.p - 1), ?_⟩
    rw [hu]; push_cast
    rw [← zpow_natCast, ← zpow_add₀ (by norm_num)]; congr 1; omega
  rcases Val.cases h with ⟨rfl, s, rfl⟩ | ⟨hx0, rfl⟩
  · rw [mul_zero] at hx; exact absurd hx (not_le.mpr (by positivity))
  rw [mul_def]; simp only [Ieee.mul]
  unfold rnd
  rw [if_pos (hbig.trans (le_abs_self _)), decide_eq_false (not_lt.mpr (mul_self_nonneg x))]
/-- The square of a number of magnitude at most `√(2^(emin-p))` (half the smallest positive number) underflows to zero. -/
theorem sq_underflow (hφ : WF φ) {a : Ieee φ} {x : ℝ} (h : a.toReal? = some x) (hx : x * x ≤ (2:ℝ) ^ (φ.emin - φ.p)) :
    IsZ (a * a) := by
  rcases Val.cases h with ⟨rfl, s, rfl⟩ | ⟨hx0, rfl⟩
  · exact ⟨_, rfl⟩
  have hpos : 0 < x * x := mul_self_pos.mpr hx0
  have hlt : x * x < (2:ℝ) ^ φ.emin := lt_of_le_of_lt hx (zpow_lt_zpow_right₀ (by norm_num) (by have := hφ.1; omega))
  have hu : φ.ulp (x * x) = 2 ^ (φ.emin - φ.p + 1) := by
    have hl : Int.log 2 |x * x| < φ.emin := by
      rw [abs_of_pos hpos]; exact (Int.lt_zpow_iff_log_lt (by norm_num) hpos).1 (by exact_mod_cast hlt)
    unfold Fmt.ulp; rw [max_eq_right hl.le]
  have hsmall : φ.near (x * x) = 0 := by
    unfold Fmt.near
    have hr : x * x / φ.ulp (x * x) ≤ 1 / 2 := by
      rw [hu, div_le_iff₀ (by positivity), zpow_add_one₀ (by norm_num)]; linarith
    have hr0 : 0 < x * x / φ.ulp (x * x) := by rw [hu]; positivity
    have hf : ⌊x * x / φ.ulp (x * x)⌋ = 0 := Int.floor_eq_zero_iff.mpr ⟨hr0.le, by linarith⟩
    have : roundEven (x * x / φ.ulp (x * x)) = 0 := by
      unfold roundEven
      rw [hf]
      split_ifs with h1 h2 h3
      · rfl
      · rw [Int.cast_zero, sub_zero] at h2; linarith
      · rfl
      · exact absurd (by decide) h3
    rw [this]; simp
  rw [mul_def]; simp only [Ieee.mul]
  refine ⟨false, ?_⟩
  unfold rnd ofReal
  rw [hsmall, if_neg (by rw [abs_zero]; exact not_le.mpr (by positivity)), dif_pos rfl, decide_eq_false (not_lt.mpr hpos.le)]

/-! ## square lengths -/
theorem isZ_foldl {l : List (Ieee φ)} (h : ∀ b ∈ l, IsZ b) {a : Ieee φ} (ha : IsZ a) : IsZ (l.foldl (fun x y => x + y) a) := by
  induction l generalizing a with
  | nil => exact ha
  | cons b l ih => exact ih (fun x hx => h x (by simp [hx])) (ha.add (h b (by simp)))
theorem inf_foldl {l : List (Ieee φ)} (h : ∀ b ∈ l, NonNeg b) : l.foldl (fun x y => x + y) (.inf false) = .inf false := by
  induction l with
  | nil => rfl
  | cons b l ih => rw [List.foldl_cons, inf_add_nonneg (h b (by simp))]; exact ih fun x hx => h x (by simp [hx])
theorem inf_foldl_mem {l : List (Ieee φ)} (h : ∀ b ∈ l, NonNeg b) (hm : .inf false ∈ l) {a : Ieee φ} (ha : NonNeg a) :
    l.foldl (fun x y => x + y) a = .inf false := by
  induction l generalizing a with
  | nil => simp at hm
  | cons b l ih =>
    rw [List.foldl_cons]
    rcases List.mem_cons.mp hm with hm | hm
    · rw [← hm, iadd_comm, inf_add_nonneg ha]; exact inf_foldl fun x hx => h x (by simp [hx])
    · exact ih (fun x hx => h x (by simp [hx])) hm (add_nonneg' ha (h b (by simp)))
theorem sum_isZ [NeZero N] (v : Vec (Ieee φ) N) (h : ∀ i (hi : i < N), IsZ v[i]) : IsZ v.sum := by
  obtain ⟨n, rfl⟩ : ∃ n, N = n + 1 := ⟨N - 1, by have := NeZero.ne N; omega⟩
  rw [Vec.sum, Vec.foldFirst_congr (Vec.foldFirstR_succ _ v)]
  refine isZ_foldl (fun b hb => ?_) (h 0 (by omega))
  obtain ⟨j, rfl⟩ := (List.mem_ofFn' _ _).mp hb
  exact h _ _
theorem sum_inf [NeZero N] (v : Vec (Ieee φ) N) (h : ∀ i (hi : i < N), NonNeg v[i]) (k : Nat) (hk : k < N) (h' : v[k] = .inf false) :
    v.sum = .inf false := by
  obtain ⟨n, rfl⟩ : ∃ n, N = n + 1 := ⟨N - 1, by have := NeZero.ne N; omega⟩
  rw [Vec.sum, Vec.foldFirst_congr (Vec.foldFirstR_succ _ v)]
  have h0 : ∀ b ∈ (List.ofFn fun i : Fin n => v[i.1 + 1]), NonNeg b := by
    intro b hb
    obtain ⟨j, rfl⟩ := (List.mem_ofFn' _ _).mp hb
    exact h _ _
  match k, hk, h' with
  | 0, _, h' => rw [h']; exact inf_foldl h0
  | k + 1, hk, h' =>
    refine inf_foldl_mem h0 ?_ (h 0 (by omega))
    rw [List.mem_ofFn]; exact ⟨⟨k, by omega⟩, h'⟩
theorem sqLen_isZ [NeZero N] (v : Vec (Ieee φ) N) (h : ∀ i (hi : i < N), IsZ (v[i] * v[i])) : IsZ v.squareLength :=
  sum_isZ _ fun i hi => by rw [Vec.getElem_map]; exact h i hi
theorem sqLen_inf [NeZero N] (v : Vec (Ieee φ) N) (h : ∀ i (hi : i < N), v[i] ≠ .nan) (k : Nat) (hk : k < N)
    (h' : v[k] * v[k] = .inf false) : v.squareLength = .inf false :=
  sum_inf _ (fun i hi => by rw [Vec.getElem_map]; exact sq_nonneg' (h i hi)) k hk (by rw [Vec.getElem_map]; exact h')
theorem length_isZ [NeZero N] (v : Vec (Ieee φ) N) (h : ∀ i (hi : i < N), IsZ (v[i] * v[i])) : IsZ v.length := by
  obtain ⟨s, hs⟩ := sqLen_isZ v h
  exact ⟨s, by show FloatOps.sqrt v.squareLength = _; rw [hs]; rfl⟩
theorem length_inf [NeZero N] (v : Vec (Ieee φ) N) (h : ∀ i (hi : i < N), v[i] ≠ .nan) (k : Nat) (hk : k < N)
    (h' : v[k] * v[k] = .inf false) : v.length = .inf false := by
  show FloatOps.sqrt v.squareLength = _; rw [sqLen_inf v h k hk h']; rfl

/-! ## vectors -/
/-- Dividing by a zero: no component of the result is a finite number. -/
theorem C104_div_zero (v : Vec (Ieee φ) N) (s : Bool) (i : Nat) (hi : i < N) : ¬ Spec.Finite (v.divS (.zero s))[i] := by
  rw [Vec.getElem_divS]; exact nf_div_zero _ _
/-- The zero vector (with any signs of zero) normalises to NaN everywhere. -/
theorem C104_normalize_zero (v : Vec (Ieee φ) N) (hN : 0 < N) (h : ∀ i (hi : i < N), ∃ s, v[i] = .zero s) :
    ∃ w, v.normalizeR = .ok w ∧ ∀ i (hi : i < N), w[i] = .nan := by
  have : NeZero N := ⟨by omega⟩
  refine ⟨_, Vec.normalize_ok v, fun i hi => ?_⟩
  rw [Vec.normalize, Vec.getElem_divS]
  exact IsZ.div (h i hi) (length_isZ v fun j hj => IsZ.mul (IsZ.finite (h j hj)) (h j hj))
/-- A vector with an infinite component (and no NaN) has infinite length; it normalises to NaN at its infinite components and to zero
at its finite ones. -/
theorem C104_normalize_inf (v : Vec (Ieee φ) N) (h : ∀ i (hi : i < N), v[i] ≠ .nan) (k : Nat) (hk : k < N) (s : Bool) (hs : v[k] = .inf s) :
    v.lengthR = .ok (.inf false) ∧ ∃ w, v.normalizeR = .ok w ∧
      ∀ i (hi : i < N), (Spec.Finite v[i] → ∃ t, w[i] = .zero t) ∧ (¬ Spec.Finite v[i] → w[i] = .nan) := by
  have : NeZero N := ⟨by omega⟩
  have hl : v.length = .inf false := length_inf v h k hk (by rw [hs, mul_def]; simp [Ieee.mul])
  refine ⟨by rw [Vec.length_ok, hl], _, Vec.normalize_ok v, fun i hi => ⟨fun hf => ?_, fun hf => ?_⟩⟩ <;>
    rw [Vec.normalize, Vec.getElem_divS, hl]
  · exact isZ_div_inf hf _
  · rcases (notFinite_iff _).mp hf with e | ⟨t, e⟩
    · exact absurd e (h i hi)
    · rw [e]; rfl
/-- A finite vector one of whose components squares beyond the largest number has infinite length and normalises to zero. -/
theorem C104_normalize_overflow (hφ : WF φ) (v : Vec (Ieee φ) N) (h : ∀ i (hi : i < N), Spec.Finite v[i]) (k : Nat) (hk : k < N) (x : ℝ)
    (hx : v[k].toReal? = some x) (hbig : (2:ℝ) ^ (φ.emax + 1) ≤ x * x) :
    v.lengthR = .ok (.inf false) ∧ ∃ w, v.normalizeR = .ok w ∧ ∀ i (hi : i < N), ∃ t, w[i] = .zero t := by
  have : NeZero N := ⟨by omega⟩
  have hl : v.length = .inf false := length_inf v (fun i hi => (h i hi).1) k hk (sq_overflow hφ hx hbig)
  refine ⟨by rw [Vec.length_ok, hl], _, Vec.normalize_ok v, fun i hi => ?_⟩
  rw [Vec.normalize, Vec.getElem_divS, hl]; exact isZ_div_inf (h i hi) _
/-- A vector all of whose components square to at most half the smallest positive number has computed length zero; nothing in the
normalised vector is finite. -/
theorem C104_normalize_underflow (hφ : WF φ) (v : Vec (Ieee φ) N) (hN : 0 < N) (x : Fin N → ℝ)
    (hx : ∀ i : Fin N, v[i.1].toReal? = some (x i)) (hs : ∀ i, x i * x i ≤ (2:ℝ) ^ (φ.emin - φ.p)) :
    (∃ s, v.lengthR = .ok (.zero s)) ∧ ∃ w, v.normalizeR = .ok w ∧ ∀ i (hi : i < N), ¬ Spec.Finite w[i] := by
  have : NeZero N := ⟨by omega⟩
  obtain ⟨s, hl⟩ := length_isZ v fun i hi => sq_underflow hφ (hx ⟨i, hi⟩) (hs ⟨i, hi⟩)
  refine ⟨⟨s, by rw [Vec.length_ok, hl]⟩, _, Vec.normalize_ok v, fun i hi => ?_⟩
  rw [Vec.normalize, Vec.getElem_divS, hl]; exact nf_div_zero _ _

/-! ## complex numbers -/
theorem cpx_all {P : Ieee φ → Prop} {z : Cpx (Ieee φ)} (h0 : P z.re) (h1 : P z.im) (i : Nat) (hi : i < 2) : P z.vec[i] := by
  match i, hi with
  | 0, _ => simpa using h0
  | 1, _ => simpa using h1
theorem cpx_div_nan {z w : Cpx (Ieee φ)} (h : w.inv.re = .nan ∨ w.inv.im = .nan) : z / w = Cpx.new .nan .nan :=
  (C81_complex w.inv z h).2.1
/-- Division by a complex zero is NaN in both components, whatever the dividend. -/
theorem C104_complex_zero (z w : Cpx (Ieee φ)) (s : Ieee φ) (h0 : ∃ s, w.re = .zero s) (h1 : ∃ s, w.im = .zero s) :
    w.inv = Cpx.new .nan .nan ∧ z / w = Cpx.new .nan .nan ∧ Cpx.sDiv s w = Cpx.new .nan .nan ∧ w.normalize = Cpx.new .nan .nan := by
  have hz := cpx_all (P := fun a => IsZ (a * a)) (IsZ.mul (IsZ.finite h0) h0) (IsZ.mul (IsZ.finite h1) h1)
  have hn : IsZ w.normSqr := sqLen_isZ _ hz
  have hl : IsZ w.norm := length_isZ _ hz
  have hi : w.inv = Cpx.new .nan .nan := by
    apply Cpx.ext'
    · simpa [Cpx.inv] using IsZ.div h0 hn
    · simpa [Cpx.inv] using IsZ.div (IsZ.neg h1) hn
  refine ⟨hi, cpx_div_nan (by simp [hi]), ?_, ?_⟩
  · show (Cpx.mulS w.inv s) = _
    rw [hi]; apply Cpx.ext' <;> simp
  · apply Cpx.ext'
    · simpa [Cpx.normalize] using IsZ.div h0 hl
    · simpa [Cpx.normalize] using IsZ.div h1 hl
/-- Division by a complex number with an infinite component is NaN in both components (not zero), whatever the dividend. -/
theorem C104_complex_inf (z w : Cpx (Ieee φ)) (h : ∃ s, w.re = .inf s ∨ w.im = .inf s) : z / w = Cpx.new .nan .nan := by
  by_cases hn : w.re = .nan ∨ w.im = .nan
  · exact (C81_complex w z hn).2.2.2.2.2.2.1
  push Not at hn
  have hne := cpx_all (P := fun a => a ≠ .nan) hn.1 hn.2
  obtain ⟨s, h⟩ := h
  refine cpx_div_nan ?_
  rcases h with h | h
  · left
    have : w.normSqr = .inf false := sqLen_inf _ hne 0 (by omega) (by
      have : w.vec[0] = .inf s := by simpa using h
      rw [this, mul_def]; simp [Ieee.mul])
    simp [Cpx.inv, this, h]; rfl
  · right
    have : w.normSqr = .inf false := sqLen_inf _ hne 1 (by omega) (by
      have : w.vec[1] = .inf s := by simpa using h
      rw [this, mul_def]; simp [Ieee.mul])
    simp [Cpx.inv, this, h]; rfl
/-- A finite divisor with a component beyond the square root of the range: its inverse and every finite quotient are zero; so `w / w` is
zero. -/
theorem C104_complex_overflow (hφ : WF φ) (z w : Cpx (Ieee φ)) (hz : Spec.Finite z.re ∧ Spec.Finite z.im) (hw : Spec.Finite w.re ∧ Spec.Finite w.im) (x : ℝ)
    (hx : w.re.toReal? = some x ∨ w.im.toReal? = some x) (hbig : (2:ℝ) ^ (φ.emax + 1) ≤ x * x) :
    (∃ s t, w.inv = Cpx.new (.zero s) (.zero t)) ∧ (∃ s t, z / w = Cpx.new (.zero s) (.zero t)) ∧
      ∃ s t, w.normalize = Cpx.new (.zero s) (.zero t) := by
  have hne := cpx_all (P := fun a => a ≠ .nan) hw.1.1 hw.2.1
  obtain ⟨hn, hl⟩ : w.normSqr = .inf false ∧ w.norm = .inf false := by
    rcases hx with h | h
    · have h' := sq_overflow hφ (a := w.vec[0]) (by simpa using h) hbig
      exact ⟨sqLen_inf _ hne 0 (by omega) h', length_inf _ hne 0 (by omega) h'⟩
    · have h' := sq_overflow hφ (a := w.vec[1]) (by simpa using h) hbig
      exact ⟨sqLen_inf _ hne 1 (by omega) h', length_inf _ hne 1 (by omega) h'⟩
  have hi0 : IsZ w.inv.re := by simpa [Cpx.inv, hn] using isZ_div_inf hw.1 false
  have hi1 : IsZ w.inv.im := by simpa [Cpx.inv, hn] using isZ_div_inf (finite_neg hw.2) false
  have fin : ∀ c : Cpx (Ieee φ), IsZ c.re → IsZ c.im → ∃ s t, c = Cpx.new (.zero s) (.zero t) := by
    rintro c ⟨s, h0⟩ ⟨t, h1⟩; exact ⟨s, t, Cpx.ext' (by simp [h0]) (by simp [h1])⟩
  refine ⟨fin _ hi0 hi1, fin _ ?_ ?_, fin _ ?_ ?_⟩
  · rw [Cpx.div_def, Cpx.re_mul]; exact (IsZ.mul hz.1 hi0).sub (IsZ.mul hz.2 hi1)
  · rw [Cpx.div_def, Cpx.im_mul]; exact (IsZ.mul hz.1 hi1).add (IsZ.mul hz.2 hi0)
  · simpa [Cpx.normalize, hl] using isZ_div_inf hw.1 false
  · simpa [Cpx.normalize, hl] using isZ_div_inf hw.2 false
/-- A divisor both of whose components square to at most half the smallest positive number: no quotient has a finite component. -/
theorem C104_complex_underflow (hφ : WF φ) (z w : Cpx (Ieee φ)) (x y : ℝ) (hx : w.re.toReal? = some x) (hy : w.im.toReal? = some y)
    (hs : x * x ≤ (2:ℝ) ^ (φ.emin - φ.p) ∧ y * y ≤ (2:ℝ) ^ (φ.emin - φ.p)) :
    ¬ Spec.Finite w.inv.re ∧ ¬ Spec.Finite w.inv.im ∧ ¬ Spec.Finite (z / w).re ∧ ¬ Spec.Finite (z / w).im := by
  obtain ⟨s, hn⟩ : IsZ w.normSqr := sqLen_isZ _
    (cpx_all (P := fun a => IsZ (a * a)) (sq_underflow hφ hx hs.1) (sq_underflow hφ hy hs.2))
  have h0 : ¬ Spec.Finite w.inv.re := by simpa [Cpx.inv, hn] using nf_div_zero w.re s
  have h1 : ¬ Spec.Finite w.inv.im := by simpa [Cpx.inv, hn] using nf_div_zero (-w.im) s
  refine ⟨h0, h1, ?_, ?_⟩
  · rw [Cpx.div_def, Cpx.re_mul]; exact nf_sub (nf_mul h1)
  · rw [Cpx.div_def, Cpx.im_mul]; exact nf_add (nf_mul h0)

end Vecmat
