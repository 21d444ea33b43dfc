import Verif.Props.IeeeNan
/-!
# The order of floating-point numbers and rounding
-/
namespace Vecmat
open Spec
variable {φ : Fmt}
namespace Ieee

/-- Both are not NaN and the first is not above the second. -/
def Le (a b : Ieee φ) : Prop := ∃ x y : EReal, a.toEReal? = some x ∧ b.toEReal? = some y ∧ x ≤ y

theorem pcmp_def (a b : Ieee φ) : RPartialOrd.pcmp a b =
    match a.toEReal?, b.toEReal? with | some a, some b => some (compare a b) | _, _ => none := rfl
theorem Le_iff (a b : Ieee φ) : rle a b = true ↔ Le a b := by
  unfold rle Le; rw [pcmp_def]
  rcases ha : a.toEReal? with _ | x <;> rcases hb : b.toEReal? with _ | y <;> simp [compare_lt_iff_lt, le_iff_lt_or_eq]
theorem toEReal_none {a : Ieee φ} : a.toEReal? = none ↔ a = .nan := by rcases a with _ | s | s | ⟨x, hx⟩ <;> simp [toEReal?]
theorem toEReal_some {a : Ieee φ} (h : a ≠ .nan) : ∃ x, a.toEReal? = some x := by
  rcases a with _ | s | s | ⟨x, hx⟩ <;> simp_all [toEReal?]
/-- `!(a > b)`: at most, or not comparable. -/
theorem not_gt_iff (a b : Ieee φ) : rgt a b = false ↔ a = .nan ∨ b = .nan ∨ Le a b := by
  rw [← toEReal_none, ← toEReal_none]
  unfold rgt Le; rw [pcmp_def]
  rcases ha : a.toEReal? with _ | x <;> rcases hb : b.toEReal? with _ | y <;>
    simp [compare_gt_iff_gt]
theorem Le.left {a b : Ieee φ} (h : Le a b) : a ≠ .nan := by
  rintro rfl; obtain ⟨x, y, h, -⟩ := h; cases h
theorem Le.right {a b : Ieee φ} (h : Le a b) : b ≠ .nan := by
  rintro rfl; obtain ⟨x, y, -, h, -⟩ := h; cases h
theorem Le.refl {a : Ieee φ} (h : a ≠ .nan) : Le a a := by
  obtain ⟨x, hx⟩ := toEReal_some h; exact ⟨x, x, hx, hx, le_rfl⟩
theorem Le.trans {a b c : Ieee φ} (h : Le a b) (h' : Le b c) : Le a c := by
  obtain ⟨x, y, h1, h2, h3⟩ := h
  obtain ⟨y', z, h4, h5, h6⟩ := h'
  rw [h2] at h4; cases h4
  exact ⟨x, z, h1, h5, h3.trans h6⟩
theorem Le.top {a : Ieee φ} (h : a ≠ .nan) : Le a (.inf false) := by
  obtain ⟨x, hx⟩ := toEReal_some h; exact ⟨x, ⊤, hx, rfl, le_top⟩
theorem Le.bot {a : Ieee φ} (h : a ≠ .nan) : Le (.inf true) a := by
  obtain ⟨x, hx⟩ := toEReal_some h; exact ⟨⊥, x, rfl, hx, bot_le⟩
theorem Le.eq_top {a : Ieee φ} (h : Le (.inf false) a) : a = .inf false := by
  obtain ⟨x, y, h1, h2, h3⟩ := h
  cases h1
  rcases a with _ | s | s | ⟨x, hx⟩ <;> simp only [toEReal?] at h2 <;> cases h2 <;> simp at h3
  · simp [h3]
theorem Le.eq_bot {a : Ieee φ} (h : Le a (.inf true)) : a = .inf true := by
  obtain ⟨x, y, h1, h2, h3⟩ := h
  cases h2
  rcases a with _ | s | s | ⟨x, hx⟩ <;> simp only [toEReal?] at h1 <;> cases h1 <;> simp at h3
  · simp [h3]
theorem toEReal_real {a : Ieee φ} {x : ℝ} (h : a.toReal? = some x) : a.toEReal? = some (x : EReal) := by
  rcases a with _ | s | s | ⟨y, hy⟩ <;> simp [toReal?] at h <;> subst h <;> rfl
theorem ne_nan_of_real {a : Ieee φ} {x : ℝ} (h : a.toReal? = some x) : a ≠ .nan := by rintro rfl; cases h
theorem Le.real {a b : Ieee φ} {x y : ℝ} (ha : a.toReal? = some x) (hb : b.toReal? = some y) : Le a b ↔ x ≤ y := by
  unfold Le; rw [toEReal_real ha, toEReal_real hb]; simp
/-- Infinite or a real number. -/
theorem cases_real (a : Ieee φ) : a = .nan ∨ a = .inf true ∨ a = .inf false ∨ ∃ x, a.toReal? = some x := by
  rcases a with _ | s | s | ⟨y, hy⟩
  · exact .inl rfl
  · cases s
    · exact .inr (.inr (.inl rfl))
    · exact .inr (.inl rfl)
  · exact .inr (.inr (.inr ⟨0, rfl⟩))
  · exact .inr (.inr (.inr ⟨y, rfl⟩))

open Classical in
/-- Rounding to the extended line. -/
noncomputable def rr (φ : Fmt) (x : ℝ) : EReal :=
  if (2 : ℝ) ^ (φ.emax + 1) ≤ |φ.near x| then (if x < 0 then ⊥ else ⊤) else (φ.near x : EReal)
theorem rr_zero : rr φ 0 = 0 := by
  unfold rr; rw [Fmt.near_zero, if_neg (by rw [abs_zero, not_le]; positivity)]; rfl
theorem rr_mono (hp : 1 ≤ φ.p) {x y : ℝ} (h : x ≤ y) : rr φ x ≤ rr φ y := by
  have hm := Fmt.near_mono (φ := φ) hp h
  have hpos : (0:ℝ) < 2 ^ (φ.emax + 1) := by positivity
  unfold rr
  by_cases h1 : (2:ℝ) ^ (φ.emax + 1) ≤ |φ.near x| <;> by_cases h2 : (2:ℝ) ^ (φ.emax + 1) ≤ |φ.near y|
  · rw [if_pos h1, if_pos h2]
    by_cases hx : x < 0
    · rw [if_pos hx]; exact bot_le
    · rw [if_neg (by linarith : ¬ y < 0)]; exact le_top
  · rw [if_pos h1, if_neg h2]
    by_cases hx : x < 0
    · rw [if_pos hx]; exact bot_le
    · exfalso
      rw [abs_of_nonneg (Fmt.near_nonneg (not_lt.mp hx))] at h1
      exact h2 (h1.trans (hm.trans (le_abs_self _)))
  · rw [if_neg h1, if_pos h2]
    by_cases hy : y < 0
    · exfalso
      rw [abs_of_nonpos (Fmt.near_nonpos hy.le)] at h2
      exact h1 (h2.trans ((neg_le_neg hm).trans (neg_le_abs _)))
    · rw [if_neg hy]; exact le_top
  · rw [if_neg h1, if_neg h2]; exact_mod_cast hm
theorem rnd_E (x : ℝ) : (rnd x : Ieee φ).toEReal? = some (rr φ x) := by
  unfold rnd rr ofReal
  split_ifs with h1 h2 h3 <;> simp_all [toEReal?]
theorem rnd_ne_nan (x : ℝ) : (rnd x : Ieee φ) ≠ .nan := by
  intro h; have := rnd_E (φ := φ) x; rw [h] at this; cases this

theorem add_E {a b : Ieee φ} {x y : ℝ} (ha : a.toReal? = some x) (hb : b.toReal? = some y) :
    (a + b).toEReal? = some (rr φ (x + y)) := by
  rw [add_def]
  rcases a with _ | s | s | ⟨x', hx⟩ <;> simp [toReal?] at ha <;> rcases b with _ | t | t | ⟨y', hy⟩ <;> simp [toReal?] at hb <;>
    subst ha hb <;> simp only [Ieee.add]
  · rw [add_zero, rr_zero]; rfl
  · rw [zero_add]; exact rnd_E _
  · rw [add_zero]; exact rnd_E _
  · split_ifs with h
    · rw [h, rr_zero]; rfl
    · exact rnd_E _
theorem mul_E {a b : Ieee φ} {x y : ℝ} (ha : a.toReal? = some x) (hb : b.toReal? = some y) :
    (a * b).toEReal? = some (rr φ (x * y)) := by
  rw [mul_def]
  rcases a with _ | s | s | ⟨x', hx⟩ <;> simp [toReal?] at ha <;> rcases b with _ | t | t | ⟨y', hy⟩ <;> simp [toReal?] at hb <;>
    subst ha hb <;> simp only [Ieee.mul, zero_mul, mul_zero, rr_zero] <;> first | rfl | exact rnd_E _
theorem div_E {a b : Ieee φ} {x y : ℝ} (ha : a.toReal? = some x) (hb : b.toReal? = some y) (h0 : y ≠ 0) :
    (a / b).toEReal? = some (rr φ (x / y)) := by
  rw [div_def]
  rcases a with _ | s | s | ⟨x', hx⟩ <;> simp [toReal?] at ha <;> rcases b with _ | t | t | ⟨y', hy⟩ <;> simp [toReal?] at hb <;>
    subst ha hb <;> simp only [Ieee.div, zero_div, rr_zero] <;> first | exact absurd rfl h0 | rfl | exact rnd_E _
theorem sqrt_E {a : Ieee φ} {x : ℝ} (ha : a.toReal? = some x) (h0 : 0 ≤ x) : a.sqrt.toEReal? = some (rr φ (Real.sqrt x)) := by
  rcases a with _ | s | s | ⟨x', hx⟩ <;> simp [toReal?] at ha <;> subst ha <;> simp only [Ieee.sqrt]
  · rw [Real.sqrt_zero, rr_zero]; rfl
  · rw [if_neg (not_lt.mpr h0)]; exact rnd_E _

theorem top_add {a : Ieee φ} (h : .inf false + a ≠ .nan) : .inf false + a = (.inf false : Ieee φ) := by
  rw [add_def] at *
  rcases a with _ | s | s | ⟨x, hx⟩ <;> simp only [Ieee.add] at *
  · exact absurd rfl h
  · cases s <;> simp_all
theorem bot_add {a : Ieee φ} (h : .inf true + a ≠ .nan) : .inf true + a = (.inf true : Ieee φ) := by
  rw [add_def] at *
  rcases a with _ | s | s | ⟨x, hx⟩ <;> simp only [Ieee.add] at *
  · exact absurd rfl h
  · cases s <;> simp_all
theorem add_ne_nan_of_real {a b : Ieee φ} {y : ℝ} (ha : a ≠ .nan) (hb : b.toReal? = some y) : a + b ≠ .nan := by
  rw [add_def]
  rcases a with _ | s | s | ⟨x, hx⟩ <;> rcases b with _ | t | t | ⟨y', hy⟩ <;> simp [toReal?] at hb <;> simp only [Ieee.add] <;>
    first | exact absurd rfl ha | exact rnd_ne_nan _ | (intro h; cases h) | skip
  split_ifs
  · intro h; cases h
  · exact rnd_ne_nan _

/-! ## Monotonicity -/

theorem add_le (hp : 1 ≤ φ.p) {a a' b b' : Ieee φ} (h : Le a a') (h' : Le b b') (hn : a + b ≠ .nan) (hn' : a' + b' ≠ .nan) :
    Le (a + b) (a' + b') := by
  by_cases t1 : a' = .inf false
  · subst t1; rw [top_add hn']; exact .top hn
  by_cases t2 : b' = .inf false
  · subst t2; rw [iadd_comm a'] at hn' ⊢; rw [top_add hn']; exact .top hn
  by_cases t3 : a = .inf true
  · subst t3; rw [bot_add hn]; exact .bot hn'
  by_cases t4 : b = .inf true
  · subst t4; rw [iadd_comm a] at hn ⊢; rw [bot_add hn]; exact .bot hn'
  have fin : ∀ {c c' : Ieee φ}, Le c c' → c' ≠ .inf false → c ≠ .inf true → (∃ x, c.toReal? = some x) ∧ ∃ x, c'.toReal? = some x := by
    intro c c' hc h1 h2
    constructor
    · rcases cases_real c with e | e | e | e
      · exact absurd e hc.left
      · exact absurd e h2
      · subst e; exact absurd hc.eq_top h1
      · exact e
    · rcases cases_real c' with e | e | e | e
      · exact absurd e hc.right
      · subst e; exact absurd hc.eq_bot h2
      · exact absurd e h1
      · exact e
  obtain ⟨⟨x, hx⟩, ⟨x', hx'⟩⟩ := fin h t1 t3
  obtain ⟨⟨y, hy⟩, ⟨y', hy'⟩⟩ := fin h' t2 t4
  refine ⟨_, _, add_E hx hy, add_E hx' hy', rr_mono hp (add_le_add ((Le.real hx hx').mp h) ((Le.real hy hy').mp h'))⟩

theorem Le.neg {a b : Ieee φ} (h : Le a b) : Le (-b) (-a) := by
  obtain ⟨x, y, h1, h2, h3⟩ := h
  have e : ∀ {c : Ieee φ} {z : EReal}, c.toEReal? = some z → (-c).toEReal? = some (-z) := by
    intro c z hc
    rcases c with _ | s | s | ⟨w, hw⟩ <;> simp only [toEReal?] at hc <;> cases hc
    · cases s <;> simp [neg_def, Ieee.neg, toEReal?]
    · simp [neg_def, Ieee.neg, toEReal?]
    · simp [neg_def, Ieee.neg, toEReal?]
  exact ⟨_, _, e h2, e h1, EReal.neg_le_neg_iff.mpr h3⟩

theorem zero_le_real {m : Ieee φ} {z : ℝ} (hm : m.toReal? = some z) : Le 0 m ↔ 0 ≤ z := Le.real rfl hm

/-- Multiplication by a factor that is not negative. -/
theorem mul_le (hp : 1 ≤ φ.p) {m a b : Ieee φ} (hm : Le 0 m) (h : Le a b) (hn : m * a ≠ .nan) (hn' : m * b ≠ .nan) :
    Le (m * a) (m * b) := by
  rcases cases_real m with rfl | rfl | rfl | ⟨z, hz⟩
  · exact absurd rfl hm.right
  · have := hm.eq_bot; cases this
  · -- infinite factor
    have key : ∀ {c : Ieee φ}, .inf false * c ≠ .nan → (.inf false * c = (.inf false : Ieee φ) ∧ Le 0 c) ∨
        (.inf false * c = (.inf true : Ieee φ) ∧ ∀ d : Ieee φ, Le 0 d → Le d c → False) := by
      intro c hc
      rcases c with _ | s | s | ⟨w, hw⟩
      · exact absurd rfl hc
      · cases s
        · exact .inl ⟨rfl, .top (by intro h; cases h)⟩
        · refine .inr ⟨rfl, fun d hd hd' => ?_⟩
          have := hd'.eq_bot; subst this
          have := hd.eq_bot; cases this
      · exact absurd rfl hc
      · by_cases hw0 : w < 0
        · refine .inr ⟨by rw [mul_def]; simp [Ieee.mul, hw0], fun d hd hd' => ?_⟩
          have : Le (0 : Ieee φ) (.num w hw) := hd.trans hd'
          have := (zero_le_real (m := .num w hw) rfl).mp this
          linarith
        · exact .inl ⟨by rw [mul_def]; simp [Ieee.mul, hw0], (zero_le_real (m := .num w hw) rfl).mpr (not_lt.mp hw0)⟩
    rcases key hn with ⟨e, h0⟩ | ⟨e, h0⟩
    · rcases key hn' with ⟨e', h0'⟩ | ⟨e', h0'⟩
      · rw [e, e']; exact .refl (by intro h; cases h)
      · exact (h0' _ h0 h).elim
    · rw [e]; exact .bot hn'
  · have hz0 := (zero_le_real hz).mp hm
    rcases hz0.eq_or_lt with rfl | hpos
    · -- zero factor
      have key : ∀ {c : Ieee φ}, m * c ≠ .nan → (m * c).toEReal? = some 0 := by
        intro c hc
        rcases cases_real c with rfl | rfl | rfl | ⟨w, hw⟩
        · simp at hc
        · rcases m with _ | s | s | ⟨m, h0⟩ <;> simp [toReal?] at hz
          · exact absurd rfl hc
          · exact absurd hz h0
        · rcases m with _ | s | s | ⟨m, h0⟩ <;> simp [toReal?] at hz
          · exact absurd rfl hc
          · exact absurd hz h0
        · rw [mul_E hz hw, zero_mul, rr_zero]
      exact ⟨0, 0, key hn, key hn', le_rfl⟩
    · have hm' : ∃ h, m = .num z h := by
        rcases m with _ | s | s | ⟨m, h0⟩ <;> simp [toReal?] at hz
        · exact absurd hz hpos.ne
        · subst hz; exact ⟨h0, rfl⟩
      obtain ⟨h0, rfl⟩ := hm'
      have hd : decide (z < 0) = false := decide_eq_false (by linarith)
      rcases cases_real a with rfl | rfl | rfl | ⟨x, hx⟩
      · exact absurd rfl h.left
      · have e : (.num z h0 * .inf true : Ieee φ) = .inf true := by rw [mul_def]; simp [Ieee.mul, hd]
        rw [e]; exact .bot hn'
      · have e := h.eq_top; subst e; exact .refl hn
      · rcases cases_real b with rfl | rfl | rfl | ⟨y, hy⟩
        · exact absurd rfl h.right
        · have := h.eq_bot; subst this; cases hx
        · have e : (.num z h0 * .inf false : Ieee φ) = .inf false := by rw [mul_def]; simp [Ieee.mul, hd]
          rw [e]; exact .top hn
        · exact ⟨_, _, mul_E hz hx, mul_E hz hy, rr_mono hp (mul_le_mul_of_nonneg_left ((Le.real hx hy).mp h) hz0)⟩

/-- Division by a positive number or `+∞`. -/
theorem div_le (hp : 1 ≤ φ.p) {m a b : Ieee φ} (hm : Le 0 m) (hm0 : ∀ s, m ≠ .zero s) (h : Le a b) (hn : a / m ≠ .nan)
    (hn' : b / m ≠ .nan) : Le (a / m) (b / m) := by
  rcases cases_real m with rfl | rfl | rfl | ⟨z, hz⟩
  · exact absurd rfl hm.right
  · have := hm.eq_bot; cases this
  · have key : ∀ {c : Ieee φ}, c / .inf false ≠ .nan → (c / .inf false : Ieee φ).toEReal? = some 0 := by
      intro c hc
      rcases c with _ | s | s | ⟨w, hw⟩ <;> first | exact absurd rfl hc | rfl
    exact ⟨0, 0, key hn, key hn', le_rfl⟩
  · have hz0 := (zero_le_real hz).mp hm
    have hm' : ∃ h, m = .num z h := by
      rcases m with _ | s | s | ⟨m, h0⟩ <;> simp [toReal?] at hz
      · exact absurd rfl (hm0 s)
      · subst hz; exact ⟨h0, rfl⟩
    obtain ⟨h0, rfl⟩ := hm'
    have hd : decide (z < 0) = false := decide_eq_false (by linarith)
    rcases cases_real a with rfl | rfl | rfl | ⟨x, hx⟩
    · exact absurd rfl h.left
    · have e : (.inf true / .num z h0 : Ieee φ) = .inf true := by rw [div_def]; simp [Ieee.div, hd]
      rw [e]; exact .bot hn'
    · have e := h.eq_top; subst e; exact .refl hn
    · rcases cases_real b with rfl | rfl | rfl | ⟨y, hy⟩
      · exact absurd rfl h.right
      · have := h.eq_bot; subst this; cases hx
      · have e : (.inf false / .num z h0 : Ieee φ) = .inf false := by rw [div_def]; simp [Ieee.div, hd]
        rw [e]; exact .top hn
      · exact ⟨_, _, div_E hx hz h0, div_E hy hz h0, rr_mono hp (div_le_div_of_nonneg_right ((Le.real hx hy).mp h) hz0)⟩

theorem abs_E {a : Ieee φ} {x : ℝ} (ha : a.toReal? = some x) : a.abs.toReal? = some |x| := by
  rcases a with _ | s | s | ⟨x', hx⟩ <;> simp [toReal?] at ha <;> subst ha <;> simp [Ieee.abs, toReal?]
theorem sq_ne_nan {a : Ieee φ} (h : a ≠ .nan) : a * a ≠ .nan := by
  intro e; have := sq_nonneg' h; rw [e] at this; exact this
/-- Squares are ordered like absolute values. -/
theorem sq_le (hp : 1 ≤ φ.p) {a b : Ieee φ} (h : Le a.abs b.abs) : Le (a * a) (b * b) := by
  have ha : a ≠ .nan := by rintro rfl; exact h.left rfl
  have hb : b ≠ .nan := by rintro rfl; exact h.right rfl
  have inf_sq : ∀ s, (.inf s * .inf s : Ieee φ) = .inf false := by intro s; rw [mul_def]; simp [Ieee.mul]
  rcases cases_real b with rfl | rfl | rfl | ⟨y, hy⟩
  · exact absurd rfl hb
  · rw [inf_sq]; exact .top (sq_ne_nan ha)
  · rw [inf_sq]; exact .top (sq_ne_nan ha)
  · have no : ∀ s, a ≠ .inf s := by
      rintro s rfl
      have : b.abs = .inf false := Le.eq_top h
      have h2 := abs_E hy
      rw [this] at h2; cases h2
    rcases cases_real a with rfl | rfl | rfl | ⟨x, hx⟩
    · exact absurd rfl ha
    · exact absurd rfl (no _)
    · exact absurd rfl (no _)
    · have := (Le.real (abs_E hx) (abs_E hy)).mp h
      refine ⟨_, _, mul_E hx hx, mul_E hy hy, rr_mono hp ?_⟩
      rw [← abs_mul_abs_self x, ← abs_mul_abs_self y]
      exact mul_self_le_mul_self (abs_nonneg _) this
theorem sqrt_le (hp : 1 ≤ φ.p) {a b : Ieee φ} (h0 : Le 0 a) (h : Le a b) : Le a.sqrt b.sqrt := by
  have hs : ∀ {c : Ieee φ}, Le 0 c → c.sqrt ≠ .nan := by
    intro c hc e
    have : NonNeg c := by
      rcases c with _ | s | s | ⟨x, hx⟩
      · exact hc.right rfl
      · cases s
        · rfl
        · have := hc.eq_bot; cases this
      · trivial
      · exact lt_of_le_of_ne ((zero_le_real (m := .num x hx) rfl).mp hc) (Ne.symm hx)
    have := sqrt_nonneg' this
    rw [e] at this; exact this
  rcases cases_real b with rfl | rfl | rfl | ⟨y, hy⟩
  · exact absurd rfl h.right
  · have := (h0.trans h).eq_bot; cases this
  · exact .top (hs h0)
  · rcases cases_real a with rfl | rfl | rfl | ⟨x, hx⟩
    · exact absurd rfl h.left
    · have := h0.eq_bot; cases this
    · have := h.eq_top; subst this; cases hy
    · have hx0 := (zero_le_real hx).mp h0
      have hxy := (Le.real hx hy).mp h
      exact ⟨_, _, sqrt_E hx hx0, sqrt_E hy (hx0.trans hxy), rr_mono hp (Real.sqrt_le_sqrt hxy)⟩

theorem nonneg_iff_Le (a : Ieee φ) : NonNeg a ↔ Le 0 a := by
  constructor
  · intro h
    rcases a with _ | s | s | ⟨x, hx⟩
    · exact h.elim
    · have : s = false := h
      subst this; exact .top (by intro h; cases h)
    · exact (zero_le_real (m := .zero s) rfl).mpr le_rfl
    · exact (zero_le_real (m := .num x hx) rfl).mpr (le_of_lt h)
  · intro hc
    rcases a with _ | s | s | ⟨x, hx⟩
    · exact hc.right rfl
    · cases s
      · rfl
      · have := hc.eq_bot; cases this
    · trivial
    · exact lt_of_le_of_ne ((zero_le_real (m := .num x hx) rfl).mp hc) (Ne.symm hx)

/-! ## Weak form: not above -/
/-- Not above: at most, or not comparable. -/
def Wle (a b : Ieee φ) : Prop := a = .nan ∨ b = .nan ∨ Le a b

theorem Le.w {a b : Ieee φ} (h : Le a b) : Wle a b := .inr (.inr h)
theorem Wle.le {a b : Ieee φ} (h : Wle a b) (ha : a ≠ .nan) (hb : b ≠ .nan) : Le a b :=
  (h.resolve_left ha).resolve_left hb
theorem Wle.add (hp : 1 ≤ φ.p) {a a' b b' : Ieee φ} (h : Wle a a') (h' : Wle b b') : Wle (a + b) (a' + b') := by
  by_cases h1 : a + b = .nan
  · exact .inl h1
  by_cases h2 : a' + b' = .nan
  · exact .inr (.inl h2)
  refine (add_le hp (h.le ?_ ?_) (h'.le ?_ ?_) h1 h2).w <;> rintro rfl <;> simp_all
theorem Wle.neg {a b : Ieee φ} (h : Wle a b) : Wle (-b) (-a) := by
  rcases h with rfl | rfl | h
  · exact .inr (.inl rfl)
  · exact .inl rfl
  · exact h.neg.w
theorem Wle.mul (hp : 1 ≤ φ.p) {m a b : Ieee φ} (hm : Le 0 m) (h : Wle a b) : Wle (m * a) (m * b) := by
  by_cases h1 : m * a = .nan
  · exact .inl h1
  by_cases h2 : m * b = .nan
  · exact .inr (.inl h2)
  refine (mul_le hp hm (h.le ?_ ?_) h1 h2).w <;> rintro rfl <;> simp_all
theorem Wle.div (hp : 1 ≤ φ.p) {m a b : Ieee φ} (hm : Le 0 m) (hm0 : ∀ s, m ≠ .zero s) (h : Wle a b) : Wle (a / m) (b / m) := by
  by_cases h1 : a / m = .nan
  · exact .inl h1
  by_cases h2 : b / m = .nan
  · exact .inr (.inl h2)
  refine (div_le hp hm hm0 (h.le ?_ ?_) h1 h2).w <;> rintro rfl <;> simp_all
theorem Wle.foldl (hp : 1 ≤ φ.p) {l k : List (Ieee φ)} (h : List.Forall₂ Wle l k) : ∀ {a b : Ieee φ}, Wle a b →
    Wle (l.foldl (fun x y => x + y) a) (k.foldl (fun x y => x + y) b) := by
  induction h with
  | nil => exact fun h => h
  | cons h _ ih => exact fun h' => ih (h'.add hp h)

end Ieee
open Ieee

theorem sum_wle (hp : 1 ≤ φ.p) [NeZero N] (v w : Vec (Ieee φ) N) (h : ∀ i (hi : i < N), Wle v[i] w[i]) : Wle v.sum w.sum := by
  obtain ⟨n, rfl⟩ : ∃ n, N = n + 1 := ⟨N - 1, by have := NeZero.pos N; omega⟩
  have e : ∀ u : Vec (Ieee φ) (n + 1), u.sum = (List.ofFn fun i : Fin n => u[i.1 + 1]).foldl (fun x y => x + y) u[0] := fun u => by
    have := Vec.sum_ok u
    rw [Vec.sumR, Vec.foldFirstR_succ] at this
    exact (Except.ok.inj this).symm
  rw [e, e]
  refine Wle.foldl hp ?_ (h 0 (by omega))
  rw [List.forall₂_iff_get]
  refine ⟨by simp, fun i h1 h2 => ?_⟩
  simpa using h (i + 1) (by simpa using h1)

end Vecmat
