import Verif.Props.F64LookAt
import Verif.Props.F64Angle
import Verif.Props.F64Det
import Verif.Lemmas.F64Moebius2
import Verif.Model.Distr
import Verif.Lemmas.Distr
import Mathlib.Analysis.Complex.ExponentialBounds
/-!
# C111: the samplers in floating point
`ln` and `cos` come from the mathematical library of the platform; their accuracy is a hypothesis (`NormalLib`), met for instance by a
correctly rounded library. The external uniform source is any state machine that keeps its promise (`UniformOk`).
-/
namespace Vecmat
open Spec Ieee
set_option exponentiation.threshold 3000

namespace Spec
/-- A mathematical library: `sqrt` is that of IEEE 754; `ln` of a number in `(0, 1]` has a relative error of at most `η`; `cos` of a finite
number has an absolute error of at most `η`. -/
structure NormalLib (φ : Fmt) [FloatOps (Ieee φ)] (η : ℝ) : Prop where
  sqrt : ∀ a : Ieee φ, FloatOps.sqrt a = Ieee.sqrt a
  ln : ∀ (a : Ieee φ) (x : ℝ), Datum a → a.toReal? = some x → 0 < x → x ≤ 1 →
    ∃ y, (FloatOps.ln a : Ieee φ).toReal? = some y ∧ |y - Real.log x| ≤ η * |Real.log x|
  cos : ∀ (a : Ieee φ) (t : ℝ), a.toReal? = some t → ∃ c, (FloatOps.cos a : Ieee φ).toReal? = some c ∧ |c - Real.cos t| ≤ η
/-- `rand`'s `Uniform::new(0, 1)` draws a number of the format in `[0, 1)` and `Uniform::new(0, π)` a finite one. -/
structure UniformOk {σ : Type} {φ : Fmt} [FloatConst (Ieee φ)] (uniform : Ieee φ → Ieee φ → Eff σ (Ieee φ)) : Prop where
  unit : ∀ s s' u, (uniform 0 1).exec s = (.ok u, s') → Datum u ∧ ∃ x, u.toReal? = some x ∧ 0 ≤ x ∧ x < 1
  angle : ∀ s s' u, (uniform 0 FloatConst.pi).exec s = (.ok u, s') → ∃ t, u.toReal? = some t
end Spec

namespace Sampler
variable {φ : Fmt} {x : ℝ}
theorem rep_gap (hφ : WF φ) (hx : Representable φ x) (h1 : x < 1) : (1:ℝ) / 2 ^ φ.p ≤ 1 - x := by
  obtain ⟨m, e, rfl, hm, -, -⟩ := hx
  by_contra hc
  push Not at hc
  have hp := hφ.1
  have hx0 : (1:ℝ) / 2 < m * 2 ^ e := by
    have : (1:ℝ) / 2 ^ φ.p ≤ 1 / 2 ^ 2 := by gcongr; norm_num
    have : (1:ℝ) / 2 ^ 2 = 1 / 4 := by norm_num
    linarith
  have he : 0 ≤ e + φ.p := by
    by_contra hn
    have h2 : (2:ℝ) ^ e ≤ 2 ^ (-(φ.p : ℤ) - 1) := zpow_le_zpow_right₀ (by norm_num) (by omega)
    have hm' : (m : ℝ) ≤ 2 ^ φ.p := by exact_mod_cast (le_abs_self m).trans hm.le
    have : (m : ℝ) * 2 ^ e ≤ 2 ^ φ.p * 2 ^ (-(φ.p : ℤ) - 1) := by gcongr
    rw [← zpow_natCast, ← zpow_add₀ (by norm_num), show (φ.p : ℤ) + (-(φ.p : ℤ) - 1) = -1 by ring] at this
    norm_num at this hx0; linarith
  obtain ⟨k, hk⟩ := Int.eq_ofNat_of_zero_le he
  have e1 : (m : ℝ) * 2 ^ e = (m * 2 ^ k : ℤ) / 2 ^ φ.p := by
    rw [show e = k - φ.p by omega, zpow_sub₀ (by norm_num)]; push_cast; simp; ring
  rw [e1] at h1 hc
  have hP : (0:ℝ) < 2 ^ φ.p := by positivity
  have h3 : ((m * 2 ^ k : ℤ) : ℝ) < ((2 ^ φ.p : ℤ) : ℝ) := by
    rw [div_lt_one hP] at h1; push_cast at h1 ⊢; exact h1
  have h4 : m * 2 ^ k + 1 ≤ (2:ℤ) ^ φ.p := by exact_mod_cast h3
  have h5 : ((m * 2 ^ k : ℤ) : ℝ) + 1 ≤ 2 ^ φ.p := by exact_mod_cast h4
  have : ((m * 2 ^ k : ℤ) : ℝ) / 2 ^ φ.p + 1 / 2 ^ φ.p ≤ 1 := by
    rw [← add_div, div_le_one hP]; exact h5
  linarith

/-- The number whose logarithm is taken. -/
theorem one_sub_val (hφ : WF φ) {u : Ieee φ} (hd : Datum u) (hu : u.toReal? = some x) (h0 : 0 ≤ x) (h1 : x < 1) :
    ∃ d, Datum (1 - u : Ieee φ) ∧ (1 - u : Ieee φ).toReal? = some d ∧ d = φ.near (1 - x) ∧ 1 / 2 ^ φ.p ≤ d ∧ d ≤ 1 := by
  have hr : Representable φ x := by
    cases u <;> simp_all [toReal?, Datum]
    · rw [← hu]; exact rep_zero hφ
  have g := rep_gap hφ hr h1
  obtain ⟨hp, he, hE⟩ := id hφ
  have l1 : 1 / 2 ^ φ.p ≤ φ.near (1 - x) := by
    have := Fmt.near_mono (φ := φ) (by omega) g
    rwa [show (1:ℝ) / 2 ^ φ.p = 2 ^ (-(φ.p : ℤ)) by rw [zpow_neg]; simp, Fmt.near_rep (rep_pow hφ (by omega) (by omega)),
      show (2:ℝ) ^ (-(φ.p : ℤ)) = 1 / 2 ^ φ.p by rw [zpow_neg]; simp] at this
  have l2 : φ.near (1 - x) ≤ 1 := by
    have := Fmt.near_mono (φ := φ) (by omega) (show 1 - x ≤ 1 by linarith)
    rwa [Fmt.near_rep (rep_one hφ)] at this
  refine ⟨_, datum_add hφ _ _, val_sub_iff.2 ⟨1, x, rfl, hu, rfl, ?_⟩, rfl, l1, l2⟩
  rw [abs_of_nonneg (le_trans (by positivity) l1)]
  exact l2.trans_lt (by unfold huge; exact one_lt_zpow₀ (by norm_num) (by omega))

/-- `√((1+a)L)`, `|a| ≤ e`. -/
theorem sqrt_near {L w e : ℝ} (hL : 0 ≤ L) (he : 0 ≤ e) (he1 : e ≤ 1) (h : |w - L| ≤ e * L) : 0 ≤ w ∧ |Real.sqrt w - Real.sqrt L| ≤ e * Real.sqrt L := by
  obtain ⟨h1, h2⟩ := abs_le.1 h
  have w0 : 0 ≤ w := by nlinarith
  refine ⟨w0, ?_⟩
  rcases hL.eq_or_lt with rfl | hL
  · have : w = 0 := by nlinarith
    simp [this]
  have s0 := Real.sqrt_pos.2 hL
  have e1 : (Real.sqrt w - Real.sqrt L) * (Real.sqrt w + Real.sqrt L) = w - L := by
    have := Real.mul_self_sqrt w0; have := Real.mul_self_sqrt hL.le; nlinarith
  have e2 : |Real.sqrt w - Real.sqrt L| * (Real.sqrt w + Real.sqrt L) ≤ e * Real.sqrt L * Real.sqrt L := by
    rw [← abs_of_nonneg (show 0 ≤ Real.sqrt w + Real.sqrt L by positivity), ← abs_mul, e1, mul_assoc, Real.mul_self_sqrt hL.le]
    exact h
  have e3 : |Real.sqrt w - Real.sqrt L| * Real.sqrt L ≤ |Real.sqrt w - Real.sqrt L| * (Real.sqrt w + Real.sqrt L) := by
    gcongr; linarith [Real.sqrt_nonneg w]
  exact le_of_mul_le_mul_right (e3.trans e2) s0

theorem total_err {η u : ℝ} (η0 : 0 ≤ η) (η1 : η ≤ 1 / 2 ^ 10) (u0 : 0 ≤ u) (u1 : u ≤ 1 / 2 ^ 8) :
    (1 + η) ^ 2 * (1 + u) ^ 3 - 1 ≤ 3 * η + 4 * u := by
  have h1 : (1 + η) ^ 2 ≤ 1 + 2.01 * η := by norm_num at η1 ⊢; nlinarith
  have h2 : (1 + u) ^ 3 ≤ 1 + 3.02 * u := by
    have : u * u ≤ 1 / 2 ^ 8 * u := by gcongr
    have : u * u * u ≤ 1 / 2 ^ 8 * u * (1 / 2 ^ 8) := by gcongr
    norm_num at *
    nlinarith
  have h3 : (1 + η) ^ 2 * (1 + u) ^ 3 ≤ (1 + 2.01 * η) * (1 + 3.02 * u) := by gcongr
  have h4 : η * u ≤ η * (1 / 2 ^ 8) := by gcongr
  norm_num at *
  nlinarith

set_option maxHeartbeats 1000000 in
theorem normal_val [FloatOps (Ieee φ)] {η : ℝ} (hl : NormalLib φ η) (hφ : WF φ) (hp : 8 ≤ φ.p) (hp1 : (φ.p : ℤ) ≤ -φ.emin)
    (hp2 : (φ.p : ℤ) ≤ φ.emax) (η0 : 0 ≤ η) (η1 : η ≤ 1 / 2 ^ 10) {a b : Ieee φ} {d t : ℝ} (hd : Datum a) (ha : a.toReal? = some d)
    (d0 : 1 / 2 ^ φ.p ≤ d) (d1 : d ≤ 1) (hb : b.toReal? = some t) :
    ∃ r, (FloatOps.sqrt (FloatOps.ln a * -two) * FloatOps.cos b : Ieee φ).toReal? = some r ∧
      |r - Real.sqrt (-2 * Real.log d) * Real.cos t| ≤ (3 * η + 4 * roundoff φ) * Real.sqrt (-2 * Real.log d) + tiny φ := by
  have P0 : (0:ℝ) < 2 ^ φ.p := by positivity
  have dp : 0 < d := lt_of_lt_of_le (by positivity) d0
  obtain ⟨y, vy, ey⟩ := hl.ln a d hd ha dp d1
  obtain ⟨c, vc, ec⟩ := hl.cos b t hb
  have u0 := u_pos (φ := φ)
  have u1 : roundoff φ ≤ 1 / 2 ^ 8 := by unfold roundoff; gcongr; norm_num
  have hL0 : Real.log d ≤ 0 := Real.log_nonpos dp.le d1
  set L := -2 * Real.log d with hLd
  have L0 : 0 ≤ L := by rw [hLd]; linarith
  rw [abs_of_nonpos hL0] at ey
  have ey' : |y * -2 - L| ≤ η * L := by
    rw [show y * -2 - L = -2 * (y - Real.log d) by rw [hLd]; ring, abs_mul]
    norm_num; rw [hLd]; linarith
  have LP : L ≤ 2 * φ.p := by
    have h1 : Real.log (1 / 2 ^ φ.p) ≤ Real.log d := Real.log_le_log (by positivity) d0
    rw [one_div, Real.log_inv, Real.log_pow] at h1
    have := Real.log_two_lt_d9
    have : (φ.p : ℝ) * Real.log 2 ≤ φ.p * 1 := by gcongr; linarith
    rw [hLd]; linarith
  have hH : (4:ℝ) * φ.p < huge φ := by
    have h1 : ∀ k : ℕ, 2 * (k + 8) < 2 ^ (k + 8) := fun k => by
      induction k with
      | zero => norm_num
      | succ k ih => rw [show k + 1 + 8 = (k + 8) + 1 by ring, pow_succ]; omega
    have h2 : 2 * φ.p < 2 ^ φ.p := by simpa [show φ.p - 8 + 8 = φ.p by omega] using h1 (φ.p - 8)
    have h3 : (2:ℝ) * φ.p < 2 ^ φ.p := by exact_mod_cast h2
    calc (4:ℝ) * φ.p < 2 ^ φ.p * 2 := by linarith
      _ = 2 ^ ((φ.p : ℤ) + 1) := by rw [zpow_add₀ (by norm_num)]; simp
      _ ≤ huge φ := by unfold huge; exact zpow_le_zpow_right₀ (by norm_num) (by omega)
  have p8 : (8:ℝ) ≤ φ.p := by exact_mod_cast hp
  have hr : Representable φ d := by
    cases a <;> simp_all [toReal?, Datum]
  have ew : |φ.near (y * -2) - y * -2| ≤ roundoff φ * |y * -2| := by
    rcases d1.eq_or_lt with h | h
    · rw [h, Real.log_one] at ey
      have : y = 0 := by simpa using ey
      simp [this, Fmt.near_zero]
    · apply near_rel
      have g := rep_gap hφ hr h
      have h1 : Real.log d ≤ d - 1 := Real.log_le_sub_one_of_pos dp
      have hL1 : 2 * (1 / 2 ^ φ.p) ≤ L := by rw [hLd]; linarith
      have h2 : (1 / 2 ^ φ.p : ℝ) ≤ y * -2 := by
        have := (abs_le.1 ey').1
        nlinarith
      refine le_trans ?_ (h2.trans (le_abs_self _))
      rw [show (1:ℝ) / 2 ^ φ.p = 2 ^ (-(φ.p : ℤ)) by rw [zpow_neg]; simp]
      exact zpow_le_zpow_right₀ (by norm_num) (by omega)
  have ew' : |φ.near (y * -2) - L| ≤ (η + roundoff φ + η * roundoff φ) * L := by
    have h1 : |y * -2| ≤ (1 + η) * L := by
      calc |y * -2| = |(y * -2 - L) + L| := by ring_nf
        _ ≤ |y * -2 - L| + |L| := abs_add_le _ _
        _ ≤ η * L + L := by rw [abs_of_nonneg L0]; linarith
        _ = _ := by ring
    calc |φ.near (y * -2) - L| = |(φ.near (y * -2) - y * -2) + (y * -2 - L)| := by ring_nf
      _ ≤ |φ.near (y * -2) - y * -2| + |y * -2 - L| := abs_add_le _ _
      _ ≤ roundoff φ * ((1 + η) * L) + η * L := by gcongr; exact ew.trans (by gcongr)
      _ = _ := by ring
  set w := φ.near (y * -2) with hw
  set e := η + roundoff φ + η * roundoff φ with he
  have e0 : 0 ≤ e := by positivity
  have e1 : e ≤ 1 / 2 ^ 7 := by rw [he]; norm_num at u1 η1 ⊢; nlinarith
  obtain ⟨w0, es⟩ := sqrt_near L0 e0 (by norm_num at e1 ⊢; linarith) ew'
  have hwb : w ≤ 4 * φ.p := by
    have := (abs_le.1 ew').2
    norm_num at e1
    nlinarith
  have vw : (FloatOps.ln a * -two : Ieee φ).toReal? = some w :=
    val_mul_iff.2 ⟨y, -2, vy, rfl, rfl, by rw [← hw, abs_of_nonneg w0]; linarith⟩
  have dw := datum_mul hφ (FloatOps.ln a : Ieee φ) (-two)
  have rw' : Representable φ w := by
    revert vw dw
    cases (FloatOps.ln a * -two : Ieee φ) <;> simp only [toReal?, Datum, reduceCtorEq, Option.some.injEq, false_implies]
    · intro h _; rw [← h]; exact rep_zero hφ
    · intro h h'; rw [← h]; exact h'
  have vs : (FloatOps.sqrt (FloatOps.ln a * -two) : Ieee φ).toReal? = some (φ.near (Real.sqrt w)) := by
    rw [hl.sqrt]; exact val_sqrt_iff.2 ⟨w, vw, w0, rfl, near_sqrt_lt hφ w0 rw'⟩
  have er := near_sqrt_rel hφ (by omega) w0 rw'
  set s := φ.near (Real.sqrt w) with hs
  set ρ := Real.sqrt L with hρ
  have ρ0 : 0 ≤ ρ := Real.sqrt_nonneg _
  have ρp : ρ ≤ φ.p := by
    rw [hρ]; apply Real.sqrt_le_iff.2 ⟨by positivity, by nlinarith⟩
  have swb : Real.sqrt w ≤ (1 + e) * ρ := by have := (abs_le.1 es).2; linarith
  have es2 : |s - ρ| ≤ (e + roundoff φ + roundoff φ * e) * ρ := by
    calc |s - ρ| = |(s - Real.sqrt w) + (Real.sqrt w - ρ)| := by ring_nf
      _ ≤ |s - Real.sqrt w| + |Real.sqrt w - ρ| := abs_add_le _ _
      _ ≤ roundoff φ * ((1 + e) * ρ) + e * ρ := by gcongr; exact er.trans (by gcongr)
      _ = _ := by ring
  have es3 : |s * c - ρ * Real.cos t| ≤ (e + roundoff φ + roundoff φ * e + η + η * (e + roundoff φ + roundoff φ * e)) * ρ := by
    have c1 : |Real.cos t| ≤ 1 := Real.abs_cos_le_one t
    have cb : |c| ≤ 1 + η := by
      calc |c| = |(c - Real.cos t) + Real.cos t| := by ring_nf
        _ ≤ |c - Real.cos t| + |Real.cos t| := abs_add_le _ _
        _ ≤ _ := by linarith
    calc |s * c - ρ * Real.cos t| = |(s - ρ) * c + ρ * (c - Real.cos t)| := by ring_nf
      _ ≤ |s - ρ| * |c| + ρ * |c - Real.cos t| := by
        refine (abs_add_le _ _).trans ?_; rw [abs_mul, abs_mul, abs_of_nonneg ρ0]
      _ ≤ (e + roundoff φ + roundoff φ * e) * ρ * (1 + η) + ρ * η := by gcongr
      _ = _ := by ring
  set f := e + roundoff φ + roundoff φ * e + η + η * (e + roundoff φ + roundoff φ * e) with hf
  have f0 : 0 ≤ f := by positivity
  have scb : |s * c| ≤ (1 + f) * ρ := by
    calc |s * c| = |(s * c - ρ * Real.cos t) + ρ * Real.cos t| := by ring_nf
      _ ≤ |s * c - ρ * Real.cos t| + |ρ * Real.cos t| := abs_add_le _ _
      _ ≤ f * ρ + ρ * 1 := by
        rw [abs_mul, abs_of_nonneg ρ0]; gcongr; exact Real.abs_cos_le_one t
      _ = _ := by ring
  have er2 := near_err_add (φ := φ) (s * c)
  have fin : |φ.near (s * c) - ρ * Real.cos t| ≤ (f + roundoff φ + roundoff φ * f) * ρ + tiny φ := by
    calc |φ.near (s * c) - ρ * Real.cos t| = |(φ.near (s * c) - s * c) + (s * c - ρ * Real.cos t)| := by ring_nf
      _ ≤ |φ.near (s * c) - s * c| + |s * c - ρ * Real.cos t| := abs_add_le _ _
      _ ≤ (roundoff φ * ((1 + f) * ρ) + tiny φ) + f * ρ := by gcongr; exact er2.trans (by gcongr)
      _ = _ := by ring
  have fb : f + roundoff φ + roundoff φ * f ≤ 3 * η + 4 * roundoff φ := by
    have := total_err η0 η1 u0.le u1
    rw [hf, he]
    linarith
  have tb : tiny φ ≤ 1 := by
    unfold tiny; exact zpow_le_one_of_nonpos₀ (by norm_num) (by obtain ⟨h1, h2, h3⟩ := hφ; omega)
  refine ⟨_, val_mul_iff.2 ⟨s, c, vs, vc, rfl, ?_⟩, fin.trans (by gcongr)⟩
  have : |φ.near (s * c)| ≤ (3 * η + 4 * roundoff φ) * ρ + tiny φ + ρ := by
    calc |φ.near (s * c)| = |(φ.near (s * c) - ρ * Real.cos t) + ρ * Real.cos t| := by ring_nf
      _ ≤ |φ.near (s * c) - ρ * Real.cos t| + |ρ * Real.cos t| := abs_add_le _ _
      _ ≤ ((3 * η + 4 * roundoff φ) * ρ + tiny φ) + ρ * 1 := by
        rw [abs_mul, abs_of_nonneg ρ0]; gcongr
        · exact fin.trans (by gcongr)
        · exact Real.abs_cos_le_one t
      _ = _ := by ring
  refine this.trans_lt (lt_of_le_of_lt ?_ hH)
  norm_num at u1 η1
  nlinarith
end Sampler
open Sampler F64
variable {σ : Type} {φ : Fmt}

/-- `Normal` for `f32` and `f64`: a returned value is finite and, up to `(3η + 4u)` relative to the radius, it is `√(-2 ln d) cos t` for the
two numbers drawn, `x` from `[0, 1)` and `t` from `[0, π)`, `d` being `1 - x` rounded (exact when `x` is a multiple of the spacing below `1`). -/
theorem C111_normal [FloatOps (Ieee φ)] [FloatConst (Ieee φ)] {η : ℝ} (hl : NormalLib φ η) (hφ : WF φ) (hp : 8 ≤ φ.p) (hp1 : (φ.p : ℤ) ≤ -φ.emin)
    (hp2 : (φ.p : ℤ) ≤ φ.emax) (η0 : 0 ≤ η) (η1 : η ≤ 1 / 2 ^ 10) (uniform : Ieee φ → Ieee φ → Eff σ (Ieee φ)) (hu : UniformOk uniform)
    (s s' : σ) (z : Ieee φ) (h : (Distr.normal uniform).exec s = (.ok z, s')) :
    ∃ a s1 b x t d r, (uniform 0 1).exec s = (.ok a, s1) ∧ (uniform 0 FloatConst.pi).exec s1 = (.ok b, s') ∧
      a.toReal? = some x ∧ b.toReal? = some t ∧ z.toReal? = some r ∧ 1 / 2 ^ φ.p ≤ d ∧ d ≤ 1 ∧ d = φ.near (1 - x) ∧
      ((∃ k : ℤ, x = k / 2 ^ φ.p) → d = 1 - x) ∧
      |r - Real.sqrt (-2 * Real.log d) * Real.cos t| ≤ (3 * η + 4 * roundoff φ) * Real.sqrt (-2 * Real.log d) + tiny φ := by
  unfold Distr.normal at h
  rw [exec_bind] at h
  rcases h1 : (uniform 0 1).exec s with ⟨_ | a, s1⟩
  · rw [h1] at h; simp at h
  rw [h1] at h
  simp only [exec_bind] at h
  rcases h2 : (uniform 0 FloatConst.pi).exec s1 with ⟨_ | b, s2⟩
  · rw [h2] at h; simp at h
  rw [h2] at h
  simp only [exec_pure, Prod.mk.injEq, Except.ok.injEq] at h
  obtain ⟨rfl, rfl⟩ := h
  obtain ⟨da, x, vx, x0, x1⟩ := hu.unit _ _ _ h1
  obtain ⟨t, vt⟩ := hu.angle _ _ _ h2
  obtain ⟨d, dd, vd, ed, d0, d1⟩ := one_sub_val hφ da vx x0 x1
  obtain ⟨r, vr, er⟩ := normal_val hl hφ hp hp1 hp2 η0 η1 dd vd d0 d1 vt
  refine ⟨a, s1, b, x, t, d, r, rfl, h2, vx, vt, vr, d0, d1, ed, ?_, er⟩
  rintro ⟨k, hk⟩
  rw [ed]
  have P : (0:ℝ) < 2 ^ φ.p := by positivity
  rcases x0.eq_or_lt with h0 | h0
  · rw [← h0, sub_zero]; exact Fmt.near_rep (rep_one hφ)
  apply Fmt.near_rep
  rw [hk] at x0 x1 h0 ⊢
  rw [div_lt_one P] at x1
  have k1 : (0:ℤ) < k := by
    have := (div_pos_iff_of_pos_right P).1 h0
    exact_mod_cast this
  have k2 : k < 2 ^ φ.p := by exact_mod_cast x1
  refine ⟨2 ^ φ.p - k, -(φ.p : ℤ), ?_, ?_, ?_, ?_⟩
  · rw [zpow_neg, zpow_natCast]; push_cast; field_simp
  · rw [abs_lt]; constructor <;> linarith
  · have := hφ.1; omega
  · have := hφ.2; omega

/-- The values of `Normal` for `f64` are bounded: at most `8.572`, since the smallest number under the logarithm is `2^-53`. -/
theorem C111_normal_f64 [FloatOps F] [FloatConst F] {η : ℝ} (hl : NormalLib Fmt.f64 η) (η0 : 0 ≤ η) (η1 : η ≤ 1 / 2 ^ 20)
    (uniform : F → F → Eff σ F) (hu : UniformOk uniform)
    (s s' : σ) (z : F) (h : (Distr.normal uniform).exec s = (.ok z, s')) : ∃ r, z.toReal? = some r ∧ |r| ≤ 8.572 := by
  obtain ⟨a, s1, b, x, t, d, r, -, -, -, -, vr, d0, d1, -, -, er⟩ := C111_normal hl C80_formats.2 (by decide) (by decide) (by decide) η0
    (η1.trans (by norm_num)) uniform hu s s' z h
  refine ⟨r, vr, ?_⟩
  have L0 : Real.sqrt (-2 * Real.log d) ≤ 8.57175 := by
    apply Real.sqrt_le_iff.2 ⟨by norm_num, ?_⟩
    have h1 : Real.log (1 / 2 ^ 53) ≤ Real.log d := Real.log_le_log (by positivity) d0
    rw [one_div, Real.log_inv, Real.log_pow] at h1
    have := Real.log_two_lt_d9
    push_cast at h1; norm_num; linarith
  have c1 := Real.abs_cos_le_one t
  have u1 : roundoff Fmt.f64 = 1 / 2 ^ 53 := rfl
  have t1 : tiny Fmt.f64 ≤ 1 / 2 ^ 20 := by
    show (2:ℝ) ^ (_ : ℤ) ≤ _
    rw [show (1:ℝ) / 2 ^ 20 = 2 ^ (-20 : ℤ) by norm_num]
    exact zpow_le_zpow_right₀ (by norm_num) (by decide)
  have s0 := Real.sqrt_nonneg (-2 * Real.log d)
  calc |r| = |(r - Real.sqrt (-2 * Real.log d) * Real.cos t) + Real.sqrt (-2 * Real.log d) * Real.cos t| := by ring_nf
    _ ≤ |r - Real.sqrt (-2 * Real.log d) * Real.cos t| + |Real.sqrt (-2 * Real.log d)| * |Real.cos t| := by
      rw [← abs_mul]; exact abs_add_le _ _
    _ ≤ ((3 * (1 / 2 ^ 20) + 4 * (1 / 2 ^ 53)) * 8.57175 + 1 / 2 ^ 20) + 8.57175 * 1 := by
      rw [abs_of_nonneg s0]
      rw [u1] at er
      gcongr
      refine er.trans ?_
      gcongr
    _ ≤ _ := by norm_num

/-- The same for `f32`: at most `5.77`. -/
theorem C111_normal_f32 [FloatOps (Ieee Fmt.f32)] [FloatConst (Ieee Fmt.f32)] {η : ℝ} (hl : NormalLib Fmt.f32 η) (η0 : 0 ≤ η) (η1 : η ≤ 1 / 2 ^ 15)
    (uniform : (Ieee Fmt.f32) → (Ieee Fmt.f32) → Eff σ (Ieee Fmt.f32)) (hu : UniformOk uniform)
    (s s' : σ) (z : (Ieee Fmt.f32)) (h : (Distr.normal uniform).exec s = (.ok z, s')) : ∃ r, z.toReal? = some r ∧ |r| ≤ 5.77 := by
  obtain ⟨a, s1, b, x, t, d, r, -, -, -, -, vr, d0, d1, -, -, er⟩ := C111_normal hl C80_formats.1 (by decide) (by decide) (by decide) η0
    (η1.trans (by norm_num)) uniform hu s s' z h
  refine ⟨r, vr, ?_⟩
  have L0 : Real.sqrt (-2 * Real.log d) ≤ 5.7682 := by
    apply Real.sqrt_le_iff.2 ⟨by norm_num, ?_⟩
    have h1 : Real.log (1 / 2 ^ 24) ≤ Real.log d := Real.log_le_log (by positivity) d0
    rw [one_div, Real.log_inv, Real.log_pow] at h1
    have := Real.log_two_lt_d9
    push_cast at h1; norm_num; linarith
  have c1 := Real.abs_cos_le_one t
  have u1 : roundoff Fmt.f32 = 1 / 2 ^ 24 := rfl
  have t1 : tiny Fmt.f32 ≤ 1 / 2 ^ 20 := by
    show (2:ℝ) ^ (_ : ℤ) ≤ _
    rw [show (1:ℝ) / 2 ^ 20 = 2 ^ (-20 : ℤ) by norm_num]
    exact zpow_le_zpow_right₀ (by norm_num) (by decide)
  have s0 := Real.sqrt_nonneg (-2 * Real.log d)
  calc |r| = |(r - Real.sqrt (-2 * Real.log d) * Real.cos t) + Real.sqrt (-2 * Real.log d) * Real.cos t| := by ring_nf
    _ ≤ |r - Real.sqrt (-2 * Real.log d) * Real.cos t| + |Real.sqrt (-2 * Real.log d)| * |Real.cos t| := by
      rw [← abs_mul]; exact abs_add_le _ _
    _ ≤ ((3 * (1 / 2 ^ 15) + 4 * (1 / 2 ^ 24)) * 5.7682 + 1 / 2 ^ 20) + 5.7682 * 1 := by
      rw [abs_of_nonneg s0]
      rw [u1] at er
      gcongr
      refine er.trans ?_
      gcongr
    _ ≤ _ := by norm_num

/-! ## Rejection samplers -/
namespace Spec
/-- Every scalar drawn is a finite number of the format, at most `c` in magnitude. -/
def DrawsWithin {φ : Fmt} (c : ℝ) (draw : Eff σ (Ieee φ)) : Prop :=
  ∀ s s' a, draw.exec s = (.ok a, s') → Datum a ∧ ∃ x, a.toReal? = some x ∧ |x| ≤ c
end Spec

namespace Sampler
theorem callN_mem {α : Type} {P : α → Prop} {inner : Eff σ α} (hP : ∀ s s' a, inner.exec s = (.ok a, s') → P a) {n : ℕ} {s s' : σ} {l : List α}
    (h : (callN inner n).exec s = (.ok l, s')) : ∀ a ∈ l, P a := by
  induction n generalizing s l with
  | zero =>
    simp only [callN, exec_pure, Prod.mk.injEq, Except.ok.injEq] at h
    obtain ⟨rfl, -⟩ := h
    simp
  | succ n ih =>
    rw [callN, exec_bind] at h
    rcases hf : inner.exec s with ⟨_ | x, s1⟩
    · rw [hf] at h; simp at h
    · rw [hf] at h
      simp only [exec_bind] at h
      rcases hc : (callN inner n).exec s1 with ⟨_ | k, s2⟩
      · rw [hc] at h; simp at h
      · rw [hc] at h; simp at h
        obtain ⟨rfl, rfl⟩ := h
        intro a ha
        rcases List.mem_cons.1 ha with rfl | ha
        · exact hP _ _ _ hf
        · exact ih hc a ha

theorem vec_of_mem {N : ℕ} {c : ℝ} {v : Vec (Ieee φ) N} (h : ∀ a ∈ v.toList, Datum a ∧ ∃ x, a.toReal? = some x ∧ |x| ≤ c) :
    ∃ X : Vec ℝ N, ValV v X ∧ ∀ i : Fin N, |X[i.1]| ≤ c := by
  have h' : ∀ i : Fin N, ∃ x, v[i.1].toReal? = some x ∧ |x| ≤ c := fun i => (h _ (by
    have e : v[i.1] = v.toList[i.1]'(by simp) := by rw [Vec.getElem_toList]
    rw [e]; exact List.getElem_mem _)).2
  choose x hx hc using h'
  exact ⟨⟨Vector.ofFn x⟩, fun i => by simpa using hx i, fun i => by simpa using hc i⟩

theorem length_le_of {N : ℕ} [NeZero N] {X : Vec ℝ N} (hN : N ≤ 2 ^ 20) (h : ∀ i : Fin N, |X[i.1]| ≤ 2 ^ 300) : X.length ≤ 2 ^ 400 := by
  rw [length_eq]
  apply Real.sqrt_le_iff.2 ⟨by positivity, ?_⟩
  calc ∑ i : Fin N, X[i.1] ^ 2 ≤ ∑ _i : Fin N, ((2:ℝ) ^ 300) ^ 2 := Finset.sum_le_sum fun i _ => sq_le_sq.2 (by rw [abs_of_pos (a := (2:ℝ) ^ 300) (by positivity)]; exact h i)
    _ = N * (2 ^ 300) ^ 2 := by simp
    _ ≤ 2 ^ 20 * (2 ^ 300) ^ 2 := by gcongr; exact_mod_cast hN
    _ ≤ _ := by norm_num

/-- The length of a very short vector is computed very short. -/
theorem len_tiny {N : ℕ} [NeZero N] (hN : N ≤ 2 ^ 20) {v : Vec F N} {X : Vec ℝ N} (hv : ValV v X) (hl : X.length < 1 / 2 ^ 400) :
    ∃ l, v.length.toReal? = some l ∧ l < 1 / 2 ^ 52 := by
  obtain ⟨d, hd, h1, h2⟩ := C84_length C80_formats.2 (by decide) (Nat.pos_of_ne_zero (NeZero.ne N)) v (fun i => X[i.1]) hv
  rw [Vec.length_ok] at hd; cases hd
  have hs : ∑ i : Fin N, X[i.1] ^ 2 = X.length ^ 2 := by
    rw [length_eq, Real.sq_sqrt (Finset.sum_nonneg fun i _ => sq_nonneg _)]
  rw [hs] at h1 h2
  have l0 := length_nonneg X
  have hq : X.length ^ 2 ≤ 1 / 2 ^ 800 := by
    calc X.length ^ 2 ≤ (1 / 2 ^ 400) ^ 2 := by gcongr
      _ = _ := by norm_num
  have hE : errBound Fmt.f64 N N (X.length ^ 2) ≤ 1 / 2 ^ 800 :=
    ((bnd_mono le_rfl le_rfl (by positivity) hq).trans (errNN hN le_rfl)).trans (by
      have hN' : (N : ℝ) ≤ 2 ^ 20 := by exact_mod_cast hN
      calc ((N:ℝ) + 1) / 2 ^ 53 * (1 / 2 ^ 800) ≤ (2 ^ 20 + 1) / 2 ^ 53 * (1 / 2 ^ 800) := by gcongr
        _ ≤ _ := by norm_num)
  obtain ⟨l, hlv⟩ := h2 (by
    rw [huge_eq]
    refine (add_le_add hq hE).trans_lt (by norm_num))
  refine ⟨l, hlv, ?_⟩
  have b := (h1 l hlv).2
  rw [u_eq] at b
  refine b.trans_lt ?_
  have : Real.sqrt (X.length ^ 2 + errBound Fmt.f64 N N (X.length ^ 2)) ≤ 1 / 2 ^ 300 := by
    apply Real.sqrt_le_iff.2 ⟨by positivity, ?_⟩
    refine (add_le_add hq hE).trans ?_
    norm_num
  calc _ ≤ (1 + 1 / 2 ^ 53 : ℝ) * (1 / 2 ^ 300) := by gcongr
    _ < _ := by norm_num
theorem rgt_val {a b : Ieee φ} {x y : ℝ} (ha : a.toReal? = some x) (hb : b.toReal? = some y) : rgt a b = true ↔ y < x := by
  unfold rgt
  show (match a.toEReal?, b.toEReal? with | some a, some b => some (compare a b) | _, _ => none) == some .gt ↔ _
  rw [toEReal_of_val ha, toEReal_of_val hb]
  simp [compare_gt_iff_gt]
theorem rle_val {a b : Ieee φ} {x y : ℝ} (ha : a.toReal? = some x) (hb : b.toReal? = some y) : rle a b = true ↔ x ≤ y := by
  unfold rle
  have e : RPartialOrd.pcmp a b = some (compare (x : EReal) y) := by
    show (match a.toEReal?, b.toEReal? with | some a, some b => some (compare a b) | _, _ => none) = _
    rw [toEReal_of_val ha, toEReal_of_val hb]
  rw [e]
  rcases lt_trichotomy x y with h | h | h
  · simp [compare_lt_iff_lt.2 (EReal.coe_lt_coe_iff.2 h), h.le]
  · simp [h]
  · simp [compare_gt_iff_gt.2 (EReal.coe_lt_coe_iff.2 h), h]
end Sampler

/-- `NonZero` for `f64` vectors: the result is a drawn block of `N` scalars, its length is above epsilon up to `(N+5)u/2`, and every block
drawn before it had a length of at most epsilon up to `(N+5)u/2`. -/
theorem C111_nonzero {N : ℕ} [NeZero N] [FloatOps F] (hs : ∀ a : F, FloatOps.sqrt a = Ieee.sqrt a) (he : (FloatOps.epsilon : F).toReal? = some (1 / 2 ^ 52))
    (hN : N ≤ 2 ^ 20) (draw : Eff σ F) (hd : DrawsWithin (2 ^ 300) draw) (fuel : ℕ) (s s' : σ) (v : Vec F N)
    (h : (Distr.nonZero draw fuel).exec s = (.ok v, s')) :
    ∃ (bad : List (Vec F N)) (X : Vec ℝ N), (callN draw ((bad.length + 1) * N)).exec s = (.ok (bad.flatMap Vec.toList ++ v.toList), s') ∧
      ValV v X ∧ 1 / 2 ^ 52 < (1 + (N + 5) / 2 ^ 54) * X.length ∧
      ∀ y ∈ bad, ∃ Y, ValV y Y ∧ (1 - (N + 5) / 2 ^ 54) * Y.length ≤ 1 / 2 ^ 52 := by
  unfold Distr.nonZero at h
  rw [Distr.loop_blocks (draw := Distr.vector draw) (comp := Vec.toList) (inner := draw) (Vec.toList_initM draw) (fun _ _ h => Vec.toList_inj h)
    (fun x => by simp)] at h
  obtain ⟨bad, -, h2, h3, h4⟩ := h
  have hm := callN_mem hd h2
  have hN' : (N : ℝ) ≤ 2 ^ 20 := by exact_mod_cast hN
  obtain ⟨X, vX, bX⟩ := vec_of_mem (v := v) fun a ha => hm a (by simp [ha])
  refine ⟨bad, X, h2, vX, ?_, fun y hy => ?_⟩
  · have h5 : rgt v.length (FloatOps.epsilon : F) = true := by simpa [Vec.length_ok] using h4
    rw [length_inst hs] at h5
    by_cases hX : 1 / 2 ^ 400 ≤ X.length
    · obtain ⟨l, vl, el⟩ := len_std hN vX hX (length_le_of hN bX)
      have := (rgt_val vl he).1 h5
      have := (abs_le.1 el).2
      linarith
    · push Not at hX
      obtain ⟨l, vl, el⟩ := len_tiny hN vX hX
      have := (rgt_val (a := stdLength v) vl he).1 h5
      linarith
  · obtain ⟨Y, vY, bY⟩ := vec_of_mem (v := y) fun a ha => hm a (by simp only [List.mem_append, List.mem_flatMap]; exact .inl ⟨y, hy, ha⟩)
    refine ⟨Y, vY, ?_⟩
    have h5 : rgt y.length (FloatOps.epsilon : F) = false := by simpa [Vec.length_ok] using h3 y hy
    rw [length_inst hs] at h5
    by_cases hY : 1 / 2 ^ 400 ≤ Y.length
    · obtain ⟨l, vl, el⟩ := len_std hN vY hY (length_le_of hN bY)
      have h6 : ¬ 1 / 2 ^ 52 < l := fun hc => by
        rw [(rgt_val vl he).2 hc] at h5; cases h5
      push Not at h6
      have := (abs_le.1 el).1
      linarith
    · push Not at hY
      have := length_nonneg Y
      have e0 : (0:ℝ) ≤ (N + 5) / 2 ^ 54 := by positivity
      have : (1:ℝ) / 2 ^ 400 ≤ 1 / 2 ^ 52 := by norm_num
      nlinarith

/-- Progress: a block whose length is above epsilon by more than the error bound is returned at once. -/
theorem C111_nonzero_accepts {N : ℕ} [NeZero N] [FloatOps F] (hs : ∀ a : F, FloatOps.sqrt a = Ieee.sqrt a) (he : (FloatOps.epsilon : F).toReal? = some (1 / 2 ^ 52))
    (hN : N ≤ 2 ^ 20) (draw : Eff σ F) (fuel : ℕ) (s s' : σ) (v : Vec F N) (X : Vec ℝ N) (hv : ValV v X)
    (h : (callN draw N).exec s = (.ok v.toList, s')) (hl : 1 / 2 ^ 52 < (1 - (N + 5) / 2 ^ 54) * X.length) (hr : X.length ≤ 2 ^ 400) :
    (Distr.nonZero draw (fuel + 1)).exec s = (.ok v, s') := by
  unfold Distr.nonZero
  rw [Distr.loop_blocks (draw := Distr.vector draw) (comp := Vec.toList) (inner := draw) (Vec.toList_initM draw) (fun _ _ h => Vec.toList_inj h)
    (fun x => by simp)]
  refine ⟨[], by simp, by simpa using h, by simp, ?_⟩
  have e0 : (0:ℝ) ≤ (N + 5) / 2 ^ 54 := by positivity
  have l0 := length_nonneg X
  have h1 : 1 / 2 ^ 400 ≤ X.length := by
    have : (1:ℝ) / 2 ^ 400 ≤ 1 / 2 ^ 52 := by norm_num
    nlinarith
  obtain ⟨l, vl, el⟩ := len_std hN hv h1 hr
  rw [Vec.length_ok, length_inst hs]
  simp only [Res.bind_ok, Res.pure_eq, Except.ok.injEq]
  rw [rgt_val vl he]
  have := (abs_le.1 el).1
  linarith

/-- `Unit` for `f64` vectors: the result is within `(N+9)u/2` of the normalised drawn vector, so its length is `1` up to that. -/
theorem C111_unit {N : ℕ} [NeZero N] [FloatOps F] (hs : ∀ a : F, FloatOps.sqrt a = Ieee.sqrt a) (he : (FloatOps.epsilon : F).toReal? = some (1 / 2 ^ 52))
    (hN : N ≤ 2 ^ 20) (draw : Eff σ F) (hd : DrawsWithin (2 ^ 300) draw) (fuel : ℕ) (s s' : σ) (w : Vec F N)
    (h : (Distr.unit draw fuel).exec s = (.ok w, s')) :
    ∃ (v : Vec F N) (X W : Vec ℝ N), (Distr.nonZero draw fuel).exec s = (.ok v, s') ∧ ValV v X ∧ ValV w W ∧ X.normalize.length = 1 ∧
      (W - X.normalize).length ≤ (N + 9) / 2 ^ 54 ∧ |W.length - 1| ≤ (N + 9) / 2 ^ 54 := by
  unfold Distr.unit at h
  rw [exec_bind] at h
  rcases hx : (Distr.nonZero (N := N) draw fuel).exec s with ⟨_ | v, s1⟩
  · rw [hx] at h; simp at h
  rw [hx] at h
  simp only [Vec.normalize_ok, liftRes_ok, exec_pure, Prod.mk.injEq, Except.ok.injEq] at h
  obtain ⟨rfl, rfl⟩ := h
  obtain ⟨bad, X, h1, vX, hl, -⟩ := C111_nonzero hs he hN draw hd fuel s s1 v hx
  have hN' : (N : ℝ) ≤ 2 ^ 20 := by exact_mod_cast hN
  have l0 := length_nonneg X
  have h2 : (1:ℝ) / 2 ^ 400 ≤ X.length := by
    have : (1 + (N + 5 : ℝ) / 2 ^ 54) * X.length ≤ (1 + (2 ^ 20 + 5 : ℝ) / 2 ^ 54) * X.length := by gcongr
    norm_num at this hl ⊢
    linarith
  obtain ⟨X', vX', bX⟩ := vec_of_mem (v := v) fun a ha => callN_mem hd h1 a (by simp [ha])
  have e : X' = X := by
    apply Vec.ext_getElem; intro i hi
    have := (vX' ⟨i, hi⟩).symm.trans (vX ⟨i, hi⟩)
    simpa using this
  rw [e] at bX
  obtain ⟨W, vW, eW⟩ := nrm_std hN vX h2 (length_le_of hN bX)
  have n1 := normalize_length (X := X) (lt_of_lt_of_le (by positivity) h2)
  refine ⟨v, X, W, rfl, vX, by rw [normalize_inst hs]; exact vW, n1, eW, ?_⟩
  refine le_trans ?_ eW
  rw [← n1, ← norm_toE, ← norm_toE, ← norm_toE, toE_sub]
  exact abs_norm_sub_norm_le _ _

/-- `Uniform` for `Rotation2` in `f64`: the rotation is, up to `1.5 η`, the one by the angle drawn. -/
theorem C111_rotation2 [FloatOps F] [FloatConst F] {η : ℝ} (hl : TrigWithin η) (uniform : F → F → Eff σ F)
    (hu : ∀ s s' a, (uniform 0 (two * FloatConst.pi)).exec s = (.ok a, s') → ∃ t, a.toReal? = some t) (s s' : σ) (r : Rotation2 F)
    (h : (Distr.rotation2Uniform uniform).exec s = (.ok r, s')) :
    ∃ (a : F) (t : ℝ) (R : Rotation2 ℝ), (uniform 0 (two * FloatConst.pi)).exec s = (.ok a, s') ∧ a.toReal? = some t ∧
      ValC r.intoComplex R.intoComplex ∧ (R.intoComplex - Cpx.new (Real.cos t) (Real.sin t)).norm ≤ 3 / 2 * η ∧ NearUnit2 (3 / 2 * η) R := by
  unfold Distr.rotation2Uniform at h
  rw [exec_bind] at h
  rcases h1 : (uniform 0 (two * FloatConst.pi)).exec s with ⟨_ | a, s1⟩
  · rw [h1] at h; simp at h
  rw [h1] at h
  simp only [exec_pure, Prod.mk.injEq, Except.ok.injEq] at h
  obtain ⟨rfl, rfl⟩ := h
  obtain ⟨t, vt⟩ := hu _ _ _ h1
  obtain ⟨R, r1, r2, r3⟩ := C98_rotation2_new hl a t vt
  exact ⟨a, t, R, rfl, vt, r1, r2, r3⟩

/-- `Uniform` for `Rotation3` in `f64`: the rotation is, up to `2.25 η + 7.125 u`, the one about the normalised drawn vector by the angle drawn;
the axis is drawn first. -/
theorem C111_rotation3 [FloatOps F] [FloatConst F] {η : ℝ} (hs : ∀ a : F, FloatOps.sqrt a = Ieee.sqrt a) (he : (FloatOps.epsilon : F).toReal? = some (1 / 2 ^ 52))
    (hl : TrigWithin η) (hη : η ≤ 1 / 2 ^ 12) (draw : Eff σ F) (hd : DrawsWithin (2 ^ 300) draw) (uniform : F → F → Eff σ F)
    (hu : ∀ s s' a, (uniform 0 (two * FloatConst.pi)).exec s = (.ok a, s') → Datum a ∧ ∃ t, a.toReal? = some t) (fuel : ℕ) (s s' : σ) (r : Rotation3 F)
    (h : (Distr.rotation3Uniform draw uniform fuel).exec s = (.ok r, s')) :
    ∃ (v : Vec F 3) (X : Vec ℝ 3) (s1 : σ) (a : F) (t : ℝ) (R : Rotation3 ℝ), (Distr.nonZero draw fuel).exec s = (.ok v, s1) ∧ ValV v X ∧
      (uniform 0 (two * FloatConst.pi)).exec s1 = (.ok a, s') ∧ a.toReal? = some t ∧ X.normalize.length = 1 ∧
      ValQ r.intoQuaternion R.intoQuaternion ∧
      (R.intoQuaternion - Quat.fromScalarAndVector3 (Real.cos (t / 2)) (X.normalize.mulS (Real.sin (t / 2)))).norm ≤ 9 / 4 * η + 57 / 8 / 2 ^ 53 ∧
      NearUnit3 (9 / 4 * η + 57 / 8 / 2 ^ 53) R := by
  unfold Distr.rotation3Uniform at h
  rw [exec_bind] at h
  rcases h1 : (Distr.unit (N := 3) draw fuel).exec s with ⟨_ | w, s1⟩
  · rw [h1] at h; simp at h
  rw [h1] at h
  simp only [exec_bind] at h
  rcases h2 : (uniform 0 (two * FloatConst.pi)).exec s1 with ⟨_ | a, s2⟩
  · rw [h2] at h; simp at h
  rw [h2] at h
  simp only [exec_pure, Prod.mk.injEq, Except.ok.injEq] at h
  obtain ⟨rfl, rfl⟩ := h
  obtain ⟨da, t, vt⟩ := hu _ _ _ h2
  obtain ⟨v, X, W, hv, vX, vW, n1, eW, -⟩ := C111_unit hs he (by norm_num) draw hd fuel s s1 w h1
  have e6 : ((3 : ℕ) + 9 : ℝ) / 2 ^ 54 = 6 / 2 ^ 53 := by norm_num
  rw [e6] at eW
  obtain ⟨R, r1, r2, r3⟩ := C98_rotation3_new hl hη w W X.normalize vW n1 eW (by norm_num) a t vt da
  have e7 : 9 / 4 * η + 9 / 8 / 2 ^ 53 + 6 / 2 ^ 53 = 9 / 4 * η + 57 / 8 / 2 ^ 53 := by ring
  rw [e7] at r2 r3
  exact ⟨v, X, s1, a, t, R, hv, vX, h2, vt, n1, r1, r2, r3⟩

/-! ## `Invertible` -/
namespace Sampler
theorem mat_of_mem {M N : ℕ} {c : ℝ} {A : Mat (Ieee φ) M N} (h : ∀ a ∈ rowMajor A, Datum a ∧ ∃ x, a.toReal? = some x ∧ |x| ≤ c) :
    ∃ a : Matrix (Fin M) (Fin N) ℝ, (∀ i j, Datum A[i.1][j.1] ∧ A[i.1][j.1].toReal? = some (a i j)) ∧ ∀ i j, |a i j| ≤ c := by
  have h' : ∀ (i : Fin M) (j : Fin N), Datum A[i.1][j.1] ∧ ∃ x, A[i.1][j.1].toReal? = some x ∧ |x| ≤ c := fun i j => h _ (by
    unfold rowMajor
    simp only [List.mem_flatMap, List.mem_map, List.mem_finRange, true_and]
    exact ⟨i, j, rfl⟩)
  choose h1 x hx hc using h'
  exact ⟨x, fun i j => ⟨h1 i j, hx i j⟩, hc⟩
theorem abs_val' {a : Ieee φ} {x : ℝ} (ha : a.toReal? = some x) : (Ieee.abs a).toReal? = some |x| := abs_val ha
/-- The test of the sampler. -/
theorem accept_val {N : ℕ} [FloatOps F] (hb : ∀ a : F, FloatOps.abs a = Ieee.abs a) (he : (FloatOps.epsilon : F).toReal? = some (1 / 2 ^ 52))
    (A : Mat F N N) (r : ℝ) (hr : A.det.toReal? = some r) (b : Bool)
    (h : (do let d ← A.detR; pure (!Distr.isEpsilon (ScalarNorm.normL1 d)) : Res Bool) = .ok b) : b = true ↔ 1 / 2 ^ 52 < |r| := by
  rw [show A.detR = .ok A.det from Res.ok_get _ _] at h
  simp only [Res.bind_ok, Res.pure_eq, Except.ok.injEq, Distr.isEpsilon] at h
  have h1 : (FloatOps.abs (ScalarNorm.normL1 A.det : F)).toReal? = some |r| := by
    rw [hb, ← abs_abs]; exact abs_val' (abs_val' hr)
  have := rle_val h1 he
  rw [← not_le, ← this, ← h]
  simp
end Sampler

/-- `Invertible` for `f64` matrices: the result is a drawn block of `N²` scalars, row by row, and the magnitude of its exact determinant is above
epsilon up to the error bound of `det`; every block drawn before had one of at most epsilon up to the same bound. -/
theorem C111_invertible {N : ℕ} [FloatOps F] (hb : ∀ a : F, FloatOps.abs a = Ieee.abs a) (he : (FloatOps.epsilon : F).toReal? = some (1 / 2 ^ 52))
    (c : ℝ) (hc : 1 ≤ c) (hN : N.factorial * c ^ N ≤ 2 ^ 1000) (draw : Eff σ F) (hd : DrawsWithin c draw) (fuel : ℕ) (s s' : σ) (A : Mat F N N)
    (h : (Distr.invertible ScalarNorm.normL1 draw fuel).exec s = (.ok A, s')) :
    ∃ (bad : List (Mat F N N)) (a : Matrix (Fin N) (Fin N) ℝ),
      (callN draw ((bad.length + 1) * (N * N))).exec s = (.ok (bad.flatMap rowMajor ++ rowMajor A), s') ∧
      (∀ i j : Fin N, A[i.1][j.1].toReal? = some (a i j)) ∧
      1 / 2 ^ 52 < |a.det| + (101 / 200 * (N * (N + 3)) / 2 ^ 53 * (a.map abs).permanent + N.factorial * c ^ N / 2 ^ 1073) ∧
      ∀ B ∈ bad, ∃ b : Matrix (Fin N) (Fin N) ℝ, (∀ i j : Fin N, B[i.1][j.1].toReal? = some (b i j)) ∧
        |b.det| ≤ 1 / 2 ^ 52 + (101 / 200 * (N * (N + 3)) / 2 ^ 53 * (b.map abs).permanent + N.factorial * c ^ N / 2 ^ 1073) := by
  unfold Distr.invertible at h
  rw [Distr.loop_blocks (draw := Distr.matrix draw) (comp := rowMajor) (inner := draw) (C01_mat_init_calls draw) (fun _ _ h => Mat.rowMajor_inj h)
    (fun x => by simp [Mat.length_rowMajor])] at h
  obtain ⟨bad, -, h2, h3, h4⟩ := h
  have hm := callN_mem hd h2
  obtain ⟨a, va, ba⟩ := mat_of_mem (A := A) fun x hx => hm x (by simp [hx])
  refine ⟨bad, a, h2, fun i j => (va i j).2, ?_, fun B hB => ?_⟩
  · obtain ⟨r, vr, er⟩ := C99_det A a (fun i j => (va i j).2) c hc ba hN
    have h5 := (accept_val hb he A r vr _ h4).1 rfl
    have : |r| ≤ |a.det| + |r - a.det| := by
      calc |r| = |a.det + (r - a.det)| := by ring_nf
        _ ≤ _ := abs_add_le _ _
    linarith
  · obtain ⟨b, vb, bb⟩ := mat_of_mem (A := B) fun x hx => hm x (by simp only [List.mem_append, List.mem_flatMap]; exact .inl ⟨B, hB, hx⟩)
    refine ⟨b, fun i j => (vb i j).2, ?_⟩
    obtain ⟨r, vr, er⟩ := C99_det B b (fun i j => (vb i j).2) c hc bb hN
    have h5 : ¬ 1 / 2 ^ 52 < |r| := fun hc => Bool.false_ne_true ((accept_val hb he B r vr _ (h3 B hB)).2 hc)
    push Not at h5
    have : |b.det| ≤ |r| + |r - b.det| := by
      calc |b.det| = |r - (r - b.det)| := by ring_nf
        _ ≤ _ := abs_sub _ _
    linarith

/-- Progress: a block whose exact determinant is above epsilon by more than the error bound is returned at once. -/
theorem C111_invertible_accepts {N : ℕ} [FloatOps F] (hb : ∀ a : F, FloatOps.abs a = Ieee.abs a) (he : (FloatOps.epsilon : F).toReal? = some (1 / 2 ^ 52))
    (c : ℝ) (hc : 1 ≤ c) (hN : N.factorial * c ^ N ≤ 2 ^ 1000) (draw : Eff σ F) (fuel : ℕ) (s s' : σ) (A : Mat F N N) (a : Matrix (Fin N) (Fin N) ℝ)
    (ha : ∀ i j : Fin N, A[i.1][j.1].toReal? = some (a i j)) (hac : ∀ i j, |a i j| ≤ c) (h : (callN draw (N * N)).exec s = (.ok (rowMajor A), s'))
    (hd : 1 / 2 ^ 52 + (101 / 200 * (N * (N + 3)) / 2 ^ 53 * (a.map abs).permanent + N.factorial * c ^ N / 2 ^ 1073) < |a.det|) :
    (Distr.invertible ScalarNorm.normL1 draw (fuel + 1)).exec s = (.ok A, s') := by
  unfold Distr.invertible
  rw [Distr.loop_blocks (draw := Distr.matrix draw) (comp := rowMajor) (inner := draw) (C01_mat_init_calls draw) (fun _ _ h => Mat.rowMajor_inj h)
    (fun x => by simp [Mat.length_rowMajor])]
  refine ⟨[], by simp, by simpa using h, by simp, ?_⟩
  obtain ⟨r, vr, er⟩ := C99_det A a ha c hc hac hN
  have hk : ∃ b, (do let d ← A.detR; pure (!Distr.isEpsilon (ScalarNorm.normL1 d)) : Res Bool) = .ok b := ⟨_, by
    rw [show A.detR = .ok A.det from Res.ok_get _ _]; rfl⟩
  obtain ⟨b, hk⟩ := hk
  rw [hk, (accept_val hb he A r vr b hk).2 ?_]
  have : |a.det| ≤ |r| + |r - a.det| := by
    calc |a.det| = |r - (r - a.det)| := by ring_nf
      _ ≤ _ := abs_sub _ _
  linarith

/-- For 2×2 matrices the documented guarantee holds exactly: an accepted matrix has an exact determinant different from `0`. -/
theorem C111_invertible_two [FloatOps F] (hb : ∀ a : F, FloatOps.abs a = Ieee.abs a) (he : (FloatOps.epsilon : F).toReal? = some (1 / 2 ^ 52))
    (draw : Eff σ F) (hd : DrawsWithin (2 ^ 300) draw) (fuel : ℕ) (s s' : σ) (A : Mat F 2 2)
    (h : (Distr.invertible ScalarNorm.normL1 draw fuel).exec s = (.ok A, s')) :
    ∃ a : Matrix (Fin 2) (Fin 2) ℝ, (∀ i j : Fin 2, A[i.1][j.1].toReal? = some (a i j)) ∧ a.det ≠ 0 := by
  unfold Distr.invertible at h
  rw [Distr.loop_blocks (draw := Distr.matrix draw) (comp := rowMajor) (inner := draw) (C01_mat_init_calls draw) (fun _ _ h => Mat.rowMajor_inj h)
    (fun x => by simp [Mat.length_rowMajor])] at h
  obtain ⟨bad, -, h2, h3, h4⟩ := h
  have hm := callN_mem hd h2
  obtain ⟨a, va, ba⟩ := mat_of_mem (A := A) fun x hx => hm x (by simp [hx])
  refine ⟨a, fun i j => (va i j).2, fun h0 => ?_⟩
  rw [Matrix.det_fin_two] at h0
  have hrep : ∀ i j, Representable Fmt.f64 (a i j) := fun i j => Datum.rep C80_formats.2 (va i j).1 (va i j).2
  have ids : ∀ i j : Fin 2, ((0 : F) + A[i.1][j.1] * (1 : F)).toReal? = some (a i j) := fun i j => by
    have hl : |a i j| < huge Fmt.f64 := rep_lt (hrep i j)
    refine val_add_iff.2 ⟨0, a i j, rfl, val_mul_iff.2 ⟨a i j, 1, (va i j).2, rfl, ?_, ?_⟩, ?_, ?_⟩ <;>
      simp only [mul_one, zero_add, Fmt.near_rep (hrep i j)] <;> exact hl
  set m := a 0 0 * a 1 1 with hmd
  have hM : |m| ≤ 2 ^ 1000 := by
    rw [hmd, abs_mul]
    calc |a 0 0| * |a 1 1| ≤ 2 ^ 300 * 2 ^ 300 := by gcongr <;> exact ba _ _
      _ ≤ _ := by norm_num
  have hfin : |Fmt.f64.near m| < huge Fmt.f64 := by
    have e := near_err_add (φ := Fmt.f64) m
    rw [u_eq, tiny_eq] at e
    rw [huge_eq]
    have : |Fmt.f64.near m| ≤ |Fmt.f64.near m - m| + |m| := by
      calc |Fmt.f64.near m| = |(Fmt.f64.near m - m) + m| := by ring_nf
        _ ≤ _ := abs_add_le _ _
    refine lt_of_le_of_lt (this.trans (add_le_add e hM)) ?_
    calc (1:ℝ) / 2 ^ 53 * |m| + 1 / 2 ^ 1075 + 2 ^ 1000 ≤ 1 / 2 ^ 53 * 2 ^ 1000 + 1 / 2 ^ 1075 + 2 ^ 1000 := by gcongr
      _ < _ := by norm_num
  have hrm : Representable Fmt.f64 (Fmt.f64.near m) := Fmt.rep_near C80_formats.2 hfin
  have v1 : ((0 : F) + A[0][0] * ((0 : F) + A[1][1] * (1 : F))).toReal? = some (Fmt.f64.near m) := by
    refine val_add_iff.2 ⟨0, Fmt.f64.near m, rfl, val_mul_iff.2 ⟨a 0 0, a 1 1, (va 0 0).2, ids 1 1, rfl, hfin⟩, ?_, ?_⟩ <;>
      simp only [zero_add, Fmt.near_rep hrm] <;> exact hfin
  have v2 : (A[0][1] * (-((0 : F) + A[1][0] * (1 : F)))).toReal? = some (-Fmt.f64.near m) := by
    have e : a 0 1 * -a 1 0 = -m := by rw [hmd]; linarith
    refine val_mul_iff.2 ⟨a 0 1, -a 1 0, (va 0 1).2, val_neg (ids 1 0), ?_, ?_⟩ <;> rw [e, Fmt.near_neg]
    rw [abs_neg]; exact hfin
  have v3 : A.det.toReal? = some 0 := by
    rw [det2]
    refine val_add_iff.2 ⟨_, _, v1, v2, ?_, ?_⟩ <;> simp only [add_neg_cancel, Fmt.near_zero]
    rw [abs_zero, huge_eq]; positivity
  have := (accept_val hb he A 0 v3 _ h4).1 rfl
  norm_num at this

namespace Sampler
theorem eps_val : (FloatOps.epsilon : F).toReal? = some (1 / 2 ^ 52) := by
  have e : (2:ℝ) ^ (1 - ((Fmt.f64.p : ℕ) : ℤ)) = 1 / 2 ^ 52 := by
    show (2:ℝ) ^ (1 - ((53 : ℕ) : ℤ)) = _
    rw [show (1 - ((53 : ℕ) : ℤ)) = -((52 : ℕ) : ℤ) by norm_num, zpow_neg, zpow_natCast, one_div]
  show (if h : (2 : ℝ) ^ (1 - (Fmt.f64.p : ℤ)) = 0 then (0 : F) else Ieee.num _ h).toReal? = _
  rw [dif_neg (by positivity), ← e]; rfl
theorem near_of {x : ℝ} (m e : ℤ) (h1 : (2:ℝ) ^ e ≤ |x|) (h2 : |x| < 2 ^ (e + 1)) (he : -1022 ≤ e) (h : |x / 2 ^ (e - 52) - m| < 1 / 2) :
    Fmt.f64.near x = m * 2 ^ (e - 52) := by
  unfold Fmt.near
  rw [Fmt.ulp_eq (φ := Fmt.f64) h1 h2 he, show e - (Fmt.f64.p : ℤ) + 1 = e - 52 by show e - 53 + 1 = _; ring, roundEven_eq h]
theorem det3 {T : Type} [Neg T] [Add T] [Mul T] [Zero T] [One T] (A : Mat T 3 3) :
    A.det = (0 : T) + A[0][0] * ((0 : T) + A[1][1] * ((0 : T) + A[2][2] * (1 : T)) + A[1][2] * -((0 : T) + A[2][1] * (1 : T))) +
        A[0][1] * -((0 : T) + A[1][0] * ((0 : T) + A[2][2] * (1 : T)) + A[1][2] * -((0 : T) + A[2][0] * (1 : T))) +
      A[0][2] * ((0 : T) + A[1][0] * ((0 : T) + A[2][1] * (1 : T)) + A[1][1] * -((0 : T) + A[2][0] * (1 : T))) := by
  rw [show A.det = _ from Res.get_eq (Mat.detR_eq A) _]
  simp [Mat.lap, List.range_succ, Mat.sgn, Mat.ent]
theorem mv {a b : F} {x y z : ℝ} (ha : a.toReal? = some x) (hb : b.toReal? = some y) (h : Fmt.f64.near (x * y) = z) (hz : |z| < 16) :
    (a * b).toReal? = some z :=
  val_mul_iff.2 ⟨x, y, ha, hb, h.symm, by rw [h, huge_eq]; refine hz.trans (by norm_num)⟩
theorem av {a b : F} {x y z : ℝ} (ha : a.toReal? = some x) (hb : b.toReal? = some y) (h : Fmt.f64.near (x + y) = z) (hz : |z| < 16) :
    (a + b).toReal? = some z :=
  val_add_iff.2 ⟨x, y, ha, hb, h.symm, by rw [h, huge_eq]; refine hz.trans (by norm_num)⟩
theorem z0 {a : F} {x : ℝ} (ha : a.toReal? = some x) (h : Fmt.f64.near x = x) (hx : |x| < 16) : ((0 : F) + a).toReal? = some x :=
  av rfl ha (by rw [zero_add]; exact h) hx
theorem id1 {a : F} {x : ℝ} (ha : a.toReal? = some x) (h : Fmt.f64.near x = x) (hx : |x| < 16) : ((0 : F) + a * (1 : F)).toReal? = some x :=
  z0 (mv ha (y := 1) rfl (by rw [mul_one]; exact h) hx) h hx
theorem zm {a b : F} {y : ℝ} (ha : a.toReal? = some 0) (hb : b.toReal? = some y) : (a * b).toReal? = some 0 :=
  mv ha hb (by rw [zero_mul]; exact Fmt.near_zero) (by norm_num)
theorem az {a b : F} {x : ℝ} (ha : a.toReal? = some x) (hb : b.toReal? = some 0) (h : Fmt.f64.near x = x) (hx : |x| < 16) : (a + b).toReal? = some x :=
  av ha hb (by rw [add_zero]; exact h) hx
/-- The singular matrix. -/
noncomputable def sing : Matrix (Fin 3) (Fin 3) ℝ := !![1, 0, -3; 1 + 6 / 2 ^ 28, 3 + 18 / 2 ^ 28, 0; 0, 1 + 1 / 2 ^ 28, 1 + 1 / 2 ^ 28]
theorem rep28 (m : ℤ) (hm : |m| < 2 ^ 53) : Representable Fmt.f64 (m / 2 ^ 28) :=
  ⟨m, -28, by rw [zpow_neg, div_eq_mul_inv]; norm_num, hm, by decide, by decide⟩
theorem sing_rep (i j : Fin 3) : Representable Fmt.f64 (sing i j) := by
  have k : ∀ (x : ℝ) (m : ℤ), x = m / 2 ^ 28 → |m| < 2 ^ 53 → Representable Fmt.f64 x := fun x m h hm => h ▸ rep28 m hm
  fin_cases i <;> fin_cases j <;> simp [sing]
  · exact k _ (2 ^ 28) (by norm_num) (by decide)
  · exact k _ 0 (by norm_num) (by decide)
  · exact k _ (-3 * 2 ^ 28) (by norm_num) (by decide)
  · exact k _ (2 ^ 28 + 6) (by norm_num) (by decide)
  · exact k _ (3 * 2 ^ 28 + 18) (by norm_num) (by decide)
  · exact k _ 0 (by norm_num) (by decide)
  · exact k _ 0 (by norm_num) (by decide)
  · exact k _ (2 ^ 28 + 1) (by norm_num) (by decide)
  · exact k _ (2 ^ 28 + 1) (by norm_num) (by decide)
theorem sing_det : sing.det = 0 := by
  rw [Matrix.det_fin_three]; simp [sing]; norm_num
theorem sing_computed (A : Mat F 3 3) (h : ∀ i j : Fin 3, A[i.1][j.1].toReal? = some (sing i j)) : A.det.toReal? = some (1 / 2 ^ 51) := by
  have n1 : Fmt.f64.near (1 + 1 / 2 ^ 28) = 1 + 1 / 2 ^ 28 := by
    have := Fmt.near_rep (rep28 (2 ^ 28 + 1) (by decide)); norm_num at this ⊢; exact this
  have nP : Fmt.f64.near ((3 + 18 / 2 ^ 28) * (1 + 1 / 2 ^ 28)) = 3 + 21 / 2 ^ 28 + 1 / 2 ^ 51 := by
    rw [near_of (3 * 2 ^ 51 + 21 * 2 ^ 23 + 1) 1] <;> norm_num [zpow_neg, abs_lt]
  have nP' : Fmt.f64.near (3 + 21 / 2 ^ 28 + 1 / 2 ^ 51) = 3 + 21 / 2 ^ 28 + 1 / 2 ^ 51 := by
    refine Fmt.near_rep ⟨3 * 2 ^ 51 + 21 * 2 ^ 23 + 1, -51, ?_, by decide, by decide, by decide⟩
    rw [zpow_neg]; norm_num
  have nQ : Fmt.f64.near ((1 + 6 / 2 ^ 28) * (1 + 1 / 2 ^ 28)) = 1 + 7 / 2 ^ 28 := by
    rw [near_of (2 ^ 52 + 7 * 2 ^ 24) 0] <;> norm_num [zpow_neg, abs_lt]
  have nQ' : Fmt.f64.near (1 + 7 / 2 ^ 28) = 1 + 7 / 2 ^ 28 := by
    have := Fmt.near_rep (rep28 (2 ^ 28 + 7) (by decide)); norm_num at this ⊢; exact this
  have nR : Fmt.f64.near (-3 * (1 + 7 / 2 ^ 28)) = -3 * (1 + 7 / 2 ^ 28) := by
    have := Fmt.near_rep (rep28 (-3 * 2 ^ 28 - 21) (by decide)); norm_num at this ⊢; exact this
  have nD : Fmt.f64.near (3 + 21 / 2 ^ 28 + 1 / 2 ^ 51 + -3 * (1 + 7 / 2 ^ 28)) = 1 / 2 ^ 51 := by
    rw [show (3 + 21 / 2 ^ 28 + 1 / 2 ^ 51 + -3 * (1 + 7 / 2 ^ 28) : ℝ) = 1 / 2 ^ 51 by norm_num]
    refine Fmt.near_rep ⟨1, -51, ?_, by decide, by decide, by decide⟩
    rw [zpow_neg]; norm_num
  have v00 : A[0][0].toReal? = some (1:ℝ) := by simpa [sing] using h 0 0
  have v01 : A[0][1].toReal? = some (0:ℝ) := by simpa [sing] using h 0 1
  have v02 : A[0][2].toReal? = some (-3:ℝ) := by simpa [sing] using h 0 2
  have v10 : A[1][0].toReal? = some (1 + 6 / 2 ^ 28:ℝ) := by simpa [sing] using h 1 0
  have v11 : A[1][1].toReal? = some (3 + 18 / 2 ^ 28:ℝ) := by simpa [sing] using h 1 1
  have v12 : A[1][2].toReal? = some (0:ℝ) := by simpa [sing] using h 1 2
  have v20 : A[2][0].toReal? = some (0:ℝ) := by simpa [sing] using h 2 0
  have v21 : A[2][1].toReal? = some (1 + 1 / 2 ^ 28:ℝ) := by simpa [sing] using h 2 1
  have v22 : A[2][2].toReal? = some (1 + 1 / 2 ^ 28:ℝ) := by simpa [sing] using h 2 2
  have one : (1 : F).toReal? = some (1:ℝ) := rfl
  have zero : (0 : F).toReal? = some (0:ℝ) := rfl
  have b1 : |(1 + 1 / 2 ^ 28 : ℝ)| < 16 := by norm_num [abs_lt]
  have bP : |(3 + 21 / 2 ^ 28 + 1 / 2 ^ 51 : ℝ)| < 16 := by norm_num [abs_lt]
  have bQ : |(1 + 7 / 2 ^ 28 : ℝ)| < 16 := by norm_num [abs_lt]
  have b0 : |(0 : ℝ)| < 16 := by norm_num
  have h21 := id1 v21 n1 b1
  have h22 := id1 v22 n1 b1
  have h20 := id1 v20 Fmt.near_zero b0
  have h20' : (-((0 : F) + A[2][0] * (1 : F))).toReal? = some 0 := by rw [← neg_zero]; exact val_neg h20
  have m00 := az (z0 (mv v11 h22 nP bP) nP' bP) (zm v12 (val_neg h21)) nP' bP
  have m01 := az (z0 (mv v10 h22 nQ bQ) nQ' bQ) (zm v12 h20') nQ' bQ
  have m02 := az (z0 (mv v10 h21 nQ bQ) nQ' bQ) (mv v11 h20' (z := 0) (by rw [mul_zero]; exact Fmt.near_zero) b0) nQ' bQ
  rw [det3]
  exact av (az (z0 (mv v00 m00 (by rw [one_mul]; exact nP') bP) nP' bP) (zm v01 (val_neg m01)) nP' bP)
    (mv v02 m02 nR (by norm_num [abs_lt])) nD (by norm_num [abs_lt])
end Sampler

/-- For 3×3 matrices it fails: a matrix of `f64` numbers whose exact determinant is `0` is accepted by `Invertible` (its computed determinant is
twice epsilon), so the documented guarantee of an invertible result does not hold of every drawn block. -/
theorem C111_invertible_singular_refuted : ∃ (A : Mat F 3 3) (a : Matrix (Fin 3) (Fin 3) ℝ),
    (∀ i j : Fin 3, Datum A[i.1][j.1] ∧ A[i.1][j.1].toReal? = some (a i j)) ∧ a.det = 0 ∧
    ∀ (σ : Type) (draw : Eff σ F) (s s' : σ) (fuel : ℕ), (callN draw 9).exec s = (.ok (rowMajor A), s') →
      (Distr.invertible ScalarNorm.normL1 draw (fuel + 1)).exec s = (.ok A, s') := by
  refine ⟨IeeeEx.mat sing, sing, fun i j => ⟨?_, IeeeEx.mat_val sing i j⟩, sing_det, fun σ draw s s' fuel h => ?_⟩
  · have : (IeeeEx.mat sing)[i.1] = IeeeEx.vec (sing i) := Vector.getElem_ofFn i.2
    rw [this, IeeeEx.vec_get]
    exact IeeeEx.lit_datum (sing_rep i j)
  · unfold Distr.invertible
    rw [Distr.loop_blocks (draw := Distr.matrix draw) (comp := rowMajor) (inner := draw) (C01_mat_init_calls draw) (fun _ _ h => Mat.rowMajor_inj h)
      (fun x => by simp [Mat.length_rowMajor])]
    refine ⟨[], by simp, by simpa using h, by simp, ?_⟩
    have hv := sing_computed _ (IeeeEx.mat_val sing)
    rw [show (IeeeEx.mat sing).detR = .ok (IeeeEx.mat sing).det from Res.ok_get _ _]
    simp only [Res.bind_ok, Res.pure_eq, Except.ok.injEq, Distr.isEpsilon]
    have h1 : (FloatOps.abs (ScalarNorm.normL1 (IeeeEx.mat sing).det : F)).toReal? = some (1 / 2 ^ 51) := by
      have := abs_val' (abs_val' hv)
      rw [abs_abs, abs_of_pos (by positivity)] at this
      exact this
    have h2 := rle_val h1 eps_val
    have : ¬ (1 / 2 ^ 51 : ℝ) ≤ 1 / 2 ^ 52 := by norm_num
    rw [Bool.not_eq_true', ← Bool.not_eq_true, h2]
    exact this

/-! ## Libraries and sources that meet the hypotheses -/
namespace Sampler
theorem lift_val {f : ℝ → ℝ} {a : Ieee φ} {x : ℝ} (ha : a.toReal? = some x) (h : |φ.near (f x)| < huge φ) : (lift1 f a).toReal? = some (φ.near (f x)) := by
  unfold lift1
  rw [ha]
  show (if f x = 0 then (0 : Ieee φ) else rnd (f x)).toReal? = _
  by_cases h0 : f x = 0
  · rw [if_pos h0, h0, Fmt.near_zero]; rfl
  · rw [if_neg h0]; exact (val_rnd_near).2 ⟨rfl, h⟩
theorem near_lt_of (hφ : WF φ) {y : ℝ} (h : |y| ≤ 2 ^ φ.emax) : |φ.near y| < huge φ := by
  obtain ⟨h1, h2, h3⟩ := id hφ
  obtain ⟨a, b⟩ := abs_le.1 h
  have r := Fmt.near_rep (rep_pow hφ (e := φ.emax) (by omega) le_rfl)
  have a' := Fmt.near_mono (φ := φ) (by omega) a
  have b' := Fmt.near_mono (φ := φ) (by omega) b
  rw [Fmt.near_neg, r] at a'
  rw [r] at b'
  refine (abs_le.2 ⟨a', b'⟩).trans_lt ?_
  unfold huge
  exact zpow_lt_zpow_right₀ (by norm_num) (by omega)
theorem lib_of (hφ : WF φ) (hp1 : (φ.p : ℤ) ≤ -φ.emin) (hb : (φ.p - φ.emin : ℝ) ≤ 2 ^ φ.emax) : NormalLib φ (2 * roundoff φ) := by
  have u0 := u_pos (φ := φ)
  obtain ⟨h1, h2, h3⟩ := id hφ
  have tu : tiny φ ≤ roundoff φ := by
    unfold tiny roundoff
    rw [show (1:ℝ) / 2 ^ φ.p = 2 ^ (-(φ.p : ℤ)) by rw [zpow_neg]; simp]
    exact zpow_le_zpow_right₀ (by norm_num) (by omega)
  have hp2 : (2 : ℝ) ≤ φ.p := by exact_mod_cast h1
  have he0 : (φ.emin : ℝ) ≤ 0 := by exact_mod_cast (show φ.emin ≤ 0 by omega)
  refine ⟨fun _ => rfl, fun a x hd ha x0 x1 => ?_, fun a t ha => ?_⟩
  · have hr : Representable φ x := Datum.rep hφ hd ha
    have hl0 : Real.log x ≤ 0 := Real.log_nonpos x0.le x1
    have hlow : |Real.log x| ≤ φ.p - φ.emin := by
      obtain ⟨m, e, hx, hm, he, -⟩ := hr
      have m1 : (1:ℝ) ≤ m := by
        have : (0:ℝ) < m := by
          rw [hx] at x0; exact (pos_iff_pos_of_mul_pos x0).2 (by positivity)
        exact_mod_cast this
      have hx2 : (2:ℝ) ^ (φ.emin - φ.p + 1) ≤ x := by
        rw [hx]
        calc (2:ℝ) ^ (φ.emin - φ.p + 1) ≤ 2 ^ e := zpow_le_zpow_right₀ (by norm_num) he
          _ ≤ m * 2 ^ e := le_mul_of_one_le_left (by positivity) m1
      have := Real.log_le_log (by positivity) hx2
      rw [Real.log_zpow] at this
      rw [abs_of_nonpos hl0]
      have l2 := Real.log_two_lt_d9
      have l20 := Real.log_two_gt_d9
      push_cast at this
      have k : (-(φ.emin - φ.p + 1) : ℝ) * Real.log 2 ≤ -(φ.emin - φ.p + 1) * 1 := by
        apply mul_le_mul_of_nonneg_left (by linarith); linarith
      linarith
    refine ⟨_, lift_val ha (near_lt_of hφ (hlow.trans hb)), ?_⟩
    show |φ.near (Real.log x) - Real.log x| ≤ _
    rcases x1.eq_or_lt with h | h
    · rw [h, Real.log_one, Fmt.near_zero]; simp
    · have g := rep_gap hφ hr h
      have h1 : Real.log x ≤ x - 1 := Real.log_le_sub_one_of_pos x0
      refine (near_rel ?_).trans (by nlinarith [abs_nonneg (Real.log x)])
      rw [abs_of_nonpos hl0]
      refine le_trans ?_ (show 1 / 2 ^ φ.p ≤ -Real.log x by linarith)
      rw [show (1:ℝ) / 2 ^ φ.p = 2 ^ (-(φ.p : ℤ)) by rw [zpow_neg]; simp]
      exact zpow_le_zpow_right₀ (by norm_num) (by omega)
  · have c1 : |Real.cos t| ≤ 1 := Real.abs_cos_le_one t
    refine ⟨_, lift_val ha (near_lt_of hφ (c1.trans ((show (1:ℝ) ≤ φ.p - φ.emin by linarith).trans hb))), ?_⟩
    show |φ.near (Real.cos t) - Real.cos t| ≤ _
    refine (near_err_add _).trans ?_
    nlinarith
end Sampler

/-- A correctly rounded library satisfies the hypotheses, for both formats. -/
theorem C111_library : NormalLib Fmt.f64 (1 / 2 ^ 52) ∧ NormalLib Fmt.f32 (1 / 2 ^ 23) ∧ (FloatOps.epsilon : F).toReal? = some (1 / 2 ^ 52) := by
  refine ⟨?_, ?_, eps_val⟩
  · have := lib_of C80_formats.2 (by decide) (by
      show ((53 : ℕ) : ℝ) - ((-1022 : ℤ) : ℝ) ≤ 2 ^ (1023 : ℤ)
      rw [show (1023 : ℤ) = ((1023 : ℕ) : ℤ) by norm_num, zpow_natCast]; norm_num)
    rwa [u_eq, show (2 * (1 / 2 ^ 53) : ℝ) = 1 / 2 ^ 52 by norm_num] at this
  · have := lib_of C80_formats.1 (by decide) (by
      show ((24 : ℕ) : ℝ) - ((-126 : ℤ) : ℝ) ≤ 2 ^ (127 : ℤ)
      rw [show (127 : ℤ) = ((127 : ℕ) : ℤ) by norm_num, zpow_natCast]; norm_num)
    rwa [show roundoff Fmt.f32 = 1 / 2 ^ 24 from rfl, show (2 * (1 / 2 ^ 24) : ℝ) = 1 / 2 ^ 23 by norm_num] at this

/-! ## Cases that meet the hypotheses -/
namespace SamplerEx
/-- A source that draws `1/2`, whatever the interval. -/
noncomputable def src {φ : Fmt} : Ieee φ → Ieee φ → Eff ℕ (Ieee φ) := fun _ _ => pure half
theorem src_ok {φ : Fmt} (hφ : WF φ) : UniformOk (φ := φ) src := by
  refine ⟨fun s s' u h => ?_, fun s s' u h => ?_⟩ <;> simp only [src, exec_pure, Prod.mk.injEq, Except.ok.injEq] at h <;> obtain ⟨rfl, -⟩ := h
  · refine ⟨?_, 1 / 2, rfl, by norm_num, by norm_num⟩
    show Representable φ (1 / 2)
    have := rep_pow hφ (e := -1) (by obtain ⟨h1, h2, h3⟩ := hφ; omega) (by obtain ⟨h1, h2, h3⟩ := hφ; omega)
    rwa [show (2:ℝ) ^ (-1 : ℤ) = 1 / 2 by norm_num] at this
  · exact ⟨1 / 2, rfl⟩
example := C111_normal (C111_library.1) C80_formats.2 (by decide) (by decide) (by decide) (by positivity) (by norm_num) src (src_ok C80_formats.2) 0 0 _ rfl
example := C111_normal_f64 (C111_library.1) (by positivity) (by norm_num) src (src_ok C80_formats.2) 0 0 _ rfl
example := C111_normal_f32 (C111_library.2.1) (by positivity) (by norm_num) src (src_ok C80_formats.1) 0 0 _ rfl

/-- A source that counts: `0, 1, 2, …`, up to `1000`. -/
noncomputable def cnt : Eff ℕ F := Eff.ofStep fun n => (IeeeEx.lit ((min n 1000 : ℕ) : ℝ), n + 1)
theorem cnt_ok (c : ℝ) (hc : 1000 ≤ c) : DrawsWithin c cnt := by
  intro s s' a h
  simp only [cnt, exec_ofStep, Prod.mk.injEq, Except.ok.injEq] at h
  obtain ⟨rfl, -⟩ := h
  have := IeeeEx.lit_int ((min s 1000 : ℕ) : ℤ) (by omega)
  refine ⟨by simpa using this, _, IeeeEx.lit_val _, ?_⟩
  rw [abs_of_nonneg (by positivity)]
  exact le_trans (by exact_mod_cast min_le_right s 1000) hc
theorem run (n p : ℕ) : (callN cnt n).exec p = (.ok (List.ofFn fun i : Fin n => IeeeEx.lit ((min (p + i.1) 1000 : ℕ) : ℝ)), p + n) := by
  induction n generalizing p with
  | zero => simp [callN]
  | succ n ih =>
    rw [callN, exec_bind]
    simp only [cnt, exec_ofStep]
    rw [show (Eff.ofStep fun n : ℕ => (IeeeEx.lit ((min n 1000 : ℕ) : ℝ), n + 1)) = cnt from rfl, exec_bind, ih]
    simp only [exec_pure, Prod.mk.injEq, Except.ok.injEq]
    refine ⟨?_, by omega⟩
    rw [List.ofFn_succ]
    simp only [Fin.val_zero, add_zero, Fin.val_succ, List.cons.injEq, true_and]
    congr 1; ext i; rw [show p + 1 + i.1 = p + (i.1 + 1) by omega]
/-- The block `3, 4, 5`, the first one drawn in state `3`. -/
noncomputable def X3 : Vec ℝ 3 := Vec.fromArray #v[3, 4, 5]
theorem v3 : ValV (IeeeEx.vec ![(3:ℝ), 4, 5]) X3 := fun i => by
  rw [IeeeEx.vec_val]; fin_cases i <;> rfl
theorem run3 : (callN cnt 3).exec 3 = (.ok (IeeeEx.vec ![(3:ℝ), 4, 5]).toList, 6) := by
  rw [run, Vec.toList_eq_ofFn]
  simp only [Prod.mk.injEq, Except.ok.injEq, and_true]
  congr 1; ext i
  rw [IeeeEx.vec_get]
  fin_cases i <;> norm_num
theorem l3 : X3.length ^ 2 = 50 := by rw [length3]; simp [X3]; norm_num
theorem hs : ∀ a : F, FloatOps.sqrt a = Ieee.sqrt a := fun _ => rfl
theorem hb : ∀ a : F, FloatOps.abs a = Ieee.abs a := fun _ => rfl
theorem nz3 : (Distr.nonZero cnt 7).exec 3 = (.ok (IeeeEx.vec ![(3:ℝ), 4, 5]), 6) := by
  have h0 := length_nonneg X3
  have h1 := l3
  exact C111_nonzero_accepts hs eps_val (by norm_num) cnt 6 3 6 _ X3 v3 run3 (by push_cast; norm_num; nlinarith) (by
    have : X3.length ≤ 8 := by nlinarith
    exact this.trans (by norm_num))
example : (Distr.nonZero cnt 7).exec 3 = (.ok (IeeeEx.vec ![(3:ℝ), 4, 5]), 6) := by
  have h0 := length_nonneg X3
  have h1 := l3
  exact C111_nonzero_accepts hs eps_val (by norm_num) cnt 6 3 6 _ X3 v3 run3 (by push_cast; norm_num; nlinarith) (by
    have : X3.length ≤ 8 := by nlinarith
    exact this.trans (by norm_num))
example := C111_nonzero hs eps_val (by norm_num) cnt (cnt_ok _ (by norm_num)) 7 3 6 _ nz3
theorem un3 : ∃ w, (Distr.unit (N := 3) cnt 7).exec 3 = (.ok w, 6) := by
  unfold Distr.unit
  rw [exec_bind, nz3]
  exact ⟨_, by simp only [Vec.normalize_ok, liftRes_ok, exec_pure]; rfl⟩
example : True := by
  obtain ⟨w, h⟩ := un3
  have := C111_unit hs eps_val (by norm_num) cnt (cnt_ok _ (by norm_num)) 7 3 6 w h
  trivial
example := C111_rotation2 C98_library.1 src (fun s s' a h => by
  simp only [src, exec_pure, Prod.mk.injEq, Except.ok.injEq] at h
  exact ⟨1 / 2, by rw [← h.1]; rfl⟩) 0 0 _ rfl
example : True := by
  obtain ⟨w, h⟩ := un3
  have := C111_rotation3 hs eps_val C98_library.1 (by norm_num) cnt (cnt_ok _ (by norm_num)) src (fun s s' a h => by
    simp only [src, exec_pure, Prod.mk.injEq, Except.ok.injEq] at h
    refine ⟨?_, 1 / 2, by rw [← h.1]; rfl⟩
    rw [← h.1]
    exact ⟨1, -1, by norm_num, by decide, by decide, by decide⟩) 7 3 6 (Rotation3.new w half) (by
      unfold Distr.rotation3Uniform
      rw [exec_bind, h]
      rfl)
  trivial
/-- The matrix `(3, 4; 5, 6)`, the first one drawn in state `3`. -/
noncomputable def A2 : Matrix (Fin 2) (Fin 2) ℝ := !![3, 4; 5, 6]
theorem run4 : (callN cnt (2 * 2)).exec 3 = (.ok (rowMajor (IeeeEx.mat A2)), 7) := by
  rw [run]
  have hg : ∀ i j : Fin 2, (IeeeEx.mat A2)[i.1][j.1] = IeeeEx.lit (A2 i j) := fun i j => by
    have : (IeeeEx.mat A2)[i.1] = IeeeEx.vec (A2 i) := Vector.getElem_ofFn i.2
    rw [this, IeeeEx.vec_get]
  have e : rowMajor (IeeeEx.mat A2) = [IeeeEx.lit 3, IeeeEx.lit 4, IeeeEx.lit 5, IeeeEx.lit 6] := by
    have a := hg 0 0; have b := hg 0 1; have c := hg 1 0; have d := hg 1 1
    simp only [Fin.val_zero, Fin.val_one] at a b c d
    simp [rowMajor, List.finRange_succ, a, b, c, d]
    simp [A2]
  rw [e]
  simp [List.ofFn_succ]
  norm_num
theorem inv2 : (Distr.invertible ScalarNorm.normL1 cnt 7).exec 3 = (.ok (IeeeEx.mat A2), 7) := by
  refine C111_invertible_accepts hb eps_val 10 (by norm_num) (by norm_num [Nat.factorial]) cnt 6 3 7 _ A2 (IeeeEx.mat_val A2) ?_ run4 ?_
  · intro i j; fin_cases i <;> fin_cases j <;> norm_num [A2]
  · have e : (A2.map abs).permanent = 38 := by
      rw [show A2.map abs = A2 by ext i j; fin_cases i <;> fin_cases j <;> simp [A2]]
      rw [permanent_succ_row_zero, Fin.sum_univ_two, permanent_succ_row_zero, permanent_succ_row_zero, Fin.sum_univ_one, Fin.sum_univ_one]
      simp [A2, Matrix.permanent]
      norm_num
    rw [e, Matrix.det_fin_two]
    simp [A2, Nat.factorial]
    norm_num
example : (Distr.invertible ScalarNorm.normL1 cnt 7).exec 3 = (.ok (IeeeEx.mat A2), 7) := by
  refine C111_invertible_accepts hb eps_val 10 (by norm_num) (by norm_num [Nat.factorial]) cnt 6 3 7 _ A2 (IeeeEx.mat_val A2) ?_ run4 ?_
  · intro i j; fin_cases i <;> fin_cases j <;> norm_num [A2]
  · have e : (A2.map abs).permanent = 38 := by
      rw [show A2.map abs = A2 by ext i j; fin_cases i <;> fin_cases j <;> simp [A2]]
      rw [permanent_succ_row_zero, Fin.sum_univ_two, permanent_succ_row_zero, permanent_succ_row_zero, Fin.sum_univ_one, Fin.sum_univ_one]
      simp [A2, Matrix.permanent]
      norm_num
    rw [e, Matrix.det_fin_two]
    simp [A2, Nat.factorial]
    norm_num
example := C111_invertible hb eps_val 1000 (by norm_num) (by norm_num [Nat.factorial]) cnt (cnt_ok _ le_rfl) 7 3 7 _ inv2
example := C111_invertible_two hb eps_val cnt (cnt_ok _ (by norm_num)) 7 3 7 _ inv2
end SamplerEx
end Vecmat
