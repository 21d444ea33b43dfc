import Verif.Props.Derivative
import Mathlib.Analysis.SpecialFunctions.Sqrt
import Mathlib.Topology.Order.OrderClosed
/-!
# C88: where `look_at_any` is continuous
-/
namespace Vecmat
open Spec Filter Topology

/-- The unit sphere of directions, in coordinates. -/
def Spec.UnitDirs : Set (Fin 3 → ℝ) := {d | (ofCoords d : Vec ℝ 3).length = 1}

namespace Cont
theorem unit_iff (d : Fin 3 → ℝ) : d ∈ UnitDirs ↔ d 0 * d 0 + d 1 * d 1 + d 2 * d 2 = 1 := by
  show Real.sqrt (Vec.squareLength _) = 1 ↔ _
  rw [Vec.squareLength3, Real.sqrt_eq_one]
  simp [ofCoords]

/-- `cos` of half the angle in the direct branch. -/
noncomputable def C (d : Fin 3 → ℝ) : ℝ := Real.sqrt ((1 - d 2) / 2)
/-- Rotation of the direct branch. -/
noncomputable def Q (d : Fin 3 → ℝ) : Rotation3 ℝ :=
  Rotation3.fromQuaternion (Quat.new (C d) (d 1 * (1 / (2 * C d))) (-d 0 * (1 / (2 * C d))) 0)
/-- Half a turn about `x`. -/
noncomputable def H : Rotation3 ℝ := Rotation3.new (Vec.fromTuple3 (1, 0, 0)) FloatConst.pi

theorem dot_z (d : Fin 3 → ℝ) : (Vec.fromTuple3 ((0 : ℝ), 0, -1)).dot (ofCoords d) = -d 2 := by
  rw [Vec.dot3]; simp [ofCoords]

theorem direct (n : Nat) (d : Fin 3 → ℝ) (hz : d 2 ≤ 0) : Rotation3.lookAtAnyContR (n + 1) (ofCoords d : Vec ℝ 3) = .ok (Q d) := by
  have e0 : (ofCoords d : Vec ℝ 3)[0] = d 0 := by simp [ofCoords]
  have e1 : (ofCoords d : Vec ℝ 3)[1] = d 1 := by simp [ofCoords]
  have e2 : (ofCoords d : Vec ℝ 3)[2] = d 2 := by simp [ofCoords]
  rw [Rotation3.lookAtAnyContR]
  simp only [dot_z]
  rw [if_neg (by rw [rlt_iff]; linarith)]
  have hC : FloatOps.sqrt ((1 + -d 2) / two) = C d := by
    rw [sqrt_real, two_eq, C]; congr 1
  rw [hC, two_eq, Q]
  congr 2
  apply Quat.ext' <;> simp [e0, e1]

theorem neg_ofCoords (d : Fin 3 → ℝ) : -(ofCoords d : Vec ℝ 3) = ofCoords (-d) := by
  apply Vec.ext_getElem; intro i hi; simp [ofCoords]

theorem pub (n : Nat) (d : Fin 3 → ℝ) : Rotation3.lookAtAnyR (n + 2) (ofCoords d : Vec ℝ 3) =
    .ok (if d 2 < 0 then Q d else Transform.chain (Vec ℝ 3) (Q (-d)) H) := by
  have e2 : (ofCoords d : Vec ℝ 3).z = d 2 := by rw [Vec.z_eq]; simp [ofCoords]
  rw [Rotation3.lookAtAnyR]
  by_cases h : d 2 < 0
  · rw [if_pos (by rw [rlt_iff, e2]; exact h), if_pos h, direct _ _ h.le]
  · rw [if_neg (by rw [rlt_iff, e2]; exact h), if_neg h, neg_ofCoords, direct _ _ (by simpa using h)]; rfl

theorem priv (n : Nat) (d : Fin 3 → ℝ) : Rotation3.lookAtAnyContR (n + 3) (ofCoords d : Vec ℝ 3) =
    .ok (if 0 < d 2 then Transform.chain (Vec ℝ 3) (Q (-d)) H else Q d) := by
  by_cases h : 0 < d 2
  · rw [Rotation3.lookAtAnyContR]
    simp only [dot_z]
    rw [if_pos (by rw [rlt_iff]; linarith), neg_ofCoords, pub, if_pos (by simpa using h), if_pos h]; rfl
  · rw [direct _ _ (not_lt.1 h), if_neg h]

theorem H_apply (v : Vec ℝ 3) : (Transform.apply H v)[0] = v[0] ∧ (Transform.apply H v)[1] = -v[1] ∧ (Transform.apply H v)[2] = -v[2] := by
  obtain ⟨hw, hx, hy, hz⟩ := Rotation3.quat_new (Vec.fromTuple3 ((1 : ℝ), 0, 0)) Real.pi
  rw [Rotation3.apply_0, Rotation3.apply_1, Rotation3.apply_2, H, pi_real, hw, hx, hy, hz]
  simp

theorem Q_apply (d : Fin 3 → ℝ) (v : Vec ℝ 3) (h : d 2 < 1) :
    coords (Transform.apply (Q d) v) 0 = (((1 : ℝ) - d 2) / 2 + (d 1 * d 1 - d 0 * d 0) / (2 * (1 - d 2))) * coords v 0 - d 0 * d 1 / (1 - d 2) * coords v 1 - d 0 * coords v 2 ∧
    coords (Transform.apply (Q d) v) 1 = -(d 0 * d 1 / (1 - d 2)) * coords v 0 + (((1 : ℝ) - d 2) / 2 + (d 0 * d 0 - d 1 * d 1) / (2 * (1 - d 2))) * coords v 1 - d 1 * coords v 2 ∧
    coords (Transform.apply (Q d) v) 2 = d 0 * coords v 0 + d 1 * coords v 1 + (((1 : ℝ) - d 2) / 2 - (d 0 * d 0 + d 1 * d 1) / (2 * (1 - d 2))) * coords v 2 := by
  have hC : C d * C d = (1 - d 2) / 2 := by rw [C, Real.mul_self_sqrt (by linarith)]
  have hn : C d ≠ 0 := by rw [C]; exact (Real.sqrt_pos.2 (by linarith)).ne'
  have hi : 1 - d 2 = 2 * (C d * C d) := by rw [hC]; ring
  have hw : (Q d).quat.w = C d := by simp [Q, Rotation3.fromQuaternion]
  have hx : (Q d).quat.x = d 1 * (1 / (2 * C d)) := by simp [Q, Rotation3.fromQuaternion]
  have hy : (Q d).quat.y = -d 0 * (1 / (2 * C d)) := by simp [Q, Rotation3.fromQuaternion]
  have hz : (Q d).quat.z = 0 := by simp [Q, Rotation3.fromQuaternion]
  refine ⟨?_, ?_, ?_⟩
  · show (Transform.apply (Q d) v)[0] = _
    rw [Rotation3.apply_0, hw, hx, hy, hz, hi]; simp only [coords]; simp; field_simp; ring
  · show (Transform.apply (Q d) v)[1] = _
    rw [Rotation3.apply_1, hw, hx, hy, hz, hi]; simp only [coords]; simp; field_simp; ring
  · show (Transform.apply (Q d) v)[2] = _
    rw [Rotation3.apply_2, hw, hx, hy, hz, hi]; simp only [coords]; simp; field_simp; ring

theorem Q_cont (v : Vec ℝ 3) {p : Fin 3 → ℝ} (hp : p 2 < 1) : ContinuousAt (fun d => coords (Transform.apply (Q d) v)) p := by
  have hev : ∀ᶠ d : Fin 3 → ℝ in 𝓝 p, d 2 < 1 := (continuous_apply 2).continuousAt.eventually_lt continuousAt_const hp
  have h1 : 1 - p 2 ≠ 0 := by linarith
  have h2 : (2 : ℝ) * (1 - p 2) ≠ 0 := by linarith
  have c0 : ContinuousAt (fun d : Fin 3 → ℝ => d 0) p := (continuous_apply 0).continuousAt
  have c1 : ContinuousAt (fun d : Fin 3 → ℝ => d 1) p := (continuous_apply 1).continuousAt
  have c2 : ContinuousAt (fun d : Fin 3 → ℝ => d 2) p := (continuous_apply 2).continuousAt
  have c3 : ContinuousAt (fun d : Fin 3 → ℝ => 1 - d 2) p := continuousAt_const.sub c2
  have c4 : ContinuousAt (fun d : Fin 3 → ℝ => (2 : ℝ) * (1 - d 2)) p := continuousAt_const.mul c3
  have c5 : ContinuousAt (fun d : Fin 3 → ℝ => d 0 * d 1 / (1 - d 2)) p := (c0.mul c1).div₀ c3 h1
  rw [continuousAt_pi]
  intro i; fin_cases i
  · refine ContinuousAt.congr ?_ (hev.mono fun d hd => (Q_apply d v hd).1.symm)
    exact ((((c3.div_const 2).add (((c1.mul c1).sub (c0.mul c0)).div₀ c4 h2)).mul continuousAt_const).sub (c5.mul continuousAt_const)).sub (c0.mul continuousAt_const)
  · refine ContinuousAt.congr ?_ (hev.mono fun d hd => (Q_apply d v hd).2.1.symm)
    exact ((c5.neg.mul continuousAt_const).add (((c3.div_const 2).add (((c0.mul c0).sub (c1.mul c1)).div₀ c4 h2)).mul continuousAt_const)).sub (c1.mul continuousAt_const)
  · refine ContinuousAt.congr ?_ (hev.mono fun d hd => (Q_apply d v hd).2.2.symm)
    exact ((c0.mul continuousAt_const).add (c1.mul continuousAt_const)).add (((c3.div_const 2).sub (((c0.mul c0).add (c1.mul c1)).div₀ c4 h2)).mul continuousAt_const)

theorem chain_apply (d : Fin 3 → ℝ) (v : Vec ℝ 3) : Transform.apply (Transform.chain (Vec ℝ 3) (Q d) H) v = Transform.apply (Q d) (Transform.apply H v) :=
  (C55_group (T := ℝ)).2.1 _ _ v

theorem QH_cont (v : Vec ℝ 3) {p : Fin 3 → ℝ} (hp : -1 < p 2) :
    ContinuousAt (fun d => coords (Transform.apply (Transform.chain (Vec ℝ 3) (Q (-d)) H) v)) p := by
  simp only [chain_apply]
  exact ContinuousAt.comp (f := fun d : Fin 3 → ℝ => -d) (Q_cont _ (p := -p) (by simpa using by linarith)) continuous_neg.continuousAt

theorem agree (v : Vec ℝ 3) {p : Fin 3 → ℝ} (hu : p ∈ UnitDirs) (h0 : p 0 = 0) (h2 : p 2 = 0) :
    coords (Transform.apply (Transform.chain (Vec ℝ 3) (Q (-p)) H) v) = coords (Transform.apply (Q p) v) := by
  rw [unit_iff, h0, h2] at hu
  have hu : p 1 * p 1 = 1 := by linarith
  obtain ⟨a, b, c⟩ := H_apply v
  obtain ⟨a1, b1, c1⟩ := Q_apply p v (by rw [h2]; norm_num)
  obtain ⟨a2, b2, c2⟩ := Q_apply (-p) (Transform.apply H v) (by simp [h2])
  rw [chain_apply]
  ext i; fin_cases i
  · show coords (Transform.apply (Q (-p)) (Transform.apply H v)) 0 = coords (Transform.apply (Q p) v) 0
    rw [a1, a2]; simp [h0, h2, coords, a, b, c]
  · show coords (Transform.apply (Q (-p)) (Transform.apply H v)) 1 = coords (Transform.apply (Q p) v) 1
    rw [b1, b2]; simp [h0, h2, coords, a, b, c]; rw [hu]; ring
  · show coords (Transform.apply (Q (-p)) (Transform.apply H v)) 2 = coords (Transform.apply (Q p) v) 2
    rw [c1, c2]; simp [h0, h2, coords, a, b, c]; rw [hu]; ring

/-- Third component of the image of the `x` axis: it jumps across the equator. -/
theorem third (d : Fin 3 → ℝ) (h : d 2 < 1) : (Transform.apply (Q d) (Vec.fromTuple3 ((1 : ℝ), 0, 0)))[2] = d 0 := by
  show coords (Transform.apply (Q d) (Vec.fromTuple3 ((1 : ℝ), 0, 0))) 2 = _
  rw [(Q_apply d _ h).2.2]; simp [coords]
theorem third' (d : Fin 3 → ℝ) (h : -1 < d 2) : (Transform.apply (Transform.chain (Vec ℝ 3) (Q (-d)) H) (Vec.fromTuple3 ((1 : ℝ), 0, 0)))[2] = -d 0 := by
  obtain ⟨a, b, c⟩ := H_apply (Vec.fromTuple3 ((1 : ℝ), 0, 0))
  rw [chain_apply]
  show coords (Transform.apply (Q (-d)) (Transform.apply H (Vec.fromTuple3 ((1 : ℝ), 0, 0)))) 2 = _
  rw [(Q_apply (-d) _ (by simpa using by linarith)).2.2]; simp [coords, a, b, c]

/-- Directions with the same longitude as `p`, at the latitude with sine `s`. -/
noncomputable def tilt (p : Fin 3 → ℝ) (s : ℝ) : Fin 3 → ℝ := ![Real.sqrt (1 - s ^ 2) * p 0, Real.sqrt (1 - s ^ 2) * p 1, s]
theorem tilt_unit {p : Fin 3 → ℝ} (hp : p ∈ UnitDirs) (h2 : p 2 = 0) {s : ℝ} (hs : s ^ 2 ≤ 1) : tilt p s ∈ UnitDirs := by
  rw [unit_iff, h2] at hp
  rw [unit_iff]
  have := Real.mul_self_sqrt (show 0 ≤ 1 - s ^ 2 by linarith)
  simp only [tilt]
  simp
  linear_combination (p 0 * p 0 + p 1 * p 1) * this + (1 - s ^ 2) * hp
theorem tilt_zero {p : Fin 3 → ℝ} (h2 : p 2 = 0) : tilt p 0 = p := by
  ext i; fin_cases i <;> simp [tilt, h2]
theorem tilt_cont (p : Fin 3 → ℝ) : Continuous (tilt p) := by
  unfold tilt
  refine continuous_pi fun i => ?_
  fin_cases i <;> simp <;> fun_prop
/-- A function continuous at an equator point of the sphere has the same limit from both hemispheres. -/
theorem two_sided {f : (Fin 3 → ℝ) → ℝ} {p : Fin 3 → ℝ} (hp : p ∈ UnitDirs) (h2 : p 2 = 0) {a b : ℝ}
    (hf : ContinuousWithinAt f UnitDirs p) (ha : ∀ d ∈ UnitDirs, d 2 < 0 → f d = a * d 0) (hb : ∀ d ∈ UnitDirs, 0 < d 2 → f d = b * d 0) :
    a * p 0 = b * p 0 := by
  have key : ∀ c : ℝ, ∀ σ : ℝ, σ ≠ 0 → σ ^ 2 ≤ 1 → (∀ d ∈ UnitDirs, 0 < σ * d 2 → f d = c * d 0) → f p = c * p 0 := by
    intro c σ hσ hσ1 hc
    have h1 : Tendsto (fun t : ℝ => tilt p (σ * t)) (𝓝[>] 0) (𝓝[UnitDirs] p) := by
      refine tendsto_nhdsWithin_iff.2 ⟨?_, ?_⟩
      · have : ContinuousAt (fun t : ℝ => tilt p (σ * t)) 0 := ((tilt_cont p).comp (continuous_const.mul continuous_id)).continuousAt
        have h := this.tendsto.mono_left (nhdsWithin_le_nhds (s := Set.Ioi (0 : ℝ)))
        simpa [tilt_zero h2] using h
      · have : ∀ᶠ t : ℝ in 𝓝[>] 0, t ∈ Set.Ioo (0 : ℝ) 1 := Ioo_mem_nhdsGT one_pos
        filter_upwards [this] with t ht
        refine tilt_unit hp h2 ?_
        rw [mul_pow]
        exact mul_le_one₀ hσ1 (sq_nonneg t) (pow_le_one₀ ht.1.le ht.2.le)
    have h3 : Tendsto (fun t : ℝ => f (tilt p (σ * t))) (𝓝[>] 0) (𝓝 (f p)) := hf.tendsto.comp h1
    have h4 : Tendsto (fun t : ℝ => c * (tilt p (σ * t)) 0) (𝓝[>] 0) (𝓝 (c * p 0)) := by
      have : ContinuousAt (fun d : Fin 3 → ℝ => c * d 0) p := continuousAt_const.mul (continuous_apply 0).continuousAt
      exact this.tendsto.comp (h1.mono_right nhdsWithin_le_nhds)
    refine tendsto_nhds_unique (h3.congr' ?_) h4
    have hm := (tendsto_nhdsWithin_iff.1 h1).2
    filter_upwards [hm, self_mem_nhdsWithin] with t ht h0
    refine hc _ ht ?_
    have : tilt p (σ * t) 2 = σ * t := by simp [tilt]
    rw [this, ← mul_assoc]
    exact mul_pos (mul_self_pos.2 hσ) h0
  rw [← key a (-1) (by norm_num) (by norm_num) fun d hd h => ha d hd (by linarith), ← key b 1 (by norm_num) (by norm_num) fun d hd h => hb d hd (by linarith)]
end Cont

open Cont in
/-- `Rotation3::look_at_any`, on the sphere of unit directions: the rotation depends continuously on the direction exactly off the
equator `z = 0` and at its two points `x = 0`; on the rest of the equator it jumps. -/
theorem C88_look_at_any (R : (Fin 3 → ℝ) → Rotation3 ℝ) (hR : ∀ d ∈ UnitDirs, ∀ fuel, 2 ≤ fuel → Rotation3.lookAtAnyR fuel (ofCoords d) = .ok (R d))
    {p : Fin 3 → ℝ} (hp : p ∈ UnitDirs) :
    (∀ v : Vec ℝ 3, ContinuousWithinAt (fun d => coords (Transform.apply (R d) v)) UnitDirs p) ↔ p 2 ≠ 0 ∨ p 0 = 0 := by
  have hR' : ∀ d ∈ UnitDirs, R d = if d 2 < 0 then Q d else Transform.chain (Vec ℝ 3) (Q (-d)) H := fun d hd => by
    have := hR d hd 2 le_rfl; rw [pub 0] at this; exact (Except.ok.inj this).symm
  constructor
  · intro h
    by_contra hn
    push Not at hn
    have h1 : ContinuousWithinAt (fun d => (Transform.apply (R d) (Vec.fromTuple3 ((1 : ℝ), 0, 0)))[2]) UnitDirs p :=
      (continuousWithinAt_pi.1 (h (Vec.fromTuple3 (1, 0, 0)))) 2
    have := two_sided hp hn.1 (a := 1) (b := -1) h1 (fun d hd h0 => by rw [hR' d hd, if_pos h0, third d (by linarith), one_mul])
      (fun d hd h0 => by rw [hR' d hd, if_neg (by linarith), third' d (by linarith), neg_one_mul])
    exact hn.2 (by linarith)
  · intro h v
    refine ContinuousWithinAt.congr (f := fun d => if d 2 < 0 then coords (Transform.apply (Q d) v) else
      coords (Transform.apply (Transform.chain (Vec ℝ 3) (Q (-d)) H) v)) ?_ (fun d hd => by rw [hR' d hd]; split <;> rfl) (by rw [hR' p hp]; split <;> rfl)
    refine ContinuousAt.continuousWithinAt ?_
    rcases lt_trichotomy (p 2) 0 with hz | hz | hz
    · refine ContinuousAt.congr (Q_cont v (by linarith)) ?_
      filter_upwards [(continuous_apply 2).continuousAt.eventually_lt continuousAt_const hz] with d hd
      rw [if_pos hd]
    · have h0 : p 0 = 0 := h.resolve_left (by simp [hz])
      show Tendsto _ _ (𝓝 (if p 2 < 0 then _ else _))
      rw [if_neg (by rw [hz]; exact lt_irrefl 0)]
      refine Tendsto.if' ?_ (QH_cont v (by linarith)).tendsto
      rw [agree v hp h0 hz]; exact (Q_cont v (by linarith)).tendsto
    · refine ContinuousAt.congr (QH_cont v (by linarith)) ?_
      filter_upwards [continuousAt_const.eventually_lt (continuous_apply 2).continuousAt hz] with d hd
      rw [if_neg (by linarith)]

open Cont in
/-- `Rotation3::look_at_any_cont` has the same points of continuity. -/
theorem C88_look_at_any_cont (R : (Fin 3 → ℝ) → Rotation3 ℝ) (hR : ∀ d ∈ UnitDirs, ∀ fuel, 3 ≤ fuel → Rotation3.lookAtAnyContR fuel (ofCoords d) = .ok (R d))
    {p : Fin 3 → ℝ} (hp : p ∈ UnitDirs) :
    (∀ v : Vec ℝ 3, ContinuousWithinAt (fun d => coords (Transform.apply (R d) v)) UnitDirs p) ↔ p 2 ≠ 0 ∨ p 0 = 0 := by
  have hR' : ∀ d ∈ UnitDirs, R d = if 0 < d 2 then Transform.chain (Vec ℝ 3) (Q (-d)) H else Q d := fun d hd => by
    have := hR d hd 3 le_rfl; rw [priv 0] at this; exact (Except.ok.inj this).symm
  constructor
  · intro h
    by_contra hn
    push Not at hn
    have h1 : ContinuousWithinAt (fun d => (Transform.apply (R d) (Vec.fromTuple3 ((1 : ℝ), 0, 0)))[2]) UnitDirs p :=
      (continuousWithinAt_pi.1 (h (Vec.fromTuple3 (1, 0, 0)))) 2
    have := two_sided hp hn.1 (a := 1) (b := -1) h1 (fun d hd h0 => by rw [hR' d hd, if_neg (by linarith), third d (by linarith), one_mul])
      (fun d hd h0 => by rw [hR' d hd, if_pos h0, third' d (by linarith), neg_one_mul])
    exact hn.2 (by linarith)
  · intro h v
    refine ContinuousWithinAt.congr (f := fun d => if 0 < d 2 then coords (Transform.apply (Transform.chain (Vec ℝ 3) (Q (-d)) H) v) else
      coords (Transform.apply (Q d) v)) ?_ (fun d hd => by rw [hR' d hd]; split <;> rfl) (by rw [hR' p hp]; split <;> rfl)
    refine ContinuousAt.continuousWithinAt ?_
    rcases lt_trichotomy (p 2) 0 with hz | hz | hz
    · refine ContinuousAt.congr (Q_cont v (by linarith)) ?_
      filter_upwards [(continuous_apply 2).continuousAt.eventually_lt continuousAt_const hz] with d hd
      rw [if_neg (by linarith)]
    · have h0 : p 0 = 0 := h.resolve_left (by simp [hz])
      show Tendsto _ _ (𝓝 (if 0 < p 2 then _ else _))
      rw [if_neg (by rw [hz]; exact lt_irrefl 0)]
      refine Tendsto.if' ?_ (Q_cont v (by linarith)).tendsto
      rw [← agree v hp h0 hz]; exact (QH_cont v (by linarith)).tendsto
    · refine ContinuousAt.congr (QH_cont v (by linarith)) ?_
      filter_upwards [continuousAt_const.eventually_lt (continuous_apply 2).continuousAt hz] with d hd
      rw [if_pos hd]

/-- The comment on `look_at_any_cont` (src/transform/rotation.rs:259-261) says that `z = 1` is its only discontinuity: it is continuous
there, and discontinuous at `(1, 0, 0)`. -/
theorem C88_doc_refuted (R : (Fin 3 → ℝ) → Rotation3 ℝ) (hR : ∀ d ∈ UnitDirs, ∀ fuel, 3 ≤ fuel → Rotation3.lookAtAnyContR fuel (ofCoords d) = .ok (R d)) :
    ![0, 0, 1] ∈ UnitDirs ∧ ![1, 0, 0] ∈ UnitDirs ∧
    (∀ v : Vec ℝ 3, ContinuousWithinAt (fun d => coords (Transform.apply (R d) v)) UnitDirs ![0, 0, 1]) ∧
    ¬ ∀ v : Vec ℝ 3, ContinuousWithinAt (fun d => coords (Transform.apply (R d) v)) UnitDirs ![1, 0, 0] := by
  have h1 : (![0, 0, 1] : Fin 3 → ℝ) ∈ UnitDirs := (Cont.unit_iff _).2 (by simp)
  have h2 : (![1, 0, 0] : Fin 3 → ℝ) ∈ UnitDirs := (Cont.unit_iff _).2 (by simp)
  exact ⟨h1, h2, (C88_look_at_any_cont R hR h1).2 (by simp), fun h => by simpa using (C88_look_at_any_cont R hR h2).1 h⟩

/-! ## `Linear::look_at` -/
namespace Cont
theorem lookAt_apply (d u : Fin 3 → ℝ) (v : Vec ℝ 3) :
    let c : Fin 3 → ℝ := ![d 1 * u 2 - d 2 * u 1, d 2 * u 0 - d 0 * u 2, d 0 * u 1 - d 1 * u 0]
    let r : Fin 3 → ℝ := fun i => c i / Real.sqrt (c 0 * c 0 + c 1 * c 1 + c 2 * c 2)
    coords (Transform.apply (Linear.lookAt (ofCoords d) (ofCoords u)) v) =
      ![r 0 * coords v 0 + (r 1 * d 2 - r 2 * d 1) * coords v 1 - d 0 * coords v 2,
        r 1 * coords v 0 + (r 2 * d 0 - r 0 * d 2) * coords v 1 - d 1 * coords v 2,
        r 2 * coords v 0 + (r 0 * d 1 - r 1 * d 0) * coords v 1 - d 2 * coords v 2] := by
  intro c r
  have e : ∀ f : Fin 3 → ℝ, (ofCoords f : Vec ℝ 3)[0] = f 0 ∧ (ofCoords f : Vec ℝ 3)[1] = f 1 ∧ (ofCoords f : Vec ℝ 3)[2] = f 2 := fun f => by
    simp [ofCoords]
  obtain ⟨d0, d1, d2⟩ := e d
  obtain ⟨u0, u1, u2⟩ := e u
  have hc0 : ((ofCoords d : Vec ℝ 3).cross3 (ofCoords u))[0] = c 0 := by simp [c, d1, d2, u1, u2]
  have hc1 : ((ofCoords d : Vec ℝ 3).cross3 (ofCoords u))[1] = c 1 := by simp [c, d0, d2, u0, u2]
  have hc2 : ((ofCoords d : Vec ℝ 3).cross3 (ofCoords u))[2] = c 2 := by simp [c, d0, d1, u0, u1]
  have hl : ((ofCoords d : Vec ℝ 3).cross3 (ofCoords u)).length = Real.sqrt (c 0 * c 0 + c 1 * c 1 + c 2 * c 2) := by
    show Real.sqrt (Vec.squareLength _) = _
    rw [Vec.squareLength3, hc0, hc1, hc2]
  have hr0 : ((ofCoords d : Vec ℝ 3).cross3 (ofCoords u)).normalize[0] = r 0 := by rw [Vec.normalize, Vec.getElem_divS, hl, hc0]
  have hr1 : ((ofCoords d : Vec ℝ 3).cross3 (ofCoords u)).normalize[1] = r 1 := by rw [Vec.normalize, Vec.getElem_divS, hl, hc1]
  have hr2 : ((ofCoords d : Vec ℝ 3).cross3 (ofCoords u)).normalize[2] = r 2 := by rw [Vec.normalize, Vec.getElem_divS, hl, hc2]
  have hm : (Linear.lookAt (ofCoords d) (ofCoords u)).lin.toMatrix = _ := Mat.toMatrix_cols3 (((ofCoords d : Vec ℝ 3).cross3 (ofCoords u)).normalize)
    ((((ofCoords d : Vec ℝ 3).cross3 (ofCoords u)).normalize).cross3 (ofCoords d)) (-ofCoords d)
  rw [Linear.apply_coords, hm]
  simp only [Vec.cross3_0, Vec.cross3_1, Vec.cross3_2, Vec.getElem_neg, hr0, hr1, hr2, d0, d1, d2]
  ext i; fin_cases i <;> simp [Matrix.mulVec, dotProduct, Fin.sum_univ_three] <;> ring
end Cont

/-- `Linear::look_at` is continuous in both arguments wherever they are not parallel. -/
theorem C88_linear_look_at (p u : Fin 3 → ℝ) (h : (ofCoords p : Vec ℝ 3).cross3 (ofCoords u) ≠ 0) (v : Vec ℝ 3) :
    ContinuousAt (fun x : (Fin 3 → ℝ) × (Fin 3 → ℝ) => coords (Transform.apply (Linear.lookAt (ofCoords x.1) (ofCoords x.2)) v)) (p, u) := by
  simp only [Cont.lookAt_apply]
  have hd : ∀ i, ContinuousAt (fun x : (Fin 3 → ℝ) × (Fin 3 → ℝ) => x.1 i) (p, u) := fun i => ((continuous_apply i).comp continuous_fst).continuousAt
  have hu : ∀ i, ContinuousAt (fun x : (Fin 3 → ℝ) × (Fin 3 → ℝ) => x.2 i) (p, u) := fun i => ((continuous_apply i).comp continuous_snd).continuousAt
  obtain ⟨c, hc⟩ : ∃ c : (Fin 3 → ℝ) × (Fin 3 → ℝ) → Fin 3 → ℝ, c = fun x => ![x.1 1 * x.2 2 - x.1 2 * x.2 1, x.1 2 * x.2 0 - x.1 0 * x.2 2, x.1 0 * x.2 1 - x.1 1 * x.2 0] := ⟨_, rfl⟩
  have hcc : ∀ i, ContinuousAt (fun x => c x i) (p, u) := by
    intro i; subst hc
    fin_cases i
    · exact ((hd 1).mul (hu 2)).sub ((hd 2).mul (hu 1))
    · exact ((hd 2).mul (hu 0)).sub ((hd 0).mul (hu 2))
    · exact ((hd 0).mul (hu 1)).sub ((hd 1).mul (hu 0))
  have hpos : 0 < c (p, u) 0 * c (p, u) 0 + c (p, u) 1 * c (p, u) 1 + c (p, u) 2 * c (p, u) 2 := by
    rcases (show 0 ≤ c (p, u) 0 * c (p, u) 0 + c (p, u) 1 * c (p, u) 1 + c (p, u) 2 * c (p, u) 2 from add_nonneg (add_nonneg (mul_self_nonneg _) (mul_self_nonneg _)) (mul_self_nonneg _)).lt_or_eq with h0 | h0
    · exact h0
    · exfalso
      have h1 := mul_self_nonneg (c (p, u) 0)
      have h2 := mul_self_nonneg (c (p, u) 1)
      have h3 := mul_self_nonneg (c (p, u) 2)
      have e0 : c (p, u) 0 = 0 := by nlinarith
      have e1 : c (p, u) 1 = 0 := by nlinarith
      have e2 : c (p, u) 2 = 0 := by nlinarith
      subst hc
      apply h
      apply Vec.ext3
      · simpa [ofCoords] using e0
      · simpa [ofCoords] using e1
      · simpa [ofCoords] using e2
  have hr : ∀ i, ContinuousAt (fun x => c x i / Real.sqrt (c x 0 * c x 0 + c x 1 * c x 1 + c x 2 * c x 2)) (p, u) := fun i =>
    (hcc i).div₀ ((Real.continuous_sqrt.continuousAt).comp ((((hcc 0).mul (hcc 0)).add ((hcc 1).mul (hcc 1))).add ((hcc 2).mul (hcc 2))))
      (Real.sqrt_pos.2 hpos).ne'
  subst hc
  rw [continuousAt_pi]
  intro i
  fin_cases i
  · exact (((hr 0).mul continuousAt_const).add ((((hr 1).mul (hd 2)).sub ((hr 2).mul (hd 1))).mul continuousAt_const)).sub ((hd 0).mul continuousAt_const)
  · exact (((hr 1).mul continuousAt_const).add ((((hr 2).mul (hd 0)).sub ((hr 0).mul (hd 2))).mul continuousAt_const)).sub ((hd 1).mul continuousAt_const)
  · exact (((hr 2).mul continuousAt_const).add ((((hr 0).mul (hd 1)).sub ((hr 1).mul (hd 0))).mul continuousAt_const)).sub ((hd 2).mul continuousAt_const)

namespace Cont
/-- `up` chosen close to the equator and close to the poles. -/
def zUp : Fin 3 → ℝ := ![0, 0, 1]
def yUp : Fin 3 → ℝ := ![0, 1, 0]
theorem any_eq (d : Fin 3 → ℝ) : Linear.lookAtAny (ofCoords d : Vec ℝ 3) =
    if |d 2| < 1 / 2 then Linear.lookAt (ofCoords d) (ofCoords zUp) else Linear.lookAt (ofCoords d) (ofCoords yUp) := by
  have e2 : (ofCoords d : Vec ℝ 3).z = d 2 := by rw [Vec.z_eq]; simp [ofCoords]
  have hz : (Vec.fromArray #v[0, 0, 1] : Vec ℝ 3) = ofCoords zUp := by apply Vec.ext3 <;> simp [ofCoords, zUp]
  have hy : (Vec.fromArray #v[0, 1, 0] : Vec ℝ 3) = ofCoords yUp := by apply Vec.ext3 <;> simp [ofCoords, yUp]
  unfold Linear.lookAtAny
  rw [hz, hy]
  by_cases h : |d 2| < 1 / 2
  · rw [if_pos (by rw [rlt_iff, half_eq, e2]; exact h), if_pos h]
  · rw [if_neg (by rw [rlt_iff, half_eq, e2]; exact h), if_neg h]

theorem z_ok {p : Fin 3 → ℝ} (hp : p ∈ UnitDirs) (h : |p 2| ≤ 1 / 2) : (ofCoords p : Vec ℝ 3).cross3 (ofCoords zUp) ≠ 0 := by
  rw [unit_iff] at hp
  intro h0
  have a := congrArg (fun v : Vec ℝ 3 => v[0]) h0
  have b := congrArg (fun v : Vec ℝ 3 => v[1]) h0
  simp [ofCoords, zUp] at a b
  rw [a, b] at hp
  have := abs_le.1 h
  nlinarith
theorem y_ok {p : Fin 3 → ℝ} (h : 1 / 2 ≤ |p 2|) : (ofCoords p : Vec ℝ 3).cross3 (ofCoords yUp) ≠ 0 := by
  intro h0
  have a := congrArg (fun v : Vec ℝ 3 => v[0]) h0
  simp [ofCoords, yUp] at a
  rw [a, abs_zero] at h
  norm_num at h
/-- Image of the `x` axis under both choices. -/
theorem z_x (d : Fin 3 → ℝ) : coords (Transform.apply (Linear.lookAt (ofCoords d) (ofCoords zUp)) (Vec.fromTuple3 ((1 : ℝ), 0, 0))) =
    ![d 1 / Real.sqrt (d 1 * d 1 + d 0 * d 0), -d 0 / Real.sqrt (d 1 * d 1 + d 0 * d 0), 0] := by
  rw [lookAt_apply]; ext i; fin_cases i <;> simp [coords, zUp]
theorem y_x (d : Fin 3 → ℝ) : coords (Transform.apply (Linear.lookAt (ofCoords d) (ofCoords yUp)) (Vec.fromTuple3 ((1 : ℝ), 0, 0))) =
    ![-d 2 / Real.sqrt (d 2 * d 2 + d 0 * d 0), 0, d 0 / Real.sqrt (d 2 * d 2 + d 0 * d 0)] := by
  rw [lookAt_apply]; ext i; fin_cases i <;> simp [coords, yUp]
theorem same {p : Fin 3 → ℝ} (h0 : p 0 = 0) (h : p 1 * p 2 < 0) (v : Vec ℝ 3) :
    coords (Transform.apply (Linear.lookAt (ofCoords p) (ofCoords zUp)) v) = coords (Transform.apply (Linear.lookAt (ofCoords p) (ofCoords yUp)) v) := by
  have e : p 1 / |p 1| = -p 2 / |p 2| := by
    rcases mul_neg_iff.1 h with ⟨a, b⟩ | ⟨a, b⟩
    · rw [abs_of_pos a, abs_of_neg b, div_self a.ne', div_self (neg_ne_zero.2 b.ne)]
    · rw [abs_of_neg a, abs_of_pos b, div_neg, neg_div, div_self a.ne, div_self b.ne']
  rw [lookAt_apply, lookAt_apply]
  ext i; fin_cases i <;> simp [zUp, yUp, h0, Real.sqrt_mul_self_eq_abs, e]
/-- Directions with the same longitude as `p`, closer to the equator for `|s| < 1`. -/
noncomputable def drop (p : Fin 3 → ℝ) (s : ℝ) : Fin 3 → ℝ := ![Real.sqrt ((4 - s ^ 2) / 3) * p 0, Real.sqrt ((4 - s ^ 2) / 3) * p 1, s * p 2]
theorem drop_unit {p : Fin 3 → ℝ} (hp : p ∈ UnitDirs) (h2 : |p 2| = 1 / 2) {s : ℝ} (hs : s ^ 2 ≤ 4) : drop p s ∈ UnitDirs := by
  rw [unit_iff] at hp
  rw [unit_iff]
  have h4 : p 2 * p 2 = 1 / 4 := by rw [← abs_mul_abs_self, h2]; norm_num
  have := Real.mul_self_sqrt (show 0 ≤ (4 - s ^ 2) / 3 by linarith)
  simp only [drop]
  generalize Real.sqrt ((4 - s ^ 2) / 3) = k at *
  simp
  linear_combination (p 0 * p 0 + p 1 * p 1) * this + ((4 - s ^ 2) / 3) * hp + (s ^ 2 - (4 - s ^ 2) / 3) * h4
theorem drop_one (p : Fin 3 → ℝ) : drop p 1 = p := by
  have : Real.sqrt ((4 - 1 ^ 2) / 3) = 1 := by norm_num
  ext i; fin_cases i <;> simp only [drop, this] <;> simp
theorem drop_cont (p : Fin 3 → ℝ) : Continuous (drop p) := by
  unfold drop
  refine continuous_pi fun i => ?_
  fin_cases i <;> simp <;> fun_prop
end Cont

open Cont in
/-- `Linear::look_at_any`, on the sphere of unit directions: it is continuous exactly off the two parallels `z = ±1/2`, and at the two of
their points with `x = 0` and `y` of the sign opposite to `z`. -/
theorem C88_linear_look_at_any {p : Fin 3 → ℝ} (hp : p ∈ UnitDirs) :
    (∀ v : Vec ℝ 3, ContinuousWithinAt (fun d => coords (Transform.apply (Linear.lookAtAny (ofCoords d)) v)) UnitDirs p) ↔
      |p 2| ≠ 1 / 2 ∨ (p 0 = 0 ∧ p 1 * p 2 < 0) := by
  have hi : ∀ v : Vec ℝ 3, (fun d => coords (Transform.apply (Linear.lookAtAny (ofCoords d)) v)) = fun d : Fin 3 → ℝ => if |d 2| < 1 / 2 then
      coords (Transform.apply (Linear.lookAt (ofCoords d) (ofCoords zUp)) v) else coords (Transform.apply (Linear.lookAt (ofCoords d) (ofCoords yUp)) v) := by
    intro v; funext d; rw [any_eq]; split <;> rfl
  have hzc : |p 2| ≤ 1 / 2 → ∀ v : Vec ℝ 3, ContinuousAt (fun d : Fin 3 → ℝ => coords (Transform.apply (Linear.lookAt (ofCoords d) (ofCoords zUp)) v)) p := fun h v =>
    ContinuousAt.comp (f := fun d : Fin 3 → ℝ => (d, zUp)) (C88_linear_look_at p zUp (z_ok hp h) v) (continuous_id.prodMk continuous_const).continuousAt
  have hyc : 1 / 2 ≤ |p 2| → ∀ v : Vec ℝ 3, ContinuousAt (fun d : Fin 3 → ℝ => coords (Transform.apply (Linear.lookAt (ofCoords d) (ofCoords yUp)) v)) p := fun h v =>
    ContinuousAt.comp (f := fun d : Fin 3 → ℝ => (d, yUp)) (C88_linear_look_at p yUp (y_ok h) v) (continuous_id.prodMk continuous_const).continuousAt
  have habs : ContinuousAt (fun d : Fin 3 → ℝ => |d 2|) p := (continuous_apply 2).abs.continuousAt
  simp only [hi]
  constructor
  · intro h
    by_contra hn
    push Not at hn
    obtain ⟨h2, hn⟩ := hn
    have h1 : Tendsto (drop p) (𝓝[<] 1) (𝓝[UnitDirs] p) := by
      refine tendsto_nhdsWithin_iff.2 ⟨?_, ?_⟩
      · have := (drop_cont p).continuousAt (x := 1)
        have h := this.tendsto.mono_left (nhdsWithin_le_nhds (s := Set.Iio (1 : ℝ)))
        rwa [drop_one] at h
      · have : ∀ᶠ t : ℝ in 𝓝[<] 1, t ∈ Set.Ioo (0 : ℝ) 1 := Ioo_mem_nhdsLT one_pos
        filter_upwards [this] with t ht
        exact drop_unit hp h2 (by nlinarith [ht.1, ht.2])
    have key : ∀ v : Vec ℝ 3, coords (Transform.apply (Linear.lookAt (ofCoords p) (ofCoords zUp)) v) = coords (Transform.apply (Linear.lookAt (ofCoords p) (ofCoords yUp)) v) := by
      intro v
      have h3 := (h v).tendsto.comp h1
      rw [if_neg (by rw [h2]; exact lt_irrefl _)] at h3
      refine tendsto_nhds_unique (((hzc h2.le v).tendsto.comp (h1.mono_right nhdsWithin_le_nhds)).congr' ?_) h3
      have : ∀ᶠ t : ℝ in 𝓝[<] 1, t ∈ Set.Ioo (0 : ℝ) 1 := Ioo_mem_nhdsLT one_pos
      filter_upwards [this] with t ht
      simp only [Function.comp]
      rw [if_pos]
      have : drop p t 2 = t * p 2 := by simp [drop]
      rw [this, abs_mul, h2, abs_of_pos ht.1]
      linarith [ht.2]
    have hx := key (Vec.fromTuple3 (1, 0, 0))
    rw [z_x, y_x] at hx
    have a := congrFun hx 0
    have b := congrFun hx 1
    simp at a b
    have h4 : p 2 * p 2 = 1 / 4 := by rw [← abs_mul_abs_self, h2]; norm_num
    rw [unit_iff] at hp
    have hpos : Real.sqrt (p 1 * p 1 + p 0 * p 0) ≠ 0 := (Real.sqrt_pos.2 (by linarith)).ne'
    have h0 : p 0 = 0 := b.resolve_right hpos
    have h5 : 0 ≤ p 1 * p 2 := hn h0
    rw [h0] at a hp
    simp [Real.sqrt_mul_self_eq_abs] at a
    have n2 : p 2 ≠ 0 := by rintro e; rw [e] at h4; norm_num at h4
    have n1 : p 1 ≠ 0 := by rintro e; rw [e] at hp; norm_num at hp; linarith
    rcases n1.lt_or_gt with c | c
    · have d : p 2 < 0 := lt_of_le_of_ne (by nlinarith) n2
      rw [abs_of_neg c, abs_of_neg d, div_neg, neg_div_neg_eq, div_self n1, div_self n2] at a
      norm_num at a
    · have d : 0 < p 2 := lt_of_le_of_ne (by nlinarith) n2.symm
      rw [abs_of_pos c, abs_of_pos d, neg_div, div_self n1, div_self n2] at a
      norm_num at a
  · intro h v
    refine ContinuousAt.continuousWithinAt ?_
    rcases lt_trichotomy (|p 2|) (1 / 2) with hz | hz | hz
    · refine ContinuousAt.congr (hzc hz.le v) ?_
      filter_upwards [habs.eventually_lt continuousAt_const hz] with d hd
      rw [if_pos hd]
    · obtain ⟨h0, hn⟩ := h.resolve_left (by simp [hz])
      show Tendsto _ _ (𝓝 (if |p 2| < 1 / 2 then _ else _))
      rw [if_neg (by rw [hz]; exact lt_irrefl _)]
      refine Tendsto.if' ?_ (hyc hz.ge v).tendsto
      rw [← same h0 hn]; exact (hzc hz.le v).tendsto
    · refine ContinuousAt.congr (hyc hz.le v) ?_
      filter_upwards [continuousAt_const.eventually_lt habs hz] with d hd
      rw [if_neg (by linarith)]

namespace Cont
/-- The functions `R` of the theorems exist. -/
theorem pub_total : ∃ R : (Fin 3 → ℝ) → Rotation3 ℝ, ∀ d ∈ UnitDirs, ∀ fuel, 2 ≤ fuel → Rotation3.lookAtAnyR fuel (ofCoords d) = .ok (R d) :=
  ⟨fun d => if d 2 < 0 then Cont.Q d else Transform.chain (Vec ℝ 3) (Cont.Q (-d)) Cont.H, fun d _ fuel hf => by
    obtain ⟨n, rfl⟩ : ∃ n, fuel = n + 2 := ⟨fuel - 2, by omega⟩
    exact Cont.pub n d⟩
theorem priv_total : ∃ R : (Fin 3 → ℝ) → Rotation3 ℝ, ∀ d ∈ UnitDirs, ∀ fuel, 3 ≤ fuel → Rotation3.lookAtAnyContR fuel (ofCoords d) = .ok (R d) :=
  ⟨fun d => if 0 < d 2 then Transform.chain (Vec ℝ 3) (Cont.Q (-d)) Cont.H else Cont.Q d, fun d _ fuel hf => by
    obtain ⟨n, rfl⟩ : ∃ n, fuel = n + 3 := ⟨fuel - 3, by omega⟩
    exact Cont.priv n d⟩
end Cont

/-- A jump on the equator, and no jump at `y = 1`. -/
example : ∃ R : (Fin 3 → ℝ) → Rotation3 ℝ, (∀ d ∈ UnitDirs, ∀ fuel, 2 ≤ fuel → Rotation3.lookAtAnyR fuel (ofCoords d) = .ok (R d)) ∧
    (¬ ∀ v : Vec ℝ 3, ContinuousWithinAt (fun d => coords (Transform.apply (R d) v)) UnitDirs ![3 / 5, 4 / 5, 0]) ∧
    ∀ v : Vec ℝ 3, ContinuousWithinAt (fun d => coords (Transform.apply (R d) v)) UnitDirs ![0, 1, 0] := by
  obtain ⟨R, hR⟩ := Cont.pub_total
  refine ⟨R, hR, fun h => ?_, (C88_look_at_any R hR ((Cont.unit_iff _).2 (by simp))).2 (by simp)⟩
  have := (C88_look_at_any R hR ((Cont.unit_iff _).2 (by simp; norm_num))).1 h
  simp at this
example : ∃ R : (Fin 3 → ℝ) → Rotation3 ℝ, (∀ d ∈ UnitDirs, ∀ fuel, 3 ≤ fuel → Rotation3.lookAtAnyContR fuel (ofCoords d) = .ok (R d)) ∧
    (¬ ∀ v : Vec ℝ 3, ContinuousWithinAt (fun d => coords (Transform.apply (R d) v)) UnitDirs ![1, 0, 0]) ∧
    ∀ v : Vec ℝ 3, ContinuousWithinAt (fun d => coords (Transform.apply (R d) v)) UnitDirs ![3 / 5, 0, 4 / 5] := by
  obtain ⟨R, hR⟩ := Cont.priv_total
  exact ⟨R, hR, (C88_doc_refuted R hR).2.2.2, (C88_look_at_any_cont R hR ((Cont.unit_iff _).2 (by simp; norm_num))).2 (by simp)⟩
/-- `look_at_any` of linear maps jumps at `(√3/2, 0, 1/2)` and does not at `(0, √3/2, -1/2)`. -/
example : (¬ ∀ v : Vec ℝ 3, ContinuousWithinAt (fun d => coords (Transform.apply (Linear.lookAtAny (ofCoords d)) v)) UnitDirs ![Real.sqrt 3 / 2, 0, 1 / 2]) ∧
    ∀ v : Vec ℝ 3, ContinuousWithinAt (fun d => coords (Transform.apply (Linear.lookAtAny (ofCoords d)) v)) UnitDirs ![0, Real.sqrt 3 / 2, -1 / 2] := by
  have h3 := Real.mul_self_sqrt (show (0 : ℝ) ≤ 3 by norm_num)
  have hp : 0 < Real.sqrt 3 := Real.sqrt_pos.2 (by norm_num)
  refine ⟨fun h => ?_, (C88_linear_look_at_any ((Cont.unit_iff _).2 (by simp; nlinarith))).2 (Or.inr ⟨rfl, ?_⟩)⟩
  · have := (C88_linear_look_at_any ((Cont.unit_iff _).2 (by simp; nlinarith))).1 h
    have e : (![Real.sqrt 3 / 2, 0, 1 / 2] : Fin 3 → ℝ) 2 = 1 / 2 := rfl
    have e1 : (![Real.sqrt 3 / 2, 0, 1 / 2] : Fin 3 → ℝ) 1 = 0 := rfl
    rw [e, e1, abs_of_pos (by norm_num)] at this
    simp at this
  · show Real.sqrt 3 / 2 * (-1 / 2) < 0
    linarith
/-- Directions that are not parallel. -/
example (v : Vec ℝ 3) : ContinuousAt (fun x : (Fin 3 → ℝ) × (Fin 3 → ℝ) => coords (Transform.apply (Linear.lookAt (ofCoords x.1) (ofCoords x.2)) v))
    (![1, 2, 3], ![0, 0, 1]) :=
  C88_linear_look_at _ _ (by
    intro h0
    have a := congrArg (fun v : Vec ℝ 3 => v[0]) h0
    simp [ofCoords] at a) v
end Vecmat
