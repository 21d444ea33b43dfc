import Verif.Props.F32LookAt
import Verif.Props.F64Rotation
import Verif.Props.F32Linear
import Mathlib.Analysis.Real.Pi.Bounds
/-! # C107 continued: `Rotation3::look_at_any` in single precision -/
namespace Vecmat
open Spec Ieee F32
open F64 (toE toE_apply norm_toE toE_sub toE_neg toE_divS abs_le_norm ofFn ofFn_get length3 length_nonneg length_le_of_sq normalize_length length_close length_tri front front_real front_norm image_close mz_len abs_le_length NotNeg any_neg any_pos rlt_val dot3_ieee)
set_option exponentiation.threshold 3000

namespace F32
theorem rel1 {x : ℝ} (h1 : 1 / 4 ≤ x) (h2 : x ≤ 4) : ∃ e, |e| ≤ 1 / 2 ^ 24 ∧ Fmt.f32.near x = x * (1 + e) ∧ |Fmt.f32.near x| < huge Fmt.f32 := by
  have x0 : 0 < x := by linarith
  have hn := near_rel (φ := Fmt.f32) (x := x) (by
    rw [abs_of_pos x0]
    calc ((2:ℝ) ^ Fmt.f32.emin) ≤ 1 / 4 := by norm_num [Fmt.f32]
      _ ≤ x := h1)
  rw [u_eq, abs_of_pos x0] at hn
  refine ⟨(Fmt.f32.near x - x) / x, ?_, by field_simp; ring, (round_val (by rw [abs_of_pos x0]; exact h2)).1⟩
  rw [abs_div, abs_of_pos x0, div_le_iff₀ x0]; exact hn

set_option maxHeartbeats 1000000 in
theorem cs_val [FloatOps F] (hs : ∀ a : F, FloatOps.sqrt a = Ieee.sqrt a) {a : F} {d : ℝ} (ha : a.toReal? = some d) (d0 : 0 ≤ d) (d1 : d ≤ 1 + 1 / 2 ^ 10) :
    ∃ c s, (FloatOps.sqrt ((1 + a) / two) : F).toReal? = some c ∧ (1 / (two * FloatOps.sqrt ((1 + a) / two)) : F).toReal? = some s ∧
      |c - Real.sqrt ((1 + d) / 2)| ≤ 17 / 8 / 2 ^ 24 ∧ |s * (2 * Real.sqrt ((1 + d) / 2)) - 1| ≤ 33 / 8 / 2 ^ 24 := by
  set C := Real.sqrt ((1 + d) / 2) with hC
  norm_num at d1
  have C2 : C ^ 2 = (1 + d) / 2 := Real.sq_sqrt (by linarith)
  have C0 : 0 ≤ C := Real.sqrt_nonneg _
  have Cl : 7 / 10 ≤ C := Real.le_sqrt_of_sq_le (by norm_num; linarith)
  have Cr : C ≤ 1 + 1 / 2 ^ 10 := by rw [hC]; apply Real.sqrt_le_iff.2; norm_num; linarith
  norm_num at Cr
  rw [hs]
  have u0 : (0:ℝ) < 1 / 2 ^ 24 := by positivity
  have us : (1 / 2 ^ 24 : ℝ) ≤ 1 / 2 ^ 21 := by norm_num
  have hu : ∀ {e : ℝ}, |e| ≤ 1 / 2 ^ 24 → 1 - 1 / 2 ^ 24 ≤ 1 + e ∧ 1 + e ≤ 1 + 1 / 2 ^ 24 := fun h => by
    obtain ⟨a, b⟩ := abs_le.1 h
    constructor <;> linarith
  obtain ⟨e1, b1, n1, f1⟩ := rel1 (x := 1 + d) (by linarith) (by linarith)
  have v1 : (1 + a : F).toReal? = some ((1 + d) * (1 + e1)) := by rw [← n1]; exact val_add_iff.2 ⟨1, d, rfl, ha, rfl, f1⟩
  obtain ⟨l1, r1⟩ := hu b1
  set h := (1 + d) * (1 + e1) with hh
  have hl : 1 - 1 / 2 ^ 21 ≤ h := by norm_num at l1 ⊢; nlinarith
  have hr : h ≤ 2 + 1 / 2 ^ 9 := by norm_num at r1 ⊢; nlinarith
  obtain ⟨e2, b2, n2, f2⟩ := rel1 (x := h / 2) (by norm_num at hl; linarith) (by norm_num at hr; linarith)
  have v2 : ((1 + a) / two : F).toReal? = some (h / 2 * (1 + e2)) := by
    rw [← n2]; exact val_div_iff.2 (.inl ⟨h, 2, v1, rfl, two_ne_zero, rfl, f2⟩)
  obtain ⟨l2, r2⟩ := hu b2
  have hq : h / 2 * (1 + e2) = C ^ 2 * ((1 + e1) * (1 + e2)) := by rw [C2, hh]; ring
  have p0 : 0 ≤ (1 + e1) * (1 + e2) := mul_nonneg (by norm_num at l1; linarith) (by norm_num at l2; linarith)
  set w := Real.sqrt ((1 + e1) * (1 + e2)) with hw
  have sq : Real.sqrt (h / 2 * (1 + e2)) = C * w := by rw [hq, Real.sqrt_mul (sq_nonneg C), Real.sqrt_sq C0]
  have wl : 1 - 1 / 2 ^ 24 ≤ w := Real.le_sqrt_of_sq_le (by rw [pow_two]; exact mul_le_mul l1 l2 (by norm_num) (by norm_num at l1; linarith))
  have wr : w ≤ 1 + 1 / 2 ^ 24 := Real.sqrt_le_iff.2 ⟨by norm_num, by rw [pow_two]; exact mul_le_mul r1 r2 (by norm_num at l2; linarith) (by norm_num)⟩
  have w0 : 0 ≤ w := Real.sqrt_nonneg _
  obtain ⟨e3, b3, n3, f3⟩ := rel1 (x := C * w) (by
      calc (1 / 4:ℝ) ≤ 7 / 10 * (1 - 1 / 2 ^ 24) := by norm_num
        _ ≤ _ := by gcongr) (by
      calc C * w ≤ 1025 / 1024 * (1 + 1 / 2 ^ 24) := by gcongr
        _ ≤ _ := by norm_num)
  have v3 : (Ieee.sqrt ((1 + a) / two) : F).toReal? = some (C * w * (1 + e3)) := by
    rw [← n3, ← sq]; exact val_sqrt_iff.2 ⟨_, v2, by rw [hq]; positivity, rfl, by rw [sq]; exact f3⟩
  obtain ⟨l3, r3⟩ := hu b3
  set g := w * (1 + e3) with hg
  have gl : (1 - 1 / 2 ^ 24) * (1 - 1 / 2 ^ 24) ≤ g := mul_le_mul wl l3 (by norm_num) w0
  have gr : g ≤ (1 + 1 / 2 ^ 24) * (1 + 1 / 2 ^ 24) := mul_le_mul wr r3 (by norm_num at l3; linarith) (by norm_num)
  have vc : C * w * (1 + e3) = C * g := by rw [hg]; ring
  rw [vc] at v3
  obtain ⟨e4, b4, n4, f4⟩ := rel1 (x := 2 * (C * g)) (by
      calc (1 / 4:ℝ) ≤ 2 * (7 / 10 * ((1 - 1 / 2 ^ 24) * (1 - 1 / 2 ^ 24))) := by norm_num
        _ ≤ _ := by gcongr) (by
      calc 2 * (C * g) ≤ 2 * (1025 / 1024 * ((1 + 1 / 2 ^ 24) * (1 + 1 / 2 ^ 24))) := by gcongr
        _ ≤ _ := by norm_num)
  have v4 : (two * Ieee.sqrt ((1 + a) / two) : F).toReal? = some (2 * (C * g) * (1 + e4)) := by
    rw [← n4]; exact val_mul_iff.2 ⟨2, _, rfl, v3, rfl, f4⟩
  obtain ⟨l4, r4⟩ := hu b4
  set k := g * (1 + e4) with hk
  have g0 : 0 < g := lt_of_lt_of_le (by norm_num) gl
  have kl : (1 - 1 / 2 ^ 24) * (1 - 1 / 2 ^ 24) * (1 - 1 / 2 ^ 24) ≤ k := mul_le_mul gl l4 (by norm_num) g0.le
  have kr : k ≤ (1 + 1 / 2 ^ 24) * (1 + 1 / 2 ^ 24) * (1 + 1 / 2 ^ 24) := mul_le_mul gr r4 (by norm_num at l4; linarith) (by norm_num)
  have vk : 2 * (C * g) * (1 + e4) = 2 * C * k := by rw [hk]; ring
  rw [vk] at v4
  have k0 : 0 < k := lt_of_lt_of_le (by norm_num) kl
  have ck0 : 0 < 2 * C * k := by positivity
  have ckr : 2 * C * k ≤ 3 := by
    calc 2 * C * k ≤ 2 * (1025 / 1024) * ((1 + 1 / 2 ^ 24) * (1 + 1 / 2 ^ 24) * (1 + 1 / 2 ^ 24)) := by gcongr
      _ ≤ _ := by norm_num
  have ckl : 1 ≤ 2 * C * k := by
    calc (1:ℝ) ≤ 2 * (7 / 10) * ((1 - 1 / 2 ^ 24) * (1 - 1 / 2 ^ 24) * (1 - 1 / 2 ^ 24)) := by norm_num
      _ ≤ _ := by gcongr
  obtain ⟨e5, b5, n5, f5⟩ := rel1 (x := 1 / (2 * C * k)) (by rw [le_div_iff₀ ck0]; linarith) (by rw [div_le_iff₀ ck0]; linarith)
  have v5 : (1 / (two * Ieee.sqrt ((1 + a) / two)) : F).toReal? = some (1 / (2 * C * k) * (1 + e5)) := by
    rw [← n5]; exact val_div_iff.2 (.inl ⟨1, _, rfl, v4, ck0.ne', rfl, f5⟩)
  obtain ⟨l5, r5⟩ := hu b5
  refine ⟨_, _, v3, v5, ?_, ?_⟩
  · rw [show C * g - C = C * (g - 1) by ring, abs_mul, abs_of_nonneg C0]
    have : |g - 1| ≤ 2125 / 1000 / 2 ^ 24 * (1000 / 1001) := by rw [abs_le]; norm_num at gl gr ⊢; constructor <;> linarith
    calc C * |g - 1| ≤ 1025 / 1024 * (2125 / 1000 / 2 ^ 24 * (1000 / 1001)) := by gcongr
      _ ≤ _ := by norm_num
  · have Cp : 0 < C := by linarith
    have : 1 / (2 * C * k) * (1 + e5) * (2 * C) = (1 + e5) / k := by field_simp
    rw [this, abs_le]
    constructor
    · rw [le_sub_iff_add_le, le_div_iff₀ k0]; norm_num at kr l5 ⊢; linarith
    · rw [sub_le_iff_le_add, div_le_iff₀ k0]; norm_num at kl r5 ⊢; linarith

theorem dot_val {dir : Vec F 3} {D : Vec ℝ 3} (hd : ValV dir D) (hdat : ∀ i : Fin 3, Datum dir[i.1]) :
    ((Vec.fromTuple3 ((0 : F), 0, -1)).dot dir).toReal? = some (-D[2]) := by
  have := dot_unit (C80_formats.1) (Vec.fromTuple3 ((0 : F), 0, -1)) dir ![0, 0, -1] (fun j => D[j.1]) (fun j => by
    fin_cases j
    · simp; rfl
    · simp; rfl
    · show ((-1 : F)).toReal? = _
      simp; rfl) (by decide) (by decide) hdat hd
  rw [this, Fin.sum_univ_three]; simp
theorem crossz_val {dir : Vec F 3} {D : Vec ℝ 3} (hd : ValV dir D) (hdat : ∀ i : Fin 3, Datum dir[i.1]) :
    ValV ((Vec.fromTuple3 ((0 : F), 0, -1)).cross3 dir) (Vec.fromTuple3 (D[1], -D[0], 0)) := by
  have hφ : WF Fmt.f32 := C80_formats.1
  have r0 := rep_zero hφ
  have rr := fun i : Fin 3 => Datum.rep hφ (hdat i) (hd i)
  have z0 : Val (0 : F) 0 := val_zero'
  have m1 : Val (-1 : F) (-1) := val_neg val_one
  have p0 : ∀ i : Fin 3, Val ((0 : F) * dir[i.1]) 0 := fun i => val_zero_mul hφ z0 (hd i)
  have pm : ∀ i : Fin 3, Val ((-1 : F) * dir[i.1]) (-D[i.1]) := fun i => by
    have := val_mul m1 (hd i) (by rw [neg_one_mul]; exact rep_neg (rr i))
    rwa [neg_one_mul] at this
  intro i
  fin_cases i
  · show Val ((Vec.fromTuple3 ((0 : F), 0, -1)).cross3 dir)[0] D[1]
    rw [Vec.cross3_0]
    have := val_sub (p0 2) (pm 1) (by rw [sub_neg_eq_add, zero_add]; exact rr 1)
    rw [sub_neg_eq_add, zero_add] at this
    exact this
  · show Val ((Vec.fromTuple3 ((0 : F), 0, -1)).cross3 dir)[1] (-D[0])
    rw [Vec.cross3_1]
    have := val_sub (pm 0) (p0 2) (by rw [sub_zero]; exact rep_neg (rr 0))
    rw [sub_zero] at this
    exact this
  · show Val ((Vec.fromTuple3 ((0 : F), 0, -1)).cross3 dir)[2] 0
    rw [Vec.cross3_2]
    have := val_sub (p0 1) (p0 0) (by rw [sub_zero]; exact r0)
    rw [sub_zero] at this
    exact this
/-- A product of a component with the reciprocal. -/
theorem comp_val {a b : F} {x s C : ℝ} (ha : a.toReal? = some x) (hb : b.toReal? = some s) (hx : |x| ≤ 1 + 1 / 2 ^ 10) (hC : 7 / 10 ≤ C)
    (hs : |s * (2 * C) - 1| ≤ 33 / 8 / 2 ^ 24) : ∃ r, (a * b).toReal? = some r ∧ |r - x * (1 / (2 * C))| ≤ 15 / 4 / 2 ^ 24 := by
  have C0 : 0 < C := by linarith
  have hi : |1 / (2 * C)| ≤ 5 / 7 := by rw [abs_of_pos (by positivity), div_le_iff₀ (by positivity)]; linarith
  have e : s - 1 / (2 * C) = (s * (2 * C) - 1) * (1 / (2 * C)) := by field_simp
  have hs' : |s - 1 / (2 * C)| ≤ 33 / 8 / 2 ^ 24 * (5 / 7) := by rw [e, abs_mul]; gcongr
  have hsb : |s| ≤ 5 / 7 + 1 / 2 ^ 16 := by
    calc |s| = |(s - 1 / (2 * C)) + 1 / (2 * C)| := by congr 1; ring
      _ ≤ _ := abs_add_le _ _
      _ ≤ 33 / 8 / 2 ^ 24 * (5 / 7) + 5 / 7 := add_le_add hs' hi
      _ ≤ _ := by norm_num
  have hxs : |x * s| ≤ (1 + 1 / 2 ^ 10) * (5 / 7 + 1 / 2 ^ 16) := by rw [abs_mul]; gcongr
  obtain ⟨f, er⟩ := round_val (x := x * s) (hxs.trans (by norm_num))
  refine ⟨_, val_mul_iff.2 ⟨x, s, ha, hb, rfl, f⟩, ?_⟩
  calc _ = |(Fmt.f32.near (x * s) - x * s) + x * (s - 1 / (2 * C))| := by congr 1; ring
    _ ≤ _ := abs_add_le _ _
    _ ≤ (1 / 2 ^ 24 * ((1 + 1 / 2 ^ 10) * (5 / 7 + 1 / 2 ^ 16)) + 1 / 2 ^ 150) + (1 + 1 / 2 ^ 10) * (33 / 8 / 2 ^ 24 * (5 / 7)) := by
      refine add_le_add (er.trans (by gcongr)) ?_
      rw [abs_mul]; gcongr
    _ ≤ _ := by norm_num

theorem front_val [FloatOps F] (hs : ∀ a : F, FloatOps.sqrt a = Ieee.sqrt a) {dir : Vec F 3} {D : Vec ℝ 3} (hd : ValV dir D)
    (hdat : ∀ i : Fin 3, Datum dir[i.1]) (hD : |D.length - 1| ≤ 1 / 2 ^ 10) (hz : D[2] ≤ (0:ℝ)) :
    ∃ R : Rotation3 ℝ, ValQ (front dir).intoQuaternion R.intoQuaternion ∧ ‖R.quat.toH - (front D).quat.toH‖ ≤ 6 / 2 ^ 24 := by
  have hb : ∀ i : Fin 3, |D[i.1]| ≤ 1 + 1 / 2 ^ 10 := fun i => (abs_le_length D i).trans (by have := (abs_le.1 hD).2; linarith)
  have hdot := dot_val hd hdat
  obtain ⟨c, s, vc, vs, ec, es⟩ := cs_val hs hdot (by linarith) (by have := (abs_le.1 (hb 2)).1; simp at this ⊢; linarith)
  have hcr := crossz_val hd hdat
  set C := Real.sqrt (((1:ℝ) + -D[2]) / 2) with hC
  have Cl : 7 / 10 ≤ C := Real.le_sqrt_of_sq_le (by norm_num; linarith)
  obtain ⟨x, vx, ex⟩ := comp_val (hcr 0) vs (hb 1) Cl es
  obtain ⟨y, vy, ey⟩ := comp_val (hcr 1) vs (by show |-D[0]| ≤ _; rw [abs_neg]; exact hb 0) Cl es
  obtain ⟨z, vz⟩ : ∃ z, z = (0:ℝ) ∧ (((Vec.fromTuple3 ((0 : F), 0, -1)).cross3 dir)[2] * (1 / (two * FloatOps.sqrt ((1 + (Vec.fromTuple3 ((0 : F), 0, -1)).dot dir) / two)))).toReal? = some z :=
    ⟨0, rfl, val_zero_mul C80_formats.1 (hcr 2) vs⟩
  refine ⟨⟨Quat.new c x y z⟩, ⟨?_, ?_, ?_, ?_⟩, ?_⟩
  · simpa [front, Rotation3.fromQuaternion, Rotation3.intoQuaternion] using vc
  · simpa [front, Rotation3.fromQuaternion, Rotation3.intoQuaternion] using vx
  · simpa [front, Rotation3.fromQuaternion, Rotation3.intoQuaternion] using vy
  · simpa [front, Rotation3.fromQuaternion, Rotation3.intoQuaternion] using vz.2
  · rw [front_real, ← hC, ← toH_sub, quat_norm]
    apply Real.sqrt_le_iff.2 ⟨by norm_num, ?_⟩
    have sqb : ∀ {t b : ℝ}, |t| ≤ b → t ^ 2 ≤ b ^ 2 := fun {t b} h => by rw [← sq_abs t]; exact pow_le_pow_left₀ (abs_nonneg t) h 2
    have a1 := sqb ec; have a2 := sqb ex; have a3 := sqb ey
    rw [vz.1]
    simp at a1 a2 a3 ⊢
    norm_num at a1 a2 a3 ⊢
    linarith

theorem mz_val : ValV (Vec.fromTuple3 ((0:F), 0, -1)) (Vec.fromTuple3 ((0:ℝ), 0, -1)) := by
  intro i; fin_cases i
  · rfl
  · rfl
  · exact val_neg val_one
/-- From an approximate quaternion to the computed image of `-z`. -/
theorem final_image {r : Rotation3 F} {R S : Rotation3 ℝ} {D : Vec ℝ 3} {e δ : ℝ} (hr : ValQ r.intoQuaternion R.intoQuaternion)
    (h : ‖R.quat.toH - S.quat.toH‖ ≤ e) (he : e ≤ 1 / 2 ^ 14) (hS : |‖S.quat.toH‖ - 1| ≤ 3 / 5 * δ) (hδ : δ ≤ 1 / 2 ^ 10)
    (hi : (Transform.apply S (Vec.fromTuple3 (0, 0, -1)) - D).length ≤ 513 / 512 * δ) :
    NearUnit3 (e + δ) R ∧ ∃ Y, ValV (Transform.apply r (Vec.fromTuple3 ((0 : F), 0, -1))) Y ∧ (Y - D).length ≤ 20 / 2 ^ 24 + 129 / 64 * e + 2 * δ := by
  have δ0 : 0 ≤ δ := by have := (abs_nonneg _).trans hS; linarith
  have e0 : 0 ≤ e := (norm_nonneg _).trans h
  have hRS := abs_le.1 ((abs_norm_sub_norm_le R.quat.toH S.quat.toH).trans h)
  obtain ⟨s1, s2⟩ := abs_le.1 hS
  norm_num at he hδ
  have hR : ‖R.quat.toH‖ ≤ 1 + 1 / 2 ^ 10 := by norm_num; linarith
  constructor
  · show |R.quat.norm - 1| ≤ _
    rw [norm_eq, abs_le]
    constructor <;> linarith
  · obtain ⟨Y, hY, eY⟩ := apply_core hr mz_val hR (by rw [mz_len]; norm_num)
    refine ⟨Y, hY, ?_⟩
    rw [mz_len, mul_one] at eY
    have h2 := image_close R S (Vec.fromTuple3 (0, 0, -1))
    rw [mz_len, mul_one] at h2
    have h3 : ‖R.quat.toH - S.quat.toH‖ * (‖R.quat.toH‖ + ‖S.quat.toH‖) ≤ e * (129 / 64) := by
      apply mul_le_mul h _ (by positivity) e0
      norm_num at hR; linarith
    have t1 := length_tri Y (Transform.apply R (Vec.fromTuple3 (0, 0, -1))) D
    have t2 := length_tri (Transform.apply R (Vec.fromTuple3 (0, 0, -1))) (Transform.apply S (Vec.fromTuple3 (0, 0, -1))) D
    have : (19 / 2 ^ 24 + 1 / 2 ^ 144 : ℝ) ≤ 20 / 2 ^ 24 := by norm_num
    linarith
end F32

/-- `Rotation3::look_at_any`, direction with a negative third component: with any mathematical library whose `sqrt` is that of IEEE 754, for a
direction of length `1` up to `δ ≤ 2^-10`, the result is a finite quaternion of norm `1` up to `6u + δ`, and applying it to `-z` gives the
direction up to `33u + 2δ`. -/
theorem C107_rotation_look_at_any_front [FloatOps F] [FloatConst F] (hs : ∀ a : F, FloatOps.sqrt a = Ieee.sqrt a) (dir : Vec F 3) (D : Vec ℝ 3)
    (hd : ValV dir D) (hdat : ∀ i : Fin 3, Datum dir[i.1]) (δ : ℝ) (hD : |D.length - 1| ≤ δ) (hδ : δ ≤ 1 / 2 ^ 10) (hz : D[2] < (0:ℝ)) :
    ∃ (r : Rotation3 F) (R : Rotation3 ℝ), (∀ fuel, 2 ≤ fuel → Rotation3.lookAtAnyR fuel dir = .ok r) ∧
      ValQ r.intoQuaternion R.intoQuaternion ∧ NearUnit3 (6 / 2 ^ 24 + δ) R ∧
      ∃ Y, ValV (Transform.apply r (Vec.fromTuple3 ((0 : F), 0, -1))) Y ∧ (Y - D).length ≤ 33 / 2 ^ 24 + 2 * δ := by
  obtain ⟨R, hR, eR⟩ := front_val hs hd hdat (hD.trans hδ) hz.le
  obtain ⟨n, im⟩ := front_norm hz.le hD hδ
  obtain ⟨h1, Y, hY, eY⟩ := final_image hR eR (by norm_num) n hδ im
  refine ⟨_, R, fun fuel hf => any_neg ((rlt_val (hd 2) val_zero').2 hz) hf, hR, h1, Y, hY, eY.trans ?_⟩
  have : (20 / 2 ^ 24 + 129 / 64 * (6 / 2 ^ 24) : ℝ) ≤ 33 / 2 ^ 24 := by norm_num
  linarith

/-- The other directions: the result is composed with the half turn `Rotation3::new(x, PI)`, whose quaternion depends on the library's `sin`
and `cos`; if it is within `4u` of `i`, the result is a finite quaternion of norm `1` up to `21u + δ` and maps `-z` to the direction up to
`63u + 2δ`. -/
theorem C107_rotation_look_at_any_back [FloatOps F] [FloatConst F] (hs : ∀ a : F, FloatOps.sqrt a = Ieee.sqrt a) (dir : Vec F 3) (D : Vec ℝ 3)
    (hd : ValV dir D) (hdat : ∀ i : Fin 3, Datum dir[i.1]) (δ : ℝ) (hD : |D.length - 1| ≤ δ) (hδ : δ ≤ 1 / 2 ^ 10) (hz : (0:ℝ) ≤ D[2])
    (P : Quat ℝ) (hP : ValQ (Rotation3.new (Vec.fromTuple3 ((1 : F), 0, 0)) FloatConst.pi).intoQuaternion P)
    (eP : (P - Quat.new 0 1 0 0).norm ≤ 4 / 2 ^ 24) :
    ∃ (r : Rotation3 F) (R : Rotation3 ℝ), (∀ fuel, 2 ≤ fuel → Rotation3.lookAtAnyR fuel dir = .ok r) ∧
      ValQ r.intoQuaternion R.intoQuaternion ∧ NearUnit3 (21 / 2 ^ 24 + δ) R ∧
      ∃ Y, ValV (Transform.apply r (Vec.fromTuple3 ((0 : F), 0, -1))) Y ∧ (Y - D).length ≤ 63 / 2 ^ 24 + 2 * δ := by
  have hl : (-D).length = D.length := by rw [← norm_toE, ← norm_toE, toE_neg, norm_neg]
  have hD' : |(-D).length - 1| ≤ δ := by rw [hl]; exact hD
  have hz' : (-D)[2] ≤ 0 := by rw [Vec.getElem_neg]; linarith
  have δ0 : 0 ≤ δ := (abs_nonneg _).trans hD
  obtain ⟨Q, hQ, eQ⟩ := front_val (dir := -dir) (D := -D) hs (neg_valV hd) (fun i => by rw [Vec.getElem_neg]; exact datum_neg (hdat i)) (hD'.trans hδ) hz'
  obtain ⟨n, im⟩ := front_norm hz' hD' hδ
  set S : Rotation3 ℝ := ⟨(front (-D)).quat * Quat.new 0 1 0 0⟩ with hS
  have eP' : ‖P.toH - (Quat.new (0:ℝ) 1 0 0).toH‖ ≤ 4 / 2 ^ 24 := by rw [← toH_sub, ← norm_eq]; exact eP
  have ni : ‖(Quat.new (0:ℝ) 1 0 0).toH‖ = 1 := by rw [quat_norm]; simp
  have nS : ‖S.quat.toH‖ = ‖(front (-D)).quat.toH‖ := by rw [hS, toH_mul, norm_mul, ni, mul_one]
  obtain ⟨n1, n2⟩ := abs_le.1 n
  have nP : ‖P.toH‖ ≤ 1 + 4 / 2 ^ 24 := by
    have := (abs_le.1 ((abs_norm_sub_norm_le P.toH (Quat.new (0:ℝ) 1 0 0).toH).trans eP')).2
    rw [ni] at this; linarith
  have nF : ‖(front (-D)).quat.toH‖ ≤ 1 + 1 / 2 ^ 10 := by linarith
  have nQ : ‖Q.quat.toH‖ ≤ 1 + 3 / 5 * (1 / 2 ^ 10) + 6 / 2 ^ 24 := by
    have := (abs_le.1 ((abs_norm_sub_norm_le Q.quat.toH (front (-D)).quat.toH).trans eQ)).2
    linarith
  obtain ⟨R, hR, eR⟩ := chain_core (r := front (-dir)) (s := Rotation3.new (Vec.fromTuple3 ((1 : F), 0, 0)) FloatConst.pi) (R := Q) (S := ⟨P⟩) hQ hP
    (nQ.trans (by norm_num)) (nP.trans (by norm_num))
  have eRS : ‖R.quat.toH - S.quat.toH‖ ≤ 21 / 2 ^ 24 := by
    have e : R.quat.toH - S.quat.toH = (R.quat.toH - Q.quat.toH * P.toH) + ((Q.quat.toH - (front (-D)).quat.toH) * P.toH +
        (front (-D)).quat.toH * (P.toH - (Quat.new (0:ℝ) 1 0 0).toH)) := by rw [hS, toH_mul]; noncomm_ring
    rw [e]
    calc _ ≤ ‖R.quat.toH - Q.quat.toH * P.toH‖ + (‖(Q.quat.toH - (front (-D)).quat.toH) * P.toH‖ +
          ‖(front (-D)).quat.toH * (P.toH - (Quat.new (0:ℝ) 1 0 0).toH)‖) := (norm_add_le _ _).trans (add_le_add le_rfl (norm_add_le _ _))
      _ ≤ 10 / 2 ^ 24 + (6 / 2 ^ 24 * (1 + 4 / 2 ^ 24) + (1 + 1 / 2 ^ 10) * (4 / 2 ^ 24)) := by
        rw [norm_mul, norm_mul]; gcongr
      _ ≤ _ := by norm_num
  have him : Transform.apply S (Vec.fromTuple3 ((0:ℝ), 0, -1)) = -Transform.apply (front (-D)) (Vec.fromTuple3 ((0:ℝ), 0, -1)) := by
    have ei : Transform.apply (Rotation3.fromQuaternion (Quat.new (0:ℝ) 1 0 0)) (Vec.fromTuple3 ((0:ℝ), 0, -1)) = -Vec.fromTuple3 ((0:ℝ), 0, -1) := by
      apply Vec.ext3
      · rw [Rotation3.apply_0]; simp [Rotation3.fromQuaternion]
      · rw [Rotation3.apply_1]; simp [Rotation3.fromQuaternion]
      · rw [Rotation3.apply_2]; simp [Rotation3.fromQuaternion]
    have := (C55_group (T := ℝ)).2.1 (front (-D)) (Rotation3.fromQuaternion (Quat.new (0:ℝ) 1 0 0)) (Vec.fromTuple3 ((0:ℝ), 0, -1))
    rw [show S = Transform.chain (Vec ℝ 3) (front (-D)) (Rotation3.fromQuaternion (Quat.new (0:ℝ) 1 0 0)) from rfl, this, ei, Rotation3.apply_neg]
  have im' : (Transform.apply S (Vec.fromTuple3 ((0:ℝ), 0, -1)) - D).length ≤ 513 / 512 * δ := by
    rw [him]
    refine le_of_eq_of_le ?_ im
    rw [← norm_toE, ← norm_toE, toE_sub, toE_sub, toE_neg, toE_neg, ← norm_neg]
    congr 1; abel
  obtain ⟨h1, Y, hY, eY⟩ := final_image hR eRS (by norm_num) (by rw [nS]; exact n) hδ im'
  refine ⟨_, R, fun fuel hf => any_pos ?_ hf, hR, h1, Y, hY, eY.trans ?_⟩
  · unfold NotNeg
    rw [Bool.eq_false_iff]
    exact fun h => absurd ((rlt_val (hd 2) val_zero').1 h) (by simpa using hz)
  have : (20 / 2 ^ 24 + 129 / 64 * (21 / 2 ^ 24) : ℝ) ≤ 63 / 2 ^ 24 := by norm_num
  linarith

namespace F32
theorem lift1_val {f : ℝ → ℝ} {a : F} {x : ℝ} (ha : a.toReal? = some x) (h : |f x| ≤ 4) : (lift1 f a).toReal? = some (Fmt.f32.near (f x)) := by
  unfold lift1
  rw [ha]
  show (if f x = 0 then (0 : F) else rnd (f x)).toReal? = _
  by_cases h0 : f x = 0
  · rw [if_pos h0, h0, Fmt.near_zero]; rfl
  · rw [if_neg h0]; exact (val_rnd_near).2 ⟨rfl, (round_val h).1⟩
end F32

/-- The hypothesis of `C107_rotation_look_at_any_back` holds for a library whose constant `PI`, `sin` and `cos` are correctly rounded. -/
theorem C107_half_turn : ∃ P : Quat ℝ, ValQ (Rotation3.new (Vec.fromTuple3 ((1 : F), 0, 0)) FloatConst.pi).intoQuaternion P ∧
    (P - Quat.new 0 1 0 0).norm ≤ 4 / 2 ^ 24 := by
  have p3 := Real.pi_gt_three; have p4 := Real.pi_lt_d2
  obtain ⟨e1, b1, n1, f1⟩ := rel1 (x := Real.pi) (by linarith) (by linarith)
  have v1 : (FloatConst.pi : F).toReal? = some (Real.pi * (1 + e1)) := by
    rw [← n1]; exact val_rnd_near.2 ⟨rfl, f1⟩
  obtain ⟨l1, r1⟩ := abs_le.1 b1
  obtain ⟨e2, b2, n2, f2⟩ := rel1 (x := Real.pi * (1 + e1) / 2) (by norm_num at l1; nlinarith) (by norm_num at r1; nlinarith)
  have v2 : (FloatConst.pi / two : F).toReal? = some (Real.pi * (1 + e1) / 2 * (1 + e2)) := by
    rw [← n2]; exact val_div_iff.2 (.inl ⟨_, 2, v1, rfl, two_ne_zero, rfl, f2⟩)
  obtain ⟨l2, r2⟩ := abs_le.1 b2
  set h := Real.pi * (1 + e1) / 2 * (1 + e2) with hh
  have hb : |h - Real.pi / 2| ≤ 3.2 / 2 ^ 24 := by
    have e : h - Real.pi / 2 = Real.pi / 2 * (e1 + e2 + e1 * e2) := by rw [hh]; ring
    rw [e, abs_mul, abs_of_pos (by positivity)]
    have : |e1 + e2 + e1 * e2| ≤ 1 / 2 ^ 24 + 1 / 2 ^ 24 + 1 / 2 ^ 24 * (1 / 2 ^ 24) := by
      refine (abs_add_le _ _).trans (add_le_add ((abs_add_le _ _).trans (add_le_add b1 b2)) ?_)
      rw [abs_mul]; gcongr
    calc Real.pi / 2 * |e1 + e2 + e1 * e2| ≤ 3.15 / 2 * (1 / 2 ^ 24 + 1 / 2 ^ 24 + 1 / 2 ^ 24 * (1 / 2 ^ 24)) := by gcongr
      _ ≤ 3.2 / 2 ^ 24 := by norm_num
  set t := h - Real.pi / 2 with ht
  have hc : |Real.cos h| ≤ 3.2 / 2 ^ 24 := by
    have : Real.cos h = -Real.sin t := by rw [ht, Real.sin_sub_pi_div_two]; ring
    rw [this, abs_neg]
    exact (Real.abs_sin_le_abs).trans hb
  have hsn : |Real.sin h - 1| ≤ 1 / 2 ^ 44 := by
    have e : Real.sin h = Real.cos t := by rw [ht, Real.cos_sub_pi_div_two]
    have l := Real.one_sub_sq_div_two_le_cos (x := t)
    have u := Real.cos_le_one t
    have t2 : t ^ 2 ≤ (3.2 / 2 ^ 24) ^ 2 := by rw [← sq_abs]; exact pow_le_pow_left₀ (abs_nonneg _) hb 2
    rw [e, abs_le]
    norm_num at t2 ⊢
    constructor <;> linarith
  have sb : |Real.sin h| ≤ 1 := Real.abs_sin_le_one h
  have vcos : (FloatOps.cos (FloatConst.pi / two : F)).toReal? = some (Fmt.f32.near (Real.cos h)) := lift1_val (f := Real.cos) v2 ((Real.abs_cos_le_one h).trans (by norm_num))
  have vsin : (FloatOps.sin (FloatConst.pi / two : F)).toReal? = some (Fmt.f32.near (Real.sin h)) := lift1_val (f := Real.sin) v2 (sb.trans (by norm_num))
  have ec := (round_val (x := Real.cos h) ((Real.abs_cos_le_one h).trans (by norm_num))).2
  have es := (round_val (x := Real.sin h) (sb.trans (by norm_num))).2
  set c := Fmt.f32.near (Real.cos h)
  set s := Fmt.f32.near (Real.sin h)
  have es' : |s - 1| ≤ 1.01 / 2 ^ 24 := by
    calc |s - 1| = |(s - Real.sin h) + (Real.sin h - 1)| := by congr 1; ring
      _ ≤ _ := abs_add_le _ _
      _ ≤ (1 / 2 ^ 24 * 1 + 1 / 2 ^ 150) + 1 / 2 ^ 44 := add_le_add (es.trans (by gcongr)) hsn
      _ ≤ _ := by norm_num
  have ec' : |c| ≤ 3.25 / 2 ^ 24 := by
    calc |c| = |(c - Real.cos h) + Real.cos h| := by congr 1; ring
      _ ≤ _ := abs_add_le _ _
      _ ≤ (1 / 2 ^ 24 * (3.2 / 2 ^ 24) + 1 / 2 ^ 150) + 3.2 / 2 ^ 24 := add_le_add (ec.trans (by gcongr)) hc
      _ ≤ _ := by norm_num
  obtain ⟨s1, s2⟩ := abs_le.1 es'
  obtain ⟨e3, b3, n3, f3⟩ := rel1 (x := 1 * s) (by norm_num at s1 ⊢; linarith) (by norm_num at s2 ⊢; linarith)
  have v3 : ((1 : F) * FloatOps.sin (FloatConst.pi / two : F)).toReal? = some (1 * s * (1 + e3)) := by
    rw [← n3]; exact val_mul_iff.2 ⟨1, s, rfl, vsin, rfl, f3⟩
  have v0 : ((0 : F) * FloatOps.sin (FloatConst.pi / two : F)).toReal? = some 0 := val_zero_mul C80_formats.1 val_zero' vsin
  refine ⟨Quat.new c (1 * s * (1 + e3)) 0 0, ⟨?_, ?_, ?_, ?_⟩, ?_⟩
  · simpa [Rotation3.new, Rotation3.intoQuaternion] using vcos
  · simpa [Rotation3.new, Rotation3.intoQuaternion] using v3
  · simpa [Rotation3.new, Rotation3.intoQuaternion] using v0
  · simpa [Rotation3.new, Rotation3.intoQuaternion] using v0
  · rw [norm_eq, quat_norm]
    apply Real.sqrt_le_iff.2 ⟨by norm_num, ?_⟩
    have sqb : ∀ {t b : ℝ}, |t| ≤ b → t ^ 2 ≤ b ^ 2 := fun {t b} h => by rw [← sq_abs t]; exact pow_le_pow_left₀ (abs_nonneg t) h 2
    have a1 := sqb ec'
    have a2 : (s * (1 + e3) - 1) ^ 2 ≤ (2.02 / 2 ^ 24) ^ 2 := by
      apply sqb
      calc _ = |(s - 1) * (1 + e3) + e3| := by congr 1; ring
        _ ≤ _ := abs_add_le _ _
        _ ≤ 1.01 / 2 ^ 24 * (1 + 1 / 2 ^ 24) + 1 / 2 ^ 24 := by
          refine add_le_add ?_ b3
          rw [abs_mul]
          refine mul_le_mul es' ?_ (abs_nonneg _) (by norm_num)
          exact (abs_add_le _ _).trans (by rw [abs_one]; gcongr)
        _ ≤ _ := by norm_num
    simp at a1 a2 ⊢
    norm_num at a1 a2 ⊢
    linarith

/-- Both cases together, for a correctly rounded library: for every direction of length `1` up to `δ ≤ 2^-10`. -/
theorem C107_rotation_look_at_any (dir : Vec F 3) (D : Vec ℝ 3) (hd : ValV dir D) (hdat : ∀ i : Fin 3, Datum dir[i.1]) (δ : ℝ)
    (hD : |D.length - 1| ≤ δ) (hδ : δ ≤ 1 / 2 ^ 10) :
    ∃ (r : Rotation3 F) (R : Rotation3 ℝ), (∀ fuel, 2 ≤ fuel → Rotation3.lookAtAnyR fuel dir = .ok r) ∧
      ValQ r.intoQuaternion R.intoQuaternion ∧ NearUnit3 (21 / 2 ^ 24 + δ) R ∧
      ∃ Y, ValV (Transform.apply r (Vec.fromTuple3 ((0 : F), 0, -1))) Y ∧ (Y - D).length ≤ 63 / 2 ^ 24 + 2 * δ := by
  rcases lt_or_ge D[2] (0:ℝ) with hz | hz
  · obtain ⟨r, R, h1, h2, h3, Y, h4, h5⟩ := C107_rotation_look_at_any_front (fun _ => rfl) dir D hd hdat δ hD hδ hz
    refine ⟨r, R, h1, h2, (le_trans h3 ?_ : _ ≤ _), Y, h4, h5.trans ?_⟩
    · gcongr; norm_num
    · gcongr; norm_num
  · obtain ⟨P, hP, eP⟩ := C107_half_turn
    exact C107_rotation_look_at_any_back (fun _ => rfl) dir D hd hdat δ hD hδ hz P hP eP

/-! ### non-vacuity: the direction `(3/4, 5/8, ±7/32)`, of squared length `1025/1024` -/
namespace Ex107
noncomputable def dir (s : ℝ) (h : s ≠ 0) : Vec F 3 := Vec.fromTuple3 (.num (3 / 4) (by norm_num), .num (5 / 8) (by norm_num), .num s h)
theorem val (s : ℝ) (h : s ≠ 0) : ValV (dir s h) (Vec.fromTuple3 (3 / 4, 5 / 8, s)) := fun i => by fin_cases i <;> rfl
theorem dat {s : ℝ} (h : s ≠ 0) (hs : s = 7 / 32 ∨ s = -7 / 32) (i : Fin 3) : Datum (dir s h)[i.1] := by
  fin_cases i
  · exact ⟨3, -2, by norm_num, by norm_num [Fmt.f32], by norm_num [Fmt.f32], by norm_num [Fmt.f32]⟩
  · exact ⟨5, -3, by norm_num, by norm_num [Fmt.f32], by norm_num [Fmt.f32], by norm_num [Fmt.f32]⟩
  · rcases hs with hs | hs
    · exact ⟨7, -5, by rw [hs]; norm_num, by norm_num [Fmt.f32], by norm_num [Fmt.f32], by norm_num [Fmt.f32]⟩
    · exact ⟨-7, -5, by rw [hs]; norm_num, by norm_num [Fmt.f32], by norm_num [Fmt.f32], by norm_num [Fmt.f32]⟩
theorem len {s : ℝ} (hs : s ^ 2 = 49 / 1024) : |(Vec.fromTuple3 ((3 / 4 : ℝ), 5 / 8, s)).length - 1| ≤ 1 / 2 ^ 10 := by
  have h3 := length3 (Vec.fromTuple3 ((3 / 4 : ℝ), 5 / 8, s))
  have h0 := length_nonneg (Vec.fromTuple3 ((3 / 4 : ℝ), 5 / 8, s))
  simp [hs] at h3
  rw [abs_le]
  norm_num at h3 ⊢
  constructor <;> nlinarith
end Ex107
example := C107_rotation_look_at_any (Ex107.dir (-7 / 32) (by norm_num)) _ (Ex107.val _ _) (Ex107.dat _ (.inr rfl)) _ (Ex107.len (by norm_num)) le_rfl
example := C107_rotation_look_at_any_front (fun _ => rfl) (Ex107.dir (-7 / 32) (by norm_num)) _ (Ex107.val _ _) (Ex107.dat _ (.inr rfl)) _
  (Ex107.len (by norm_num)) le_rfl (by simp; norm_num)
example : True := by
  obtain ⟨P, hP, eP⟩ := C107_half_turn
  have := C107_rotation_look_at_any_back (fun _ => rfl) (Ex107.dir (7 / 32) (by norm_num)) _ (Ex107.val _ _) (Ex107.dat _ (.inl rfl)) _
    (Ex107.len (by norm_num)) le_rfl (by simp; norm_num) P hP eP
  trivial
example := C107_look_at_any (Ex107.dir (-7 / 32) (by norm_num)) _ (Ex107.val _ _) _ (Ex107.len (by norm_num)) le_rfl
namespace Ex107
theorem range {s : ℝ} (hs : s ^ 2 = 49 / 1024) : 1 / 2 ^ 40 ≤ (Vec.fromTuple3 ((3 / 4 : ℝ), 5 / 8, s)).length ∧
    (Vec.fromTuple3 ((3 / 4 : ℝ), 5 / 8, s)).length ≤ 2 ^ 40 := by
  obtain ⟨a, b⟩ := abs_le.1 (len hs)
  constructor
  · calc (1 / 2 ^ 40 : ℝ) ≤ 1 / 2 := by norm_num
      _ ≤ _ := by norm_num at a ⊢; linarith
  · calc _ ≤ (2:ℝ) := by norm_num at b ⊢; linarith
      _ ≤ _ := by norm_num
theorem range' {s : ℝ} (hs : s ^ 2 = 49 / 1024) : 1 / 2 ^ 55 ≤ (Vec.fromTuple3 ((3 / 4 : ℝ), 5 / 8, s)).length ∧
    (Vec.fromTuple3 ((3 / 4 : ℝ), 5 / 8, s)).length ≤ 2 ^ 55 :=
  ⟨le_trans (by norm_num) (range hs).1, (range hs).2.trans (by norm_num)⟩
end Ex107
example := C107_length (by norm_num) (Ex107.dir (-7 / 32) (by norm_num)) _ (Ex107.val _ _) (Ex107.range' (by norm_num)).1 (Ex107.range' (by norm_num)).2
example := C107_normalize (by norm_num) (Ex107.dir (-7 / 32) (by norm_num)) _ (Ex107.val _ _) (Ex107.range' (by norm_num)).1 (Ex107.range' (by norm_num)).2
example := C107_cross (Ex107.dir (-7 / 32) (by norm_num)) _ _ _ (Ex107.val _ _) mz_val (by
  rw [mz_len, mul_one]; exact (Ex107.range' (by norm_num)).2.trans (by norm_num))
/-- `dir = (3/4, 5/8, -7/32)`, `up = -z`: their angle has a sine above `1/2`. -/
theorem Ex107.sine : 1 / 2 * ((Vec.fromTuple3 ((3 / 4 : ℝ), 5 / 8, -7 / 32)).length * (Vec.fromTuple3 ((0 : ℝ), 0, -1)).length) ≤
    ((Vec.fromTuple3 ((3 / 4 : ℝ), 5 / 8, -7 / 32)).cross3 (Vec.fromTuple3 ((0 : ℝ), 0, -1))).length := by
  obtain ⟨-, b⟩ := abs_le.1 (Ex107.len (s := -7 / 32) (by norm_num))
  have h := length3 ((Vec.fromTuple3 ((3 / 4 : ℝ), 5 / 8, -7 / 32)).cross3 (Vec.fromTuple3 ((0 : ℝ), 0, -1)))
  have h0 := length_nonneg ((Vec.fromTuple3 ((3 / 4 : ℝ), 5 / 8, -7 / 32)).cross3 (Vec.fromTuple3 ((0 : ℝ), 0, -1)))
  rw [mz_len, mul_one]
  simp at h
  norm_num at b h ⊢
  nlinarith
example := C107_look_at (Ex107.dir (-7 / 32) (by norm_num)) _ _ _ (Ex107.val _ _) mz_val (Ex107.len (by norm_num)) (by rw [mz_len]; norm_num)
  (by rw [mz_len]; norm_num) (1 / 2) (by norm_num) Ex107.sine
end Vecmat
