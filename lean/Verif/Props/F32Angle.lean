import Verif.Props.F32Rotation
import Verif.Props.F64Angle
/-!
# C108: rotations given by an angle, in single precision
`sin`, `cos` and `atan2` come from the mathematical library of the platform; their accuracy is a hypothesis (`TrigWithin32`, `Atan2Within32`), met
for instance by a correctly rounded library. (The hypotheses speak about all finite members of `Ieee`; on the representable ones they are the
documented accuracy of the library, and a function given on the representable numbers can be extended arbitrarily to the others.)
-/
namespace Vecmat
open Spec Ieee F32
open F64 (toE toE_apply norm_toE toE_add toE_sub toE_neg toE_mulS toE_divS abs_le_norm ofFn ofFn_get length3 length_nonneg length_le_of_sq normalize_length length_close length_tri unit_sub length_self_sub abs_le_length image_close cpx_norm_le norm_new2 cnorm_close apply_new2 apply2_close new2_toC chord_le arc_le len_mono comp_err quat_split norm_new3 power_close replicate_new arg_close' arg_close halfPt norm_half half_sub vec_le_norm)
set_option exponentiation.threshold 3000

namespace Spec
/-- The library's `sin` and `cos` return finite values with an absolute error of at most `η`, for every finite argument. -/
structure TrigWithin32 [FloatOps F] (η : ℝ) : Prop where
  sin : ∀ (a : F) (t : ℝ), a.toReal? = some t → ∃ s, (FloatOps.sin a : F).toReal? = some s ∧ |s - Real.sin t| ≤ η
  cos : ∀ (a : F) (t : ℝ), a.toReal? = some t → ∃ c, (FloatOps.cos a : F).toReal? = some c ∧ |c - Real.cos t| ≤ η
/-- The library's `atan2(y, x)` is within `η` of the argument of `x + iy`, for all finite arguments that are not both zero. -/
def Atan2Within32 [FloatOps F] (η : ℝ) : Prop :=
  ∀ (a b : F) (y x : ℝ), a.toReal? = some y → b.toReal? = some x → (x, y) ≠ 0 →
    ∃ t, (FloatOps.atan2 a b : F).toReal? = some t ∧ |t - Complex.arg ⟨x, y⟩| ≤ η
end Spec

namespace F32
/-- Halving is exact except for an underflow unit. -/
theorem halve_val {a : F} {t : ℝ} (hd : Datum a) (ha : a.toReal? = some t) :
    ∃ h, (a / two : F).toReal? = some h ∧ |h - t / 2| ≤ 1 / 2 ^ 150 := by
  obtain ⟨m, e, ht, hm, h1, h2⟩ := Datum.rep C80_formats.1 hd ha
  by_cases he : Fmt.f32.emin - Fmt.f32.p + 1 < e
  · have hr : Representable Fmt.f32 (t / 2) := by
      refine ⟨m, e - 1, ?_, hm, by omega, by omega⟩
      rw [ht, zpow_sub_one₀ (by norm_num)]; ring
    exact ⟨_, val_div ha rfl two_ne_zero hr, by simp⟩
  · have he' : e = Fmt.f32.emin - Fmt.f32.p + 1 := by omega
    have hs : |t / 2| < 2 ^ Fmt.f32.emin := by
      rw [ht, he', abs_div, abs_mul, abs_of_pos (show (0:ℝ) < 2 ^ (Fmt.f32.emin - Fmt.f32.p + 1) by positivity),
        abs_of_pos (show (0:ℝ) < 2 by norm_num)]
      have hm' : |(m : ℝ)| < 2 ^ 24 := by exact_mod_cast hm
      calc |(m : ℝ)| * 2 ^ (Fmt.f32.emin - Fmt.f32.p + 1) / 2 < 2 ^ 24 * 2 ^ (Fmt.f32.emin - Fmt.f32.p + 1) / 2 := by gcongr
        _ ≤ _ := by norm_num [Fmt.f32]
    have hf : |Fmt.f32.near (t / 2)| < huge Fmt.f32 := (round_val (hs.le.trans (by norm_num [Fmt.f32]))).1
    refine ⟨_, val_div_iff.2 (.inl ⟨t, 2, ha, rfl, two_ne_zero, rfl, hf⟩), ?_⟩
    have := near_abs hs
    rwa [tiny_eq] at this

end F32

/-! ## the plane -/

/-- `Rotation2::new(a)`: finite and within `1.5 η` of `(cos t, sin t)`. -/
theorem C108_rotation2_new [FloatOps F] {η : ℝ} (hl : TrigWithin32 η) (a : F) (t : ℝ) (ha : a.toReal? = some t) :
    ∃ R : Rotation2 ℝ, ValC (Rotation2.new a).intoComplex R.intoComplex ∧
      (R.intoComplex - Cpx.new (Real.cos t) (Real.sin t)).norm ≤ 3 / 2 * η ∧ NearUnit2 (3 / 2 * η) R := by
  obtain ⟨s, vs, es⟩ := hl.sin a t ha
  obtain ⟨c, vc, ec⟩ := hl.cos a t ha
  have hb : ((⟨Cpx.new c s⟩ : Rotation2 ℝ).intoComplex - Cpx.new (Real.cos t) (Real.sin t)).norm ≤ 3 / 2 * η :=
    cpx_norm_le (by simpa [Rotation2.intoComplex] using ec) (by simpa [Rotation2.intoComplex] using es)
  refine ⟨⟨Cpx.new c s⟩, ⟨by simpa [Rotation2.new, Rotation2.intoComplex] using vc, by simpa [Rotation2.new, Rotation2.intoComplex] using vs⟩, hb, ?_⟩
  have := cnorm_close (⟨Cpx.new c s⟩ : Rotation2 ℝ).intoComplex (Rotation2.new t).intoComplex
  rw [norm_new2] at this
  exact this.trans hb

/-- Turning a point by an angle: finite and within `(5u + 1.5 η)|x|` of the exact point. -/
theorem C108_rotation2_apply [FloatOps F] {η : ℝ} (hl : TrigWithin32 η) (hη : η ≤ 1 / 2 ^ 12) (a : F) (t : ℝ) (ha : a.toReal? = some t)
    (v : Vec F 2) (X : Vec ℝ 2) (hv : ValV v X) (hX : X.length ≤ 2 ^ 108) :
    ∃ Y, ValV (Transform.apply (Rotation2.new a) v) Y ∧
      (Y - turned t X).length ≤ (5 / 2 ^ 24 + 3 / 2 * η) * X.length + 1 / 2 ^ 147 := by
  obtain ⟨R, h1, h2, h3⟩ := C108_rotation2_new hl a t ha
  obtain ⟨Y, h4, h5, -⟩ := C107_rotation2_apply _ R v X _ h1 hv h3 (by norm_num at hη ⊢; linarith) hX
  refine ⟨Y, h4, (length_tri _ (Transform.apply R X) _).trans ?_⟩
  have h6 := apply2_close R (Rotation2.new t) X
  rw [apply_new2] at h6
  have x0 := length_nonneg X
  calc _ ≤ (5 / 2 ^ 24 * X.length + 1 / 2 ^ 147) + 3 / 2 * η * X.length := add_le_add h5 (h6.trans (by gcongr; exact h2))
    _ = _ := by ring

/-- Rotations about angles `α` and `β` compose to the rotation about the (rounded) sum of the angles. -/
theorem C108_rotation2_angle_sum [FloatOps F] {η : ℝ} (hl : TrigWithin32 η) (hη : η ≤ 1 / 2 ^ 12) (a b : F) (α β : ℝ) (ha : a.toReal? = some α)
    (hb : b.toReal? = some β) (hda : Datum a) (hdb : Datum b) (hs : |α + β| ≤ 2 ^ 120) :
    ∃ V W, ValC (Transform.chain (Vec F 2) (Rotation2.new a) (Rotation2.new b)).intoComplex V ∧
      ValC (Rotation2.new (a + b)).intoComplex W ∧ (V - W).norm ≤ (5 + |α + β|) / 2 ^ 24 + 5 * η := by
  have η0 : 0 ≤ η := by
    obtain ⟨s, -, es⟩ := hl.sin a α ha
    exact (abs_nonneg _).trans es
  norm_num at hη
  obtain ⟨P, p1, p2, p3⟩ := C108_rotation2_new hl a α ha
  obtain ⟨Q, q1, q2, q3⟩ := C108_rotation2_new hl b β hb
  have hφ := C80_formats.1
  have er := near_add_rel hφ (Datum.rep hφ hda ha) (Datum.rep hφ hdb hb)
  rw [u_eq] at er
  have hf : |Fmt.f32.near (α + β)| < huge Fmt.f32 := by
    rw [huge_eq]
    calc |Fmt.f32.near (α + β)| = |(Fmt.f32.near (α + β) - (α + β)) + (α + β)| := by congr 1; ring
      _ ≤ _ := abs_add_le _ _
      _ ≤ 1 / 2 ^ 24 * 2 ^ 120 + 2 ^ 120 := by
        refine add_le_add (er.trans ?_) hs; gcongr
      _ < _ := by norm_num
  have vs : (a + b).toReal? = some (Fmt.f32.near (α + β)) := val_add_iff.2 ⟨α, β, ha, hb, rfl, hf⟩
  obtain ⟨W, w1, w2, -⟩ := C108_rotation2_new hl (a + b) _ vs
  obtain ⟨-, gP⟩ := near2_le p3
  obtain ⟨-, gQ⟩ := near2_le q3
  obtain ⟨V, hV, eV⟩ := mul_core (z := (Rotation2.new a).comp) (w := (Rotation2.new b).comp) (Z := P.comp.toC) (W := Q.comp.toC) p1 q1
    (gP.trans (by norm_num; linarith)) (gQ.trans (by norm_num; linarith))
  refine ⟨ofC V, W.intoComplex, valC_ofC hV, w1, ?_⟩
  rw [cnorm_eq, toC_sub, toC_ofC]
  have p2' : ‖P.comp.toC - (Rotation2.new α).comp.toC‖ ≤ 3 / 2 * η := by rw [← toC_sub, ← cnorm_eq]; exact p2
  have q2' : ‖Q.comp.toC - (Rotation2.new β).comp.toC‖ ≤ 3 / 2 * η := by rw [← toC_sub, ← cnorm_eq]; exact q2
  have w2' : ‖W.comp.toC - (Rotation2.new (Fmt.f32.near (α + β))).comp.toC‖ ≤ 3 / 2 * η := by rw [← toC_sub, ← cnorm_eq]; exact w2
  have ch := chord_le (Fmt.f32.near (α + β)) (α + β)
  have hmul : (Rotation2.new (α + β)).comp.toC = (Rotation2.new α).comp.toC * (Rotation2.new β).comp.toC := by
    rw [new2_toC, new2_toC, new2_toC, ← Complex.exp_add]; congr 1; push_cast; ring
  have nA : ‖(Rotation2.new α).comp.toC‖ = 1 := by rw [new2_toC, Complex.norm_exp_ofReal_mul_I]
  show ‖V - W.comp.toC‖ ≤ _
  have e : V - W.comp.toC = (V - P.comp.toC * Q.comp.toC) + ((P.comp.toC - (Rotation2.new α).comp.toC) * Q.comp.toC +
      (Rotation2.new α).comp.toC * (Q.comp.toC - (Rotation2.new β).comp.toC)) -
      ((W.comp.toC - (Rotation2.new (Fmt.f32.near (α + β))).comp.toC) +
        ((Rotation2.new (Fmt.f32.near (α + β))).comp.toC - (Rotation2.new (α + β)).comp.toC)) := by rw [hmul]; ring
  rw [e]
  refine (norm_sub_le _ _).trans ?_
  have t1 : ‖(P.comp.toC - (Rotation2.new α).comp.toC) * Q.comp.toC + (Rotation2.new α).comp.toC * (Q.comp.toC - (Rotation2.new β).comp.toC)‖ ≤
      3 / 2 * η * (1 + 3 / 2 * η) + 1 * (3 / 2 * η) := by
    refine (norm_add_le _ _).trans ?_
    rw [norm_mul, norm_mul, nA]
    gcongr
  have t2 := norm_add_le (V - P.comp.toC * Q.comp.toC) ((P.comp.toC - (Rotation2.new α).comp.toC) * Q.comp.toC +
      (Rotation2.new α).comp.toC * (Q.comp.toC - (Rotation2.new β).comp.toC))
  have t3 := norm_add_le (W.comp.toC - (Rotation2.new (Fmt.f32.near (α + β))).comp.toC)
        ((Rotation2.new (Fmt.f32.near (α + β))).comp.toC - (Rotation2.new (α + β)).comp.toC)
  have t4 := ch.trans er
  have : 3 / 2 * η * (3 / 2 * η) ≤ 1 / 2 * η := by nlinarith
  rw [add_div]
  have : |α + β| / 2 ^ 24 = 1 / 2 ^ 24 * |α + β| := by ring
  linarith

/-- `angle()` of a nearly unit rotation: the direction with this angle is the rotation, up to its defect and the error of `atan2`. -/
theorem C108_rotation2_angle [FloatOps F] {η : ℝ} (hl : Atan2Within32 η) (r : Rotation2 F) (R : Rotation2 ℝ) (δ : ℝ)
    (hr : ValC r.intoComplex R.intoComplex) (hu : NearUnit2 δ R) (hδ : δ < 1) :
    ∃ t, r.angle.toReal? = some t ∧ (Cpx.new (Real.cos t) (Real.sin t) - R.intoComplex).norm ≤ η + δ := by
  obtain ⟨l, g⟩ := near2_le hu
  have h0 : R.comp.toC ≠ 0 := by rw [← norm_pos_iff]; linarith
  obtain ⟨t, vt, et⟩ := hl r.comp.im r.comp.re R.comp.im R.comp.re hr.2 hr.1 (by
    intro h
    apply h0
    simp only [Prod.mk_eq_zero] at h
    exact Complex.ext h.1 h.2)
  refine ⟨t, vt, ?_⟩
  have ha : (⟨R.comp.re, R.comp.im⟩ : ℂ) = R.comp.toC := rfl
  rw [ha] at et
  have h1 := (chord_le t R.comp.toC.arg).trans et
  have h2 : ‖(Rotation2.new R.comp.toC.arg).comp.toC - R.comp.toC‖ ≤ δ := by
    have e : R.comp.toC = ‖R.comp.toC‖ * (Rotation2.new R.comp.toC.arg).comp.toC := by
      rw [new2_toC]; exact (Complex.norm_mul_exp_arg_mul_I _).symm
    have : (Rotation2.new R.comp.toC.arg).comp.toC - R.comp.toC = ((1 - ‖R.comp.toC‖ : ℝ) : ℂ) * (Rotation2.new R.comp.toC.arg).comp.toC := by
      rw [Complex.ofReal_sub, sub_mul, ← e]; simp
    rw [this, norm_mul, new2_toC, Complex.norm_exp_ofReal_mul_I, mul_one, Complex.norm_real, Real.norm_eq_abs, abs_le]
    constructor <;> linarith
  rw [cnorm_eq, toC_sub]
  show ‖(Rotation2.new t).comp.toC - R.comp.toC‖ ≤ _
  calc _ = ‖((Rotation2.new t).comp.toC - (Rotation2.new R.comp.toC.arg).comp.toC) + ((Rotation2.new R.comp.toC.arg).comp.toC - R.comp.toC)‖ := by congr 1; ring
    _ ≤ _ := norm_add_le _ _
    _ ≤ _ := add_le_add h1 h2

/-- `Rotation2::new(a).angle()` gives the angle back, up to full turns. -/
theorem C108_rotation2_round_trip [FloatOps F] {η ζ : ℝ} (hl : TrigWithin32 η) (ht : Atan2Within32 ζ) (hη : η ≤ 1 / 2 ^ 12) (a : F) (t : ℝ)
    (ha : a.toReal? = some t) :
    ∃ (T : ℝ) (k : ℤ), (Rotation2.new a).angle.toReal? = some T ∧ |T - (t + 2 * Real.pi * k)| ≤ 2 * ζ + 5 * η := by
  norm_num at hη
  obtain ⟨R, h1, h2, h3⟩ := C108_rotation2_new hl a t ha
  obtain ⟨T, vT, eT⟩ := C108_rotation2_angle ht _ R _ h1 h3 (by linarith)
  obtain ⟨k, hk⟩ := arc_le T t
  refine ⟨T, k, vT, hk.trans ?_⟩
  have hb : ‖(Rotation2.new T).comp.toC - (Rotation2.new t).comp.toC‖ ≤ (ζ + 3 / 2 * η) + 3 / 2 * η := by
    rw [cnorm_eq, toC_sub] at h2 eT
    calc _ = ‖((Rotation2.new T).comp.toC - R.comp.toC) + (R.comp.toC - (Rotation2.new t).comp.toC)‖ := by congr 1; ring
      _ ≤ _ := norm_add_le _ _
      _ ≤ _ := add_le_add eT h2
  have η0 : 0 ≤ η := by
    obtain ⟨s, -, es⟩ := hl.sin a t ha
    exact (abs_nonneg _).trans es
  have ζ0 : 0 ≤ ζ := by
    obtain ⟨s, -, es⟩ := ht 1 1 1 1 rfl rfl (by simp)
    exact (abs_nonneg _).trans es
  have hp := Real.pi_lt_d2
  have hp0 := Real.pi_pos
  calc Real.pi / 2 * _ ≤ 3.15 / 2 * ((ζ + 3 / 2 * η) + 3 / 2 * η) := by gcongr
    _ ≤ _ := by norm_num; linarith

/-! ## space -/
/-- `Rotation3::new(axis, a)` for an axis within `δ` of the unit vector `K`: finite, and within `2.25 η + 1.125 u + δ` of the exact unit
quaternion `(cos (t/2), sin (t/2) K)`. -/
theorem C108_rotation3_new [FloatOps F] {η δ : ℝ} (hl : TrigWithin32 η) (hη : η ≤ 1 / 2 ^ 12) (axis : Vec F 3) (A K : Vec ℝ 3)
    (hA : ValV axis A) (hK : K.length = 1) (hAK : (A - K).length ≤ δ) (hδ : δ ≤ 1 / 2 ^ 12) (a : F) (t : ℝ) (ha : a.toReal? = some t)
    (hda : Datum a) :
    ∃ R : Rotation3 ℝ, ValQ (Rotation3.new axis a).intoQuaternion R.intoQuaternion ∧
      (R.intoQuaternion - Quat.fromScalarAndVector3 (Real.cos (t / 2)) (K.mulS (Real.sin (t / 2)))).norm ≤ 9 / 4 * η + 9 / 8 / 2 ^ 24 + δ ∧
      NearUnit3 (9 / 4 * η + 9 / 8 / 2 ^ 24 + δ) R := by
  obtain ⟨h, vh, eh⟩ := halve_val hda ha
  obtain ⟨s, vs, es⟩ := hl.sin _ h vh
  obtain ⟨c, vc, ec⟩ := hl.cos _ h vh
  have η0 : 0 ≤ η := (abs_nonneg _).trans es
  have δ0 : 0 ≤ δ := (length_nonneg _).trans hAK
  set τ : ℝ := 1 / 2 ^ 150 with hτ
  have τ0 : 0 ≤ τ := by positivity
  have τs : τ ≤ 1 / 2 ^ 42 := by rw [hτ]; norm_num
  clear_value τ
  norm_num at hη hδ
  have ds : |Real.sin h - Real.sin (t / 2)| ≤ τ := by
    have := (Complex.abs_im_le_norm _).trans ((chord_le h (t / 2)).trans eh)
    simpa [Rotation2.new, Cpx.toC] using this
  have dc : |Real.cos h - Real.cos (t / 2)| ≤ τ := by
    have := (Complex.abs_re_le_norm _).trans ((chord_le h (t / 2)).trans eh)
    simpa [Rotation2.new, Cpx.toC] using this
  have es' : |s - Real.sin (t / 2)| ≤ η + τ := by
    calc _ = |(s - Real.sin h) + (Real.sin h - Real.sin (t / 2))| := by congr 1; ring
      _ ≤ _ := abs_add_le _ _
      _ ≤ _ := add_le_add es ds
  have ec' : |c - Real.cos (t / 2)| ≤ η + τ := by
    calc _ = |(c - Real.cos h) + (Real.cos h - Real.cos (t / 2))| := by congr 1; ring
      _ ≤ _ := abs_add_le _ _
      _ ≤ _ := add_le_add ec dc
  have sb : |s| ≤ 1 + 1 / 2 ^ 11 := by
    calc |s| = |(s - Real.sin h) + Real.sin h| := by congr 1; ring
      _ ≤ _ := abs_add_le _ _
      _ ≤ 1 / 4096 + 1 := add_le_add (es.trans hη) (Real.abs_sin_le_one h)
      _ ≤ _ := by norm_num
  have Al : A.length ≤ 1 + 1 / 4096 := by
    have := (abs_le.1 (length_close A K)).2
    rw [hK] at this; linarith
  have hi : ∀ i : Fin 3, |A[i.1] * s| ≤ (1 + 1 / 4096) * (1 + 1 / 2 ^ 11) := fun i => by
    rw [abs_mul]
    have := (abs_le_length A i).trans Al
    gcongr
  have hr := fun i => round_val ((hi i).trans (by norm_num))
  set V : Vec ℝ 3 := Vec.fromTuple3 (Fmt.f32.near (A[0] * s), Fmt.f32.near (A[1] * s), Fmt.f32.near (A[2] * s)) with hV
  have hVi : ∀ i : Fin 3, V[i.1] = Fmt.f32.near (A[i.1] * s) := fun i => by fin_cases i <;> rfl
  have vV : ∀ i : Fin 3, (axis[i.1] * FloatOps.sin (a / two)).toReal? = some V[i.1] := fun i => by
    rw [hVi]; exact val_mul_iff.2 ⟨_, _, hA i, vs, rfl, (hr i).1⟩
  have e1 : (V - A.mulS s).length ≤ 1 / 2 ^ 24 * (1 + 1 / 2 ^ 11) * A.length + 2 * τ := by
    refine comp_err (by positivity) τ0 fun i => ?_
    rw [Vec.getElem_sub, Vec.getElem_mulS, hVi]
    refine (hr i).2.trans ?_
    rw [abs_mul, ← hτ]
    calc 1 / 2 ^ 24 * (|A[i.1]| * |s|) + τ ≤ 1 / 2 ^ 24 * (|A[i.1]| * (1 + 1 / 2 ^ 11)) + τ := by gcongr
      _ = _ := by ring
  have e2 : (A.mulS s - A.mulS (Real.sin (t / 2))).length ≤ (η + τ) * A.length := by
    rw [← norm_toE, toE_sub, toE_mulS, toE_mulS, ← sub_smul, norm_smul, norm_toE, Real.norm_eq_abs]
    have := length_nonneg A
    gcongr
  have e3 : (A.mulS (Real.sin (t / 2)) - K.mulS (Real.sin (t / 2))).length ≤ δ := by
    rw [← norm_toE, toE_sub, toE_mulS, toE_mulS, ← smul_sub, norm_smul, ← toE_sub, norm_toE, Real.norm_eq_abs]
    calc _ ≤ 1 * (A - K).length := by
          have := length_nonneg (A - K)
          gcongr; exact Real.abs_sin_le_one _
      _ ≤ δ := by rw [one_mul]; exact hAK
  have ev : (V - K.mulS (Real.sin (t / 2))).length ≤ (1 / 2 ^ 24 * (1 + 1 / 2 ^ 11) * A.length + 2 * τ) + (η + τ) * A.length + δ := by
    refine (length_tri _ (A.mulS (Real.sin (t / 2))) _).trans (add_le_add ((length_tri _ (A.mulS s) _).trans (add_le_add e1 e2)) e3)
  have hn : ((⟨Quat.fromScalarAndVector3 c V⟩ : Rotation3 ℝ).intoQuaternion -
      Quat.fromScalarAndVector3 (Real.cos (t / 2)) (K.mulS (Real.sin (t / 2)))).norm ≤ 9 / 4 * η + 9 / 8 / 2 ^ 24 + δ := by
    have e : (⟨Quat.fromScalarAndVector3 c V⟩ : Rotation3 ℝ).intoQuaternion -
        Quat.fromScalarAndVector3 (Real.cos (t / 2)) (K.mulS (Real.sin (t / 2))) =
        Quat.fromScalarAndVector3 (c - Real.cos (t / 2)) (V - K.mulS (Real.sin (t / 2))) := by
      apply Quat.ext' <;> simp [Rotation3.intoQuaternion]
    rw [e]
    refine (quat_split _ _).trans ((add_le_add ec' ev).trans ?_)
    have k1 : 1 / 2 ^ 24 * (1 + 1 / 2 ^ 11) * A.length ≤ 1 / 2 ^ 24 * (1 + 1 / 2 ^ 11) * (1 + 1 / 4096) := by gcongr
    have k2 : (η + τ) * A.length ≤ (η + τ) * (1 + 1 / 4096) := by gcongr
    norm_num at k1 k2 τs ⊢
    linarith
  refine ⟨⟨Quat.fromScalarAndVector3 c V⟩, ⟨?_, ?_, ?_, ?_⟩, hn, ?_⟩
  · simpa [Rotation3.new, Rotation3.intoQuaternion] using vc
  · simpa [Rotation3.new, Rotation3.intoQuaternion] using vV 0
  · simpa [Rotation3.new, Rotation3.intoQuaternion] using vV 1
  · simpa [Rotation3.new, Rotation3.intoQuaternion] using vV 2
  · have hc : |(⟨Quat.fromScalarAndVector3 c V⟩ : Rotation3 ℝ).intoQuaternion.norm - (Rotation3.new K t).intoQuaternion.norm| ≤
        ((⟨Quat.fromScalarAndVector3 c V⟩ : Rotation3 ℝ).intoQuaternion - (Rotation3.new K t).intoQuaternion).norm := by
      rw [norm_eq, norm_eq, norm_eq, toH_sub]; exact abs_norm_sub_norm_le _ _
    rw [norm_new3 hK] at hc
    exact hc.trans hn

/-- Turning a point about an axis: finite, and within `(22u + 5 η + 2.25 δ)|x|` of the point given by Rodrigues' formula for the exact unit
axis and the exact angle. -/
theorem C108_rotation3_apply [FloatOps F] {η δ : ℝ} (hl : TrigWithin32 η) (hη : η ≤ 1 / 2 ^ 12) (axis : Vec F 3) (A K : Vec ℝ 3)
    (hA : ValV axis A) (hK : K.length = 1) (hAK : (A - K).length ≤ δ) (hδ : δ ≤ 1 / 2 ^ 12) (a : F) (t : ℝ) (ha : a.toReal? = some t)
    (hda : Datum a) (v : Vec F 3) (X : Vec ℝ 3) (hv : ValV v X) (hX : X.length ≤ 2 ^ 108) :
    ∃ Y, ValV (Transform.apply (Rotation3.new axis a) v) Y ∧
      (Y - Spec.rodrigues K t X).length ≤ (22 / 2 ^ 24 + 5 * η + 9 / 4 * δ) * X.length + 1 / 2 ^ 144 := by
  obtain ⟨R, h1, h2, h3⟩ := C108_rotation3_new hl hη axis A K hA hK hAK hδ a t ha hda
  have η0 : 0 ≤ η := by
    obtain ⟨s, -, es⟩ := hl.sin a t ha
    exact (abs_nonneg _).trans es
  have δ0 : 0 ≤ δ := (length_nonneg _).trans hAK
  norm_num at hη hδ
  have hε : 9 / 4 * η + 9 / 8 / 2 ^ 24 + δ ≤ 1 / 2 ^ 10 := by norm_num; linarith
  obtain ⟨Y, h4, h5, -⟩ := C107_rotation3_apply _ R v X _ h1 hv h3 hε hX
  refine ⟨Y, h4, (length_tri _ (Transform.apply R X) _).trans ?_⟩
  have h6 := image_close R (Rotation3.new K t) X
  rw [C56_rodrigues K t X hK] at h6
  have n1 : ‖(Rotation3.new K t).quat.toH‖ = 1 := by rw [← norm_eq]; exact norm_new3 hK t
  have n2 := (near_le h3).2
  have n3 : ‖R.quat.toH - (Rotation3.new K t).quat.toH‖ ≤ 9 / 4 * η + 9 / 8 / 2 ^ 24 + δ := by rw [← toH_sub, ← norm_eq]; exact h2
  rw [n1] at h6
  have x0 := length_nonneg X
  have h7 : (Transform.apply R X - Spec.rodrigues K t X).length ≤ (9 / 4 * η + 9 / 8 / 2 ^ 24 + δ) * (1 + 1 / 2 ^ 10 + 1) * X.length := by
    refine h6.trans ?_
    gcongr
    exact n2.trans (by gcongr)
  have h8 : (9 / 4 * η + 9 / 8 / 2 ^ 24 + δ) * (1 + 1 / 2 ^ 10 + 1) * X.length ≤ (3 / 2 ^ 24 + 5 * η + 9 / 4 * δ) * X.length := by
    gcongr
    norm_num; linarith
  calc _ ≤ (19 / 2 ^ 24 * X.length + 1 / 2 ^ 144) + (3 / 2 ^ 24 + 5 * η + 9 / 4 * δ) * X.length := add_le_add h5 (h7.trans h8)
    _ = _ := by ring

/-- Turning `n ≤ 2^11` times by the same angle (an animation that accumulates its orientation): the accumulated quaternion is within
`n (12u + 2.5 η + 1.125 δ)` of the one of the exact rotation by `n t`. -/
theorem C108_rotation3_steps [FloatOps F] {η δ : ℝ} (hl : TrigWithin32 η) (hη : η ≤ 1 / 2 ^ 23) (axis : Vec F 3) (A K : Vec ℝ 3)
    (hA : ValV axis A) (hK : K.length = 1) (hAK : (A - K).length ≤ δ) (hδ : δ ≤ 1 / 2 ^ 23) (a : F) (t : ℝ) (ha : a.toReal? = some t)
    (hda : Datum a) (n : ℕ) (hn : n ≤ 2 ^ 11) :
    ∃ B : Rotation3 ℝ, ValQ ((List.replicate n (Rotation3.new axis a)).foldl (Transform.chain (Vec F 3)) (Transform.identity (Vec F 3))).intoQuaternion
        B.intoQuaternion ∧
      (B.intoQuaternion - Quat.fromScalarAndVector3 (Real.cos (n * t / 2)) (K.mulS (Real.sin (n * t / 2)))).norm ≤
        n * (12 / 2 ^ 24 + 5 / 2 * η + 9 / 8 * δ) := by
  have η0 : 0 ≤ η := by
    obtain ⟨s, -, es⟩ := hl.sin a t ha
    exact (abs_nonneg _).trans es
  have δ0 : 0 ≤ δ := (length_nonneg _).trans hAK
  obtain ⟨R, h1, h2, h3⟩ := C108_rotation3_new hl (hη.trans (by norm_num)) axis A K hA hK hAK (hδ.trans (by norm_num)) a t ha hda
  norm_num at hη hδ
  set ε := 9 / 4 * η + 9 / 8 / 2 ^ 24 + δ with hεd
  have hε : ε ≤ 1 / 2 ^ 21 := by rw [hεd]; norm_num; linarith
  have ε0 : 0 ≤ ε := by positivity
  have hrep : List.Forall₂ (fun r R => ValQ r.intoQuaternion R.intoQuaternion ∧ NearUnit3 (1 / 2 ^ 21) R)
      (List.replicate n (Rotation3.new axis a)) (List.replicate n R) := by
    clear hn
    induction n with
    | zero => exact .nil
    | succ n ih => exact .cons ⟨h1, h3.trans hε⟩ ih
  obtain ⟨B, b1, b2, -⟩ := C107_rotation3_drift _ _ hrep (by simpa using hn)
  refine ⟨B, b1, ?_⟩
  rw [List.length_replicate, norm_eq, toH_sub] at b2
  have n1 : ‖(Rotation3.new K t).quat.toH‖ = 1 := by rw [← norm_eq]; exact norm_new3 hK t
  have n3 : ‖R.quat.toH - (Rotation3.new K t).quat.toH‖ ≤ ε := by rw [← toH_sub, ← norm_eq]; exact h2
  have pc := (power_close n1 n3 n).2
  rw [replicate_new hK] at pc
  have nn : (n : ℝ) ≤ 2 ^ 11 := by exact_mod_cast hn
  have n0 : (0:ℝ) ≤ n := Nat.cast_nonneg n
  have hnε : n * ε ≤ 1 / 2 ^ 10 := by
    calc n * ε ≤ 2 ^ 11 * (1 / 2 ^ 21) := by gcongr
      _ = _ := by norm_num
  have hpow : (1 + ε) ^ n ≤ 1 + 1 / 2 ^ 9 := by
    have e1 : (1 + ε) ^ n ≤ Real.exp (n * ε) := by
      rw [Real.exp_nat_mul]
      exact pow_le_pow_left₀ (by positivity) (by rw [add_comm]; exact Real.add_one_le_exp ε) n
    have e2 := Real.abs_exp_sub_one_le (x := n * ε) (by rw [abs_of_nonneg (by positivity)]; exact hnε.trans (by norm_num))
    rw [abs_of_nonneg (by positivity : 0 ≤ n * ε)] at e2
    have := (abs_le.1 e2).2
    norm_num at hnε ⊢
    linarith
  rw [norm_eq, toH_sub]
  show ‖B.quat.toH - (Rotation3.new K (n * t)).quat.toH‖ ≤ _
  calc _ = ‖(B.quat.toH - ((List.replicate n R).foldl (Transform.chain (Vec ℝ 3)) (Transform.identity (Vec ℝ 3))).quat.toH) +
        (((List.replicate n R).foldl (Transform.chain (Vec ℝ 3)) (Transform.identity (Vec ℝ 3))).quat.toH - (Rotation3.new K (n * t)).quat.toH)‖ := by
        congr 1; abel
    _ ≤ _ := norm_add_le _ _
    _ ≤ 10 / 2 ^ 24 * n + n * ε * (1 + 1 / 2 ^ 9) := add_le_add b2 (pc.trans (by gcongr))
    _ = n * (10 / 2 ^ 24 + ε * (1 + 1 / 2 ^ 9)) := by ring
    _ ≤ _ := by
      refine mul_le_mul_of_nonneg_left ?_ n0
      rw [hεd]; norm_num; linarith

namespace F32
/-- A larger window than `round_val`. -/
theorem round_val8 {x : ℝ} (h : |x| ≤ 8) : |Fmt.f32.near x| < huge Fmt.f32 ∧ |Fmt.f32.near x - x| ≤ 1 / 2 ^ 24 * |x| + 1 / 2 ^ 150 := by
  have e := near_err_add (φ := Fmt.f32) x
  rw [u_eq, tiny_eq] at e
  refine ⟨?_, e⟩
  rw [huge_eq]
  calc |Fmt.f32.near x| = |(Fmt.f32.near x - x) + x| := by congr 1; ring
    _ ≤ _ := abs_add_le _ _
    _ ≤ (1 / 2 ^ 24 * 8 + 1 / 2 ^ 150) + 8 := by gcongr; exact e.trans (by gcongr)
    _ < _ := by norm_num
noncomputable def stdLength [NeZero N] (v : Vec F N) : F := v.length
noncomputable def stdNormalize [NeZero N] (v : Vec F N) : Vec F N := v.normalize
/-- The length of a vector depends on the library only through the square root. -/
theorem length_inst [o : FloatOps F] (hs : ∀ a : F, o.sqrt a = Ieee.sqrt a) [NeZero N] (v : Vec F N) : v.length = stdLength v := hs _
theorem normalize_inst [o : FloatOps F] (hs : ∀ a : F, o.sqrt a = Ieee.sqrt a) [NeZero N] (v : Vec F N) : v.normalize = stdNormalize v := by
  unfold stdNormalize Vec.normalize
  rw [length_inst hs]; rfl
theorem len_std [NeZero N] (hN : N ≤ 2 ^ 8) {v : Vec F N} {X : Vec ℝ N} (hv : ValV v X) (hl : 1 / 2 ^ 55 ≤ X.length) (hr : X.length ≤ 2 ^ 55) :
    ∃ l, (stdLength v).toReal? = some l ∧ |l - X.length| ≤ (N + 5) / 2 ^ 25 * X.length := len_val hN hv hl hr
theorem nrm_std [NeZero N] (hN : N ≤ 2 ^ 8) {v : Vec F N} {X : Vec ℝ N} (hv : ValV v X) (hl : 1 / 2 ^ 55 ≤ X.length) (hr : X.length ≤ 2 ^ 55) :
    ∃ W, ValV (stdNormalize v) W ∧ (W - X.normalize).length ≤ (N + 9) / 2 ^ 25 := nrm_val hN hv hl hr
theorem sv_val {q : Quat F} {Q : Quat ℝ} (h : ValQ q Q) : ValV q.intoScalarAndVector3.2 Q.intoScalarAndVector3.2 := fun i => by
  fin_cases i
  · simpa using h.2.1
  · simpa using h.2.2.1
  · simpa using h.2.2.2
end F32

/-- `angle()` of a nearly unit rotation of space whose vector part is not tiny: within `2ζ + 32u` of the exact angle (`ζ`: error of
`atan2`). -/
theorem C108_rotation3_angle [FloatOps F] (hs : ∀ a : F, FloatOps.sqrt a = Ieee.sqrt a) {ζ : ℝ} (hl : Atan2Within32 ζ) (hζ : ζ ≤ 1 / 2 ^ 12)
    (r : Rotation3 F) (R : Rotation3 ℝ) (hr : ValQ r.intoQuaternion R.intoQuaternion) (hu : NearUnit3 (1 / 2 ^ 10) R)
    (hv : 1 / 2 ^ 55 ≤ R.intoQuaternion.intoScalarAndVector3.2.length) :
    ∃ t, r.angle.toReal? = some t ∧ |t - R.angle| ≤ 2 * ζ + 32 / 2 ^ 24 := by
  set Q := R.intoQuaternion with hQ
  have L0 : 0 < Q.intoScalarAndVector3.2.length := lt_of_lt_of_le (by positivity) hv
  have Lr : Q.intoScalarAndVector3.2.length ≤ 2 ^ 55 := by
    refine (vec_le_norm Q).trans ?_
    have := (abs_le.1 hu).2
    norm_num at this ⊢; linarith
  obtain ⟨l, vl, el⟩ := len_std (by norm_num) (sv_val hr) hv Lr
  set L := Q.intoScalarAndVector3.2.length with hLd
  norm_num at el
  have l0 : 0 < l := by
    have := (abs_le.1 el).1
    nlinarith
  have hc := arg_close (w := Q.w) L0 l0 el
  have ζ0 : 0 ≤ ζ := by
    obtain ⟨s, -, es⟩ := hl 1 1 1 1 rfl rfl (by simp)
    exact (abs_nonneg _).trans es
  obtain ⟨t, vt, et⟩ := hl (stdLength r.intoQuaternion.intoScalarAndVector3.2) r.intoQuaternion.w l Q.w vl hr.1 (by
    intro h; simp only [Prod.mk_eq_zero] at h; exact l0.ne' h.2)
  have a1 : 0 ≤ Complex.arg ⟨Q.w, l⟩ := Complex.arg_nonneg_iff.2 l0.le
  have a2 : Complex.arg ⟨Q.w, l⟩ ≤ Real.pi := Complex.arg_le_pi _
  have hp := Real.pi_lt_d2
  have hp0 := Real.pi_pos
  norm_num at hζ
  have tb : |2 * t| ≤ 2 * (3.1416 + 1 / 4096) := by
    rw [abs_mul, abs_two]
    obtain ⟨e1, e2⟩ := abs_le.1 et
    have : |t| ≤ 3.1416 + 1 / 4096 := by
      have := Real.pi_lt_d4
      rw [abs_le]; constructor <;> linarith
    linarith
  obtain ⟨r1, r2⟩ := round_val8 (x := 2 * t) (tb.trans (by norm_num))
  have hang : r.angle = two * FloatOps.atan2 (stdLength r.intoQuaternion.intoScalarAndVector3.2) r.intoQuaternion.w := by
    rw [← length_inst hs, ← Quat.sv_fst]; rfl
  refine ⟨_, by rw [hang]; exact val_mul_iff.2 ⟨2, t, rfl, vt, rfl, r1⟩, ?_⟩
  have hR : R.angle = 2 * Complex.arg ⟨Q.w, L⟩ := by
    rw [← Quat.sv_fst]; rfl
  rw [hR]
  have s1 : (1:ℝ) / 2 ^ 24 * |2 * t| + 1 / 2 ^ 150 ≤ 6.4 / 2 ^ 24 := by
    calc _ ≤ (1:ℝ) / 2 ^ 24 * (2 * (3.1416 + 1 / 4096)) + 1 / 2 ^ 150 := by gcongr
      _ ≤ _ := by norm_num
  calc _ = |(Fmt.f32.near (2 * t) - 2 * t) + (2 * (t - Complex.arg ⟨Q.w, l⟩) + 2 * (Complex.arg ⟨Q.w, l⟩ - Complex.arg ⟨Q.w, L⟩))| := by congr 1; ring
    _ ≤ _ := abs_add_le _ _
    _ ≤ 6.4 / 2 ^ 24 + (|2 * (t - Complex.arg ⟨Q.w, l⟩)| + |2 * (Complex.arg ⟨Q.w, l⟩ - Complex.arg ⟨Q.w, L⟩)|) :=
      add_le_add (r2.trans s1) (abs_add_le _ _)
    _ ≤ _ := by
      rw [abs_mul, abs_mul, abs_two]
      norm_num at hc ⊢
      linarith

/-- `axis()` of such a rotation: finite and within `6u` of the exact axis. -/
theorem C108_rotation3_axis [FloatOps F] (hs : ∀ a : F, FloatOps.sqrt a = Ieee.sqrt a)
    (r : Rotation3 F) (R : Rotation3 ℝ) (hr : ValQ r.intoQuaternion R.intoQuaternion) (hu : NearUnit3 (1 / 2 ^ 10) R)
    (hv : 1 / 2 ^ 55 ≤ R.intoQuaternion.intoScalarAndVector3.2.length) :
    ∃ W, ValV r.axis W ∧ (W - R.axis).length ≤ 6 / 2 ^ 24 := by
  have Lr : R.intoQuaternion.intoScalarAndVector3.2.length ≤ 2 ^ 55 := by
    refine (vec_le_norm _).trans ?_
    have := (abs_le.1 hu).2
    norm_num at this ⊢; linarith
  obtain ⟨W, h1, h2⟩ := nrm_std (by norm_num) (sv_val hr) hv Lr
  refine ⟨W, ?_, h2.trans (by norm_num)⟩
  rw [show r.axis = stdNormalize r.intoQuaternion.intoScalarAndVector3.2 from normalize_inst hs _]
  exact h1

/-- `axis()` and `angle()` of `Rotation3::new(axis, a)` give the axis and the angle back: the angle within `2ζ + 14.2η + 6.3δ + 40u`, the axis
within `6u + 2ε / sin(t/2)`, where `ε = 2.25η + 1.125u + δ` bounds the error of the quaternion. -/
theorem C108_rotation3_round_trip [FloatOps F] (hs : ∀ a : F, FloatOps.sqrt a = Ieee.sqrt a) {η ζ δ : ℝ} (hl : TrigWithin32 η) (ht : Atan2Within32 ζ)
    (hη : η ≤ 1 / 2 ^ 13) (hζ : ζ ≤ 1 / 2 ^ 12) (axis : Vec F 3) (A K : Vec ℝ 3)
    (hA : ValV axis A) (hK : K.length = 1) (hAK : (A - K).length ≤ δ) (hδ : δ ≤ 1 / 2 ^ 13) (a : F) (t : ℝ) (ha : a.toReal? = some t)
    (hda : Datum a) (t0 : 0 ≤ t) (t1 : t ≤ 2 * Real.pi) (hσ : 9 / 4 * η + 9 / 8 / 2 ^ 24 + δ + 1 / 2 ^ 55 ≤ Real.sin (t / 2)) :
    ∃ T W, (Rotation3.new axis a).angle.toReal? = some T ∧ ValV (Rotation3.new axis a).axis W ∧
      |T - t| ≤ 2 * ζ + 14.2 * η + 6.3 * δ + 40 / 2 ^ 24 ∧
      (W - K).length ≤ 6 / 2 ^ 24 + 2 * (9 / 4 * η + 9 / 8 / 2 ^ 24 + δ) / Real.sin (t / 2) := by
  obtain ⟨R, r1, r2, r3⟩ := C108_rotation3_new hl (hη.trans (by norm_num)) axis A K hA hK hAK (hδ.trans (by norm_num)) a t ha hda
  have η0 : 0 ≤ η := by
    obtain ⟨s, -, es⟩ := hl.sin a t ha
    exact (abs_nonneg _).trans es
  have δ0 : 0 ≤ δ := (length_nonneg _).trans hAK
  set ε := 9 / 4 * η + 9 / 8 / 2 ^ 24 + δ with hε
  have hεs : ε ≤ 1 / 2 ^ 10 := by rw [hε]; norm_num at hη hδ ⊢; linarith
  set S := Real.sin (t / 2) with hS
  have S0 : 0 < S := by
    have : (0:ℝ) < 1 / 2 ^ 55 := by positivity
    have : 0 ≤ ε := by rw [hε]; positivity
    linarith
  set Q0 := Quat.fromScalarAndVector3 (Real.cos (t / 2)) (K.mulS S) with hQ0
  have v0 : Q0.intoScalarAndVector3.2 = K.mulS S := by apply Vec.ext3 <;> simp [hQ0]
  have l0 : (K.mulS S).length = S := by
    rw [← norm_toE, show toE (K.mulS S) = S • toE K by ext i; simp [mul_comm], norm_smul, norm_toE, hK, mul_one, Real.norm_eq_abs, abs_of_pos S0]
  have hh := half_sub R.intoQuaternion Q0
  have hd := (hh.trans r2)
  have e0 : halfPt Q0 = ⟨Real.cos (t / 2), S⟩ := by rw [halfPt, v0, l0]; simp [hQ0]
  have ea : (halfPt Q0).arg = t / 2 := by
    have := Complex.arg_cos_add_sin_mul_I (θ := t / 2) ⟨by linarith [Real.pi_pos], by linarith⟩
    rw [e0, Complex.mk_eq_add_mul_I, Complex.ofReal_cos, hS, Complex.ofReal_sin]
    exact this
  have n0 : ‖halfPt Q0‖ = 1 := by
    rw [e0, Complex.norm_eq_sqrt_sq_add_sq]
    simp [hS]
  have hv : 1 / 2 ^ 55 ≤ R.intoQuaternion.intoScalarAndVector3.2.length := by
    have h1 := (Complex.abs_im_le_norm _).trans hd
    rw [e0] at h1
    have h2 : |R.intoQuaternion.intoScalarAndVector3.2.length - S| ≤ ε := h1
    have := (abs_le.1 h2).1
    linarith
  have hu : NearUnit3 (1 / 2 ^ 10) R := r3.trans hεs
  obtain ⟨T, vT, eT⟩ := C108_rotation3_angle hs ht hζ _ R r1 hu hv
  obtain ⟨W, vW, eW⟩ := C108_rotation3_axis hs _ R r1 hu hv
  have vp : 0 < R.intoQuaternion.intoScalarAndVector3.2.length := lt_of_lt_of_le (by positivity) hv
  refine ⟨T, W, vT, vW, ?_, ?_⟩
  · have hR : R.angle = 2 * (halfPt R.intoQuaternion).arg := by
      rw [halfPt, ← Quat.sv_fst]; rfl
    have hc := arg_close' (z := halfPt R.intoQuaternion) (y := halfPt Q0) (κ := ε) vp.le (by rw [e0]; exact S0.le)
      (fun h => vp.ne' (congrArg Complex.im h)) (fun h => by rw [h] at n0; simp at n0) (by rw [n0, mul_one]; exact hd)
    rw [ea] at hc
    rw [hR] at eT
    have hp := Real.pi_lt_d2
    have e0' : 0 ≤ ε := by rw [hε]; positivity
    calc |T - t| = |(T - 2 * (halfPt R.intoQuaternion).arg) + 2 * ((halfPt R.intoQuaternion).arg - t / 2)| := by congr 1; ring
      _ ≤ _ := abs_add_le _ _
      _ ≤ (2 * ζ + 32 / 2 ^ 24) + 2 * (3.15 * ε) := by
        refine add_le_add eT ?_
        rw [abs_mul, abs_two]
        exact mul_le_mul_of_nonneg_left (hc.trans (mul_le_mul_of_nonneg_right hp.le e0')) (by norm_num)
      _ ≤ _ := by rw [hε]; norm_num; linarith
  · have hax : toE R.axis = ‖toE R.intoQuaternion.intoScalarAndVector3.2‖⁻¹ • toE R.intoQuaternion.intoScalarAndVector3.2 := F64.normalize_eq _
    have hk : toE K = ‖toE (K.mulS S)‖⁻¹ • toE (K.mulS S) := by
      rw [norm_toE, l0, show toE (K.mulS S) = S • toE K by ext i; simp [mul_comm], smul_smul, inv_mul_cancel₀ S0.ne', one_smul]
    have hb : (R.intoQuaternion.intoScalarAndVector3.2 - K.mulS S).length ≤ ε := by
      rw [← v0]
      have e2 : R.intoQuaternion.intoScalarAndVector3.2 - Q0.intoScalarAndVector3.2 = (R.intoQuaternion - Q0).intoScalarAndVector3.2 := by
        apply Vec.ext3 <;> simp
      rw [e2]
      exact (vec_le_norm _).trans r2
    have hx := unit_sub (x := toE R.intoQuaternion.intoScalarAndVector3.2) (y := toE (K.mulS S))
      (by rw [← norm_pos_iff, norm_toE]; exact vp) (by rw [← norm_pos_iff, norm_toE, l0]; exact S0)
    rw [← hax, ← hk, ← toE_sub, ← toE_sub, norm_toE, norm_toE, norm_toE, l0] at hx
    refine (length_tri _ R.axis _).trans (add_le_add eW (hx.trans ?_))
    gcongr

/-! ## a concrete case -/
/-- A library whose `sin`, `cos` and `atan2` are correctly rounded meets the hypotheses. -/
theorem C108_library : TrigWithin32 (1 / 2 ^ 23) ∧ Atan2Within32 (1 / 2 ^ 21) ∧ ∀ a : F, FloatOps.sqrt a = Ieee.sqrt a := by
  have key : ∀ x : ℝ, |x| ≤ 1 → |Fmt.f32.near x - x| ≤ 1 / 2 ^ 23 := fun x hx => by
    refine (round_val (hx.trans (by norm_num))).2.trans ?_
    calc _ ≤ (1:ℝ) / 2 ^ 24 * 1 + 1 / 2 ^ 150 := by gcongr
      _ ≤ _ := by norm_num
  refine ⟨⟨fun a t ha => ⟨_, lift1_val (f := Real.sin) ha ((Real.abs_sin_le_one t).trans (by norm_num)), key _ (Real.abs_sin_le_one t)⟩,
    fun a t ha => ⟨_, lift1_val (f := Real.cos) ha ((Real.abs_cos_le_one t).trans (by norm_num)), key _ (Real.abs_cos_le_one t)⟩⟩, ?_, fun _ => rfl⟩
  intro a b y x ha hb _
  have hb4 : |Complex.arg ⟨x, y⟩| ≤ 4 := (Complex.abs_arg_le_pi _).trans Real.pi_le_four
  obtain ⟨r1, r2⟩ := round_val hb4
  refine ⟨Fmt.f32.near (Complex.arg ⟨x, y⟩), ?_, r2.trans ?_⟩
  · show (lift2 FloatOps.atan2 a b).toReal? = _
    unfold lift2
    rw [ha, hb]
    show (if Complex.arg ⟨x, y⟩ = 0 then (0 : F) else rnd (Complex.arg ⟨x, y⟩)).toReal? = _
    by_cases h0 : Complex.arg ⟨x, y⟩ = 0
    · rw [if_pos h0, h0, Fmt.near_zero]; rfl
    · rw [if_neg h0]; exact (val_rnd_near).2 ⟨rfl, r1⟩
  · calc _ ≤ (1:ℝ) / 2 ^ 24 * 4 + 1 / 2 ^ 150 := by gcongr
      _ ≤ _ := by norm_num

namespace Ex108
theorem d1 : Datum (1 : F) := ⟨1, 0, by norm_num, by norm_num [Fmt.f32], by norm_num [Fmt.f32], by norm_num [Fmt.f32]⟩
/-- The x axis. -/
noncomputable def ax : Vec F 3 := Vec.fromTuple3 (1, 0, 0)
noncomputable def AX : Vec ℝ 3 := Vec.fromTuple3 (1, 0, 0)
theorem vax : ValV ax AX := fun i => by fin_cases i <;> rfl
theorem lax : AX.length = 1 := by
  have h := length3 AX
  have h0 := length_nonneg AX
  simp [AX] at h
  rcases h with h | h
  · exact h
  · change AX.length = -1 at h; rw [h] at h0; norm_num at h0
theorem sax : (AX - AX).length ≤ 0 := (length_self_sub AX).le
/-- A point of space and one of the plane. -/
noncomputable def p : Vec F 3 := Vec.fromTuple3 (1, two, 1)
theorem vp : ValV p (Vec.fromTuple3 ((1:ℝ), 2, 1)) := fun i => by fin_cases i <;> rfl
theorem lp : (Vec.fromTuple3 ((1:ℝ), 2, 1)).length ≤ 2 ^ 108 := by
  apply length_le_of_sq (by positivity)
  rw [length3]; simp; norm_num
noncomputable def p2 : Vec F 2 := Vec.fromTuple2 (1, two)
theorem vp2 : ValV p2 (Vec.fromTuple2 ((1:ℝ), 2)) := fun i => by fin_cases i <;> rfl
theorem lp2 : (Vec.fromTuple2 ((1:ℝ), 2)).length ≤ 2 ^ 108 := by
  rw [← norm_toE, EuclideanSpace.norm_eq]
  apply Real.sqrt_le_iff.2 ⟨by positivity, ?_⟩
  rw [Fin.sum_univ_two]
  show ‖(1:ℝ)‖ ^ 2 + ‖(2:ℝ)‖ ^ 2 ≤ _
  rw [Real.norm_eq_abs, Real.norm_eq_abs, sq_abs, sq_abs]; norm_num
theorem small : (1:ℝ) / 2 ^ 23 ≤ 1 / 2 ^ 12 := by norm_num
theorem sin_half : (1:ℝ) / 4 ≤ Real.sin (1 / 2) := by
  have := Real.mul_le_sin (x := 1 / 2) (by norm_num) (by linarith [Real.pi_gt_three])
  refine le_trans ?_ this
  rw [div_mul_eq_mul_div, le_div_iff₀ Real.pi_pos]
  linarith [Real.pi_lt_four]
end Ex108
open Ex108
example := C108_rotation2_new C108_library.1 (1 : F) 1 rfl
example := C108_rotation2_apply C108_library.1 small (1 : F) 1 rfl p2 _ vp2 lp2
example := C108_rotation2_angle_sum C108_library.1 small (1 : F) 1 1 1 rfl rfl d1 d1 (by norm_num)
example := C108_rotation2_round_trip C108_library.1 C108_library.2.1 small (1 : F) 1 rfl
example : True := by
  obtain ⟨R, h1, -, h3⟩ := C108_rotation2_new C108_library.1 (1 : F) 1 rfl
  have := C108_rotation2_angle C108_library.2.1 _ R _ h1 h3 (by norm_num)
  trivial
example := C108_rotation3_new C108_library.1 small ax AX AX vax lax sax (by norm_num) (1 : F) 1 rfl d1
example := C108_rotation3_apply C108_library.1 small ax AX AX vax lax sax (by norm_num) (1 : F) 1 rfl d1 p _ vp lp
example := C108_rotation3_steps C108_library.1 le_rfl ax AX AX vax lax sax (by norm_num) (1 : F) 1 rfl d1 1000 (by norm_num)
example := C108_rotation3_round_trip C108_library.2.2 C108_library.1 C108_library.2.1 (by norm_num) (by norm_num) ax AX AX vax lax sax (by norm_num)
  (1 : F) 1 rfl d1 (by norm_num) (by linarith [Real.pi_gt_three]) (le_trans (by norm_num) sin_half)
/-- A rotation with quaternion `(1, 1, 1, 1)/2`: a third of a turn about the diagonal. -/
example : True := by
  let r : Rotation3 F := ⟨Quat.new (1 / two) (1 / two) (1 / two) (1 / two)⟩
  let R : Rotation3 ℝ := ⟨Quat.new (1 / 2) (1 / 2) (1 / 2) (1 / 2)⟩
  have hh : ((1:F) / two).toReal? = some (1 / 2) := val_div rfl rfl two_ne_zero
    ⟨1, -1, by norm_num, by norm_num [Fmt.f32], by norm_num [Fmt.f32], by norm_num [Fmt.f32]⟩
  have hr : ValQ r.intoQuaternion R.intoQuaternion := ⟨hh, hh, hh, hh⟩
  have hl : R.intoQuaternion.intoScalarAndVector3.2.length ^ 2 = 3 / 4 := by
    rw [length3]; simp [R, Rotation3.intoQuaternion]; norm_num
  have hv : 1 / 2 ^ 55 ≤ R.intoQuaternion.intoScalarAndVector3.2.length := by
    have := length_nonneg R.intoQuaternion.intoScalarAndVector3.2
    have : (1:ℝ) / 2 ≤ R.intoQuaternion.intoScalarAndVector3.2.length := by nlinarith
    exact le_trans (by norm_num) this
  have hu : NearUnit3 (1 / 2 ^ 10) R := by
    have : R.intoQuaternion.norm = 1 := by
      show Real.sqrt R.intoQuaternion.normSqr = 1
      rw [Quat.normSqr_eq]; simp [R, Rotation3.intoQuaternion]; norm_num
    rw [NearUnit3, this]; norm_num
  have a := C108_rotation3_angle C108_library.2.2 C108_library.2.1 (by norm_num) r R hr hu hv
  have b := C108_rotation3_axis C108_library.2.2 r R hr hu hv
  trivial

end Vecmat
