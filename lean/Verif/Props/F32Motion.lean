import Verif.Props.F32Angle
import Verif.Props.F64Motion
/-!
# C112: rigid motions (`Chain<Shift, Rotation3>` and `Chain<Shift, Rotation2>`) in single precision
-/
namespace Vecmat
open Spec Ieee F32
open F64 (toE toE_apply norm_toE toE_add toE_sub toE_neg toE_mulS toE_divS abs_le_norm ofFn ofFn_get length_nonneg length_close length_tri length_self_sub abs_le_length image_close apply2_close comp_errN abs_le_lengthN length_add length_neg vsub_self length_le_add apply3_sub apply2_sub exact_length2 norm_inv3 norm_inv2 back3 back2 apply3_add apply2_add chain_rot3 chain_rot2 chain_exact3 chain_exact2 ident_rot3 ident_rot2 foldl_motion3 foldl_motion2 ident_motion3 ident_motion2)
set_option exponentiation.threshold 3000


namespace F32
/-- Rounded sum of vectors. -/
theorem addV {N : ℕ} [NeZero N] (hN : N ≤ 4) {v w : Vec F N} {X Y : Vec ℝ N} (hv : ValV v X) (hw : ValV w Y) (h : X.length + Y.length ≤ 2 ^ 120) :
    ∃ Z, ValV (v + w) Z ∧ (Z - (X + Y)).length ≤ 1 / 2 ^ 24 * (X + Y).length + 1 / 2 ^ 149 := by
  have key : ∀ i : Fin N, |X[i.1] + Y[i.1]| ≤ 2 ^ 120 := fun i =>
    (abs_add_le _ _).trans ((add_le_add (abs_le_lengthN X i) (abs_le_lengthN Y i)).trans h)
  have er : ∀ i : Fin N, |Fmt.f32.near (X[i.1] + Y[i.1]) - (X[i.1] + Y[i.1])| ≤ 1 / 2 ^ 24 * |X[i.1] + Y[i.1]| + 1 / 2 ^ 150 := fun i => by
    have := near_err_add (φ := Fmt.f32) (X[i.1] + Y[i.1])
    rwa [u_eq, tiny_eq] at this
  have fin : ∀ i : Fin N, |Fmt.f32.near (X[i.1] + Y[i.1])| < huge Fmt.f32 := fun i => by
    rw [huge_eq]
    calc |Fmt.f32.near (X[i.1] + Y[i.1])| = |(Fmt.f32.near (X[i.1] + Y[i.1]) - (X[i.1] + Y[i.1])) + (X[i.1] + Y[i.1])| := by congr 1; ring
      _ ≤ _ := abs_add_le _ _
      _ ≤ (1 / 2 ^ 24 * 2 ^ 120 + 1 / 2 ^ 150) + 2 ^ 120 := add_le_add ((er i).trans (by gcongr; exact key i)) (key i)
      _ < _ := by norm_num
  refine ⟨ofFn fun i => Fmt.f32.near (X[i.1] + Y[i.1]), fun i => ?_, ?_⟩
  · rw [ofFn_get, Vec.getElem_add]
    exact val_add_iff.2 ⟨_, _, hv i, hw i, rfl, fin i⟩
  · refine (comp_errN hN (A := X + Y) (c := 1 / 2 ^ 24) (τ := 1 / 2 ^ 150) (by positivity) (by positivity) fun i => ?_).trans (by rw [show (2:ℝ) * (1 / 2 ^ 150) = 1 / 2 ^ 149 by norm_num])
    rw [Vec.getElem_sub, ofFn_get, Vec.getElem_add]
    exact er i
/-- The computed map `f` follows the exact linear map `g`, which is nearly an isometry. -/
structure Act {N : ℕ} [NeZero N] (κ : ℝ) (f : Vec F N → Vec F N) (g : Vec ℝ N → Vec ℝ N) : Prop where
  close : ∀ v X, ValV v X → X.length ≤ 2 ^ 108 → ∃ Y, ValV (f v) Y ∧ (Y - g X).length ≤ κ / 2 ^ 24 * X.length + 1 / 2 ^ 144
  sub : ∀ X Y, g (X - Y) = g X - g Y
  bnd : ∀ X, (g X).length ≤ (1 + 1 / 2 ^ 8) * X.length
variable {N : ℕ} [NeZero N] {κ κ' : ℝ} {f f' f'' : Vec F N → Vec F N} {g g' g'' : Vec ℝ N → Vec ℝ N}
theorem Act.neg (h : Act κ f g) (X : Vec ℝ N) : g (-X) = -g X := by
  have e : -X = (X - X) - X := by apply Vec.ext_getElem; intro i hi; simp
  rw [e, h.sub, h.sub]
  apply Vec.ext_getElem; intro i hi; simp
theorem Act.add (h : Act κ f g) (X Y : Vec ℝ N) : g (X + Y) = g X + g Y := by
  have e : X + Y = X - -Y := by apply Vec.ext_getElem; intro i hi; simp
  rw [e, h.sub, h.neg]
  apply Vec.ext_getElem; intro i hi; simp
/-- One motion. -/
theorem Act.motion (h : Act κ f g) (h0 : 0 ≤ κ) (hκ : κ ≤ 64) (hN : N ≤ 4) {v w : Vec F N} {X S : Vec ℝ N} (hv : ValV v X) (hw : ValV w S) (hX : X.length ≤ 2 ^ 105)
    (hS : S.length ≤ 2 ^ 105) :
    ∃ Z, ValV (f v + w) Z ∧ (Z - (g X + S)).length ≤ ((κ + 2) * X.length + S.length) / 2 ^ 24 + 1 / 2 ^ 143 := by
  obtain ⟨Y, vY, eY⟩ := h.close v X hv (hX.trans (by norm_num))
  have x0 := length_nonneg X
  have s0 := length_nonneg S
  have hb := h.bnd X
  have hY := length_le_add Y (g X)
  have k1 : κ / 2 ^ 24 * X.length ≤ 1 / 2 ^ 8 * X.length := by
    refine mul_le_mul_of_nonneg_right ?_ x0
    rw [div_le_iff₀ (by positivity)]; norm_num; linarith
  have hY' : Y.length ≤ (1 + 1 / 2 ^ 7) * X.length + 1 / 2 ^ 144 := by
    generalize (1:ℝ) / 2 ^ 144 = t at *
    norm_num at k1 hb ⊢; linarith
  obtain ⟨Z, vZ, eZ⟩ := addV hN vY hw (by
    calc Y.length + S.length ≤ ((1 + 1 / 2 ^ 7) * 2 ^ 105 + 1 / 2 ^ 144) + 2 ^ 105 := add_le_add (hY'.trans (by gcongr)) hS
      _ ≤ _ := by norm_num)
  refine ⟨Z, vZ, (length_tri Z (Y + S) (g X + S)).trans ?_⟩
  have e : (Y + S) - (g X + S) = Y - g X := by apply Vec.ext_getElem; intro i hi; simp
  rw [e]
  have hYS := length_add Y S
  have hYS' : 1 / 2 ^ 24 * (Y + S).length ≤ 1 / 2 ^ 24 * ((1 + 1 / 2 ^ 7) * X.length + 1 / 2 ^ 144 + S.length) := by gcongr; linarith
  have ht : (1:ℝ) / 2 ^ 24 * (1 / 2 ^ 144) + 1 / 2 ^ 149 + 1 / 2 ^ 144 ≤ 1 / 2 ^ 143 := by norm_num
  have e2 : ((κ + 2) * X.length + S.length) / 2 ^ 24 = κ / 2 ^ 24 * X.length + 2 / 2 ^ 24 * X.length + 1 / 2 ^ 24 * S.length := by ring
  have e3 : 1 / 2 ^ 24 * ((1 + 1 / 2 ^ 7) * X.length + 1 / 2 ^ 144 + S.length) =
    (1 + 1 / 2 ^ 7) / 2 ^ 24 * X.length + 1 / 2 ^ 24 * (1 / 2 ^ 144) + 1 / 2 ^ 24 * S.length := by ring
  have e4 : (1 + 1 / 2 ^ 7 : ℝ) / 2 ^ 24 * X.length ≤ 2 / 2 ^ 24 * X.length := by gcongr; norm_num
  rw [e2]; rw [e3] at hYS'
  generalize (1:ℝ) / 2 ^ 24 * (1 / 2 ^ 144) = t1 at *
  generalize (1:ℝ) / 2 ^ 144 = t2 at *
  generalize (1:ℝ) / 2 ^ 143 = t3 at *
  generalize (1:ℝ) / 2 ^ 149 = t4 at *
  linarith
/-- The shift of the inverse motion and its application. -/
theorem Act.inverse (h : Act κ f g) (h0 : 0 ≤ κ) (hκ : κ ≤ 64) (hN : N ≤ 4) {v w : Vec F N} {X S : Vec ℝ N} (hv : ValV v X) (hw : ValV w S) (hX : X.length ≤ 2 ^ 104)
    (hS : S.length ≤ 2 ^ 104) :
    ∃ Z T, ValV (f v + f (-w)) Z ∧ ValV (f (-w)) T ∧ (T - g (-S)).length ≤ κ / 2 ^ 24 * S.length + 1 / 2 ^ 144 ∧
      (Z - (g X + g (-S))).length ≤ (κ + 2) / 2 ^ 24 * (X.length + S.length) + 1 / 2 ^ 142 := by
  have hw' : ValV (-w) (-S) := neg_valV hw
  have x0 := length_nonneg X
  have s0 := length_nonneg S
  obtain ⟨T, vT, eT⟩ := h.close (-w) (-S) hw' (by rw [length_neg]; exact hS.trans (by norm_num))
  rw [length_neg] at eT
  have hb := h.bnd (-S)
  rw [length_neg] at hb
  have hT := length_le_add T (g (-S))
  have k1 : κ / 2 ^ 24 * S.length ≤ 1 / 2 ^ 8 * S.length := by
    refine mul_le_mul_of_nonneg_right ?_ s0
    rw [div_le_iff₀ (by positivity)]; norm_num; linarith
  have hT' : T.length ≤ (1 + 1 / 2 ^ 7) * S.length + 1 / 2 ^ 144 := by
    generalize (1:ℝ) / 2 ^ 144 = t at *
    norm_num at k1 hb ⊢; linarith
  obtain ⟨Z, vZ, eZ⟩ := h.motion h0 hκ hN hv vT (hX.trans (by norm_num)) (hT'.trans (by
    calc (1 + 1 / 2 ^ 7 : ℝ) * S.length + 1 / 2 ^ 144 ≤ (1 + 1 / 2 ^ 7) * 2 ^ 104 + 1 / 2 ^ 144 := by gcongr
      _ ≤ _ := by norm_num))
  refine ⟨Z, T, vZ, vT, eT, (length_tri Z (g X + T) (g X + g (-S))).trans ?_⟩
  have e : (g X + T) - (g X + g (-S)) = T - g (-S) := by apply Vec.ext_getElem; intro i hi; simp
  rw [e]
  have e2 : ((κ + 2) * X.length + T.length) / 2 ^ 24 = (κ + 2) / 2 ^ 24 * X.length + 1 / 2 ^ 24 * T.length := by ring
  rw [e2] at eZ
  have e3 : 1 / 2 ^ 24 * T.length ≤ 1 / 2 ^ 24 * ((1 + 1 / 2 ^ 7) * S.length + 1 / 2 ^ 144) := by gcongr
  have e4 : 1 / 2 ^ 24 * ((1 + 1 / 2 ^ 7) * S.length + 1 / 2 ^ 144) = (1 + 1 / 2 ^ 7) / 2 ^ 24 * S.length + 1 / 2 ^ 24 * (1 / 2 ^ 144) := by ring
  have e5 : (1 + 1 / 2 ^ 7 : ℝ) / 2 ^ 24 * S.length ≤ 2 / 2 ^ 24 * S.length := by gcongr; norm_num
  have e6 : (κ + 2) / 2 ^ 24 * (X.length + S.length) = (κ + 2) / 2 ^ 24 * X.length + κ / 2 ^ 24 * S.length + 2 / 2 ^ 24 * S.length := by ring
  have ht : (1:ℝ) / 2 ^ 24 * (1 / 2 ^ 144) + 1 / 2 ^ 144 + 1 / 2 ^ 143 ≤ 1 / 2 ^ 142 := by norm_num
  rw [e4] at e3; rw [e6]
  generalize (1:ℝ) / 2 ^ 24 * (1 / 2 ^ 144) = t1 at *
  generalize (1:ℝ) / 2 ^ 144 = t2 at *
  generalize (1:ℝ) / 2 ^ 143 = t3 at *
  generalize (1:ℝ) / 2 ^ 142 = t4 at *
  linarith
/-- There and back. -/
theorem Act.back (h : Act κ f g) (h' : Act κ f' g') (h0 : 0 ≤ κ) (hκ : κ ≤ 64) (hN : N ≤ 4) {v w : Vec F N} {X S : Vec ℝ N} (hv : ValV v X) (hw : ValV w S)
    (hX : X.length ≤ 2 ^ 100) (hS : S.length ≤ 2 ^ 100) :
    ∃ Z, ValV (f' (f v + w) + f' (-w)) Z ∧ (Z - X).length ≤ (2.1 * (κ + 2) + 1.1) / 2 ^ 24 * (X.length + S.length) + (g' (g X) - X).length + 1 / 2 ^ 140 := by
  have x0 := length_nonneg X
  have s0 := length_nonneg S
  obtain ⟨W, vW, eW⟩ := h.motion h0 hκ hN hv hw (hX.trans (by norm_num)) (hS.trans (by norm_num))
  have hW := length_le_add W (g X + S)
  have hb := h.bnd X
  have hgS := length_add (g X) S
  have k1 : (κ + 2) / 2 ^ 24 * X.length ≤ 1 / 2 ^ 8 * X.length := by
    refine mul_le_mul_of_nonneg_right ?_ x0
    rw [div_le_iff₀ (by positivity)]; norm_num; linarith
  have e1 : ((κ + 2) * X.length + S.length) / 2 ^ 24 = (κ + 2) / 2 ^ 24 * X.length + 1 / 2 ^ 24 * S.length := by ring
  have hW' : W.length ≤ (1 + 1 / 2 ^ 7) * (X.length + S.length) + 1 / 2 ^ 143 := by
    rw [e1] at eW
    generalize (1:ℝ) / 2 ^ 143 = t at *
    norm_num at k1 hb eW ⊢; linarith
  obtain ⟨Z, T, vZ, -, -, eZ⟩ := h'.inverse h0 hκ hN vW hw (hW'.trans (by
    calc (1 + 1 / 2 ^ 7 : ℝ) * (X.length + S.length) + 1 / 2 ^ 143 ≤ (1 + 1 / 2 ^ 7) * (2 ^ 100 + 2 ^ 100) + 1 / 2 ^ 143 := by gcongr
      _ ≤ _ := by norm_num)) (hS.trans (by norm_num))
  refine ⟨Z, vZ, ?_⟩
  have e2 : g' W + g' (-S) = g' (W - (g X + S)) + g' (g X) := by
    rw [h'.neg, h'.sub, h'.add]
    apply Vec.ext_getElem; intro i hi; simp; ring
  rw [e2] at eZ
  have t1 := length_tri Z (g' (W - (g X + S)) + g' (g X)) X
  have e3 : g' (W - (g X + S)) + g' (g X) - X = g' (W - (g X + S)) + (g' (g X) - X) := by
    apply Vec.ext_getElem; intro i hi; simp; ring
  rw [e3] at t1
  have t2 := length_add (g' (W - (g X + S))) (g' (g X) - X)
  have t3 := h'.bnd (W - (g X + S))
  have t4 : (1 + 1 / 2 ^ 8) * (W - (g X + S)).length ≤ (1 + 1 / 2 ^ 8) * (((κ + 2) * X.length + S.length) / 2 ^ 24 + 1 / 2 ^ 143) := by gcongr
  have t5 : (κ + 2) / 2 ^ 24 * (W.length + S.length) ≤ (κ + 2) / 2 ^ 24 * ((1 + 1 / 2 ^ 7) * (X.length + S.length) + 1 / 2 ^ 143 + S.length) := by gcongr
  have t6 : (κ + 2) / 2 ^ 24 * (1 / 2 ^ 143) ≤ 1 / 2 ^ 143 := by
    refine mul_le_of_le_one_left (by positivity) ?_
    rw [div_le_iff₀ (by positivity)]; norm_num; linarith
  have t7 : (1:ℝ) / 2 ^ 143 + 1 / 2 ^ 142 + (1 + 1 / 2 ^ 8) * (1 / 2 ^ 143) ≤ 1 / 2 ^ 140 := by norm_num
  have t8 : (κ + 2) / 2 ^ 24 * ((1 + 1 / 2 ^ 7) * (X.length + S.length) + 1 / 2 ^ 143 + S.length) =
    (κ + 2) / 2 ^ 24 * ((1 + 1 / 2 ^ 7) * (X.length + S.length) + S.length) + (κ + 2) / 2 ^ 24 * (1 / 2 ^ 143) := by ring
  have t9 : (1 + 1 / 2 ^ 8) * (((κ + 2) * X.length + S.length) / 2 ^ 24 + 1 / 2 ^ 143) =
    (1 + 1 / 2 ^ 8) * (((κ + 2) * X.length + S.length) / 2 ^ 24) + (1 + 1 / 2 ^ 8) * (1 / 2 ^ 143) := by ring
  have t10 : (κ + 2) / 2 ^ 24 * ((1 + 1 / 2 ^ 7) * (X.length + S.length) + S.length) + (1 + 1 / 2 ^ 8) * (((κ + 2) * X.length + S.length) / 2 ^ 24) ≤
      (2.1 * (κ + 2) + 1.1) / 2 ^ 24 * (X.length + S.length) := by
    rw [show (κ + 2) / 2 ^ 24 * ((1 + 1 / 2 ^ 7) * (X.length + S.length) + S.length) + (1 + 1 / 2 ^ 8) * (((κ + 2) * X.length + S.length) / 2 ^ 24) =
      1 / 2 ^ 24 * ((κ + 2) * ((1 + 1 / 2 ^ 7) * (X.length + S.length) + S.length) + (1 + 1 / 2 ^ 8) * ((κ + 2) * X.length + S.length)) by ring,
      show (2.1 * (κ + 2) + 1.1) / 2 ^ 24 * (X.length + S.length) = 1 / 2 ^ 24 * ((2.1 * (κ + 2) + 1.1) * (X.length + S.length)) by ring]
    refine mul_le_mul_of_nonneg_left ?_ (by positivity)
    have p1 : 0 ≤ (κ + 2) * X.length := by positivity
    have p2 : 0 ≤ (κ + 2) * S.length := by positivity
    norm_num; linarith
  rw [t8] at t5; rw [t9] at t4
  generalize (κ + 2) / 2 ^ 24 * ((1 + 1 / 2 ^ 7) * (X.length + S.length) + S.length) = q1 at *
  generalize (1 + 1 / 2 ^ 8) * (((κ + 2) * X.length + S.length) / 2 ^ 24) = q2 at *
  generalize (1 + 1 / 2 ^ 8) * ((1:ℝ) / 2 ^ 143) = q3 at *
  generalize (1:ℝ) / 2 ^ 143 = q4 at *
  generalize (1:ℝ) / 2 ^ 142 = q5 at *
  generalize (1:ℝ) / 2 ^ 140 = q6 at *
  linarith
/-- Two motions, one after the other. -/
theorem Act.twice (h : Act κ f g) (h' : Act κ f' g') (h0 : 0 ≤ κ) (hκ : κ ≤ 64) (hN : N ≤ 4) {v w w' : Vec F N} {X S S' : Vec ℝ N} (hv : ValV v X) (hw : ValV w S)
    (hw' : ValV w' S') (hX : X.length ≤ 2 ^ 100) (hS : S.length ≤ 2 ^ 100) (hS' : S'.length ≤ 2 ^ 100) :
    ∃ Z, ValV (f' (f v + w) + w') Z ∧
      (Z - (g' (g X + S) + S')).length ≤ (2.1 * (κ + 2) * X.length + 1.1 * (κ + 3) * S.length + S'.length) / 2 ^ 24 + 1 / 2 ^ 141 := by
  have x0 := length_nonneg X
  have s0 := length_nonneg S
  obtain ⟨W, vW, eW⟩ := h.motion h0 hκ hN hv hw (hX.trans (by norm_num)) (hS.trans (by norm_num))
  have hW := length_le_add W (g X + S)
  have hb := h.bnd X
  have hgS := length_add (g X) S
  have k1 : (κ + 2) / 2 ^ 24 * X.length ≤ 1 / 2 ^ 8 * X.length := by
    refine mul_le_mul_of_nonneg_right ?_ x0
    rw [div_le_iff₀ (by positivity)]; norm_num; linarith
  have e1 : ((κ + 2) * X.length + S.length) / 2 ^ 24 = (κ + 2) / 2 ^ 24 * X.length + 1 / 2 ^ 24 * S.length := by ring
  have hW' : W.length ≤ (1 + 1 / 2 ^ 7) * (X.length + S.length) + 1 / 2 ^ 143 := by
    rw [e1] at eW
    generalize (1:ℝ) / 2 ^ 143 = t at *
    norm_num at k1 hb eW ⊢; linarith
  obtain ⟨Z, vZ, eZ⟩ := h'.motion h0 hκ hN vW hw' (hW'.trans (by
    calc (1 + 1 / 2 ^ 7 : ℝ) * (X.length + S.length) + 1 / 2 ^ 143 ≤ (1 + 1 / 2 ^ 7) * (2 ^ 100 + 2 ^ 100) + 1 / 2 ^ 143 := by gcongr
      _ ≤ _ := by norm_num)) (hS'.trans (by norm_num))
  refine ⟨Z, vZ, (length_tri Z (g' W + S') _).trans ?_⟩
  have e2 : g' W + S' - (g' (g X + S) + S') = g' (W - (g X + S)) := by
    rw [h'.sub]; apply Vec.ext_getElem; intro i hi; simp
  rw [e2]
  have t3 := h'.bnd (W - (g X + S))
  have t4 : (1 + 1 / 2 ^ 8) * (W - (g X + S)).length ≤ (1 + 1 / 2 ^ 8) * (((κ + 2) * X.length + S.length) / 2 ^ 24 + 1 / 2 ^ 143) := by gcongr
  have t5 : ((κ + 2) * W.length + S'.length) / 2 ^ 24 ≤ ((κ + 2) * ((1 + 1 / 2 ^ 7) * (X.length + S.length) + 1 / 2 ^ 143) + S'.length) / 2 ^ 24 := by gcongr
  have t6 : (κ + 2) / 2 ^ 24 * (1 / 2 ^ 143) ≤ 1 / 2 ^ 143 := by
    refine mul_le_of_le_one_left (by positivity) ?_
    rw [div_le_iff₀ (by positivity)]; norm_num; linarith
  have t7 : (1:ℝ) / 2 ^ 143 + 1 / 2 ^ 143 + (1 + 1 / 2 ^ 8) * (1 / 2 ^ 143) ≤ 1 / 2 ^ 141 := by norm_num
  have t8 : ((κ + 2) * ((1 + 1 / 2 ^ 7) * (X.length + S.length) + 1 / 2 ^ 143) + S'.length) / 2 ^ 24 =
    ((κ + 2) * ((1 + 1 / 2 ^ 7) * (X.length + S.length)) + S'.length) / 2 ^ 24 + (κ + 2) / 2 ^ 24 * (1 / 2 ^ 143) := by ring
  have t9 : (1 + 1 / 2 ^ 8) * (((κ + 2) * X.length + S.length) / 2 ^ 24 + 1 / 2 ^ 143) =
    (1 + 1 / 2 ^ 8) * (((κ + 2) * X.length + S.length) / 2 ^ 24) + (1 + 1 / 2 ^ 8) * (1 / 2 ^ 143) := by ring
  have t10 : ((κ + 2) * ((1 + 1 / 2 ^ 7) * (X.length + S.length)) + S'.length) / 2 ^ 24 + (1 + 1 / 2 ^ 8) * (((κ + 2) * X.length + S.length) / 2 ^ 24) ≤
      (2.1 * (κ + 2) * X.length + 1.1 * (κ + 3) * S.length + S'.length) / 2 ^ 24 := by
    rw [← mul_div_assoc, ← add_div]
    refine div_le_div_of_nonneg_right ?_ (by positivity)
    have p1 : 0 ≤ (κ + 2) * X.length := by positivity
    have p2 : 0 ≤ (κ + 2) * S.length := by positivity
    norm_num; linarith
  rw [t8] at t5; rw [t9] at t4
  generalize ((κ + 2) * ((1 + 1 / 2 ^ 7) * (X.length + S.length)) + S'.length) / 2 ^ 24 = q1 at *
  generalize (1 + 1 / 2 ^ 8) * (((κ + 2) * X.length + S.length) / 2 ^ 24) = q2 at *
  generalize (1 + 1 / 2 ^ 8) * ((1:ℝ) / 2 ^ 143) = q3 at *
  generalize (1:ℝ) / 2 ^ 143 = q4 at *
  generalize (1:ℝ) / 2 ^ 141 = q5 at *
  linarith
/-- The shift of a composition. -/
theorem Act.shift (h : Act κ f g) (h0 : 0 ≤ κ) (hκ : κ ≤ 64) (hN : N ≤ 4) {v w : Vec F N} {X S : Vec ℝ N} (hv : ValV v X) (hw : ValV w S) (hX : X.length ≤ 2 ^ 105)
    (hS : S.length ≤ 2 ^ 105) :
    ∃ Z, ValV (w + f v) Z ∧ (Z - (S + g X)).length ≤ ((κ + 2) * X.length + S.length) / 2 ^ 24 + 1 / 2 ^ 143 := by
  obtain ⟨Z, vZ, eZ⟩ := h.motion h0 hκ hN hv hw hX hS
  refine ⟨Z, fun i => ?_, ?_⟩
  · have := vZ i
    rw [Vec.getElem_add] at this ⊢
    obtain ⟨x, y, hx, hy, e, hh⟩ := val_add_iff.1 this
    exact val_add_iff.2 ⟨y, x, hy, hx, by rw [add_comm]; exact e, by rw [add_comm]; exact hh⟩
  · rwa [show S + g X = g X + S by apply Vec.ext_getElem; intro i hi; simp [add_comm]]
/-- A composition of two motions, applied. -/
theorem Act.compose (h : Act κ f g) (hc : Act κ' f'' g'') (h0 : 0 ≤ κ) (hκ : κ ≤ 64) (h0' : 0 ≤ κ') (hκ' : κ' ≤ 64) (hN : N ≤ 4) {v w w' : Vec F N} {X S S' : Vec ℝ N}
    (hv : ValV v X) (hw : ValV w S) (hw' : ValV w' S') (hX : X.length ≤ 2 ^ 100) (hS : S.length ≤ 2 ^ 100) (hS' : S'.length ≤ 2 ^ 100) :
    ∃ Z T, ValV (f'' v + (w' + f w)) Z ∧ ValV (w' + f w) T ∧ (T - (S' + g S)).length ≤ ((κ + 2) * S.length + S'.length) / 2 ^ 24 + 1 / 2 ^ 143 ∧
      (Z - (g'' X + (S' + g S))).length ≤ ((κ' + 2) * X.length + (κ + 4) * S.length + 3 * S'.length) / 2 ^ 24 + 1 / 2 ^ 141 := by
  have x0 := length_nonneg X
  have s0 := length_nonneg S
  have s0' := length_nonneg S'
  obtain ⟨T, vT, eT⟩ := h.shift h0 hκ hN hw hw' (hS.trans (by norm_num)) (hS'.trans (by norm_num))
  have hT := length_le_add T (S' + g S)
  have hb := h.bnd S
  have hgS := length_add S' (g S)
  have k1 : (κ + 2) / 2 ^ 24 * S.length ≤ 1 / 2 ^ 8 * S.length := by
    refine mul_le_mul_of_nonneg_right ?_ s0
    rw [div_le_iff₀ (by positivity)]; norm_num; linarith
  have e1 : ((κ + 2) * S.length + S'.length) / 2 ^ 24 = (κ + 2) / 2 ^ 24 * S.length + 1 / 2 ^ 24 * S'.length := by ring
  have hT' : T.length ≤ (1 + 1 / 2 ^ 7) * (S.length + S'.length) + 1 / 2 ^ 143 := by
    rw [e1] at eT
    generalize (1:ℝ) / 2 ^ 143 = t at *
    norm_num at k1 hb eT ⊢; linarith
  obtain ⟨Z, vZ, eZ⟩ := hc.motion h0' hκ' hN hv vT (hX.trans (by norm_num)) (hT'.trans (by
    calc (1 + 1 / 2 ^ 7 : ℝ) * (S.length + S'.length) + 1 / 2 ^ 143 ≤ (1 + 1 / 2 ^ 7) * (2 ^ 100 + 2 ^ 100) + 1 / 2 ^ 143 := by gcongr
      _ ≤ _ := by norm_num))
  refine ⟨Z, T, vZ, vT, eT, (length_tri Z (g'' X + T) _).trans ?_⟩
  have e2 : g'' X + T - (g'' X + (S' + g S)) = T - (S' + g S) := by apply Vec.ext_getElem; intro i hi; simp
  rw [e2]
  have t5 : ((κ' + 2) * X.length + T.length) / 2 ^ 24 ≤ ((κ' + 2) * X.length + ((1 + 1 / 2 ^ 7) * (S.length + S'.length) + 1 / 2 ^ 143)) / 2 ^ 24 := by gcongr
  have t7 : (1:ℝ) / 2 ^ 24 * (1 / 2 ^ 143) + 1 / 2 ^ 143 + 1 / 2 ^ 143 ≤ 1 / 2 ^ 141 := by norm_num
  have t8 : ((κ' + 2) * X.length + ((1 + 1 / 2 ^ 7) * (S.length + S'.length) + 1 / 2 ^ 143)) / 2 ^ 24 =
    ((κ' + 2) * X.length + (1 + 1 / 2 ^ 7) * (S.length + S'.length)) / 2 ^ 24 + 1 / 2 ^ 24 * (1 / 2 ^ 143) := by ring
  have t10 : ((κ' + 2) * X.length + (1 + 1 / 2 ^ 7) * (S.length + S'.length)) / 2 ^ 24 + ((κ + 2) * S.length + S'.length) / 2 ^ 24 ≤
      ((κ' + 2) * X.length + (κ + 4) * S.length + 3 * S'.length) / 2 ^ 24 := by
    rw [← add_div]
    refine div_le_div_of_nonneg_right ?_ (by positivity)
    norm_num; linarith
  rw [t8] at t5
  generalize ((κ' + 2) * X.length + (1 + 1 / 2 ^ 7) * (S.length + S'.length)) / 2 ^ 24 = q1 at *
  generalize ((κ + 2) * S.length + S'.length) / 2 ^ 24 = q2 at *
  generalize (1:ℝ) / 2 ^ 24 * (1 / 2 ^ 143) = q3 at *
  generalize (1:ℝ) / 2 ^ 143 = q4 at *
  generalize (1:ℝ) / 2 ^ 141 = q5 at *
  linarith
/-! ### the rotations as instances -/
theorem act3 {r : Rotation3 F} {R : Rotation3 ℝ} (hr : ValQ r.intoQuaternion R.intoQuaternion) (hu : ‖R.quat.toH‖ ≤ 1 + 1 / 2 ^ 10) :
    Act (N := 3) 19 (Transform.apply r) (Transform.apply R) where
  close v X hv hX := apply_core hr hv hu hX
  sub := apply3_sub R
  bnd X := by
    rw [exact_length]
    refine mul_le_mul_of_nonneg_right ?_ (length_nonneg X)
    calc ‖R.quat.toH‖ ^ 2 ≤ (1 + 1 / 2 ^ 10) ^ 2 := by gcongr
      _ ≤ _ := by norm_num
theorem act2 {r : Rotation2 F} {R : Rotation2 ℝ} (hr : ValC r.intoComplex R.intoComplex) (hu : ‖R.comp.toC‖ ≤ 1 + 1 / 2 ^ 10) :
    Act (N := 2) 5 (Transform.apply r) (Transform.apply R) where
  close v X hv hX := by
    obtain ⟨Y, h1, h2⟩ := apply2_core hr hv (hu.trans (by norm_num)) hX
    exact ⟨Y, h1, h2.trans (by gcongr <;> norm_num)⟩
  sub := apply2_sub R
  bnd X := by
    rw [exact_length2]
    exact mul_le_mul_of_nonneg_right (hu.trans (by norm_num)) (length_nonneg X)
theorem val_inv3 {r : Rotation3 F} {R : Rotation3 ℝ} (hr : ValQ r.intoQuaternion R.intoQuaternion) :
    ValQ (Transform.inv (Vec F 3) r).intoQuaternion (Transform.inv (Vec ℝ 3) R).intoQuaternion := by
  have := valQ_ofH (isQ_conj (q := r.quat) (Q := R.quat.toH) hr)
  rwa [← toH_conj, show ofH (R.quat.conj).toH = R.quat.conj by rfl] at this
theorem val_inv2 {r : Rotation2 F} {R : Rotation2 ℝ} (hr : ValC r.intoComplex R.intoComplex) :
    ValC (Transform.inv (Vec F 2) r).intoComplex (Transform.inv (Vec ℝ 2) R).intoComplex := by
  have := valC_ofC (isC_conj (q := r.comp) (Q := R.comp.toC) hr)
  rwa [← toC_conj, show ofC (R.comp.conj).toC = R.comp.conj by rfl] at this
theorem act3_chain {r s : Rotation3 F} {R S : Rotation3 ℝ} (hr : ValQ r.intoQuaternion R.intoQuaternion) (hs : ValQ s.intoQuaternion S.intoQuaternion)
    (hR : ‖R.quat.toH‖ ≤ 1 + 1 / 2 ^ 12) (hS : ‖S.quat.toH‖ ≤ 1 + 1 / 2 ^ 12) :
    Act (N := 3) 40 (Transform.apply (Transform.chain (Vec F 3) r s)) (Transform.apply (Transform.chain (Vec ℝ 3) R S)) := by
  have h10 : (1 + 1 / 2 ^ 12 : ℝ) ≤ 1 + 1 / 2 ^ 10 := by norm_num
  have eP : (Transform.chain (Vec ℝ 3) R S).quat.toH = R.quat.toH * S.quat.toH := toH_mul _ _
  have nP : ‖(Transform.chain (Vec ℝ 3) R S).quat.toH‖ ≤ (1 + 1 / 2 ^ 12) * (1 + 1 / 2 ^ 12) := by rw [eP, norm_mul]; gcongr
  obtain ⟨T, vT, eT⟩ := chain_core hr hs (hR.trans h10) (hS.trans h10)
  rw [← eP] at eT
  have nT : ‖T.quat.toH‖ ≤ 1 + 1 / 2 ^ 10 := by
    calc ‖T.quat.toH‖ = ‖(T.quat.toH - (Transform.chain (Vec ℝ 3) R S).quat.toH) + (Transform.chain (Vec ℝ 3) R S).quat.toH‖ := by congr 1; abel
      _ ≤ _ := norm_add_le _ _
      _ ≤ 10 / 2 ^ 24 + (1 + 1 / 2 ^ 12) * (1 + 1 / 2 ^ 12) := add_le_add eT nP
      _ ≤ _ := by norm_num
  refine ⟨fun v X hv hX => ?_, apply3_sub _, fun X => ?_⟩
  · obtain ⟨Y, h1, h2⟩ := apply_core vT hv nT hX
    refine ⟨Y, h1, (length_tri _ (Transform.apply T X) _).trans ?_⟩
    have h3 := image_close T (Transform.chain (Vec ℝ 3) R S) X
    have x0 := length_nonneg X
    have h4 : ‖T.quat.toH - (Transform.chain (Vec ℝ 3) R S).quat.toH‖ * (‖T.quat.toH‖ + ‖(Transform.chain (Vec ℝ 3) R S).quat.toH‖) * X.length ≤
        10 / 2 ^ 24 * (1 + 1 / 2 ^ 10 + (1 + 1 / 2 ^ 12) * (1 + 1 / 2 ^ 12)) * X.length := by gcongr
    generalize 1 / (2:ℝ) ^ 144 = t at *
    norm_num at h2 h3 h4 ⊢; linarith
  · rw [exact_length]
    refine mul_le_mul_of_nonneg_right ?_ (length_nonneg X)
    calc _ ≤ ((1 + 1 / 2 ^ 12) * (1 + 1 / 2 ^ 12) : ℝ) ^ 2 := by gcongr
      _ ≤ _ := by norm_num
theorem act2_chain {r s : Rotation2 F} {R S : Rotation2 ℝ} (hr : ValC r.intoComplex R.intoComplex) (hs : ValC s.intoComplex S.intoComplex)
    (hR : ‖R.comp.toC‖ ≤ 1 + 1 / 2 ^ 12) (hS : ‖S.comp.toC‖ ≤ 1 + 1 / 2 ^ 12) :
    Act (N := 2) 10 (Transform.apply (Transform.chain (Vec F 2) r s)) (Transform.apply (Transform.chain (Vec ℝ 2) R S)) := by
  have h7 : (1 + 1 / 2 ^ 12 : ℝ) ≤ 1 + 1 / 2 ^ 7 := by norm_num
  have eP : (Transform.chain (Vec ℝ 2) R S).comp.toC = R.comp.toC * S.comp.toC := toC_mul _ _
  have nP : ‖(Transform.chain (Vec ℝ 2) R S).comp.toC‖ ≤ (1 + 1 / 2 ^ 12) * (1 + 1 / 2 ^ 12) := by rw [eP, norm_mul]; gcongr
  obtain ⟨V, vV, eV⟩ := mul_core (z := r.comp) (w := s.comp) (Z := R.comp.toC) (W := S.comp.toC) hr hs (hR.trans h7) (hS.trans h7)
  rw [← eP] at eV
  have nT : ‖V‖ ≤ 1 + 1 / 2 ^ 7 := by
    calc ‖V‖ = ‖(V - (Transform.chain (Vec ℝ 2) R S).comp.toC) + (Transform.chain (Vec ℝ 2) R S).comp.toC‖ := by congr 1; abel
      _ ≤ _ := norm_add_le _ _
      _ ≤ 5 / 2 ^ 24 + (1 + 1 / 2 ^ 12) * (1 + 1 / 2 ^ 12) := add_le_add eV nP
      _ ≤ _ := by norm_num
  refine ⟨fun v X hv hX => ?_, apply2_sub _, fun X => ?_⟩
  · obtain ⟨Y, h1, h2⟩ := apply2_core (r := Transform.chain (Vec F 2) r s) (R := ⟨ofC V⟩) (valC_ofC vV) hv (by rw [toC_ofC]; exact nT) hX
    refine ⟨Y, h1, (length_tri _ (Transform.apply (⟨ofC V⟩ : Rotation2 ℝ) X) _).trans ?_⟩
    have h3 := apply2_close ⟨ofC V⟩ (Transform.chain (Vec ℝ 2) R S) X
    have x0 := length_nonneg X
    have h4 : ((⟨ofC V⟩ : Rotation2 ℝ).intoComplex - (Transform.chain (Vec ℝ 2) R S).intoComplex).norm ≤ 5 / 2 ^ 24 := by
      rw [cnorm_eq, toC_sub]; show ‖(ofC V).toC - (Transform.chain (Vec ℝ 2) R S).comp.toC‖ ≤ _; rwa [toC_ofC]
    have h5 := mul_le_mul_of_nonneg_right h4 x0
    have h6 : (1:ℝ) / 2 ^ 147 ≤ 1 / 2 ^ 144 := by norm_num
    generalize 1 / (2:ℝ) ^ 147 = t at *
    generalize 1 / (2:ℝ) ^ 144 = t' at *
    norm_num at h2 h3 h5 ⊢; linarith
  · rw [exact_length2]
    refine mul_le_mul_of_nonneg_right (nP.trans ?_) (length_nonneg X)
    norm_num
end F32

/-! ## motions of space -/

/-- `apply` of a motion: finite and within `(21|x| + |s|)u` of the exact image. -/
theorem C112_motion3_apply_f32 (m : Motion3 F) (M : Motion3 ℝ) (hm : ValMotion3 m M) (hu : NearUnit3 (1 / 2 ^ 12) M.split.2) (v : Vec F 3) (X : Vec ℝ 3) (hv : ValV v X)
    (hX : X.length ≤ 2 ^ 100) (hS : M.split.1.intoVector.length ≤ 2 ^ 100) :
    ∃ Y, ValV (Transform.apply m v) Y ∧
      (Y - (Transform.apply M.split.2 X + M.split.1.intoVector)).length ≤ (21 * X.length + M.split.1.intoVector.length) / 2 ^ 24 + 1 / 2 ^ 143 := by
  have := (act3 hm.2 ((near_le hu).2.trans (by norm_num))).motion (by norm_num) (by norm_num) (by norm_num) hv hm.1 (hX.trans (by norm_num)) (hS.trans (by norm_num))
  norm_num only at this ⊢
  exact this
/-- Distances are kept, up to the defect of the rotation and rounding. -/
theorem C112_motion3_distance_f32 (m : Motion3 F) (M : Motion3 ℝ) (hm : ValMotion3 m M) (δ : ℝ) (hu : NearUnit3 δ M.split.2) (hδ : δ ≤ 1 / 2 ^ 12) (v w : Vec F 3) (X Y : Vec ℝ 3)
    (hv : ValV v X) (hw : ValV w Y) (hX : X.length ≤ 2 ^ 100) (hY : Y.length ≤ 2 ^ 100) (hS : M.split.1.intoVector.length ≤ 2 ^ 100) :
    ∃ X' Y', ValV (Transform.apply m v) X' ∧ ValV (Transform.apply m w) Y' ∧
      |(X' - Y').length - (X - Y).length| ≤ 3 * δ * (X - Y).length + (21 * (X.length + Y.length) + 2 * M.split.1.intoVector.length) / 2 ^ 24 + 1 / 2 ^ 142 := by
  have hu' : NearUnit3 (1 / 2 ^ 12) M.split.2 := hu.trans hδ
  obtain ⟨X', v1, e1⟩ := C112_motion3_apply_f32 m M hm hu' v X hv hX hS
  obtain ⟨Y', v2, e2⟩ := C112_motion3_apply_f32 m M hm hu' w Y hw hY hS
  change (X' - Transform.apply M X).length ≤ _ at e1
  change (Y' - Transform.apply M Y).length ≤ _ at e2
  refine ⟨X', Y', v1, v2, ?_⟩
  have d0 := length_nonneg (X - Y)
  have hδ0 : 0 ≤ δ := (abs_nonneg _).trans hu
  have e3 : |(Transform.apply M.inner (X - Y)).length - (X - Y).length| ≤ 3 * δ * (X - Y).length := by
    obtain ⟨l, g⟩ := near_le hu
    change 1 - δ ≤ ‖M.inner.quat.toH‖ at l
    change ‖M.inner.quat.toH‖ ≤ 1 + δ at g
    rw [exact_length, show ‖M.inner.quat.toH‖ ^ 2 * (X - Y).length - (X - Y).length = (‖M.inner.quat.toH‖ ^ 2 - 1) * (X - Y).length by ring, abs_mul, abs_of_nonneg d0]
    refine mul_le_mul_of_nonneg_right ?_ d0
    norm_num at hδ
    exact abs_le.2 ⟨by nlinarith, by nlinarith⟩
  have e4 : Transform.apply M X - Transform.apply M Y = Transform.apply M.inner (X - Y) := by
    rw [apply3_sub]
    show (Transform.apply M.inner X + M.outer.pos) - (Transform.apply M.inner Y + M.outer.pos) = _
    apply Vec.ext_getElem; intro i hi; simp
  have e5 := length_close (X' - Y') (Transform.apply M.inner (X - Y))
  have e6 : (X' - Y') - Transform.apply M.inner (X - Y) = (X' - Transform.apply M X) + -(Y' - Transform.apply M Y) := by
    rw [← e4]; apply Vec.ext_getElem; intro i hi; simp; ring
  rw [e6] at e5
  have e7 := length_add (X' - Transform.apply M X) (-(Y' - Transform.apply M Y))
  rw [length_neg] at e7
  have e8 : (21 * (X.length + Y.length) + 2 * M.split.1.intoVector.length) / 2 ^ 24 =
    (21 * X.length + M.split.1.intoVector.length) / 2 ^ 24 + (21 * Y.length + M.split.1.intoVector.length) / 2 ^ 24 := by ring
  have e9 : (1:ℝ) / 2 ^ 142 = 1 / 2 ^ 143 + 1 / 2 ^ 143 := by norm_num
  calc |(X' - Y').length - (X - Y).length| = |((X' - Y').length - (Transform.apply M.inner (X - Y)).length) + ((Transform.apply M.inner (X - Y)).length - (X - Y).length)| := by
        congr 1; ring
    _ ≤ _ := abs_add_le _ _
    _ ≤ _ := by rw [e8, e9]; linarith
/-- The inverse motion: its shift and its action on a point. -/
theorem C112_motion3_inv_f32 (m : Motion3 F) (M : Motion3 ℝ) (hm : ValMotion3 m M) (hu : NearUnit3 (1 / 2 ^ 12) M.split.2) (v : Vec F 3) (X : Vec ℝ 3) (hv : ValV v X)
    (hX : X.length ≤ 2 ^ 100) (hS : M.split.1.intoVector.length ≤ 2 ^ 100) :
    ∃ Y K, ValV (Transform.apply (Transform.inv (Vec F 3) m) v) Y ∧ ValMotion3 (Transform.inv (Vec F 3) m) K ∧
      K.split.2 = Transform.inv (Vec ℝ 3) M.split.2 ∧
      (K.split.1.intoVector - -Transform.apply (Transform.inv (Vec ℝ 3) M.split.2) M.split.1.intoVector).length ≤ 19 / 2 ^ 24 * M.split.1.intoVector.length + 1 / 2 ^ 144 ∧
      (Y - Transform.apply (Transform.inv (Vec ℝ 3) M.split.2) (X - M.split.1.intoVector)).length ≤ 21 / 2 ^ 24 * (X.length + M.split.1.intoVector.length) + 1 / 2 ^ 142 := by
  have hr := val_inv3 hm.2
  have ha := act3 hr (by rw [norm_inv3]; exact (near_le hu).2.trans (by norm_num))
  obtain ⟨Z, T, h1, h2, h3, h4⟩ := ha.inverse (by norm_num) (by norm_num) (by norm_num) hv hm.1
    (hX.trans (by norm_num)) (hS.trans (by norm_num))
  rw [← ha.add, show X + -M.split.1.intoVector = X - M.split.1.intoVector by apply Vec.ext_getElem; intro i hi; simp [sub_eq_add_neg]] at h4
  rw [ha.neg] at h3
  refine ⟨Z, Chain.new (Shift.fromVector T) (Transform.inv (Vec ℝ 3) M.split.2), h1, ⟨h2, hr⟩, rfl, h3, ?_⟩
  norm_num only at h4 ⊢
  exact h4
/-- `m.inv().apply(m.apply(x))` is `x`, within `46u(|x| + |s|)` and five times the defect of the rotation. -/
theorem C112_motion3_round_trip_f32 (m : Motion3 F) (M : Motion3 ℝ) (hm : ValMotion3 m M) (δ : ℝ) (hu : NearUnit3 δ M.split.2) (hδ : δ ≤ 1 / 2 ^ 12) (v : Vec F 3) (X : Vec ℝ 3)
    (hv : ValV v X) (hX : X.length ≤ 2 ^ 100) (hS : M.split.1.intoVector.length ≤ 2 ^ 100) :
    ∃ Z, ValV (Transform.apply (Transform.inv (Vec F 3) m) (Transform.apply m v)) Z ∧
      (Z - X).length ≤ 46 / 2 ^ 24 * (X.length + M.split.1.intoVector.length) + 5 * δ * X.length + 1 / 2 ^ 140 := by
  have hu' : ‖M.split.2.quat.toH‖ ≤ 1 + 1 / 2 ^ 10 := (near_le hu).2.trans (by norm_num at hδ ⊢; linarith)
  obtain ⟨Z, h1, h2⟩ := (act3 hm.2 hu').back (act3 (val_inv3 hm.2) (by rw [norm_inv3]; exact hu')) (by norm_num) (by norm_num) (by norm_num) hv hm.1 hX hS
  refine ⟨Z, h1, h2.trans ?_⟩
  have h3 := back3 hu hδ X
  have x0 := length_nonneg X
  have s0 := length_nonneg M.split.1.intoVector
  generalize 1 / (2:ℝ) ^ 140 = t at *
  norm_num at h3 ⊢; linarith
/-- Composition: the shift and the action of `m.chain(k)`, against the exact composition and against applying one motion after the other. -/
theorem C112_motion3_chain_f32 (m k : Motion3 F) (M K : Motion3 ℝ) (hm : ValMotion3 m M) (hk : ValMotion3 k K) (hu : NearUnit3 (1 / 2 ^ 12) M.split.2)
    (hw : NearUnit3 (1 / 2 ^ 12) K.split.2) (v : Vec F 3) (X : Vec ℝ 3) (hv : ValV v X)
    (hX : X.length ≤ 2 ^ 100) (hS : M.split.1.intoVector.length ≤ 2 ^ 100) (hS' : K.split.1.intoVector.length ≤ 2 ^ 100) :
    ∃ Y Z W, ValV (Transform.apply (Transform.chain (Vec F 3) m k) v) Y ∧ ValV (Transform.apply m (Transform.apply k v)) Z ∧
      ValV (Transform.chain (Vec F 3) m k).split.1.intoVector W ∧
      (W - (M.split.1.intoVector + Transform.apply M.split.2 K.split.1.intoVector)).length ≤ (21 * K.split.1.intoVector.length + M.split.1.intoVector.length) / 2 ^ 24 + 1 / 2 ^ 143 ∧
      (Y - (Transform.apply M.split.2 (Transform.apply K.split.2 X + K.split.1.intoVector) + M.split.1.intoVector)).length ≤
        (42 * X.length + 23 * K.split.1.intoVector.length + 3 * M.split.1.intoVector.length) / 2 ^ 24 + 1 / 2 ^ 141 ∧
      (Z - (Transform.apply M.split.2 (Transform.apply K.split.2 X + K.split.1.intoVector) + M.split.1.intoVector)).length ≤
        (45 * X.length + 25 * K.split.1.intoVector.length + M.split.1.intoVector.length) / 2 ^ 24 + 1 / 2 ^ 141 ∧
      (Y - Z).length ≤ (87 * X.length + 48 * K.split.1.intoVector.length + 4 * M.split.1.intoVector.length) / 2 ^ 24 + 1 / 2 ^ 140 := by
  have h10 : (1 + 1 / 2 ^ 12 : ℝ) ≤ 1 + 1 / 2 ^ 10 := by norm_num
  have nM := (near_le hu).2
  have nK := (near_le hw).2
  obtain ⟨Y, W, y1, w1, w2, y2⟩ := (act3 hm.2 (nM.trans h10)).compose (act3_chain hm.2 hk.2 nM nK) (by norm_num) (by norm_num) (by norm_num) (by norm_num) (by norm_num)
    hv hk.1 hm.1 hX hS' hS
  obtain ⟨Z, z1, z2⟩ := (act3 hk.2 (nK.trans h10)).twice (act3 hm.2 (nM.trans h10)) (by norm_num) (by norm_num) (by norm_num) hv hk.1 hm.1 hX hS' hS
  have x0 := length_nonneg X
  have s0 := length_nonneg M.split.1.intoVector
  have s1 := length_nonneg K.split.1.intoVector
  change (Y - Transform.apply (Transform.chain (Vec ℝ 3) M K) X).length ≤ _ at y2
  change (Z - Transform.apply M (Transform.apply K X)).length ≤ _ at z2
  change (W - (Transform.chain (Vec ℝ 3) M K).split.1.intoVector).length ≤ _ at w2
  have z3 : (Z - Transform.apply M (Transform.apply K X)).length ≤
        (45 * X.length + 25 * K.split.1.intoVector.length + M.split.1.intoVector.length) / 2 ^ 24 + 1 / 2 ^ 141 := by
    refine z2.trans ?_
    generalize 1 / (2:ℝ) ^ 141 = t at *
    norm_num; linarith
  have e : Transform.apply (Transform.chain (Vec ℝ 3) M K) X = Transform.apply M (Transform.apply K X) := chain_exact3 M K X
  rw [e] at y2
  refine ⟨Y, Z, W, y1, z1, w1, ?_, ?_, z3, ?_⟩
  · norm_num only at w2 ⊢; exact w2
  · norm_num only at y2 ⊢; exact y2
  · have e1 : Y - Z = (Y - Transform.apply M (Transform.apply K X)) + -(Z - Transform.apply M (Transform.apply K X)) := by
      apply Vec.ext_getElem; intro i hi; simp
    rw [e1]
    refine (length_add _ _).trans ?_
    rw [length_neg]
    have e2 : (1:ℝ) / 2 ^ 140 = 1 / 2 ^ 141 + 1 / 2 ^ 141 := by norm_num
    rw [e2]
    generalize 1 / (2:ℝ) ^ 141 = t at *
    norm_num at y2 z3 ⊢; linarith
/-- `deriv`: a motion turns directions by its rotation, whatever the point. -/
theorem C112_motion3_deriv_f32 (m : Motion3 F) (M : Motion3 ℝ) (hm : ValMotion3 m M) (hu : NearUnit3 (1 / 2 ^ 12) M.split.2) (v d : Vec F 3) (D : Vec ℝ 3) (hd : ValV d D)
    (hD : D.length ≤ 2 ^ 108) :
    ∃ Y, ValV (Transform.deriv m v d) Y ∧ (Y - Transform.apply M.split.2 D).length ≤ 19 / 2 ^ 24 * D.length + 1 / 2 ^ 144 :=
  (act3 hm.2 ((near_le hu).2.trans (by norm_num))).close d D hd hD

namespace F32
/-- One more motion composed from the right: the error of the shift grows by `24(k+1)uL`. -/
theorem motion3_step {L : ℝ} (hL0 : 0 ≤ L) (hL : L ≤ 2 ^ 80) {k : ℕ} (hk : k ≤ 2 ^ 9) {a m : Motion3 F} {A P M : Motion3 ℝ} (ha : ValMotion3 a A) (hm : ValMotion3 m M)
    (hu : NearUnit3 (1 / 2 ^ 21) M.inner) (hS : M.outer.pos.length ≤ L) (h1 : ‖A.inner.quat.toH - P.inner.quat.toH‖ ≤ 10 / 2 ^ 24 * k)
    (h2 : |‖P.inner.quat.toH‖ - 1| ≤ 1 / 2 ^ 20 * k) (h3 : P.outer.pos.length ≤ 17 / 16 * k * L)
    (h4 : (A.outer.pos - P.outer.pos).length ≤ 12 * k * (k + 1) / 2 ^ 24 * L + k / 2 ^ 142) :
    ∃ B : Motion3 ℝ, ValMotion3 (Transform.chain (Vec F 3) a m) B ∧
      ‖B.inner.quat.toH - (Transform.chain (Vec ℝ 3) P M).inner.quat.toH‖ ≤ 10 / 2 ^ 24 * (k + 1 : ℕ) ∧
      |‖(Transform.chain (Vec ℝ 3) P M).inner.quat.toH‖ - 1| ≤ 1 / 2 ^ 20 * (k + 1 : ℕ) ∧
      (Transform.chain (Vec ℝ 3) P M).outer.pos.length ≤ 17 / 16 * (k + 1 : ℕ) * L ∧
      (B.outer.pos - (Transform.chain (Vec ℝ 3) P M).outer.pos).length ≤ 12 * (k + 1 : ℕ) * ((k + 1 : ℕ) + 1) / 2 ^ 24 * L + (k + 1 : ℕ) / 2 ^ 142 := by
  obtain ⟨B, b1, b2, b3⟩ := long_core [m.inner] [M.inner] (.cons ⟨hm.2, hu⟩ .nil) k a.inner A.inner P.inner ha.2 h1 h2 (by
    simp only [List.length_cons, List.length_nil, zero_add]
    exact (Nat.add_le_add_right hk 1).trans (by norm_num))
  have k0 : (0:ℝ) ≤ k := by positivity
  have kR : (k:ℝ) ≤ 512 := by exact_mod_cast hk
  have s0 := length_nonneg M.outer.pos
  have nP : ‖P.inner.quat.toH‖ ≤ 1 + 1 / 2 ^ 11 := by
    have := (abs_le.1 h2).2
    norm_num at this ⊢; linarith
  have nA : ‖A.inner.quat.toH‖ ≤ 1 + 1 / 2 ^ 10 := by
    have e := norm_add_le (A.inner.quat.toH - P.inner.quat.toH) P.inner.quat.toH
    rw [sub_add_cancel] at e
    norm_num at h1 nP ⊢; linarith
  have hS8 : M.outer.pos.length ≤ 2 ^ 80 := hS.trans hL
  have hk1 : k / (2:ℝ) ^ 142 ≤ 1 := by
    rw [div_le_one (by positivity)]
    exact kR.trans (by norm_num)
  have e12 : 12 * (k:ℝ) * (k + 1) / 2 ^ 24 * L ≤ 1 / 16 * k * L := by
    rw [show 12 * (k:ℝ) * (k + 1) / 2 ^ 24 * L = (12 * (k + 1) / 2 ^ 24) * (k * L) by ring, show 1 / 16 * k * L = 1 / 16 * (k * L) by ring]
    refine mul_le_mul_of_nonneg_right ?_ (by positivity)
    norm_num; linarith
  have lA : A.outer.pos.length ≤ 18 / 16 * k * L + k / 2 ^ 142 := by
    have := length_le_add A.outer.pos P.outer.pos
    generalize (k:ℝ) / 2 ^ 142 = t at *
    linarith
  have kL : (k:ℝ) * L ≤ 512 * 2 ^ 80 := by gcongr
  have lA' : A.outer.pos.length ≤ 2 ^ 105 := by
    refine lA.trans ?_
    calc 18 / 16 * k * L + k / 2 ^ 142 = 18 / 16 * (k * L) + k / 2 ^ 142 := by ring
      _ ≤ 18 / 16 * (512 * 2 ^ 80) + 1 := by gcongr
      _ ≤ _ := by norm_num
  obtain ⟨Z, z1, z2⟩ := (act3 ha.2 (nA.trans (by norm_num))).shift (by norm_num) (by norm_num) (by norm_num) hm.1 ha.1 (hS8.trans (by norm_num)) lA'
  have hl : (k + [m.inner].length : ℕ) = k + 1 := rfl
  rw [hl] at b2 b3
  refine ⟨Chain.new (Shift.fromVector Z) B, ⟨z1, b1⟩, b2, b3, ?_, ?_⟩
  · show (P.outer.pos + Transform.apply P.inner M.outer.pos).length ≤ _
    refine (length_add _ _).trans ?_
    rw [exact_length]
    have e1 : ‖P.inner.quat.toH‖ ^ 2 * M.outer.pos.length ≤ 17 / 16 * L := by
      calc _ ≤ ((1 + 1 / 2 ^ 11 : ℝ)) ^ 2 * L := by gcongr
        _ ≤ _ := mul_le_mul_of_nonneg_right (by norm_num) hL0
    push_cast
    linarith
  · show (Z - (P.outer.pos + Transform.apply P.inner M.outer.pos)).length ≤ _
    change (Z - (A.outer.pos + Transform.apply A.inner M.outer.pos)).length ≤ ((19 + 2) * M.outer.pos.length + A.outer.pos.length) / 2 ^ 24 + 1 / 2 ^ 143 at z2
    refine (length_tri _ (A.outer.pos + Transform.apply A.inner M.outer.pos) _).trans ?_
    have e1 : A.outer.pos + Transform.apply A.inner M.outer.pos - (P.outer.pos + Transform.apply P.inner M.outer.pos) =
      (A.outer.pos - P.outer.pos) + (Transform.apply A.inner M.outer.pos - Transform.apply P.inner M.outer.pos) := by
      apply Vec.ext_getElem; intro i hi; simp; ring
    rw [e1]
    have e2 := length_add (A.outer.pos - P.outer.pos) (Transform.apply A.inner M.outer.pos - Transform.apply P.inner M.outer.pos)
    have e3 := image_close A.inner P.inner M.outer.pos
    have e4 : ‖A.inner.quat.toH - P.inner.quat.toH‖ * (‖A.inner.quat.toH‖ + ‖P.inner.quat.toH‖) * M.outer.pos.length ≤
        10 / 2 ^ 24 * k * ((1 + 1 / 2 ^ 10) + (1 + 1 / 2 ^ 11)) * L := by gcongr
    have e5 : ((19 + 2) * M.outer.pos.length + A.outer.pos.length) / 2 ^ 24 ≤ ((19 + 2) * L + (18 / 16 * k * L + k / 2 ^ 142)) / 2 ^ 24 := by gcongr
    have e6 : (k:ℝ) / 2 ^ 142 / 2 ^ 24 ≤ 1 / 2 ^ 143 := by
      rw [div_right_comm]
      calc (k:ℝ) / 2 ^ 24 / 2 ^ 142 ≤ 512 / 2 ^ 24 / 2 ^ 142 := by gcongr
        _ ≤ _ := by norm_num
    have e7 : ((19 + 2) * L + (18 / 16 * k * L + k / 2 ^ 142)) / 2 ^ 24 = ((19 + 2) * L + 18 / 16 * k * L) / 2 ^ 24 + k / 2 ^ 142 / 2 ^ 24 := by ring
    have e8 : ((k + 1 : ℕ) : ℝ) / 2 ^ 142 = k / 2 ^ 142 + 1 / 2 ^ 143 + 1 / 2 ^ 143 := by push_cast; ring
    have kL0 : 0 ≤ (k:ℝ) * L := by positivity
    have e9 : ((19 + 2) * L + 18 / 16 * k * L) / 2 ^ 24 + 10 / 2 ^ 24 * k * ((1 + 1 / 2 ^ 10) + (1 + 1 / 2 ^ 11)) * L + 12 * k * (k + 1) / 2 ^ 24 * L ≤
        12 * (k + 1 : ℕ) * ((k + 1 : ℕ) + 1) / 2 ^ 24 * L := by
      push_cast
      rw [show ((19 + 2) * L + 18 / 16 * k * L) / 2 ^ 24 + 10 / 2 ^ 24 * k * ((1 + 1 / 2 ^ 10) + (1 + 1 / 2 ^ 11)) * L + 12 * k * (k + 1) / 2 ^ 24 * L =
        (21 * L + (18 / 16 + 10 * ((1 + 1 / 2 ^ 10) + (1 + 1 / 2 ^ 11))) * (k * L) + 12 * k * (k + 1) * L) / 2 ^ 24 by ring,
        show 12 * ((k:ℝ) + 1) * (k + 1 + 1) / 2 ^ 24 * L = (12 * k * (k + 1) * L + 24 * (k * L) + 24 * L) / 2 ^ 24 by ring]
      refine div_le_div_of_nonneg_right ?_ (by positivity)
      norm_num; linarith
    rw [e8]
    rw [e7] at e5
    generalize (k:ℝ) / 2 ^ 142 / 2 ^ 24 = t1 at *
    generalize (k:ℝ) / 2 ^ 142 = t2 at *
    generalize (1:ℝ) / 2 ^ 143 = t3 at *
    linarith
theorem motion3_long {L : ℝ} (hL0 : 0 ≤ L) (hL : L ≤ 2 ^ 80) : ∀ (ms : List (Motion3 F)) (Ms : List (Motion3 ℝ)),
    List.Forall₂ (fun m M => ValMotion3 m M ∧ NearUnit3 (1 / 2 ^ 21) M.split.2 ∧ M.split.1.intoVector.length ≤ L) ms Ms → ∀ (k : ℕ) (a : Motion3 F) (A P : Motion3 ℝ),
    ValMotion3 a A → ‖A.inner.quat.toH - P.inner.quat.toH‖ ≤ 10 / 2 ^ 24 * k → |‖P.inner.quat.toH‖ - 1| ≤ 1 / 2 ^ 20 * k →
    P.outer.pos.length ≤ 17 / 16 * k * L → (A.outer.pos - P.outer.pos).length ≤ 12 * k * (k + 1) / 2 ^ 24 * L + k / 2 ^ 142 → k + ms.length ≤ 2 ^ 9 →
    ∃ B : Motion3 ℝ, ValMotion3 (ms.foldl (Transform.chain (Vec F 3)) a) B ∧
      ‖B.inner.quat.toH - (Ms.foldl (Transform.chain (Vec ℝ 3)) P).inner.quat.toH‖ ≤ 10 / 2 ^ 24 * (k + ms.length : ℕ) ∧
      |‖(Ms.foldl (Transform.chain (Vec ℝ 3)) P).inner.quat.toH‖ - 1| ≤ 1 / 2 ^ 20 * (k + ms.length : ℕ) ∧
      (Ms.foldl (Transform.chain (Vec ℝ 3)) P).outer.pos.length ≤ 17 / 16 * (k + ms.length : ℕ) * L ∧
      (B.outer.pos - (Ms.foldl (Transform.chain (Vec ℝ 3)) P).outer.pos).length ≤
        12 * (k + ms.length : ℕ) * ((k + ms.length : ℕ) + 1) / 2 ^ 24 * L + (k + ms.length : ℕ) / 2 ^ 142 := by
  intro ms Ms h
  induction h with
  | nil => intro k a A P ha h1 h2 h3 h4 _; exact ⟨A, ha, h1, h2, h3, h4⟩
  | cons hm _ ih =>
    intro k a A P ha h1 h2 h3 h4 hn
    rw [List.length_cons] at hn
    obtain ⟨B, b0, b1, b2, b3, b4⟩ := motion3_step hL0 hL (by omega) ha hm.1 hm.2.1 hm.2.2 h1 h2 h3 h4
    have := ih (k + 1) _ B _ b0 b1 b2 b3 b4 (by omega)
    rw [List.length_cons, ← Nat.add_assoc, Nat.add_right_comm]
    exact this
theorem motion3_start {L : ℝ} (hL0 : 0 ≤ L) (hL : L ≤ 2 ^ 80) (ms : List (Motion3 F)) (Ms : List (Motion3 ℝ))
    (h : List.Forall₂ (fun m M => ValMotion3 m M ∧ NearUnit3 (1 / 2 ^ 21) M.split.2 ∧ M.split.1.intoVector.length ≤ L) ms Ms) (hn : ms.length ≤ 2 ^ 9) :
    ∃ B : Motion3 ℝ, ValMotion3 (ms.foldl (Transform.chain (Vec F 3)) (Transform.identity (Vec F 3))) B ∧
      ‖B.inner.quat.toH - (Ms.foldl (Transform.chain (Vec ℝ 3)) (Transform.identity (Vec ℝ 3))).inner.quat.toH‖ ≤ 10 / 2 ^ 24 * ms.length ∧
      |‖(Ms.foldl (Transform.chain (Vec ℝ 3)) (Transform.identity (Vec ℝ 3))).inner.quat.toH‖ - 1| ≤ 1 / 2 ^ 20 * ms.length ∧
      (Ms.foldl (Transform.chain (Vec ℝ 3)) (Transform.identity (Vec ℝ 3))).outer.pos.length ≤ 17 / 16 * ms.length * L ∧
      (B.outer.pos - (Ms.foldl (Transform.chain (Vec ℝ 3)) (Transform.identity (Vec ℝ 3))).outer.pos).length ≤
        12 * ms.length * (ms.length + 1) / 2 ^ 24 * L + ms.length / 2 ^ 142 := by
  have hq : ValQ (Transform.identity (Vec F 3) : Rotation3 F).intoQuaternion (Transform.identity (Vec ℝ 3) : Rotation3 ℝ).intoQuaternion := by
    refine ⟨?_, ?_, ?_, ?_⟩ <;> simp [Rotation3.intoQuaternion, Transform.identity] <;> rfl
  have hs : ValV (Transform.identity (Vec F 3) : Shift F 3).intoVector (Transform.identity (Vec ℝ 3) : Shift ℝ 3).intoVector := fun i => by
    show (0 : Vec F 3)[i.1].toReal? = some (0 : Vec ℝ 3)[i.1]
    rw [Vec.getElem_zero, Vec.getElem_zero]; rfl
  have hH : (Transform.identity (Vec ℝ 3) : Motion3 ℝ).inner.quat.toH = 1 := C43_isomorphic.2.2.1
  have hz : (Transform.identity (Vec ℝ 3) : Motion3 ℝ).outer.pos.length = 0 := by
    show (0 : Vec ℝ 3).length = 0
    rw [← vsub_self (0 : Vec ℝ 3), length_self_sub]
  obtain ⟨B, h1, h2, h3, h5, h4⟩ := motion3_long hL0 hL ms Ms h 0 (Transform.identity (Vec F 3)) (Transform.identity (Vec ℝ 3)) (Transform.identity (Vec ℝ 3)) ⟨hs, hq⟩ (by simp) (by rw [hH]; simp)
    (by rw [hz]; simp) (by rw [length_self_sub]; simp) (by simpa using hn)
  rw [zero_add] at h2 h3 h4 h5
  exact ⟨B, h1, h2, h3, h5, h4⟩
end F32
/-- Drift of an incrementally composed motion (a pose updated once per frame): after `n ≤ 2^9` steps with shifts of length at most `L` the
rotation is within `10u n` and the position within `12 n (n + 1) u L` of the exact composition, and the rotation is still a unit within `n 2^-19`. -/
theorem C112_motion3_drift_f32 (ms : List (Motion3 F)) (Ms : List (Motion3 ℝ)) (L : ℝ) (hL0 : 0 ≤ L) (hL : L ≤ 2 ^ 80)
    (h : List.Forall₂ (fun m M => ValMotion3 m M ∧ NearUnit3 (1 / 2 ^ 21) M.split.2 ∧ M.split.1.intoVector.length ≤ L) ms Ms) (hn : ms.length ≤ 2 ^ 9) :
    ∃ B : Motion3 ℝ, ValMotion3 (ms.foldl (Transform.chain (Vec F 3)) (Transform.identity (Vec F 3))) B ∧
      (B.split.2.intoQuaternion - (Ms.foldl (Transform.chain (Vec ℝ 3)) (Transform.identity (Vec ℝ 3))).split.2.intoQuaternion).norm ≤ 10 / 2 ^ 24 * ms.length ∧
      NearUnit3 (1 / 2 ^ 19 * ms.length) B.split.2 ∧
      (B.split.1.intoVector - (Ms.foldl (Transform.chain (Vec ℝ 3)) (Transform.identity (Vec ℝ 3))).split.1.intoVector).length ≤
        12 * ms.length * (ms.length + 1) / 2 ^ 24 * L + ms.length / 2 ^ 142 := by
  obtain ⟨B, h1, h2, h3, -, h4⟩ := motion3_start hL0 hL ms Ms h hn
  refine ⟨B, h1, by rw [norm_eq, toH_sub]; exact h2, ?_, h4⟩
  show |B.inner.quat.norm - 1| ≤ _
  rw [norm_eq]
  have n0 : (0:ℝ) ≤ ms.length := by positivity
  set E := (Ms.foldl (Transform.chain (Vec ℝ 3)) (Transform.identity (Vec ℝ 3))).inner.quat.toH
  calc |‖B.inner.quat.toH‖ - 1| = |(‖B.inner.quat.toH‖ - ‖E‖) + (‖E‖ - 1)| := by congr 1; ring
    _ ≤ _ := abs_add_le _ _
    _ ≤ 10 / 2 ^ 24 * ms.length + 1 / 2 ^ 20 * ms.length := add_le_add ((abs_norm_sub_norm_le _ _).trans h2) h3
    _ ≤ _ := by norm_num; linarith
namespace F32
end F32
/-- A point moved by an incrementally composed motion, against the steps applied one after the other in exact arithmetic. -/
theorem C112_motion3_drift_apply_f32 (ms : List (Motion3 F)) (Ms : List (Motion3 ℝ)) (L : ℝ) (hL0 : 0 ≤ L) (hL : L ≤ 2 ^ 80)
    (h : List.Forall₂ (fun m M => ValMotion3 m M ∧ NearUnit3 (1 / 2 ^ 21) M.split.2 ∧ M.split.1.intoVector.length ≤ L) ms Ms) (hn : ms.length ≤ 2 ^ 9)
    (v : Vec F 3) (X : Vec ℝ 3) (hv : ValV v X) (hX : X.length ≤ 2 ^ 100) :
    ∃ Y, ValV (Transform.apply (ms.foldl (Transform.chain (Vec F 3)) (Transform.identity (Vec F 3))) v) Y ∧
      (Y - Ms.foldr (fun M x => Transform.apply M.split.2 x + M.split.1.intoVector) X).length ≤
        (ms.length + 1) * (22 * X.length + 14 * ms.length * L) / 2 ^ 24 + (ms.length + 1) / 2 ^ 141 := by
  obtain ⟨B, h1, h2, h3, h5, h4⟩ := motion3_start hL0 hL ms Ms h hn
  have eE : Transform.apply (Ms.foldl (Transform.chain (Vec ℝ 3)) (Transform.identity (Vec ℝ 3))) X =
      Ms.foldr (fun M x => Transform.apply M.split.2 x + M.split.1.intoVector) X := by rw [foldl_motion3, ident_motion3]
  rw [← eE]
  generalize Ms.foldl (Transform.chain (Vec ℝ 3)) (Transform.identity (Vec ℝ 3)) = E at *
  have x0 := length_nonneg X
  have n0 : (0:ℝ) ≤ ms.length := by positivity
  have nR : (ms.length:ℝ) ≤ 512 := by exact_mod_cast hn
  generalize (ms.length : ℝ) = n at *
  have nE : ‖E.inner.quat.toH‖ ≤ 1 + 1 / 2 ^ 11 := by
    have := (abs_le.1 h3).2
    norm_num at this ⊢; linarith
  have nB : ‖B.inner.quat.toH‖ ≤ 1 + 1 / 2 ^ 10 := by
    have e := norm_add_le (B.inner.quat.toH - E.inner.quat.toH) E.inner.quat.toH
    rw [sub_add_cancel] at e
    norm_num at h2 nE ⊢; linarith
  have e12 : 12 * n * (n + 1) / 2 ^ 24 * L ≤ 1 / 16 * n * L := by
    rw [show 12 * n * (n + 1) / 2 ^ 24 * L = (12 * (n + 1) / 2 ^ 24) * (n * L) by ring, show 1 / 16 * n * L = 1 / 16 * (n * L) by ring]
    refine mul_le_mul_of_nonneg_right ?_ (by positivity)
    norm_num; linarith
  have hk1 : n / (2:ℝ) ^ 142 ≤ 1 := by
    rw [div_le_one (by positivity)]
    exact nR.trans (by norm_num)
  have lB : B.outer.pos.length ≤ 18 / 16 * n * L + n / 2 ^ 142 := by
    have := length_le_add B.outer.pos E.outer.pos
    generalize n / 2 ^ 142 = t at *
    linarith
  have kL : n * L ≤ 512 * 2 ^ 80 := by gcongr
  obtain ⟨Y, y1, y2⟩ := (act3 h1.2 (nB.trans (by norm_num))).motion (by norm_num) (by norm_num) (by norm_num) hv h1.1 (hX.trans (by norm_num)) (lB.trans (by
    calc 18 / 16 * n * L + n / 2 ^ 142 = 18 / 16 * (n * L) + n / 2 ^ 142 := by ring
      _ ≤ 18 / 16 * (512 * 2 ^ 80) + 1 := by gcongr
      _ ≤ _ := by norm_num))
  refine ⟨Y, y1, ?_⟩
  change (Y - (Transform.apply B.inner X + B.outer.pos)).length ≤ ((19 + 2) * X.length + B.outer.pos.length) / 2 ^ 24 + 1 / 2 ^ 143 at y2
  show (Y - (Transform.apply E.inner X + E.outer.pos)).length ≤ _
  refine (length_tri _ (Transform.apply B.inner X + B.outer.pos) _).trans ?_
  have e1 : Transform.apply B.inner X + B.outer.pos - (Transform.apply E.inner X + E.outer.pos) =
    (B.outer.pos - E.outer.pos) + (Transform.apply B.inner X - Transform.apply E.inner X) := by
    apply Vec.ext_getElem; intro i hi; simp; ring
  rw [e1]
  have e2 := length_add (B.outer.pos - E.outer.pos) (Transform.apply B.inner X - Transform.apply E.inner X)
  have e3 := image_close B.inner E.inner X
  have e4 : ‖B.inner.quat.toH - E.inner.quat.toH‖ * (‖B.inner.quat.toH‖ + ‖E.inner.quat.toH‖) * X.length ≤ 10 / 2 ^ 24 * n * ((1 + 1 / 2 ^ 10) + (1 + 1 / 2 ^ 11)) * X.length := by
    gcongr
  have e5 : ((19 + 2) * X.length + B.outer.pos.length) / 2 ^ 24 ≤ ((19 + 2) * X.length + (18 / 16 * n * L + n / 2 ^ 142)) / 2 ^ 24 := by gcongr
  have e6 : n / 2 ^ 142 / 2 ^ 24 ≤ 1 / 2 ^ 143 := by
    rw [div_right_comm]
    calc n / 2 ^ 24 / 2 ^ 142 ≤ 512 / 2 ^ 24 / 2 ^ 142 := by gcongr
      _ ≤ _ := by norm_num
  have e7 : ((19 + 2) * X.length + (18 / 16 * n * L + n / 2 ^ 142)) / 2 ^ 24 = ((19 + 2) * X.length + 18 / 16 * n * L) / 2 ^ 24 + n / 2 ^ 142 / 2 ^ 24 := by ring
  have e8 : (n + 1) / 2 ^ 141 = 2 * (n / 2 ^ 142) + 1 / 2 ^ 143 + 1 / 2 ^ 143 + 2 * (1 / 2 ^ 143) := by ring
  have p1 : 0 ≤ n * L := by positivity
  have p2 : 0 ≤ n * n * L := by positivity
  have p3 : 0 ≤ n * X.length := by positivity
  have e9 : ((19 + 2) * X.length + 18 / 16 * n * L) / 2 ^ 24 + 10 / 2 ^ 24 * n * ((1 + 1 / 2 ^ 10) + (1 + 1 / 2 ^ 11)) * X.length + 12 * n * (n + 1) / 2 ^ 24 * L ≤ (n + 1) * (22 * X.length + 14 * n * L) / 2 ^ 24 := by
    norm_num
    linarith
  have p4 : 0 ≤ n / 2 ^ 142 := by positivity
  have p5 : (0:ℝ) ≤ 1 / 2 ^ 143 := by positivity
  rw [e8]
  rw [e7] at e5
  generalize n / 2 ^ 142 / 2 ^ 24 = t1 at *
  generalize n / 2 ^ 142 = t2 at *
  generalize (1:ℝ) / 2 ^ 143 = t3 at *
  linarith

/-! ## motions of the plane -/

/-- `apply` of a motion: finite and within `(7|x| + |s|)u` of the exact image. -/
theorem C112_motion2_apply_f32 (m : Motion2 F) (M : Motion2 ℝ) (hm : ValMotion2 m M) (hu : NearUnit2 (1 / 2 ^ 12) M.split.2) (v : Vec F 2) (X : Vec ℝ 2) (hv : ValV v X)
    (hX : X.length ≤ 2 ^ 100) (hS : M.split.1.intoVector.length ≤ 2 ^ 100) :
    ∃ Y, ValV (Transform.apply m v) Y ∧
      (Y - (Transform.apply M.split.2 X + M.split.1.intoVector)).length ≤ (7 * X.length + M.split.1.intoVector.length) / 2 ^ 24 + 1 / 2 ^ 143 := by
  have := (act2 hm.2 ((near2_le hu).2.trans (by norm_num))).motion (by norm_num) (by norm_num) (by norm_num) hv hm.1 (hX.trans (by norm_num)) (hS.trans (by norm_num))
  norm_num only at this ⊢
  exact this
/-- Distances are kept, up to the defect of the rotation and rounding. -/
theorem C112_motion2_distance_f32 (m : Motion2 F) (M : Motion2 ℝ) (hm : ValMotion2 m M) (δ : ℝ) (hu : NearUnit2 δ M.split.2) (hδ : δ ≤ 1 / 2 ^ 12) (v w : Vec F 2) (X Y : Vec ℝ 2)
    (hv : ValV v X) (hw : ValV w Y) (hX : X.length ≤ 2 ^ 100) (hY : Y.length ≤ 2 ^ 100) (hS : M.split.1.intoVector.length ≤ 2 ^ 100) :
    ∃ X' Y', ValV (Transform.apply m v) X' ∧ ValV (Transform.apply m w) Y' ∧
      |(X' - Y').length - (X - Y).length| ≤ δ * (X - Y).length + (7 * (X.length + Y.length) + 2 * M.split.1.intoVector.length) / 2 ^ 24 + 1 / 2 ^ 142 := by
  have hu' : NearUnit2 (1 / 2 ^ 12) M.split.2 := hu.trans hδ
  obtain ⟨X', v1, e1⟩ := C112_motion2_apply_f32 m M hm hu' v X hv hX hS
  obtain ⟨Y', v2, e2⟩ := C112_motion2_apply_f32 m M hm hu' w Y hw hY hS
  change (X' - Transform.apply M X).length ≤ _ at e1
  change (Y' - Transform.apply M Y).length ≤ _ at e2
  refine ⟨X', Y', v1, v2, ?_⟩
  have d0 := length_nonneg (X - Y)
  have hδ0 : 0 ≤ δ := (abs_nonneg _).trans hu
  have e3 : |(Transform.apply M.inner (X - Y)).length - (X - Y).length| ≤ δ * (X - Y).length := by
    obtain ⟨l, g⟩ := near2_le hu
    change 1 - δ ≤ ‖M.inner.comp.toC‖ at l
    change ‖M.inner.comp.toC‖ ≤ 1 + δ at g
    rw [exact_length2, show ‖M.inner.comp.toC‖ * (X - Y).length - (X - Y).length = (‖M.inner.comp.toC‖ - 1) * (X - Y).length by ring, abs_mul, abs_of_nonneg d0]
    refine mul_le_mul_of_nonneg_right ?_ d0
    norm_num at hδ
    exact abs_le.2 ⟨by linarith, by linarith⟩
  have e4 : Transform.apply M X - Transform.apply M Y = Transform.apply M.inner (X - Y) := by
    rw [apply2_sub]
    show (Transform.apply M.inner X + M.outer.pos) - (Transform.apply M.inner Y + M.outer.pos) = _
    apply Vec.ext_getElem; intro i hi; simp
  have e5 := length_close (X' - Y') (Transform.apply M.inner (X - Y))
  have e6 : (X' - Y') - Transform.apply M.inner (X - Y) = (X' - Transform.apply M X) + -(Y' - Transform.apply M Y) := by
    rw [← e4]; apply Vec.ext_getElem; intro i hi; simp; ring
  rw [e6] at e5
  have e7 := length_add (X' - Transform.apply M X) (-(Y' - Transform.apply M Y))
  rw [length_neg] at e7
  have e8 : (7 * (X.length + Y.length) + 2 * M.split.1.intoVector.length) / 2 ^ 24 =
    (7 * X.length + M.split.1.intoVector.length) / 2 ^ 24 + (7 * Y.length + M.split.1.intoVector.length) / 2 ^ 24 := by ring
  have e9 : (1:ℝ) / 2 ^ 142 = 1 / 2 ^ 143 + 1 / 2 ^ 143 := by norm_num
  calc |(X' - Y').length - (X - Y).length| = |((X' - Y').length - (Transform.apply M.inner (X - Y)).length) + ((Transform.apply M.inner (X - Y)).length - (X - Y).length)| := by
        congr 1; ring
    _ ≤ _ := abs_add_le _ _
    _ ≤ _ := by rw [e8, e9]; linarith
/-- The inverse motion: its shift and its action on a point. -/
theorem C112_motion2_inv_f32 (m : Motion2 F) (M : Motion2 ℝ) (hm : ValMotion2 m M) (hu : NearUnit2 (1 / 2 ^ 12) M.split.2) (v : Vec F 2) (X : Vec ℝ 2) (hv : ValV v X)
    (hX : X.length ≤ 2 ^ 100) (hS : M.split.1.intoVector.length ≤ 2 ^ 100) :
    ∃ Y K, ValV (Transform.apply (Transform.inv (Vec F 2) m) v) Y ∧ ValMotion2 (Transform.inv (Vec F 2) m) K ∧
      K.split.2 = Transform.inv (Vec ℝ 2) M.split.2 ∧
      (K.split.1.intoVector - -Transform.apply (Transform.inv (Vec ℝ 2) M.split.2) M.split.1.intoVector).length ≤ 5 / 2 ^ 24 * M.split.1.intoVector.length + 1 / 2 ^ 144 ∧
      (Y - Transform.apply (Transform.inv (Vec ℝ 2) M.split.2) (X - M.split.1.intoVector)).length ≤ 7 / 2 ^ 24 * (X.length + M.split.1.intoVector.length) + 1 / 2 ^ 142 := by
  have hr := val_inv2 hm.2
  have ha := act2 hr (by rw [norm_inv2]; exact (near2_le hu).2.trans (by norm_num))
  obtain ⟨Z, T, h1, h2, h3, h4⟩ := ha.inverse (by norm_num) (by norm_num) (by norm_num) hv hm.1
    (hX.trans (by norm_num)) (hS.trans (by norm_num))
  rw [← ha.add, show X + -M.split.1.intoVector = X - M.split.1.intoVector by apply Vec.ext_getElem; intro i hi; simp [sub_eq_add_neg]] at h4
  rw [ha.neg] at h3
  refine ⟨Z, Chain.new (Shift.fromVector T) (Transform.inv (Vec ℝ 2) M.split.2), h1, ⟨h2, hr⟩, rfl, h3, ?_⟩
  norm_num only at h4 ⊢
  exact h4
/-- `m.inv().apply(m.apply(x))` is `x`, within `16u(|x| + |s|)` and three times the defect of the rotation. -/
theorem C112_motion2_round_trip_f32 (m : Motion2 F) (M : Motion2 ℝ) (hm : ValMotion2 m M) (δ : ℝ) (hu : NearUnit2 δ M.split.2) (hδ : δ ≤ 1 / 2 ^ 12) (v : Vec F 2) (X : Vec ℝ 2)
    (hv : ValV v X) (hX : X.length ≤ 2 ^ 100) (hS : M.split.1.intoVector.length ≤ 2 ^ 100) :
    ∃ Z, ValV (Transform.apply (Transform.inv (Vec F 2) m) (Transform.apply m v)) Z ∧
      (Z - X).length ≤ 16 / 2 ^ 24 * (X.length + M.split.1.intoVector.length) + 3 * δ * X.length + 1 / 2 ^ 140 := by
  have hu' : ‖M.split.2.comp.toC‖ ≤ 1 + 1 / 2 ^ 10 := (near2_le hu).2.trans (by norm_num at hδ ⊢; linarith)
  obtain ⟨Z, h1, h2⟩ := (act2 hm.2 hu').back (act2 (val_inv2 hm.2) (by rw [norm_inv2]; exact hu')) (by norm_num) (by norm_num) (by norm_num) hv hm.1 hX hS
  refine ⟨Z, h1, h2.trans ?_⟩
  have h3 := back2 hu hδ X
  have x0 := length_nonneg X
  have s0 := length_nonneg M.split.1.intoVector
  generalize 1 / (2:ℝ) ^ 140 = t at *
  norm_num at h3 ⊢; linarith
/-- Composition: the shift and the action of `m.chain(k)`, against the exact composition and against applying one motion after the other. -/
theorem C112_motion2_chain_f32 (m k : Motion2 F) (M K : Motion2 ℝ) (hm : ValMotion2 m M) (hk : ValMotion2 k K) (hu : NearUnit2 (1 / 2 ^ 12) M.split.2)
    (hw : NearUnit2 (1 / 2 ^ 12) K.split.2) (v : Vec F 2) (X : Vec ℝ 2) (hv : ValV v X)
    (hX : X.length ≤ 2 ^ 100) (hS : M.split.1.intoVector.length ≤ 2 ^ 100) (hS' : K.split.1.intoVector.length ≤ 2 ^ 100) :
    ∃ Y Z W, ValV (Transform.apply (Transform.chain (Vec F 2) m k) v) Y ∧ ValV (Transform.apply m (Transform.apply k v)) Z ∧
      ValV (Transform.chain (Vec F 2) m k).split.1.intoVector W ∧
      (W - (M.split.1.intoVector + Transform.apply M.split.2 K.split.1.intoVector)).length ≤ (7 * K.split.1.intoVector.length + M.split.1.intoVector.length) / 2 ^ 24 + 1 / 2 ^ 143 ∧
      (Y - (Transform.apply M.split.2 (Transform.apply K.split.2 X + K.split.1.intoVector) + M.split.1.intoVector)).length ≤
        (12 * X.length + 9 * K.split.1.intoVector.length + 3 * M.split.1.intoVector.length) / 2 ^ 24 + 1 / 2 ^ 141 ∧
      (Z - (Transform.apply M.split.2 (Transform.apply K.split.2 X + K.split.1.intoVector) + M.split.1.intoVector)).length ≤
        (15 * X.length + 9 * K.split.1.intoVector.length + M.split.1.intoVector.length) / 2 ^ 24 + 1 / 2 ^ 141 ∧
      (Y - Z).length ≤ (27 * X.length + 18 * K.split.1.intoVector.length + 4 * M.split.1.intoVector.length) / 2 ^ 24 + 1 / 2 ^ 140 := by
  have h10 : (1 + 1 / 2 ^ 12 : ℝ) ≤ 1 + 1 / 2 ^ 10 := by norm_num
  have nM := (near2_le hu).2
  have nK := (near2_le hw).2
  obtain ⟨Y, W, y1, w1, w2, y2⟩ := (act2 hm.2 (nM.trans h10)).compose (act2_chain hm.2 hk.2 nM nK) (by norm_num) (by norm_num) (by norm_num) (by norm_num) (by norm_num)
    hv hk.1 hm.1 hX hS' hS
  obtain ⟨Z, z1, z2⟩ := (act2 hk.2 (nK.trans h10)).twice (act2 hm.2 (nM.trans h10)) (by norm_num) (by norm_num) (by norm_num) hv hk.1 hm.1 hX hS' hS
  have x0 := length_nonneg X
  have s0 := length_nonneg M.split.1.intoVector
  have s1 := length_nonneg K.split.1.intoVector
  change (Y - Transform.apply (Transform.chain (Vec ℝ 2) M K) X).length ≤ _ at y2
  change (Z - Transform.apply M (Transform.apply K X)).length ≤ _ at z2
  change (W - (Transform.chain (Vec ℝ 2) M K).split.1.intoVector).length ≤ _ at w2
  have z3 : (Z - Transform.apply M (Transform.apply K X)).length ≤
        (15 * X.length + 9 * K.split.1.intoVector.length + M.split.1.intoVector.length) / 2 ^ 24 + 1 / 2 ^ 141 := by
    refine z2.trans ?_
    generalize 1 / (2:ℝ) ^ 141 = t at *
    norm_num; linarith
  have e : Transform.apply (Transform.chain (Vec ℝ 2) M K) X = Transform.apply M (Transform.apply K X) := chain_exact2 M K X
  rw [e] at y2
  refine ⟨Y, Z, W, y1, z1, w1, ?_, ?_, z3, ?_⟩
  · norm_num only at w2 ⊢; exact w2
  · norm_num only at y2 ⊢; exact y2
  · have e1 : Y - Z = (Y - Transform.apply M (Transform.apply K X)) + -(Z - Transform.apply M (Transform.apply K X)) := by
      apply Vec.ext_getElem; intro i hi; simp
    rw [e1]
    refine (length_add _ _).trans ?_
    rw [length_neg]
    have e2 : (1:ℝ) / 2 ^ 140 = 1 / 2 ^ 141 + 1 / 2 ^ 141 := by norm_num
    rw [e2]
    generalize 1 / (2:ℝ) ^ 141 = t at *
    norm_num at y2 z3 ⊢; linarith
/-- `deriv`: a motion turns directions by its rotation, whatever the point. -/
theorem C112_motion2_deriv_f32 (m : Motion2 F) (M : Motion2 ℝ) (hm : ValMotion2 m M) (hu : NearUnit2 (1 / 2 ^ 12) M.split.2) (v d : Vec F 2) (D : Vec ℝ 2) (hd : ValV d D)
    (hD : D.length ≤ 2 ^ 108) :
    ∃ Y, ValV (Transform.deriv m v d) Y ∧ (Y - Transform.apply M.split.2 D).length ≤ 5 / 2 ^ 24 * D.length + 1 / 2 ^ 144 :=
  (act2 hm.2 ((near2_le hu).2.trans (by norm_num))).close d D hd hD

namespace F32
/-- One more motion composed from the right: the error of the shift grows by `8(k+1)uL`. -/
theorem motion2_step {L : ℝ} (hL0 : 0 ≤ L) (hL : L ≤ 2 ^ 80) {k : ℕ} (hk : k ≤ 2 ^ 9) {a m : Motion2 F} {A P M : Motion2 ℝ} (ha : ValMotion2 a A) (hm : ValMotion2 m M)
    (hu : NearUnit2 (1 / 2 ^ 21) M.inner) (hS : M.outer.pos.length ≤ L) (h1 : ‖A.inner.comp.toC - P.inner.comp.toC‖ ≤ 5 / 2 ^ 24 * k)
    (h2 : |‖P.inner.comp.toC‖ - 1| ≤ 1 / 2 ^ 20 * k) (h3 : P.outer.pos.length ≤ 17 / 16 * k * L)
    (h4 : (A.outer.pos - P.outer.pos).length ≤ 4 * k * (k + 1) / 2 ^ 24 * L + k / 2 ^ 142) :
    ∃ B : Motion2 ℝ, ValMotion2 (Transform.chain (Vec F 2) a m) B ∧
      ‖B.inner.comp.toC - (Transform.chain (Vec ℝ 2) P M).inner.comp.toC‖ ≤ 5 / 2 ^ 24 * (k + 1 : ℕ) ∧
      |‖(Transform.chain (Vec ℝ 2) P M).inner.comp.toC‖ - 1| ≤ 1 / 2 ^ 20 * (k + 1 : ℕ) ∧
      (Transform.chain (Vec ℝ 2) P M).outer.pos.length ≤ 17 / 16 * (k + 1 : ℕ) * L ∧
      (B.outer.pos - (Transform.chain (Vec ℝ 2) P M).outer.pos).length ≤ 4 * (k + 1 : ℕ) * ((k + 1 : ℕ) + 1) / 2 ^ 24 * L + (k + 1 : ℕ) / 2 ^ 142 := by
  obtain ⟨B, b1, b2, b3⟩ := long_core2 [m.inner] [M.inner] (.cons ⟨hm.2, hu⟩ .nil) k a.inner A.inner P.inner ha.2 h1 h2 (by
    simp only [List.length_cons, List.length_nil, zero_add]
    exact (Nat.add_le_add_right hk 1).trans (by norm_num))
  have k0 : (0:ℝ) ≤ k := by positivity
  have kR : (k:ℝ) ≤ 512 := by exact_mod_cast hk
  have s0 := length_nonneg M.outer.pos
  have nP : ‖P.inner.comp.toC‖ ≤ 1 + 1 / 2 ^ 11 := by
    have := (abs_le.1 h2).2
    norm_num at this ⊢; linarith
  have nA : ‖A.inner.comp.toC‖ ≤ 1 + 1 / 2 ^ 10 := by
    have e := norm_add_le (A.inner.comp.toC - P.inner.comp.toC) P.inner.comp.toC
    rw [sub_add_cancel] at e
    norm_num at h1 nP ⊢; linarith
  have hS8 : M.outer.pos.length ≤ 2 ^ 80 := hS.trans hL
  have hk1 : k / (2:ℝ) ^ 142 ≤ 1 := by
    rw [div_le_one (by positivity)]
    exact kR.trans (by norm_num)
  have e12 : 4 * (k:ℝ) * (k + 1) / 2 ^ 24 * L ≤ 1 / 16 * k * L := by
    rw [show 4 * (k:ℝ) * (k + 1) / 2 ^ 24 * L = (4 * (k + 1) / 2 ^ 24) * (k * L) by ring, show 1 / 16 * k * L = 1 / 16 * (k * L) by ring]
    refine mul_le_mul_of_nonneg_right ?_ (by positivity)
    norm_num; linarith
  have lA : A.outer.pos.length ≤ 18 / 16 * k * L + k / 2 ^ 142 := by
    have := length_le_add A.outer.pos P.outer.pos
    generalize (k:ℝ) / 2 ^ 142 = t at *
    linarith
  have kL : (k:ℝ) * L ≤ 512 * 2 ^ 80 := by gcongr
  have lA' : A.outer.pos.length ≤ 2 ^ 105 := by
    refine lA.trans ?_
    calc 18 / 16 * k * L + k / 2 ^ 142 = 18 / 16 * (k * L) + k / 2 ^ 142 := by ring
      _ ≤ 18 / 16 * (512 * 2 ^ 80) + 1 := by gcongr
      _ ≤ _ := by norm_num
  obtain ⟨Z, z1, z2⟩ := (act2 ha.2 (nA.trans (by norm_num))).shift (by norm_num) (by norm_num) (by norm_num) hm.1 ha.1 (hS8.trans (by norm_num)) lA'
  have hl : (k + [m.inner].length : ℕ) = k + 1 := rfl
  rw [hl] at b2 b3
  refine ⟨Chain.new (Shift.fromVector Z) B, ⟨z1, b1⟩, b2, b3, ?_, ?_⟩
  · show (P.outer.pos + Transform.apply P.inner M.outer.pos).length ≤ _
    refine (length_add _ _).trans ?_
    rw [exact_length2]
    have e1 : ‖P.inner.comp.toC‖ * M.outer.pos.length ≤ 17 / 16 * L := by
      calc _ ≤ (1 + 1 / 2 ^ 11 : ℝ) * L := by gcongr
        _ ≤ _ := mul_le_mul_of_nonneg_right (by norm_num) hL0
    push_cast
    linarith
  · show (Z - (P.outer.pos + Transform.apply P.inner M.outer.pos)).length ≤ _
    change (Z - (A.outer.pos + Transform.apply A.inner M.outer.pos)).length ≤ ((5 + 2) * M.outer.pos.length + A.outer.pos.length) / 2 ^ 24 + 1 / 2 ^ 143 at z2
    refine (length_tri _ (A.outer.pos + Transform.apply A.inner M.outer.pos) _).trans ?_
    have e1 : A.outer.pos + Transform.apply A.inner M.outer.pos - (P.outer.pos + Transform.apply P.inner M.outer.pos) =
      (A.outer.pos - P.outer.pos) + (Transform.apply A.inner M.outer.pos - Transform.apply P.inner M.outer.pos) := by
      apply Vec.ext_getElem; intro i hi; simp; ring
    rw [e1]
    have e2 := length_add (A.outer.pos - P.outer.pos) (Transform.apply A.inner M.outer.pos - Transform.apply P.inner M.outer.pos)
    have e3 := apply2_close A.inner P.inner M.outer.pos
    rw [cnorm_eq, toC_sub] at e3
    change _ ≤ ‖A.inner.comp.toC - P.inner.comp.toC‖ * M.outer.pos.length at e3
    have e4 : ‖A.inner.comp.toC - P.inner.comp.toC‖ * M.outer.pos.length ≤ 5 / 2 ^ 24 * k * L := by gcongr
    have e5 : ((5 + 2) * M.outer.pos.length + A.outer.pos.length) / 2 ^ 24 ≤ ((5 + 2) * L + (18 / 16 * k * L + k / 2 ^ 142)) / 2 ^ 24 := by gcongr
    have e6 : (k:ℝ) / 2 ^ 142 / 2 ^ 24 ≤ 1 / 2 ^ 143 := by
      rw [div_right_comm]
      calc (k:ℝ) / 2 ^ 24 / 2 ^ 142 ≤ 512 / 2 ^ 24 / 2 ^ 142 := by gcongr
        _ ≤ _ := by norm_num
    have e7 : ((5 + 2) * L + (18 / 16 * k * L + k / 2 ^ 142)) / 2 ^ 24 = ((5 + 2) * L + 18 / 16 * k * L) / 2 ^ 24 + k / 2 ^ 142 / 2 ^ 24 := by ring
    have e8 : ((k + 1 : ℕ) : ℝ) / 2 ^ 142 = k / 2 ^ 142 + 1 / 2 ^ 143 + 1 / 2 ^ 143 := by push_cast; ring
    have kL0 : 0 ≤ (k:ℝ) * L := by positivity
    have e9 : ((5 + 2) * L + 18 / 16 * k * L) / 2 ^ 24 + 5 / 2 ^ 24 * k * L + 4 * k * (k + 1) / 2 ^ 24 * L ≤
        4 * (k + 1 : ℕ) * ((k + 1 : ℕ) + 1) / 2 ^ 24 * L := by
      push_cast
      rw [show ((5 + 2) * L + 18 / 16 * k * L) / 2 ^ 24 + 5 / 2 ^ 24 * k * L + 4 * k * (k + 1) / 2 ^ 24 * L =
        (7 * L + (18 / 16 + 5) * (k * L) + 4 * k * (k + 1) * L) / 2 ^ 24 by ring,
        show 4 * ((k:ℝ) + 1) * (k + 1 + 1) / 2 ^ 24 * L = (4 * k * (k + 1) * L + 8 * (k * L) + 8 * L) / 2 ^ 24 by ring]
      refine div_le_div_of_nonneg_right ?_ (by positivity)
      norm_num; linarith
    rw [e8]
    rw [e7] at e5
    generalize (k:ℝ) / 2 ^ 142 / 2 ^ 24 = t1 at *
    generalize (k:ℝ) / 2 ^ 142 = t2 at *
    generalize (1:ℝ) / 2 ^ 143 = t3 at *
    linarith
theorem motion2_long {L : ℝ} (hL0 : 0 ≤ L) (hL : L ≤ 2 ^ 80) : ∀ (ms : List (Motion2 F)) (Ms : List (Motion2 ℝ)),
    List.Forall₂ (fun m M => ValMotion2 m M ∧ NearUnit2 (1 / 2 ^ 21) M.split.2 ∧ M.split.1.intoVector.length ≤ L) ms Ms → ∀ (k : ℕ) (a : Motion2 F) (A P : Motion2 ℝ),
    ValMotion2 a A → ‖A.inner.comp.toC - P.inner.comp.toC‖ ≤ 5 / 2 ^ 24 * k → |‖P.inner.comp.toC‖ - 1| ≤ 1 / 2 ^ 20 * k →
    P.outer.pos.length ≤ 17 / 16 * k * L → (A.outer.pos - P.outer.pos).length ≤ 4 * k * (k + 1) / 2 ^ 24 * L + k / 2 ^ 142 → k + ms.length ≤ 2 ^ 9 →
    ∃ B : Motion2 ℝ, ValMotion2 (ms.foldl (Transform.chain (Vec F 2)) a) B ∧
      ‖B.inner.comp.toC - (Ms.foldl (Transform.chain (Vec ℝ 2)) P).inner.comp.toC‖ ≤ 5 / 2 ^ 24 * (k + ms.length : ℕ) ∧
      |‖(Ms.foldl (Transform.chain (Vec ℝ 2)) P).inner.comp.toC‖ - 1| ≤ 1 / 2 ^ 20 * (k + ms.length : ℕ) ∧
      (Ms.foldl (Transform.chain (Vec ℝ 2)) P).outer.pos.length ≤ 17 / 16 * (k + ms.length : ℕ) * L ∧
      (B.outer.pos - (Ms.foldl (Transform.chain (Vec ℝ 2)) P).outer.pos).length ≤
        4 * (k + ms.length : ℕ) * ((k + ms.length : ℕ) + 1) / 2 ^ 24 * L + (k + ms.length : ℕ) / 2 ^ 142 := by
  intro ms Ms h
  induction h with
  | nil => intro k a A P ha h1 h2 h3 h4 _; exact ⟨A, ha, h1, h2, h3, h4⟩
  | cons hm _ ih =>
    intro k a A P ha h1 h2 h3 h4 hn
    rw [List.length_cons] at hn
    obtain ⟨B, b0, b1, b2, b3, b4⟩ := motion2_step hL0 hL (by omega) ha hm.1 hm.2.1 hm.2.2 h1 h2 h3 h4
    have := ih (k + 1) _ B _ b0 b1 b2 b3 b4 (by omega)
    rw [List.length_cons, ← Nat.add_assoc, Nat.add_right_comm]
    exact this
theorem motion2_start {L : ℝ} (hL0 : 0 ≤ L) (hL : L ≤ 2 ^ 80) (ms : List (Motion2 F)) (Ms : List (Motion2 ℝ))
    (h : List.Forall₂ (fun m M => ValMotion2 m M ∧ NearUnit2 (1 / 2 ^ 21) M.split.2 ∧ M.split.1.intoVector.length ≤ L) ms Ms) (hn : ms.length ≤ 2 ^ 9) :
    ∃ B : Motion2 ℝ, ValMotion2 (ms.foldl (Transform.chain (Vec F 2)) (Transform.identity (Vec F 2))) B ∧
      ‖B.inner.comp.toC - (Ms.foldl (Transform.chain (Vec ℝ 2)) (Transform.identity (Vec ℝ 2))).inner.comp.toC‖ ≤ 5 / 2 ^ 24 * ms.length ∧
      |‖(Ms.foldl (Transform.chain (Vec ℝ 2)) (Transform.identity (Vec ℝ 2))).inner.comp.toC‖ - 1| ≤ 1 / 2 ^ 20 * ms.length ∧
      (Ms.foldl (Transform.chain (Vec ℝ 2)) (Transform.identity (Vec ℝ 2))).outer.pos.length ≤ 17 / 16 * ms.length * L ∧
      (B.outer.pos - (Ms.foldl (Transform.chain (Vec ℝ 2)) (Transform.identity (Vec ℝ 2))).outer.pos).length ≤
        4 * ms.length * (ms.length + 1) / 2 ^ 24 * L + ms.length / 2 ^ 142 := by
  have hq : ValC (Transform.identity (Vec F 2) : Rotation2 F).intoComplex (Transform.identity (Vec ℝ 2) : Rotation2 ℝ).intoComplex := by
    refine ⟨?_, ?_⟩ <;> simp [Rotation2.intoComplex, Transform.identity] <;> rfl
  have hs : ValV (Transform.identity (Vec F 2) : Shift F 2).intoVector (Transform.identity (Vec ℝ 2) : Shift ℝ 2).intoVector := fun i => by
    show (0 : Vec F 2)[i.1].toReal? = some (0 : Vec ℝ 2)[i.1]
    rw [Vec.getElem_zero, Vec.getElem_zero]; rfl
  have hH : (Transform.identity (Vec ℝ 2) : Motion2 ℝ).inner.comp.toC = 1 := C38_isomorphic.2.2.1
  have hz : (Transform.identity (Vec ℝ 2) : Motion2 ℝ).outer.pos.length = 0 := by
    show (0 : Vec ℝ 2).length = 0
    rw [← vsub_self (0 : Vec ℝ 2), length_self_sub]
  obtain ⟨B, h1, h2, h3, h5, h4⟩ := motion2_long hL0 hL ms Ms h 0 (Transform.identity (Vec F 2)) (Transform.identity (Vec ℝ 2)) (Transform.identity (Vec ℝ 2)) ⟨hs, hq⟩ (by simp) (by rw [hH]; simp)
    (by rw [hz]; simp) (by rw [length_self_sub]; simp) (by simpa using hn)
  rw [zero_add] at h2 h3 h4 h5
  exact ⟨B, h1, h2, h3, h5, h4⟩
end F32
/-- Drift of an incrementally composed motion (a pose updated once per frame): after `n ≤ 2^9` steps with shifts of length at most `L` the
rotation is within `5u n` and the position within `4 n (n + 1) u L` of the exact composition, and the rotation is still a unit within `n 2^-19`. -/
theorem C112_motion2_drift_f32 (ms : List (Motion2 F)) (Ms : List (Motion2 ℝ)) (L : ℝ) (hL0 : 0 ≤ L) (hL : L ≤ 2 ^ 80)
    (h : List.Forall₂ (fun m M => ValMotion2 m M ∧ NearUnit2 (1 / 2 ^ 21) M.split.2 ∧ M.split.1.intoVector.length ≤ L) ms Ms) (hn : ms.length ≤ 2 ^ 9) :
    ∃ B : Motion2 ℝ, ValMotion2 (ms.foldl (Transform.chain (Vec F 2)) (Transform.identity (Vec F 2))) B ∧
      (B.split.2.intoComplex - (Ms.foldl (Transform.chain (Vec ℝ 2)) (Transform.identity (Vec ℝ 2))).split.2.intoComplex).norm ≤ 5 / 2 ^ 24 * ms.length ∧
      NearUnit2 (1 / 2 ^ 19 * ms.length) B.split.2 ∧
      (B.split.1.intoVector - (Ms.foldl (Transform.chain (Vec ℝ 2)) (Transform.identity (Vec ℝ 2))).split.1.intoVector).length ≤
        4 * ms.length * (ms.length + 1) / 2 ^ 24 * L + ms.length / 2 ^ 142 := by
  obtain ⟨B, h1, h2, h3, -, h4⟩ := motion2_start hL0 hL ms Ms h hn
  refine ⟨B, h1, by rw [cnorm_eq, toC_sub]; exact h2, ?_, h4⟩
  show |B.inner.comp.norm - 1| ≤ _
  rw [cnorm_eq]
  have n0 : (0:ℝ) ≤ ms.length := by positivity
  set E := (Ms.foldl (Transform.chain (Vec ℝ 2)) (Transform.identity (Vec ℝ 2))).inner.comp.toC
  calc |‖B.inner.comp.toC‖ - 1| = |(‖B.inner.comp.toC‖ - ‖E‖) + (‖E‖ - 1)| := by congr 1; ring
    _ ≤ _ := abs_add_le _ _
    _ ≤ 5 / 2 ^ 24 * ms.length + 1 / 2 ^ 20 * ms.length := add_le_add ((abs_norm_sub_norm_le _ _).trans h2) h3
    _ ≤ _ := by norm_num; linarith
namespace F32
end F32
/-- A point moved by an incrementally composed motion, against the steps applied one after the other in exact arithmetic. -/
theorem C112_motion2_drift_apply_f32 (ms : List (Motion2 F)) (Ms : List (Motion2 ℝ)) (L : ℝ) (hL0 : 0 ≤ L) (hL : L ≤ 2 ^ 80)
    (h : List.Forall₂ (fun m M => ValMotion2 m M ∧ NearUnit2 (1 / 2 ^ 21) M.split.2 ∧ M.split.1.intoVector.length ≤ L) ms Ms) (hn : ms.length ≤ 2 ^ 9)
    (v : Vec F 2) (X : Vec ℝ 2) (hv : ValV v X) (hX : X.length ≤ 2 ^ 100) :
    ∃ Y, ValV (Transform.apply (ms.foldl (Transform.chain (Vec F 2)) (Transform.identity (Vec F 2))) v) Y ∧
      (Y - Ms.foldr (fun M x => Transform.apply M.split.2 x + M.split.1.intoVector) X).length ≤
        (ms.length + 1) * (8 * X.length + 6 * ms.length * L) / 2 ^ 24 + (ms.length + 1) / 2 ^ 141 := by
  obtain ⟨B, h1, h2, h3, h5, h4⟩ := motion2_start hL0 hL ms Ms h hn
  have eE : Transform.apply (Ms.foldl (Transform.chain (Vec ℝ 2)) (Transform.identity (Vec ℝ 2))) X =
      Ms.foldr (fun M x => Transform.apply M.split.2 x + M.split.1.intoVector) X := by rw [foldl_motion2, ident_motion2]
  rw [← eE]
  generalize Ms.foldl (Transform.chain (Vec ℝ 2)) (Transform.identity (Vec ℝ 2)) = E at *
  have x0 := length_nonneg X
  have n0 : (0:ℝ) ≤ ms.length := by positivity
  have nR : (ms.length:ℝ) ≤ 512 := by exact_mod_cast hn
  generalize (ms.length : ℝ) = n at *
  have nE : ‖E.inner.comp.toC‖ ≤ 1 + 1 / 2 ^ 11 := by
    have := (abs_le.1 h3).2
    norm_num at this ⊢; linarith
  have nB : ‖B.inner.comp.toC‖ ≤ 1 + 1 / 2 ^ 10 := by
    have e := norm_add_le (B.inner.comp.toC - E.inner.comp.toC) E.inner.comp.toC
    rw [sub_add_cancel] at e
    norm_num at h2 nE ⊢; linarith
  have e12 : 4 * n * (n + 1) / 2 ^ 24 * L ≤ 1 / 16 * n * L := by
    rw [show 4 * n * (n + 1) / 2 ^ 24 * L = (4 * (n + 1) / 2 ^ 24) * (n * L) by ring, show 1 / 16 * n * L = 1 / 16 * (n * L) by ring]
    refine mul_le_mul_of_nonneg_right ?_ (by positivity)
    norm_num; linarith
  have hk1 : n / (2:ℝ) ^ 142 ≤ 1 := by
    rw [div_le_one (by positivity)]
    exact nR.trans (by norm_num)
  have lB : B.outer.pos.length ≤ 18 / 16 * n * L + n / 2 ^ 142 := by
    have := length_le_add B.outer.pos E.outer.pos
    generalize n / 2 ^ 142 = t at *
    linarith
  have kL : n * L ≤ 512 * 2 ^ 80 := by gcongr
  obtain ⟨Y, y1, y2⟩ := (act2 h1.2 (nB.trans (by norm_num))).motion (by norm_num) (by norm_num) (by norm_num) hv h1.1 (hX.trans (by norm_num)) (lB.trans (by
    calc 18 / 16 * n * L + n / 2 ^ 142 = 18 / 16 * (n * L) + n / 2 ^ 142 := by ring
      _ ≤ 18 / 16 * (512 * 2 ^ 80) + 1 := by gcongr
      _ ≤ _ := by norm_num))
  refine ⟨Y, y1, ?_⟩
  change (Y - (Transform.apply B.inner X + B.outer.pos)).length ≤ ((5 + 2) * X.length + B.outer.pos.length) / 2 ^ 24 + 1 / 2 ^ 143 at y2
  show (Y - (Transform.apply E.inner X + E.outer.pos)).length ≤ _
  refine (length_tri _ (Transform.apply B.inner X + B.outer.pos) _).trans ?_
  have e1 : Transform.apply B.inner X + B.outer.pos - (Transform.apply E.inner X + E.outer.pos) =
    (B.outer.pos - E.outer.pos) + (Transform.apply B.inner X - Transform.apply E.inner X) := by
    apply Vec.ext_getElem; intro i hi; simp; ring
  rw [e1]
  have e2 := length_add (B.outer.pos - E.outer.pos) (Transform.apply B.inner X - Transform.apply E.inner X)
  have e3 := apply2_close B.inner E.inner X
  rw [cnorm_eq, toC_sub] at e3
  change _ ≤ ‖B.inner.comp.toC - E.inner.comp.toC‖ * X.length at e3
  have e4 : ‖B.inner.comp.toC - E.inner.comp.toC‖ * X.length ≤ 5 / 2 ^ 24 * n * X.length := by gcongr
  have e5 : ((5 + 2) * X.length + B.outer.pos.length) / 2 ^ 24 ≤ ((5 + 2) * X.length + (18 / 16 * n * L + n / 2 ^ 142)) / 2 ^ 24 := by gcongr
  have e6 : n / 2 ^ 142 / 2 ^ 24 ≤ 1 / 2 ^ 143 := by
    rw [div_right_comm]
    calc n / 2 ^ 24 / 2 ^ 142 ≤ 512 / 2 ^ 24 / 2 ^ 142 := by gcongr
      _ ≤ _ := by norm_num
  have e7 : ((5 + 2) * X.length + (18 / 16 * n * L + n / 2 ^ 142)) / 2 ^ 24 = ((5 + 2) * X.length + 18 / 16 * n * L) / 2 ^ 24 + n / 2 ^ 142 / 2 ^ 24 := by ring
  have e8 : (n + 1) / 2 ^ 141 = 2 * (n / 2 ^ 142) + 1 / 2 ^ 143 + 1 / 2 ^ 143 + 2 * (1 / 2 ^ 143) := by ring
  have p1 : 0 ≤ n * L := by positivity
  have p2 : 0 ≤ n * n * L := by positivity
  have p3 : 0 ≤ n * X.length := by positivity
  have e9 : ((5 + 2) * X.length + 18 / 16 * n * L) / 2 ^ 24 + 5 / 2 ^ 24 * n * X.length + 4 * n * (n + 1) / 2 ^ 24 * L ≤ (n + 1) * (8 * X.length + 6 * n * L) / 2 ^ 24 := by
    norm_num
    linarith
  have p4 : 0 ≤ n / 2 ^ 142 := by positivity
  have p5 : (0:ℝ) ≤ 1 / 2 ^ 143 := by positivity
  rw [e8]
  rw [e7] at e5
  generalize n / 2 ^ 142 / 2 ^ 24 = t1 at *
  generalize n / 2 ^ 142 = t2 at *
  generalize (1:ℝ) / 2 ^ 143 = t3 at *
  linarith

/-! ## concrete cases -/
namespace F32Ex
open F32Lit
/-- The turn by 120° about (1,1,1) followed by the shift (1, -2, 3). -/
noncomputable def m3 : Motion3 F := Chain.new (Shift.fromVector (vec ![1, -2, 3])) r3
noncomputable def M3 : Motion3 ℝ := Chain.new (Shift.fromVector (Vec.fromArray (Vector.ofFn ![1, -2, 3]))) R3
theorem m3_val : ValMotion3 m3 M3 := ⟨valV _, r3_val⟩
noncomputable def m2 : Motion2 F := Chain.new (Shift.fromVector (vec ![1, -2])) r2
noncomputable def M2 : Motion2 ℝ := Chain.new (Shift.fromVector (Vec.fromArray (Vector.ofFn ![1, -2]))) R2
theorem m2_val : ValMotion2 m2 M2 := ⟨valV _, r2_val⟩
theorem M3_len : M3.split.1.intoVector.length ≤ 2 ^ 2 := len3
theorem M2_len : M2.split.1.intoVector.length ≤ 2 ^ 2 := len2
theorem M3_unit {δ : ℝ} (h : 0 ≤ δ) : NearUnit3 δ M3.split.2 := R3_unit h
theorem M2_unit {δ : ℝ} (h : 1 / 2 ^ 21 ≤ δ) : NearUnit2 δ M2.split.2 := R2_unit h
theorem up {x : ℝ} (h : x ≤ 2 ^ 2) : x ≤ 2 ^ 100 := h.trans (by norm_num)
end F32Ex
open F32Ex
example := C112_motion3_apply_f32 m3 M3 m3_val (M3_unit (by norm_num)) _ _ (valV ![1, -2, 3]) (up len3) (up M3_len)
example := C112_motion3_distance_f32 m3 M3 m3_val 0 (M3_unit le_rfl) (by norm_num) _ _ _ _ (valV ![1, -2, 3]) (valV ![1, -2, 3]) (up len3) (up len3) (up M3_len)
example := C112_motion3_inv_f32 m3 M3 m3_val (M3_unit (by norm_num)) _ _ (valV ![1, -2, 3]) (up len3) (up M3_len)
example := C112_motion3_round_trip_f32 m3 M3 m3_val 0 (M3_unit le_rfl) (by norm_num) _ _ (valV ![1, -2, 3]) (up len3) (up M3_len)
example := C112_motion3_chain_f32 m3 m3 M3 M3 m3_val m3_val (M3_unit (by norm_num)) (M3_unit (by norm_num)) _ _ (valV ![1, -2, 3]) (up len3) (up M3_len) (up M3_len)
example := C112_motion3_deriv_f32 m3 M3 m3_val (M3_unit (by norm_num)) 0 _ _ (valV ![1, -2, 3]) (len3.trans (by norm_num))
example := C112_motion3_drift_f32 [m3, m3, m3] [M3, M3, M3] (2 ^ 2) (by norm_num) (by norm_num) (by
  have : ValMotion3 m3 M3 ∧ NearUnit3 (1 / 2 ^ 21) M3.split.2 ∧ M3.split.1.intoVector.length ≤ 2 ^ 2 := ⟨m3_val, M3_unit (by norm_num), M3_len⟩
  exact .cons this (.cons this (.cons this .nil))) (by simp)
example := C112_motion2_apply_f32 m2 M2 m2_val (M2_unit (by norm_num)) _ _ (valV ![1, -2]) (up len2) (up M2_len)
example := C112_motion2_distance_f32 m2 M2 m2_val (1 / 2 ^ 21) (M2_unit le_rfl) (by norm_num) _ _ _ _ (valV ![1, -2]) (valV ![1, -2]) (up len2) (up len2) (up M2_len)
example := C112_motion2_inv_f32 m2 M2 m2_val (M2_unit (by norm_num)) _ _ (valV ![1, -2]) (up len2) (up M2_len)
example := C112_motion2_round_trip_f32 m2 M2 m2_val (1 / 2 ^ 21) (M2_unit le_rfl) (by norm_num) _ _ (valV ![1, -2]) (up len2) (up M2_len)
example := C112_motion2_chain_f32 m2 m2 M2 M2 m2_val m2_val (M2_unit (by norm_num)) (M2_unit (by norm_num)) _ _ (valV ![1, -2]) (up len2) (up M2_len) (up M2_len)
example := C112_motion2_deriv_f32 m2 M2 m2_val (M2_unit (by norm_num)) 0 _ _ (valV ![1, -2]) (len2.trans (by norm_num))
example := C112_motion2_drift_f32 [m2, m2, m2] [M2, M2, M2] (2 ^ 2) (by norm_num) (by norm_num) (by
  have : ValMotion2 m2 M2 ∧ NearUnit2 (1 / 2 ^ 21) M2.split.2 ∧ M2.split.1.intoVector.length ≤ 2 ^ 2 := ⟨m2_val, M2_unit le_rfl, M2_len⟩
  exact .cons this (.cons this (.cons this .nil))) (by simp)
example := C112_motion3_drift_apply_f32 [m3, m3, m3] [M3, M3, M3] (2 ^ 2) (by norm_num) (by norm_num) (by
  have : ValMotion3 m3 M3 ∧ NearUnit3 (1 / 2 ^ 21) M3.split.2 ∧ M3.split.1.intoVector.length ≤ 2 ^ 2 := ⟨m3_val, M3_unit (by norm_num), M3_len⟩
  exact .cons this (.cons this (.cons this .nil))) (by simp) _ _ (valV ![1, -2, 3]) (up len3)
example := C112_motion2_drift_apply_f32 [m2, m2, m2] [M2, M2, M2] (2 ^ 2) (by norm_num) (by norm_num) (by
  have : ValMotion2 m2 M2 ∧ NearUnit2 (1 / 2 ^ 21) M2.split.2 ∧ M2.split.1.intoVector.length ≤ 2 ^ 2 := ⟨m2_val, M2_unit le_rfl, M2_len⟩
  exact .cons this (.cons this (.cons this .nil))) (by simp) _ _ (valV ![1, -2]) (up len2)
end Vecmat
