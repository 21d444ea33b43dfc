import Verif.Props.Conformal
/-!
# C96: geometry of Möbius transformations
Cross ratios, three-point transitivity, what `apply` determines about the coefficients, decomposition, circles and spheres.
-/
set_option linter.unusedSectionVars false
namespace Vecmat
open Spec
variable {T : Type}

/-- The Möbius transformation with all coefficients multiplied by `k` (from the left). -/
def Spec.timesCoeffs {C : Type} [Mul C] (k : C) (m : Moebius C) : Moebius C := Moebius.new (k * m.a) (k * m.b) (k * m.c) (k * m.d)

section generic
variable {F : Type} [Field F]

/-- A quadratic with three distinct roots vanishes. -/
theorem quadratic_zero {p q r x y z : F} (hxy : x ≠ y) (hxz : x ≠ z) (hyz : y ≠ z) (hx : p * x * x + q * x + r = 0)
    (hy : p * y * y + q * y + r = 0) (hz : p * z * z + q * z + r = 0) : p = 0 ∧ q = 0 ∧ r = 0 := by
  have h1 : p * (x + y) + q = 0 := by
    apply mul_left_cancel₀ (sub_ne_zero.mpr hxy); linear_combination hx - hy
  have h2 : p * (x + z) + q = 0 := by
    apply mul_left_cancel₀ (sub_ne_zero.mpr hxz); linear_combination hx - hz
  have hp : p = 0 := by
    apply mul_left_cancel₀ (sub_ne_zero.mpr hyz); linear_combination h1 - h2
  have hq : q = 0 := by rw [hp] at h1; simpa using h1
  refine ⟨hp, hq, ?_⟩
  rw [hp, hq] at hx; simpa using hx

theorem proportional {a b c d a' b' c' d' : F} (hd : a * d - b * c ≠ 0) (hd' : a' * d' - b' * c' ≠ 0)
    (h1 : a' * c - a * c' = 0) (h2 : a' * d + b' * c - a * d' - b * c' = 0) (h3 : b' * d - b * d' = 0) :
    ∃ k : F, k ≠ 0 ∧ a' = k * a ∧ b' = k * b ∧ c' = k * c ∧ d' = k * d := by
  have e : ∀ x y : F, x * (a * d - b * c) = y * (d * a' - b * c') → x = (d * a' - b * c') / (a * d - b * c) * y := fun x y h => by
    rw [div_mul_eq_mul_div, eq_div_iff hd, h]; ring
  have ka := e a' a (by linear_combination -b * h1)
  have kb := e b' b (by linear_combination a * h3 - b * h2)
  have kc := e c' c (by linear_combination -d * h1)
  have kd := e d' d (by linear_combination c * h3 - d * h2)
  refine ⟨_, fun h0 => hd' ?_, ka, kb, kc, kd⟩
  rw [h0] at ka kb
  rw [ka, kb]; ring

/-- Two transformations with non-zero determinant that agree at three distinct points are proportional. -/
theorem agree_three {a b c d a' b' c' d' x y z : F} (hd : a * d - b * c ≠ 0) (hd' : a' * d' - b' * c' ≠ 0)
    (hxy : x ≠ y) (hxz : x ≠ z) (hyz : y ≠ z)
    (h : ∀ t, t = x ∨ t = y ∨ t = z → (a' * t + b') * (c * t + d) = (a * t + b) * (c' * t + d')) :
    ∃ k : F, k ≠ 0 ∧ a' = k * a ∧ b' = k * b ∧ c' = k * c ∧ d' = k * d := by
  have q : ∀ t, t = x ∨ t = y ∨ t = z →
      (a' * c - a * c') * t * t + (a' * d + b' * c - a * d' - b * c') * t + (b' * d - b * d') = 0 := fun t ht => by
    linear_combination h t ht
  obtain ⟨h1, h2, h3⟩ := quadratic_zero hxy hxz hyz (q x (.inl rfl)) (q y (.inr (.inl rfl))) (q z (.inr (.inr rfl)))
  exact proportional hd hd' h1 h2 h3
theorem Moebius.new_chain_new (a b c d a' b' c' d' : F) : (Moebius.new a b c d).chain (Moebius.new a' b' c' d') =
    Moebius.new (a * a' + b * c') (a * b' + b * d') (c * a' + d * c') (c * b' + d * d') := by
  apply Moebius.ext_entries <;> rw [Moebius.chain] <;> simp only [Moebius.dotM_entry, Moebius.new_00, Moebius.new_01, Moebius.new_10,
    Moebius.new_11]
end generic

section
variable [Field T] [LinearOrder T] [IsStrictOrderedRing T]

theorem Moebius.apply_sub_complex (m : Moebius (Cpx T)) (p q : Cpx T) (hp : m.c * p + m.d ≠ 0) (hq : m.c * q + m.d ≠ 0) :
    m.apply p - m.apply q = m.det * (p - q) / ((m.c * p + m.d) * (m.c * q + m.d)) := by
  rw [Moebius.apply, Moebius.apply, div_sub_div _ _ hp hq, Moebius.det_two]
  congr 1; ring

/-- The cross ratio of four points is kept: `(p,r;q,s) = ((p-r)(q-s)) : ((p-s)(q-r))`, written without division. -/
theorem C96_cross_ratio (m : Moebius (Cpx T)) (p q r s : Cpx T) (hp : m.c * p + m.d ≠ 0) (hq : m.c * q + m.d ≠ 0)
    (hr : m.c * r + m.d ≠ 0) (hs : m.c * s + m.d ≠ 0) :
    (m.apply p - m.apply r) * (m.apply q - m.apply s) * ((p - s) * (q - r)) =
    (m.apply p - m.apply s) * (m.apply q - m.apply r) * ((p - r) * (q - s)) := by
  rw [m.apply_sub_complex p r hp hr, m.apply_sub_complex q s hq hs, m.apply_sub_complex p s hp hs, m.apply_sub_complex q r hq hr]
  generalize m.c * p + m.d = P, m.c * q + m.d = Q, m.c * r + m.d = R, m.c * s + m.d = S at *
  field_simp

/-- For any three distinct points and any three distinct targets there is a transformation taking one to the other, and it is unique up
to a common factor of the coefficients. -/
theorem C96_three_points (z w : Fin 3 → Cpx T) (hz : Function.Injective z) (hw : Function.Injective w) :
    ∃ m : Moebius (Cpx T), m.det ≠ 0 ∧ (∀ i, m.c * z i + m.d ≠ 0 ∧ m.apply (z i) = w i) ∧
      ∀ n : Moebius (Cpx T), n.det ≠ 0 → (∀ i, n.c * z i + n.d ≠ 0 ∧ n.apply (z i) = w i) → ∃ k, k ≠ 0 ∧ n = timesCoeffs k m := by
  have z01 : z 0 - z 1 ≠ 0 := sub_ne_zero.mpr fun h => by simpa using hz h
  have z02 : z 0 - z 2 ≠ 0 := sub_ne_zero.mpr fun h => by simpa using hz h
  have z12 : z 1 - z 2 ≠ 0 := sub_ne_zero.mpr fun h => by simpa using hz h
  have w01 : w 0 - w 1 ≠ 0 := sub_ne_zero.mpr fun h => by simpa using hw h
  have w02 : w 0 - w 2 ≠ 0 := sub_ne_zero.mpr fun h => by simpa using hw h
  have w12 : w 1 - w 2 ≠ 0 := sub_ne_zero.mpr fun h => by simpa using hw h
  let a := z 0 * w 0 * (w 1 - w 2) - z 1 * w 1 * (w 0 - w 2) + z 2 * w 2 * (w 0 - w 1)
  let b := z 0 * w 0 * (z 1 * w 2 - z 2 * w 1) - z 1 * w 1 * (z 0 * w 2 - z 2 * w 0) + z 2 * w 2 * (z 0 * w 1 - z 1 * w 0)
  let c := z 0 * (w 1 - w 2) - z 1 * (w 0 - w 2) + z 2 * (w 0 - w 1)
  let d := z 0 * w 0 * (z 1 - z 2) - z 1 * w 1 * (z 0 - z 2) + z 2 * w 2 * (z 0 - z 1)
  have hdet : a * d - b * c ≠ 0 := by
    rw [show a * d - b * c = ((z 0 - z 1) * (z 0 - z 2) * (z 1 - z 2)) * ((w 0 - w 1) * (w 0 - w 2) * (w 1 - w 2)) by
      simp only [a, b, c, d]; ring]
    exact mul_ne_zero (mul_ne_zero (mul_ne_zero z01 z02) z12) (mul_ne_zero (mul_ne_zero w01 w02) w12)
  have v0 : c * z 0 + d = (z 0 - z 1) * (z 0 - z 2) * (w 1 - w 2) := by simp only [c, d]; ring
  have v1 : c * z 1 + d = (z 0 - z 1) * (z 1 - z 2) * (w 0 - w 2) := by simp only [c, d]; ring
  have v2 : c * z 2 + d = (z 0 - z 2) * (z 1 - z 2) * (w 0 - w 1) := by simp only [c, d]; ring
  have n0 : c * z 0 + d ≠ 0 := by rw [v0]; exact mul_ne_zero (mul_ne_zero z01 z02) w12
  have n1 : c * z 1 + d ≠ 0 := by rw [v1]; exact mul_ne_zero (mul_ne_zero z01 z12) w02
  have n2 : c * z 2 + d ≠ 0 := by rw [v2]; exact mul_ne_zero (mul_ne_zero z02 z12) w01
  have g0 : a * z 0 + b = w 0 * (c * z 0 + d) := by simp only [a, b, c, d]; ring
  have g1 : a * z 1 + b = w 1 * (c * z 1 + d) := by simp only [a, b, c, d]; ring
  have g2 : a * z 2 + b = w 2 * (c * z 2 + d) := by simp only [a, b, c, d]; ring
  have hm : (Moebius.new a b c d).a = a ∧ (Moebius.new a b c d).b = b ∧ (Moebius.new a b c d).c = c ∧ (Moebius.new a b c d).d = d :=
    ⟨(C48_coefficients a b c d).1, (C48_coefficients a b c d).2.1, (C48_coefficients a b c d).2.2.1, (C48_coefficients a b c d).2.2.2.1⟩
  obtain ⟨ma, mb, mc, md⟩ := hm
  refine ⟨Moebius.new a b c d, ?_, fun i => ?_, fun n hn hi => ?_⟩
  · rw [Moebius.det_two, ma, mb, mc, md]; exact hdet
  · rw [Moebius.apply, ma, mb, mc, md]
    fin_cases i
    · exact ⟨n0, (div_eq_iff n0).mpr g0⟩
    · exact ⟨n1, (div_eq_iff n1).mpr g1⟩
    · exact ⟨n2, (div_eq_iff n2).mpr g2⟩
  · have hn' : n.a * n.d - n.b * n.c ≠ 0 := by rw [← Moebius.det_two]; exact hn
    have eqn : ∀ i, n.a * z i + n.b = w i * (n.c * z i + n.d) := fun i => by
      have := (hi i).2
      rwa [Moebius.apply, div_eq_iff (hi i).1] at this
    obtain ⟨k, hk, ka, kb, kc, kd⟩ := agree_three (x := z 0) (y := z 1) (z := z 2) hdet hn' (sub_ne_zero.mp z01) (sub_ne_zero.mp z02)
      (sub_ne_zero.mp z12) (fun t ht => by
        rcases ht with rfl | rfl | rfl
        · rw [eqn]; simp only [a, b, c, d]; ring
        · rw [eqn]; simp only [a, b, c, d]; ring
        · rw [eqn]; simp only [a, b, c, d]; ring)
    refine ⟨k, hk, ?_⟩
    rw [timesCoeffs, ma, mb, mc, md, ← ka, ← kb, ← kc, ← kd]
    exact ((C48_coefficients n.a n.b n.c n.d).2.2.2.2.2.2.2.2.2 n).symm

theorem Moebius.not_both_zero (m : Moebius (Cpx T)) (h : m.det ≠ 0) : m.c ≠ 0 ∨ m.d ≠ 0 := by
  by_contra h'
  push Not at h'
  rw [Moebius.det_two, h'.1, h'.2] at h
  simp at h

theorem Moebius.off_pole (m : Moebius (Cpx T)) (h : m.det ≠ 0) {x : Cpx T} (hx : x ≠ -m.d / m.c) : m.c * x + m.d ≠ 0 := by
  intro e
  by_cases hc : m.c = 0
  · rw [hc, zero_mul, zero_add] at e
    exact (m.not_both_zero h).elim (fun h => h hc) (fun h => h e)
  · apply hx; rw [eq_div_iff hc]; linear_combination e

instance : Infinite (Cpx T) := Infinite.of_injective (fun n : ℕ => Cpx.new (n : T) 0) fun a b h => by
  have := congrArg Cpx.re h
  simpa using this

/-- Two transformations act alike on complex points (where both are defined) exactly when their coefficients are proportional. -/
theorem C96_equal_action (m n : Moebius (Cpx T)) (hm : m.det ≠ 0) (hn : n.det ≠ 0) :
    (∀ x : Cpx T, m.c * x + m.d ≠ 0 → n.c * x + n.d ≠ 0 → m.apply x = n.apply x) ↔ ∃ k, k ≠ 0 ∧ n = timesCoeffs k m := by
  constructor
  · intro h
    obtain ⟨x, hx⟩ := Infinite.exists_notMem_finset ({-m.d / m.c, -n.d / n.c} : Finset (Cpx T))
    obtain ⟨y, hy⟩ := Infinite.exists_notMem_finset ({x, -m.d / m.c, -n.d / n.c} : Finset (Cpx T))
    obtain ⟨z, hz⟩ := Infinite.exists_notMem_finset ({x, y, -m.d / m.c, -n.d / n.c} : Finset (Cpx T))
    simp only [Finset.mem_insert, Finset.mem_singleton, not_or] at hx hy hz
    have eqn : ∀ t, t ≠ -m.d / m.c → t ≠ -n.d / n.c → (n.a * t + n.b) * (m.c * t + m.d) = (m.a * t + m.b) * (n.c * t + n.d) :=
      fun t h1 h2 => by
        have p1 := m.off_pole hm h1
        have p2 := n.off_pole hn h2
        have := h t p1 p2
        rw [Moebius.apply, Moebius.apply, div_eq_div_iff p1 p2] at this
        exact this.symm
    obtain ⟨k, hk, ka, kb, kc, kd⟩ := agree_three (x := x) (y := y) (z := z) (by rw [← Moebius.det_two]; exact hm)
      (by rw [← Moebius.det_two]; exact hn) (Ne.symm hy.1) (Ne.symm hz.1) (Ne.symm hz.2.1) (fun t ht => by
        rcases ht with rfl | rfl | rfl
        · exact eqn _ hx.1 hx.2
        · exact eqn _ hy.2.1 hy.2.2
        · exact eqn _ hz.2.2.1 hz.2.2.2)
    refine ⟨k, hk, ?_⟩
    rw [timesCoeffs, ← ka, ← kb, ← kc, ← kd]
    exact ((C48_coefficients n.a n.b n.c n.d).2.2.2.2.2.2.2.2.2 n).symm
  · rintro ⟨k, hk, rfl⟩ x - -
    simp only [timesCoeffs, Moebius.apply, C48_coefficients]
    rw [mul_assoc, ← mul_add, mul_assoc, ← mul_add, mul_div_mul_left _ _ hk]

/-- A transformation with three fixed points is the identity map: its coefficients are `k, 0, 0, k`. -/
theorem C96_three_fixed_points (m : Moebius (Cpx T)) (hm : m.det ≠ 0) (x y z : Cpx T) (hxy : x ≠ y) (hxz : x ≠ z) (hyz : y ≠ z)
    (h : ∀ t, t = x ∨ t = y ∨ t = z → m.c * t + m.d ≠ 0 ∧ m.apply t = t) :
    ∃ k, k ≠ 0 ∧ m = Moebius.new k 0 0 k := by
  obtain ⟨k, hk, ka, kb, kc, kd⟩ := agree_three (a := 1) (b := 0) (c := 0) (d := 1) (x := x) (y := y) (z := z) (by simp)
      (by rw [← Moebius.det_two]; exact hm) hxy hxz hyz (fun t ht => by
        have := (h t ht).2
        rw [Moebius.apply, div_eq_iff (h t ht).1] at this
        rw [this]; ring)
  refine ⟨k, hk, ?_⟩
  rw [mul_one] at ka kd
  rw [mul_zero] at kb kc
  rw [← (C48_coefficients m.a m.b m.c m.d).2.2.2.2.2.2.2.2.2 m, ka, kb, kc, kd]

theorem Moebius.apply_ofC (m : Moebius (Cpx T)) (z : Cpx T) : m.apply (Quat.ofC z) = Quat.ofC (m.apply z) := by
  have e := fun a b : Cpx T => C45_embedding a b
  rw [(C48_apply_formula m z _).2, (C48_apply_formula m z 0).1, ← (e _ _).2.1, ← (e _ _).1, ← (e _ _).2.1, ← (e _ _).1,
    Quat.div_def, Cpx.div_def, (e _ _).2.1, C45_inv_embedding]

theorem Moebius.den_quat (m : Moebius (Cpx T)) (q : Quat T) : (m.c * q + m.d : Quat T) = Quat.ofC m.c * q + Quat.ofC m.d := by
  rw [Quat.hMul_C, Quat.hAdd_C]

theorem Moebius.off_pole_j (m : Moebius (Cpx T)) (h : m.det ≠ 0) : m.c * (Quat.j : Quat T) + m.d ≠ 0 := by
  rw [m.den_quat]
  intro e
  have hw := congrArg Quat.w e
  have hx := congrArg Quat.x e
  have hy := congrArg Quat.y e
  have hz := congrArg Quat.z e
  simp [Quat.ofC, -Moebius.c_eq, -Moebius.d_eq] at hw hx hy hz
  rcases m.not_both_zero h with h' | h'
  · exact h' (Cpx.ext' (by simpa using hy) (by simpa using hz))
  · exact h' (Cpx.ext' (by simpa using hw) (by simpa using hx))

/-- Two transformations with complex coefficients act alike on *quaternion* points exactly when their coefficients are proportional with a
real factor: more is visible in hyperbolic space than in the plane. -/
theorem C96_equal_action_quaternion (m n : Moebius (Cpx T)) (hm : m.det ≠ 0) (hn : n.det ≠ 0) :
    (∀ x : Quat T, m.c * x + m.d ≠ 0 → n.c * x + n.d ≠ 0 → m.apply x = n.apply x) ↔
      ∃ k : T, k ≠ 0 ∧ n = timesCoeffs (Cpx.new k 0) m := by
  have emb := fun a b : Cpx T => C45_embedding a b
  have hk' : ∀ k : Cpx T, k ≠ 0 → ∀ x : Quat T, (timesCoeffs k m).apply x =
      (Quat.ofC k * (Quat.ofC m.a * x + Quat.ofC m.b)) / (Quat.ofC k * (Quat.ofC m.c * x + Quat.ofC m.d)) := fun k _ x => by
    rw [(C48_apply_formula _ 0 x).2]
    simp only [timesCoeffs, C48_coefficients]
    rw [(emb _ _).2.1, (emb _ _).2.1, (emb _ _).2.1, (emb _ _).2.1, mul_assoc, mul_assoc, mul_add, mul_add]
  have k0 : ∀ k : Cpx T, k ≠ 0 → Quat.ofC k ≠ 0 := fun k hk e => hk ((emb k 0).2.2.2.2.2 (by rw [e, Quat.ofC_zero]))
  constructor
  · intro h
    obtain ⟨k, hk, rfl⟩ := (C96_equal_action m n hm hn).mp fun x h1 h2 => by
      have h3 := h (Quat.ofC x)
        (by rw [m.den_quat, ← (emb _ _).2.1, ← (emb _ _).1]; exact fun e => h1 ((emb _ 0).2.2.2.2.2 (by rw [e, Quat.ofC_zero])))
        (by rw [n.den_quat, ← (emb _ _).2.1, ← (emb _ _).1]; exact fun e => h2 ((emb _ 0).2.2.2.2.2 (by rw [e, Quat.ofC_zero])))
      rw [m.apply_ofC, n.apply_ofC] at h3
      exact (emb _ _).2.2.2.2.2 h3
    have hj := m.off_pole_j hm
    have hf := h Quat.j hj ((timesCoeffs k m).off_pole_j hn)
    rw [hk' k hk, div_eq_mul_inv, mul_inv_rev, mul_assoc, ← mul_assoc _ _ (Quat.ofC k)⁻¹,
      ← div_eq_mul_inv (_ + _) (_ + _), ← (C48_apply_formula m 0 Quat.j).2, ← mul_assoc] at hf
    have hc : m.apply Quat.j * Quat.ofC k = Quat.ofC k * m.apply Quat.j := by
      have := congrArg (· * Quat.ofC k) hf
      simpa [mul_assoc, inv_mul_cancel₀ (k0 k hk)] using this
    have hki : k.im = 0 := by
      by_contra hi
      have hy := congrArg Quat.y hc
      have hz := congrArg Quat.z hc
      simp [Quat.ofC] at hy hz
      have fz : (m.apply (Quat.j : Quat T)).z = 0 := by
        have : 2 * k.im * (m.apply (Quat.j : Quat T)).z = 0 := by linear_combination hy
        simpa [hi] using this
      have fy : (m.apply (Quat.j : Quat T)).y = 0 := by
        have : 2 * k.im * (m.apply (Quat.j : Quat T)).y = 0 := by linear_combination -hz
        simpa [hi] using this
      have hF : m.apply (Quat.j : Quat T) = Quat.ofC (Cpx.new (m.apply (Quat.j : Quat T)).w (m.apply (Quat.j : Quat T)).x) := by
        apply Quat.ext' <;> simp [Quat.ofC, fy, fz]
      have hb := (C49_inverse_complex_on_quaternion m hm Quat.j).1 hj
      rw [hF, Moebius.apply_ofC] at hb
      have := congrArg Quat.y hb
      simp [Quat.ofC] at this
    refine ⟨k.re, fun e => hk (Cpx.ext' (by simpa using e) (by simpa using hki)), ?_⟩
    rw [show Cpx.new k.re 0 = k from Cpx.ext' (by simp) (by simp [hki])]
  · rintro ⟨k, hk, rfl⟩ x h1 -
    have hk0 : Cpx.new k 0 ≠ 0 := fun e => hk (by simpa using congrArg Cpx.re e)
    rw [m.den_quat] at h1
    have hc : ∀ q : Quat T, Quat.ofC (Cpx.new k 0) * q = q * Quat.ofC (Cpx.new k 0) := fun q => by
      apply Quat.ext' <;> simp [Quat.ofC] <;> ring
    rw [hk' _ hk0, (C48_apply_formula m 0 x).2, hc, hc, mul_div_mul_right _ _ (k0 _ hk0)]

/-- Every transformation with `c ≠ 0` is a shift, an inversion, a scaling-with-rotation and a shift, in this order. -/
theorem C96_decomposition (m : Moebius (Cpx T)) (hc : m.c ≠ 0) :
    m = (Moebius.new 1 (m.a / m.c) 0 1).chain ((Moebius.new (-m.det / m.c) 0 0 m.c).chain
      ((Moebius.new 0 1 1 0).chain (Moebius.new 1 (m.d / m.c) 0 1))) := by
  rw [m.det_two, Moebius.new_chain_new, Moebius.new_chain_new, Moebius.new_chain_new,
    ← (C48_coefficients m.a m.b m.c m.d).2.2.2.2.2.2.2.2.2 m]
  simp only [C48_coefficients]
  generalize m.a = a, m.b = b, m.c = c, m.d = d at *
  congr 1 <;> field_simp <;> ring
end

/-- For quaternion points the moduli of the cross ratios are kept. -/
theorem C96_cross_ratio_quaternion (m : Moebius (Cpx ℝ)) (p q r s : Quat ℝ) (hp : m.c * p + m.d ≠ 0)
    (hq : m.c * q + m.d ≠ 0) (hr : m.c * r + m.d ≠ 0) (hs : m.c * s + m.d ≠ 0) :
    (m.apply p - m.apply r).norm * (m.apply q - m.apply s).norm * ((p - s).norm * (q - r).norm) =
    (m.apply p - m.apply s).norm * (m.apply q - m.apply r).norm * ((p - r).norm * (q - s).norm) := by
  have e := fun x y hx hy => C67_distance_formula m x y hx hy
  have n0 : ∀ x : Quat ℝ, x ≠ 0 → x.normSqr ≠ 0 := fun x h e => h ((C43_zero x).1.1 e)
  have nn : ∀ x : Quat ℝ, 0 ≤ x.normSqr := fun x => by
    rw [Quat.normSqr_eq]; nlinarith [mul_self_nonneg x.w, mul_self_nonneg x.x, mul_self_nonneg x.y, mul_self_nonneg x.z]
  have key : (m.apply p - m.apply r).normSqr * (m.apply q - m.apply s).normSqr * ((p - s).normSqr * (q - r).normSqr) =
      (m.apply p - m.apply s).normSqr * (m.apply q - m.apply r).normSqr * ((p - r).normSqr * (q - s).normSqr) := by
    have h1 := e p r hp hr
    have h2 := e q s hq hs
    have h3 := e p s hp hs
    have h4 := e q r hq hr
    have := n0 _ hp
    have := n0 _ hq
    have := n0 _ hr
    have := n0 _ hs
    generalize (m.c * p + m.d : Quat ℝ).normSqr = P, (m.c * q + m.d : Quat ℝ).normSqr = Q, (m.c * r + m.d : Quat ℝ).normSqr = R,
      (m.c * s + m.d : Quat ℝ).normSqr = S at *
    apply mul_left_cancel₀ (show P * R * (Q * S) ≠ 0 from mul_ne_zero (mul_ne_zero ‹_› ‹_›) (mul_ne_zero ‹_› ‹_›))
    calc _ = (m.apply p - m.apply r).normSqr * (P * R) * ((m.apply q - m.apply s).normSqr * (Q * S)) *
          ((p - s).normSqr * (q - r).normSqr) := by ring
      _ = (m.apply p - m.apply s).normSqr * (P * S) * ((m.apply q - m.apply r).normSqr * (Q * R)) *
          ((p - r).normSqr * (q - s).normSqr) := by rw [h1, h2, h3, h4]; ring
      _ = _ := by ring
  have sq : ∀ x : Quat ℝ, x.norm = Real.sqrt x.normSqr := fun x => rfl
  simp only [sq]
  rw [← Real.sqrt_mul (nn _), ← Real.sqrt_mul (nn _), ← Real.sqrt_mul (nn _), ← Real.sqrt_mul (nn _),
    ← Real.sqrt_mul (mul_nonneg (nn _) (nn _)), ← Real.sqrt_mul (mul_nonneg (nn _) (nn _)), key]

/-! ## circles and spheres -/

/-- The generalised circle `A |z|² + 2 B·z + C = 0` (a circle if `A ≠ 0`, a line if `A = 0`). -/
def Spec.OnCircle (A : ℝ) (B : Cpx ℝ) (C : ℝ) (z : Cpx ℝ) : Prop := A * z.normSqr + 2 * B.dot z + C = 0
/-- The generalised sphere `A |q|² + 2 B·q + C = 0` in the four-dimensional space of quaternions (a sphere if `A ≠ 0`, a hyperplane if
`A = 0`). -/
def Spec.OnSphere (A : ℝ) (B : Quat ℝ) (C : ℝ) (q : Quat ℝ) : Prop := A * q.normSqr + 2 * B.dot q + C = 0

theorem sphere_pull (a b c d : Cpx ℝ) (A : ℝ) (B : Quat ℝ) (C : ℝ) : ∃ (A' : ℝ) (B' : Quat ℝ) (C' : ℝ),
    B'.dot B' - A' * C' = (a * d - b * c).normSqr * (B.dot B - A * C) ∧ ∀ q : Quat ℝ,
      A * (Quat.ofC a * q + Quat.ofC b).normSqr + 2 * B.dot ((Quat.ofC a * q + Quat.ofC b) * (Quat.ofC c * q + Quat.ofC d).conj) +
        C * (Quat.ofC c * q + Quat.ofC d).normSqr = A' * q.normSqr + 2 * B'.dot q + C' := by
  refine ⟨A * a.normSqr + 2 * B.dot (Quat.ofC (a * c.conj)) + C * c.normSqr,
    (Quat.ofC (a.conj * b)).mulS A + Quat.ofC a.conj * B * Quat.ofC d + Quat.ofC c.conj * B.conj * Quat.ofC b +
      (Quat.ofC (c.conj * d)).mulS C,
    A * b.normSqr + 2 * B.dot (Quat.ofC (b * d.conj)) + C * d.normSqr, ?_, fun q => ?_⟩
  · simp only [Quat.dot_eq, Quat.normSqr_eq, Cpx.normSqr_eq, Quat.w_mul, Quat.x_mul, Quat.y_mul, Quat.z_mul, Quat.w_add, Quat.x_add,
      Quat.y_add, Quat.z_add, Quat.w_conj, Quat.x_conj, Quat.y_conj, Quat.z_conj, Quat.w_mulS, Quat.x_mulS, Quat.y_mulS, Quat.z_mulS]
    simp [Quat.ofC]
    ring
  · simp only [Quat.dot_eq, Quat.normSqr_eq, Cpx.normSqr_eq, Quat.w_mul, Quat.x_mul, Quat.y_mul, Quat.z_mul, Quat.w_add, Quat.x_add,
      Quat.y_add, Quat.z_add, Quat.w_conj, Quat.x_conj, Quat.y_conj, Quat.z_conj, Quat.w_mulS, Quat.x_mulS, Quat.y_mulS, Quat.z_mulS]
    simp [Quat.ofC]
    ring

theorem circle_pull (a b c d : Cpx ℝ) (A : ℝ) (B : Cpx ℝ) (C : ℝ) : ∃ (A' : ℝ) (B' : Cpx ℝ) (C' : ℝ),
    B'.dot B' - A' * C' = (a * d - b * c).normSqr * (B.dot B - A * C) ∧ ∀ z : Cpx ℝ,
      A * (a * z + b).normSqr + 2 * B.dot ((a * z + b) * (c * z + d).conj) + C * (c * z + d).normSqr =
        A' * z.normSqr + 2 * B'.dot z + C' := by
  refine ⟨A * a.normSqr + 2 * B.dot (a * c.conj) + C * c.normSqr,
    (a.conj * b).mulS A + a.conj * B * d + c.conj * B.conj * b + (c.conj * d).mulS C,
    A * b.normSqr + 2 * B.dot (b * d.conj) + C * d.normSqr, ?_, fun z => ?_⟩
  · simp [Cpx.dot_eq, Cpx.normSqr_eq]; ring
  · simp [Cpx.dot_eq, Cpx.normSqr_eq]; ring

theorem Moebius.det_inv_ne (m : Moebius (Cpx ℝ)) (h : m.det ≠ 0) : m.inv.det ≠ 0 := by
  have := congrArg Moebius.det (Moebius.inv_chain m h).1
  rw [C51_det_mul, (C51_det_formula m).2] at this
  intro e; rw [e, zero_mul] at this; exact zero_ne_one this

private theorem sphere_at (A : ℝ) (B : Quat ℝ) (C : ℝ) (u v : Quat ℝ) (hv : v ≠ 0) :
    OnSphere A B C (u * v.inv) ↔ A * u.normSqr + 2 * B.dot (u * v.conj) + C * v.normSqr = 0 := by
  have hn : v.normSqr ≠ 0 := fun e => hv ((C43_zero v).1.1 e)
  have h1 : (u * v.inv).normSqr = u.normSqr / v.normSqr := by rw [Conf.normSqr_mul, Conf.normSqr_inv v hv, div_eq_mul_inv]
  have h2 : B.dot (u * v.inv) = B.dot (u * v.conj) / v.normSqr := by
    simp only [Quat.dot_eq, Quat.inv, Quat.w_mul, Quat.x_mul, Quat.y_mul, Quat.z_mul, Quat.w_divS, Quat.x_divS, Quat.y_divS, Quat.z_divS]
    field_simp
  rw [OnSphere, h1, h2]
  rw [show A * (u.normSqr / v.normSqr) + 2 * (B.dot (u * v.conj) / v.normSqr) + C =
    (A * u.normSqr + 2 * B.dot (u * v.conj) + C * v.normSqr) / v.normSqr by field_simp]
  simp [hn]

private theorem circle_at (A : ℝ) (B : Cpx ℝ) (C : ℝ) (u v : Cpx ℝ) (hv : v ≠ 0) :
    OnCircle A B C (u / v) ↔ A * u.normSqr + 2 * B.dot (u * v.conj) + C * v.normSqr = 0 := by
  have hn : v.normSqr ≠ 0 := fun e => hv (by
    rw [Cpx.normSqr_eq] at e
    apply Cpx.ext' <;> simp <;> nlinarith [mul_self_nonneg v.re, mul_self_nonneg v.im])
  have h1 : (u / v).normSqr = u.normSqr / v.normSqr := by
    rw [Cpx.div_def]
    simp only [Cpx.normSqr_eq] at hn
    have hn2 : v.re ^ 2 + v.im ^ 2 ≠ 0 := by intro e; apply hn; linarith
    simp [Cpx.normSqr_eq, Cpx.inv_re, Cpx.inv_im]; field_simp; ring
  have h2 : B.dot (u / v) = B.dot (u * v.conj) / v.normSqr := by
    rw [Cpx.div_def]
    simp [Cpx.dot_eq, Cpx.inv]; field_simp; ring
  rw [OnCircle, h1, h2]
  rw [show A * (u.normSqr / v.normSqr) + 2 * (B.dot (u * v.conj) / v.normSqr) + C =
    (A * u.normSqr + 2 * B.dot (u * v.conj) + C * v.normSqr) / v.normSqr by field_simp]
  simp [hn]

/-- Spheres and hyperplanes of the space of quaternions go to spheres and hyperplanes: for every one of them there is one that contains
exactly the images of its points (and of no others). `A C < B·B` says that it has more than one point. -/
theorem C96_spheres (m : Moebius (Cpx ℝ)) (hdet : m.det ≠ 0) (A : ℝ) (B : Quat ℝ) (C : ℝ) (h : A * C < B.dot B) :
    ∃ (A' : ℝ) (B' : Quat ℝ) (C' : ℝ), A' * C' < B'.dot B' ∧
      ∀ q : Quat ℝ, m.c * q + m.d ≠ 0 → (OnSphere A B C q ↔ OnSphere A' B' C' (m.apply q)) := by
  obtain ⟨A', B', C', h1, h2⟩ := sphere_pull m.inv.a m.inv.b m.inv.c m.inv.d A B C
  have hd := m.det_inv_ne hdet
  refine ⟨A', B', C', ?_, fun q hq => ?_⟩
  · rw [← Moebius.det_two] at h1
    have h0 : 0 < m.inv.det.normSqr := by
      have : m.inv.det.normSqr ≠ 0 := fun e => hd (by
        rw [Cpx.normSqr_eq] at e
        apply Cpx.ext' <;> simp <;> nlinarith [mul_self_nonneg m.inv.det.re, mul_self_nonneg m.inv.det.im])
      have h' : 0 ≤ m.inv.det.normSqr := by rw [Cpx.normSqr_eq]; nlinarith [mul_self_nonneg m.inv.det.re, mul_self_nonneg m.inv.det.im]
      exact lt_of_le_of_ne h' (Ne.symm this)
    have := mul_pos h0 (sub_pos.mpr h)
    linarith
  · obtain ⟨e1, e2⟩ := Moebius.apply_inv_of_chain (T := Cpx ℝ) (U := Quat ℝ) Quat.ofC Quat.hMul_C Quat.hAdd_C
      (fun a b => (C45_embedding a b).2.1) (fun a b => (C45_embedding a b).1) Quat.ofC_zero (C45_embedding 1 1).2.2.1 m.inv m q
      (Moebius.inv_chain m hdet).1 (by rwa [← Quat.hMul_C, ← Quat.hAdd_C])
    generalize m.apply q = w at *
    replace e2 : m.inv.den w ≠ 0 := e2
    rw [← e1, Conf.apply_eq, sphere_at _ _ _ _ _ e2]
    show _ ↔ _ = _
    rw [← h2 w]; rfl

/-- Circles and lines of the complex plane go to circles and lines. -/
theorem C96_circles (m : Moebius (Cpx ℝ)) (hdet : m.det ≠ 0) (A : ℝ) (B : Cpx ℝ) (C : ℝ) (h : A * C < B.dot B) :
    ∃ (A' : ℝ) (B' : Cpx ℝ) (C' : ℝ), A' * C' < B'.dot B' ∧
      ∀ z : Cpx ℝ, m.c * z + m.d ≠ 0 → (OnCircle A B C z ↔ OnCircle A' B' C' (m.apply z)) := by
  obtain ⟨A', B', C', h1, h2⟩ := circle_pull m.inv.a m.inv.b m.inv.c m.inv.d A B C
  have hd := m.det_inv_ne hdet
  refine ⟨A', B', C', ?_, fun q hq => ?_⟩
  · rw [← Moebius.det_two] at h1
    have h0 : 0 < m.inv.det.normSqr := by
      have : m.inv.det.normSqr ≠ 0 := fun e => hd (by
        rw [Cpx.normSqr_eq] at e
        apply Cpx.ext' <;> simp <;> nlinarith [mul_self_nonneg m.inv.det.re, mul_self_nonneg m.inv.det.im])
      have h' : 0 ≤ m.inv.det.normSqr := by rw [Cpx.normSqr_eq]; nlinarith [mul_self_nonneg m.inv.det.re, mul_self_nonneg m.inv.det.im]
      exact lt_of_le_of_ne h' (Ne.symm this)
    have := mul_pos h0 (sub_pos.mpr h)
    linarith
  · obtain ⟨e1, e2⟩ := Moebius.apply_inv_of_chain (T := Cpx ℝ) (U := Cpx ℝ) id (fun _ _ => rfl) (fun _ _ => rfl)
      (fun _ _ => rfl) (fun _ _ => rfl) rfl rfl m.inv m q (Moebius.inv_chain m hdet).1 hq
    generalize m.apply q = w at *
    simp only [id] at e2
    rw [← e1, Moebius.apply, circle_at _ _ _ _ _ e2]
    show _ ↔ _ = _
    rw [← h2 w]

/-! ## Cases that meet the hypotheses -/
namespace Ex
example := C96_cross_ratio Ex.moe (Cpx.new 1 5) (Cpx.new 2 5) (Cpx.new 1 7) (Cpx.new 0 0) (by decide +kernel) (by decide +kernel)
  (by decide +kernel) (by decide +kernel)
example := C96_three_points ![Cpx.new (1 : ℚ) 5, Cpx.new 2 0, Cpx.new 0 3] ![Cpx.new (7 : ℚ) 5, Cpx.new 2 1, Cpx.new 1 3]
  (by decide +kernel) (by decide +kernel)
example := C96_equal_action Ex.moe (timesCoeffs (Cpx.new 2 1) Ex.moe) (by decide +kernel) (by decide +kernel)
example := C96_equal_action_quaternion Ex.moe (timesCoeffs (Cpx.new 2 0) Ex.moe) (by decide +kernel) (by decide +kernel)
example := C96_three_fixed_points (Moebius.new (Cpx.new (2 : ℚ) 1) 0 0 (Cpx.new 2 1)) (by decide +kernel) (Cpx.new 1 0) (Cpx.new 2 0)
  (Cpx.new 0 3) (by decide +kernel) (by decide +kernel) (by decide +kernel) (by
    rintro t (rfl | rfl | rfl)
    · exact ⟨by decide +kernel, by decide +kernel⟩
    · exact ⟨by decide +kernel, by decide +kernel⟩
    · exact ⟨by decide +kernel, by decide +kernel⟩)
example := C96_decomposition Ex.moe (by decide +kernel)
theorem poleAt (q : Quat ℝ) (h : 0 ≤ q.w) : (Moebius.new (Cpx.new 1 2) (Cpx.new 0 1) (Cpx.new 3 0) (Cpx.new 1 1) : Moebius (Cpx ℝ)).c * q +
    (Moebius.new (Cpx.new 1 2) (Cpx.new 0 1) (Cpx.new 3 0) (Cpx.new 1 1) : Moebius (Cpx ℝ)).d ≠ 0 := fun e => by
  rw [Quat.hMul_C, Quat.hAdd_C] at e
  have := congrArg Quat.w e
  simp [Quat.ofC] at this; linarith
example := C96_cross_ratio_quaternion _ (Quat.new 1 2 3 4) (Quat.new 1 0 5 4) (Quat.new 0 2 3 4) (Quat.new 2 0 0 1)
  (poleAt _ (by norm_num)) (poleAt _ (by norm_num)) (poleAt _ (by norm_num)) (poleAt _ (by norm_num))
/-- The unit sphere, the unit circle and a line through the origin. -/
example := C96_spheres _ Ex.det_ne 1 0 (-1) (by simp [Quat.dot_eq])
example := C96_circles _ Ex.det_ne 1 0 (-1) (by simp [Cpx.dot_eq])
example := C96_circles _ Ex.det_ne 0 (Cpx.new 1 2) 0 (by simp [Cpx.dot_eq]; norm_num)
end Ex

end Vecmat
