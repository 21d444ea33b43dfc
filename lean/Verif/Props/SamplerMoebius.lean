import Verif.Props.SamplerTypes
import Verif.Props.F64Moebius2
/-!
# C111, C113 (continued): `Invertible` for Moebius transformations with complex coefficients, in double precision
-/
namespace Vecmat
open Spec Ieee F64 Sampler
variable {σ : Type}
set_option exponentiation.threshold 3000

namespace SamplerC
theorem add_bound {a b : F} {x y : ℝ} (ha : a.toReal? = some x) (hb : b.toReal? = some y) (h : |x + y| ≤ 2 ^ 1000) :
    ∃ r, (a + b).toReal? = some r ∧ |r - (x + y)| ≤ 1 / 2 ^ 53 * |x + y| + 1 / 2 ^ 1075 := by
  have e := near_err_add (φ := Fmt.f64) (x + y)
  rw [u_eq, tiny_eq] at e
  refine ⟨_, val_add_iff.2 ⟨x, y, ha, hb, rfl, ?_⟩, e⟩
  rw [huge_eq]
  have : |Fmt.f64.near (x + y)| ≤ |Fmt.f64.near (x + y) - (x + y)| + |x + y| := by
    calc |Fmt.f64.near (x + y)| = |(Fmt.f64.near (x + y) - (x + y)) + (x + y)| := by ring_nf
      _ ≤ _ := abs_add_le _ _
  refine lt_of_le_of_lt (this.trans (add_le_add e h)) ?_
  calc (1:ℝ) / 2 ^ 53 * |x + y| + 1 / 2 ^ 1075 + 2 ^ 1000 ≤ 1 / 2 ^ 53 * 2 ^ 1000 + 1 / 2 ^ 1075 + 2 ^ 1000 := by gcongr
    _ < _ := by norm_num
theorem normL1_eq {T : Type} [ScalarNorm T] [Add T] (z : Cpx T) : z.normL1 = ScalarNorm.normL1 z.re + ScalarNorm.normL1 z.im := by
  unfold Cpx.normL1 Vec.sum
  refine Vec.foldFirst_congr ?_
  rw [Vec.foldFirstR_succ]
  simp
/-- `|re| + |im|` lies between the modulus and `√2` times the modulus. -/
theorem l1_bounds (V : Cpx ℝ) : V.norm ≤ |V.re| + |V.im| ∧ |V.re| + |V.im| ≤ 283 / 200 * V.norm := by
  rw [cnorm_eq]
  have e : ‖V.toC‖ ^ 2 = |V.re| ^ 2 + |V.im| ^ 2 := by
    rw [← Complex.normSq_eq_norm_sq, Complex.normSq_apply, sq_abs, sq_abs]; simp [Cpx.toC, sq]
  have n0 := norm_nonneg V.toC
  have a0 := abs_nonneg V.re
  have b0 := abs_nonneg V.im
  refine ⟨Complex.norm_le_abs_re_add_abs_im _, ?_⟩
  nlinarith [sq_nonneg (|V.re| - |V.im|)]
/-- The test of the sampler. -/
theorem accept_val [FloatOps F] (hb : ∀ a : F, FloatOps.abs a = Ieee.abs a) (he : (FloatOps.epsilon : F).toReal? = some (1 / 2 ^ 52))
    (A : Mat (Cpx F) 2 2) (V : Cpx ℝ) (hV : ValC A.det V) (hr : V.norm ≤ 2 ^ 700) (b : Bool)
    (h : (do let d ← A.detR; pure (!Distr.isEpsilon (Cpx.normL1 d)) : Res Bool) = .ok b) :
    (b = true → 1 / 2 ^ 52 < 71 / 50 * V.norm) ∧ (b = false → V.norm ≤ 9 / 8 / 2 ^ 52) := by
  rw [show A.detR = .ok A.det from Res.ok_get _ _] at h
  simp only [Res.bind_ok, Res.pure_eq, Except.ok.injEq, Distr.isEpsilon] at h
  obtain ⟨l1, l2⟩ := l1_bounds V
  have n0 : 0 ≤ V.norm := by rw [cnorm_eq]; exact norm_nonneg _
  have s0 : 0 ≤ |V.re| + |V.im| := by positivity
  have a1 : |(|V.re| + |V.im|)| = |V.re| + |V.im| := abs_of_nonneg s0
  obtain ⟨r, vr, er⟩ := add_bound (abs_val' hV.1) (abs_val' hV.2) (by
    rw [a1]
    calc _ ≤ (283 / 200 : ℝ) * 2 ^ 700 := l2.trans (by gcongr)
      _ ≤ _ := by norm_num)
  rw [a1] at er
  have vn : (A.det.normL1).toReal? = some r := by rw [normL1_eq]; exact vr
  have h1 : (FloatOps.abs (A.det.normL1) : F).toReal? = some |r| := by rw [hb]; exact abs_val' vn
  have h2 := rle_val h1 he
  have t1 : (1:ℝ) / 2 ^ 1075 ≤ 1 / 2 ^ 100 := by norm_num
  obtain ⟨e1, e2⟩ := abs_le.1 er
  have r1 : |r| ≤ (1 + 1 / 2 ^ 53) * (|V.re| + |V.im|) + 1 / 2 ^ 100 := by
    refine abs_le.2 ⟨?_, ?_⟩ <;> generalize (1:ℝ) / 2 ^ 1075 = t at * <;> generalize |V.re| + |V.im| = x at * <;> norm_num at * <;> linarith
  have r2 : (1 - 1 / 2 ^ 53) * (|V.re| + |V.im|) - 1 / 2 ^ 100 ≤ |r| := by
    refine le_trans ?_ (le_abs_self r)
    generalize (1:ℝ) / 2 ^ 1075 = t at *; generalize |V.re| + |V.im| = x at *; norm_num at *; linarith
  constructor
  · rintro rfl
    have : ¬ |r| ≤ 1 / 2 ^ 52 := by rw [← h2]; simpa using h
    push Not at this
    generalize |V.re| + |V.im| = x at *; generalize V.norm = y at *; norm_num at *; linarith
  · rintro rfl
    have : |r| ≤ 1 / 2 ^ 52 := by rw [← h2]; simpa using h
    generalize |V.re| + |V.im| = x at *; generalize V.norm = y at *; norm_num at *; linarith
/-- The coefficients in the order in which they are drawn. -/
theorem coeffs {T : Type} (A : Mat T 2 2) : rowMajor A = [A[0][0], A[0][1], A[1][0], A[1][1]] := by simp [rowMajor, List.finRange_succ]
theorem norm_sub_comm (V D : Cpx ℝ) : V.norm ≤ D.norm + (V - D).norm ∧ D.norm ≤ V.norm + (V - D).norm := by
  simp only [cnorm_eq, toC_sub]
  have h1 := norm_add_le D.toC (V.toC - D.toC)
  have h2 := norm_sub_le V.toC (V.toC - D.toC)
  simp at h1 h2
  exact ⟨h1, h2⟩
/-- The determinant of a drawn block. -/
theorem det_val (A : Mat (Cpx F) 2 2) (M : Moebius (Cpx ℝ)) (hm : ValMoebius (Moebius.fromMatrix A) M) (h : Below M (2 ^ 300)) :
    ∃ V, ValC A.det V ∧ V.norm ≤ 2 ^ 700 ∧ (V - (M.a * M.d - M.b * M.c)).norm ≤ 16 / 2 ^ 53 * (M.a.norm * M.d.norm + M.b.norm * M.c.norm) + 1 / 2 ^ 760 := by
  obtain ⟨V, hV, eV⟩ := C103_det _ M hm h
  refine ⟨V, hV, (norm_sub_comm V (M.a * M.d - M.b * M.c)).1.trans ?_, eV⟩
  obtain ⟨ra, rb, rc, rd⟩ := h
  have k : (M.a * M.d - M.b * M.c).norm ≤ M.a.norm * M.d.norm + M.b.norm * M.c.norm := by
    simp only [cnorm_eq, toC_sub, toC_mul]
    refine (norm_sub_le _ _).trans (by rw [norm_mul, norm_mul])
  have n : ∀ Z : Cpx ℝ, 0 ≤ Z.norm := fun Z => by rw [cnorm_eq]; exact norm_nonneg _
  have k2 : M.a.norm * M.d.norm + M.b.norm * M.c.norm ≤ 2 * 2 ^ 600 := by
    calc _ ≤ (2:ℝ) ^ 300 * 2 ^ 300 + 2 ^ 300 * 2 ^ 300 := by
          refine add_le_add (mul_le_mul ra rd (n _) (by positivity)) (mul_le_mul rb rc (n _) (by positivity))
      _ ≤ _ := by norm_num
  calc _ ≤ (2 * 2 ^ 600 : ℝ) + (16 / 2 ^ 53 * (2 * 2 ^ 600) + 1 / 2 ^ 760) := add_le_add (k.trans k2) (eV.trans (by gcongr))
    _ ≤ _ := by norm_num
theorem block_val {P : Cpx ℝ → Prop} {A : Mat (Cpx F) 2 2} (h : ∀ z ∈ rowMajor A, ∃ Z, ValC z Z ∧ P Z) :
    ∃ M : Moebius (Cpx ℝ), ValMoebius (Moebius.fromMatrix A) M ∧ P M.a ∧ P M.b ∧ P M.c ∧ P M.d := by
  rw [coeffs] at h
  obtain ⟨a, a1, a2⟩ := h A[0][0] (by simp)
  obtain ⟨b, b1, b2⟩ := h A[0][1] (by simp)
  obtain ⟨c, c1, c2⟩ := h A[1][0] (by simp)
  obtain ⟨d, d1, d2⟩ := h A[1][1] (by simp)
  refine ⟨.new a b c d, ?_, ?_⟩
  · simp only [ValMoebius, Moebius.a_eq, Moebius.b_eq, Moebius.c_eq, Moebius.d_eq, Moebius.new_00, Moebius.new_01, Moebius.new_10, Moebius.new_11]
    exact ⟨a1, b1, c1, d1⟩
  · simp only [Moebius.a_eq, Moebius.b_eq, Moebius.c_eq, Moebius.d_eq, Moebius.new_00, Moebius.new_01, Moebius.new_10, Moebius.new_11]
    exact ⟨a2, b2, c2, d2⟩
end SamplerC
open SamplerC

/-- `Invertible` for `Moebius<Complex<f64>>`: the result is a drawn block of four complex numbers, row by row, and the modulus of its exact
determinant is above `2/3` of epsilon up to the error bound of `det`; every block drawn before had one of at most `5/4` of epsilon up to the same bound. -/
theorem C111_invertible_complex [FloatOps F] (hb : ∀ a : F, FloatOps.abs a = Ieee.abs a) (he : (FloatOps.epsilon : F).toReal? = some (1 / 2 ^ 52))
    (draw : Eff σ (Cpx F)) (hd : ∀ s s' z, draw.exec s = (.ok z, s') → ∃ Z, ValC z Z ∧ Z.norm ≤ 2 ^ 300) (fuel : ℕ) (s s' : σ) (m : Moebius (Cpx F))
    (h : (Distr.moebiusInvertible Cpx.normL1 draw fuel).exec s = (.ok m, s')) :
    ∃ (bad : List (Moebius (Cpx F))) (M : Moebius (Cpx ℝ)),
      (callN draw ((bad.length + 1) * 4)).exec s = (.ok ((bad.flatMap fun k => [k.a, k.b, k.c, k.d]) ++ [m.a, m.b, m.c, m.d]), s') ∧
      ValMoebius m M ∧
      1 / 2 ^ 52 < 3 / 2 * ((M.a * M.d - M.b * M.c).norm + 16 / 2 ^ 53 * (M.a.norm * M.d.norm + M.b.norm * M.c.norm)) ∧
      ∀ k ∈ bad, ∃ K, ValMoebius k K ∧
        (K.a * K.d - K.b * K.c).norm ≤ 5 / 4 / 2 ^ 52 + 16 / 2 ^ 53 * (K.a.norm * K.d.norm + K.b.norm * K.c.norm) := by
  obtain ⟨A, hA, rfl⟩ := exec_fmap_ok h
  unfold Distr.invertible at hA
  rw [Distr.loop_blocks (draw := Distr.matrix draw) (comp := rowMajor) (inner := draw) (C01_mat_init_calls draw) (fun _ _ h => Mat.rowMajor_inj h)
    (fun x => by simp [Mat.length_rowMajor])] at hA
  obtain ⟨bad, -, h2, h3, h4⟩ := hA
  have hm := callN_mem hd h2
  obtain ⟨M, vM, bM⟩ := block_val (P := fun Z => Z.norm ≤ 2 ^ 300) (A := A) fun x hx => hm x (by simp [hx])
  have t : (1:ℝ) / 2 ^ 760 ≤ 1 / 2 ^ 100 := by norm_num
  refine ⟨bad.map Moebius.fromMatrix, M, ?_, vM, ?_, ?_⟩
  · have e : (fun k : Moebius (Cpx F) => [k.a, k.b, k.c, k.d]) ∘ Moebius.fromMatrix = rowMajor := by
      funext B; simp only [Function.comp, coeffs, Moebius.a_eq, Moebius.b_eq, Moebius.c_eq, Moebius.d_eq]; rfl
    have e2 : [(Moebius.fromMatrix A).a, (Moebius.fromMatrix A).b, (Moebius.fromMatrix A).c, (Moebius.fromMatrix A).d] = rowMajor A := congrFun e A
    rw [List.length_map, List.flatMap_map, e2, show (fun a : Mat (Cpx F) 2 2 => [(Moebius.fromMatrix a).a, (Moebius.fromMatrix a).b, (Moebius.fromMatrix a).c, (Moebius.fromMatrix a).d]) = rowMajor from e]
    exact h2
  · obtain ⟨V, hV, rV, eV⟩ := det_val A M vM bM
    have := (accept_val hb he A V hV rV _ h4).1 rfl
    have n := (norm_sub_comm V (M.a * M.d - M.b * M.c)).1
    generalize (1:ℝ) / 2 ^ 760 = t at *
    generalize (V - (M.a * M.d - M.b * M.c)).norm = x at *
    generalize (M.a * M.d - M.b * M.c).norm = y at *
    generalize 16 / 2 ^ 53 * (M.a.norm * M.d.norm + M.b.norm * M.c.norm) = z at *
    generalize V.norm = v at *
    norm_num at *; linarith
  · intro k hk
    obtain ⟨B, hB, rfl⟩ := List.mem_map.1 hk
    obtain ⟨K, vK, bK⟩ := block_val (P := fun Z => Z.norm ≤ 2 ^ 300) (A := B) fun x hx => hm x (by
      simp only [List.mem_append, List.mem_flatMap]; exact .inl ⟨B, hB, hx⟩)
    refine ⟨K, vK, ?_⟩
    obtain ⟨V, hV, rV, eV⟩ := det_val B K vK bK
    have := (accept_val hb he B V hV rV _ (h3 B hB)).2 rfl
    have n := (norm_sub_comm V (K.a * K.d - K.b * K.c)).2
    generalize (1:ℝ) / 2 ^ 760 = t at *
    generalize (V - (K.a * K.d - K.b * K.c)).norm = x at *
    generalize (K.a * K.d - K.b * K.c).norm = y at *
    generalize 16 / 2 ^ 53 * (K.a.norm * K.d.norm + K.b.norm * K.c.norm) = z at *
    generalize V.norm = v at *
    norm_num at *; linarith

/-- Progress: a block whose exact determinant has a modulus above `5/4` of epsilon by more than the error bound is returned at once. -/
theorem C111_invertible_complex_accepts [FloatOps F] (hb : ∀ a : F, FloatOps.abs a = Ieee.abs a) (he : (FloatOps.epsilon : F).toReal? = some (1 / 2 ^ 52))
    (draw : Eff σ (Cpx F)) (fuel : ℕ) (s s' : σ) (m : Moebius (Cpx F)) (M : Moebius (Cpx ℝ)) (hm : ValMoebius m M) (hM : Below M (2 ^ 300))
    (h : (callN draw 4).exec s = (.ok [m.a, m.b, m.c, m.d], s'))
    (hd : 5 / 4 / 2 ^ 52 + 16 / 2 ^ 53 * (M.a.norm * M.d.norm + M.b.norm * M.c.norm) < (M.a * M.d - M.b * M.c).norm) :
    (Distr.moebiusInvertible Cpx.normL1 draw (fuel + 1)).exec s = (.ok m, s') := by
  have hk : (Distr.invertible Cpx.normL1 draw (fuel + 1)).exec s = (.ok m.mat, s') := by
    unfold Distr.invertible
    rw [Distr.loop_blocks (draw := Distr.matrix draw) (comp := rowMajor) (inner := draw) (C01_mat_init_calls draw) (fun _ _ h => Mat.rowMajor_inj h)
      (fun x => by simp [Mat.length_rowMajor])]
    refine ⟨[], by simp, ?_, by simp, ?_⟩
    · rw [coeffs]; simpa only [Moebius.a_eq, Moebius.b_eq, Moebius.c_eq, Moebius.d_eq, List.length_nil, List.flatMap_nil, List.nil_append] using h
    · obtain ⟨V, hV, rV, eV⟩ := det_val m.mat M hm hM
      have hk : ∃ b, (do let d ← m.mat.detR; pure (!Distr.isEpsilon (Cpx.normL1 d)) : Res Bool) = .ok b := ⟨_, by
        rw [show m.mat.detR = .ok m.mat.det from Res.ok_get _ _]; rfl⟩
      obtain ⟨b, hk⟩ := hk
      rw [hk]
      cases b with
      | true => rfl
      | false =>
        exfalso
        have := (accept_val hb he m.mat V hV rV _ hk).2 rfl
        have n := (norm_sub_comm V (M.a * M.d - M.b * M.c)).2
        have t : (1:ℝ) / 2 ^ 760 ≤ 1 / 2 ^ 100 := by norm_num
        generalize (1:ℝ) / 2 ^ 760 = t at *
        generalize (V - (M.a * M.d - M.b * M.c)).norm = x at *
        generalize (M.a * M.d - M.b * M.c).norm = y at *
        generalize 16 / 2 ^ 53 * (M.a.norm * M.d.norm + M.b.norm * M.c.norm) = z at *
        generalize V.norm = v at *
        norm_num at *; linarith
  rw [Distr.moebiusInvertible, exec_map, hk]; rfl

/-- End to end: `Invertible` for Moebius transformations with complex coefficients. -/
theorem C113_invertible_moebius [FloatOps F] [FloatConst F] {η : ℝ} (hl : NormalLib Fmt.f64 η) (hb : ∀ a : F, FloatOps.abs a = Ieee.abs a)
    (he : (FloatOps.epsilon : F).toReal? = some (1 / 2 ^ 52)) (η0 : 0 ≤ η) (η1 : η ≤ 1 / 2 ^ 20) (uniform : F → F → Eff σ F) (hu : UniformOk uniform)
    (fuel : ℕ) (s s' : σ) (m : Moebius (Cpx F)) (h : (Distr.moebiusInvertible Cpx.normL1 (Distr.complexNormal (Distr.normal uniform)) fuel).exec s = (.ok m, s')) :
    ∃ M : Moebius (Cpx ℝ), ValMoebius m M ∧ (∀ Z ∈ [M.a, M.b, M.c, M.d], |Z.re| ≤ 8.572 ∧ |Z.im| ≤ 8.572) ∧
      1 / 2 ^ 52 < 3 / 2 * ((M.a * M.d - M.b * M.c).norm + 16 / 2 ^ 53 * (M.a.norm * M.d.norm + M.b.norm * M.c.norm)) := by
  have hn : ∀ s s' z, (Distr.complexNormal (Distr.normal uniform)).exec s = (.ok z, s') → ∃ Z, ValC z Z ∧ |Z.re| ≤ 8.572 ∧ |Z.im| ≤ 8.572 :=
    fun s s' z h => (C113_normal_vectors (N := 2) hl η0 η1 uniform hu s s').2.1 z h
  obtain ⟨bad, M, h1, h2, h3, -⟩ := C111_invertible_complex hb he _ (fun s s' z h => by
    obtain ⟨Z, a, b, c⟩ := hn s s' z h
    refine ⟨Z, a, (l1_bounds Z).1.trans ((add_le_add b c).trans (by norm_num))⟩) fuel s s' m h
  refine ⟨M, h2, ?_, h3⟩
  have hm := callN_mem hn h1
  have u : ∀ {z : Cpx F} {Z : Cpx ℝ}, ValC z Z → z ∈ [m.a, m.b, m.c, m.d] → |Z.re| ≤ 8.572 ∧ |Z.im| ≤ 8.572 := fun {z Z} hz hi => by
    obtain ⟨Z', a, b⟩ := hm z (by simp only [List.mem_append]; exact .inr hi)
    have e1 : Z'.re = Z.re := Option.some.inj (a.1.symm.trans hz.1)
    have e2 : Z'.im = Z.im := Option.some.inj (a.2.symm.trans hz.2)
    rw [← e1, ← e2]; exact b
  obtain ⟨a1, b1, c1, d1⟩ := h2
  intro Z hZ
  simp only [List.mem_cons, List.not_mem_nil, or_false] at hZ
  rcases hZ with rfl | rfl | rfl | rfl
  · exact u a1 (by simp)
  · exact u b1 (by simp)
  · exact u c1 (by simp)
  · exact u d1 (by simp)

/-! ## A singular transformation that is accepted -/
namespace SamplerC
theorem mv {a b : F} {x y z : ℝ} (ha : a.toReal? = some x) (hb : b.toReal? = some y) (h : Fmt.f64.near (x * y) = z) (hz : |z| < 1024) :
    (a * b).toReal? = some z :=
  val_mul_iff.2 ⟨x, y, ha, hb, h.symm, by rw [h, huge_eq]; refine hz.trans (by norm_num)⟩
theorem av {a b : F} {x y z : ℝ} (ha : a.toReal? = some x) (hb : b.toReal? = some y) (h : Fmt.f64.near (x + y) = z) (hz : |z| < 1024) :
    (a + b).toReal? = some z :=
  val_add_iff.2 ⟨x, y, ha, hb, h.symm, by rw [h, huge_eq]; refine hz.trans (by norm_num)⟩
theorem sv {a b : F} {x y z : ℝ} (ha : a.toReal? = some x) (hb : b.toReal? = some y) (h : Fmt.f64.near (x - y) = z) (hz : |z| < 1024) :
    (a - b).toReal? = some z :=
  val_sub_iff.2 ⟨x, y, ha, hb, h.symm, by rw [h, huge_eq]; refine hz.trans (by norm_num)⟩
theorem re_mul (z w : Cpx F) : (z * w).re = z.re * w.re - z.im * w.im := by show (Cpx.new _ _).re = _; simp
theorem im_mul (z w : Cpx F) : (z * w).im = z.re * w.im + z.im * w.re := by show (Cpx.new _ _).im = _; simp
theorem re_add (z w : Cpx F) : (z + w).re = z.re + w.re := by simp
theorem im_add (z w : Cpx F) : (z + w).im = z.im + w.im := by simp
theorem neg_val {z : Cpx F} {Z : Cpx ℝ} (hz : ValC z Z) : ValC (-z) (-Z) := ⟨by simpa [Val] using val_neg hz.1, by simpa [Val] using val_neg hz.2⟩
/-- `0 + z * 1` is `z`. -/
theorem id1 {z : Cpx F} {Z : Cpx ℝ} (hz : ValC z Z) (h1 : Representable Fmt.f64 Z.re) (h2 : Representable Fmt.f64 Z.im) (b1 : |Z.re| < 1024) (b2 : |Z.im| < 1024) :
    ValC (0 + z * 1) Z := by
  have o : (1 : Cpx F).re.toReal? = some (1:ℝ) := rfl
  have o' : (1 : Cpx F).im.toReal? = some (0:ℝ) := rfl
  have n : |(0:ℝ)| < 1024 := by norm_num
  have m : ∀ x : ℝ, Fmt.f64.near (x * 0) = 0 := fun x => by rw [mul_zero]; exact Fmt.near_zero
  have r : (z * 1).re.toReal? = some Z.re := by
    rw [re_mul]
    refine sv (mv hz.1 o (by rw [mul_one]; exact Fmt.near_rep h1) b1) (mv hz.2 o' (m _) n) (by rw [sub_zero]; exact Fmt.near_rep h1) b1
  have i : (z * 1).im.toReal? = some Z.im := by
    rw [im_mul]
    refine av (mv hz.1 o' (m _) n) (mv hz.2 o (by rw [mul_one]; exact Fmt.near_rep h2) b2) (by rw [zero_add]; exact Fmt.near_rep h2) b2
  refine ⟨?_, ?_⟩
  · rw [re_add]; exact av (x := 0) rfl r (by rw [zero_add]; exact Fmt.near_rep h1) b1
  · rw [im_add]; exact av (x := 0) rfl i (by rw [zero_add]; exact Fmt.near_rep h2) b2
/-- The singular transformation: `α = 2²⁸ + 3`, and `α² + 9 = 10 · 7205759564854069`. -/
noncomputable def singC : Moebius (Cpx ℝ) :=
  .new (.new (268435459 / 2 ^ 26) (3 / 2 ^ 26)) (.new (7205759564854069 / 2 ^ 51) 0) (.new 5 0) (.new (268435459 / 2 ^ 26) (-3 / 2 ^ 26))
noncomputable def singF : Moebius (Cpx F) :=
  .new (.new (IeeeEx.lit (268435459 / 2 ^ 26)) (IeeeEx.lit (3 / 2 ^ 26))) (.new (IeeeEx.lit (7205759564854069 / 2 ^ 51)) (IeeeEx.lit 0))
    (.new (IeeeEx.lit 5) (IeeeEx.lit 0)) (.new (IeeeEx.lit (268435459 / 2 ^ 26)) (IeeeEx.lit (-3 / 2 ^ 26)))
theorem rep_div (m : ℤ) (k : ℕ) (hm : |m| < 2 ^ 53) (hk : k ≤ 1000) : Representable Fmt.f64 (m / 2 ^ k) :=
  ⟨m, -k, by rw [zpow_neg, div_eq_mul_inv, zpow_natCast], hm, by show (-1022 - 53 + 1 : ℤ) ≤ -k; omega, by show (-k : ℤ) ≤ 1023 - 53 + 1; omega⟩
theorem rα : Representable Fmt.f64 (268435459 / 2 ^ 26) := by simpa using rep_div 268435459 26 (by decide) (by norm_num)
theorem rβ : Representable Fmt.f64 (3 / 2 ^ 26) := by simpa using rep_div 3 26 (by decide) (by norm_num)
theorem rβ' : Representable Fmt.f64 (-3 / 2 ^ 26) := by simpa using rep_div (-3) 26 (by decide) (by norm_num)
theorem rB : Representable Fmt.f64 (7205759564854069 / 2 ^ 51) := by simpa using rep_div 7205759564854069 51 (by decide) (by norm_num)
theorem r5 : Representable Fmt.f64 5 := by simpa using rep_div 5 0 (by decide) (by norm_num)
theorem r0 : Representable Fmt.f64 0 := by simpa using rep_div 0 0 (by decide) (by norm_num)
theorem sing_val : ValMoebius singF singC := by
  simp only [ValMoebius, singF, singC, Moebius.a_eq, Moebius.b_eq, Moebius.c_eq, Moebius.d_eq, Moebius.new_00, Moebius.new_01, Moebius.new_10, Moebius.new_11]
  refine ⟨⟨?_, ?_⟩, ⟨?_, ?_⟩, ⟨?_, ?_⟩, ?_, ?_⟩ <;> simp [IeeeEx.lit_val]
theorem singC_a : singC.a = .new (268435459 / 2 ^ 26) (3 / 2 ^ 26) := by simp [singC]
theorem singC_b : singC.b = .new (7205759564854069 / 2 ^ 51) 0 := by simp [singC]
theorem singC_c : singC.c = .new 5 0 := by simp [singC]
theorem singC_d : singC.d = .new (268435459 / 2 ^ 26) (-3 / 2 ^ 26) := by simp [singC]
theorem singC_det : singC.a * singC.d - singC.b * singC.c = 0 := by
  rw [singC_a, singC_b, singC_c, singC_d]
  apply Cpx.ext' <;> simp <;> norm_num
theorem sing_computed : ValC singF.mat.det (Cpx.new (1 / 2 ^ 48) 0) := by
  rw [det2]
  obtain ⟨va, vb, vc, vd⟩ := sing_val
  rw [singC_a] at va; rw [singC_b] at vb; rw [singC_c] at vc; rw [singC_d] at vd
  simp only [Moebius.a_eq, Moebius.b_eq, Moebius.c_eq, Moebius.d_eq] at va vb vc vd
  have bb : ∀ {x : ℝ}, 0 ≤ x ∧ x < 1024 → |x| < 1024 := fun h => by rw [abs_of_nonneg h.1]; exact h.2
  have n0 : |(0:ℝ)| < 1024 := by norm_num
  have m0 : ∀ x : ℝ, Fmt.f64.near (x * 0) = 0 := fun x => by rw [mul_zero]; exact Fmt.near_zero
  have m0' : ∀ x : ℝ, Fmt.f64.near (0 * x) = 0 := fun x => by rw [zero_mul]; exact Fmt.near_zero
  have vd' := id1 vd (by simpa using rα) (by simpa using rβ') (by simp; norm_num [abs_lt]) (by simp; norm_num [abs_lt])
  have vc' := id1 vc (by simpa using r5) (by simpa using r0) (by simp; norm_num [abs_lt]) (by simp)
  generalize (0 : Cpx F) + singF.mat[1][1] * (1 : Cpx F) = d at vd' ⊢
  have nα : Fmt.f64.near (268435459 / 2 ^ 26 * (268435459 / 2 ^ 26)) = 4503599728033793 / 2 ^ 48 := by
    rw [near_of 4503599728033793 4] <;> norm_num [zpow_neg, abs_lt]
  have nβ : Fmt.f64.near (3 / 2 ^ 26 * (-3 / 2 ^ 26)) = -9 / 2 ^ 52 := by
    rw [show (3 / 2 ^ 26 * (-3 / 2 ^ 26) : ℝ) = -9 / 2 ^ 52 by norm_num]
    exact Fmt.near_rep (by simpa using rep_div (-9) 52 (by decide) (by norm_num))
  have nS : Fmt.f64.near (4503599728033793 / 2 ^ 48 - -9 / 2 ^ 52) = 4503599728033794 / 2 ^ 48 := by
    rw [near_of 4503599728033794 4] <;> norm_num [zpow_neg, abs_lt]
  have nαβ : Fmt.f64.near (268435459 / 2 ^ 26 * (-3 / 2 ^ 26)) = -805306377 / 2 ^ 52 := by
    rw [show (268435459 / 2 ^ 26 * (-3 / 2 ^ 26) : ℝ) = -805306377 / 2 ^ 52 by norm_num]
    exact Fmt.near_rep (by simpa using rep_div (-805306377) 52 (by decide) (by norm_num))
  have nβα : Fmt.f64.near (3 / 2 ^ 26 * (268435459 / 2 ^ 26)) = 805306377 / 2 ^ 52 := by
    rw [show (3 / 2 ^ 26 * (268435459 / 2 ^ 26) : ℝ) = 805306377 / 2 ^ 52 by norm_num]
    exact Fmt.near_rep (by simpa using rep_div 805306377 52 (by decide) (by norm_num))
  have nB : Fmt.f64.near (7205759564854069 / 2 ^ 51 * -5) = -4503599728033793 / 2 ^ 48 := by
    rw [near_of (-4503599728033793) 4] <;> norm_num [zpow_neg, abs_lt]
  have r1 : Fmt.f64.near (4503599728033794 / 2 ^ 48) = 4503599728033794 / 2 ^ 48 := Fmt.near_rep (by simpa using rep_div 4503599728033794 48 (by decide) (by norm_num))
  have r2 : Fmt.f64.near (-4503599728033793 / 2 ^ 48) = -4503599728033793 / 2 ^ 48 := Fmt.near_rep (by simpa using rep_div (-4503599728033793) 48 (by decide) (by norm_num))
  have r3 : Fmt.f64.near (4503599728033794 / 2 ^ 48 + -4503599728033793 / 2 ^ 48) = 1 / 2 ^ 48 := by
    rw [show (4503599728033794 / 2 ^ 48 + -4503599728033793 / 2 ^ 48 : ℝ) = 1 / 2 ^ 48 by norm_num]
    exact Fmt.near_rep (by simpa using rep_div 1 48 (by decide) (by norm_num))
  have ad_re : (singF.mat[0][0] * d).re.toReal? = some (4503599728033794 / 2 ^ 48) := by
    rw [re_mul]
    exact sv (mv va.1 vd'.1 (by simpa using nα) (by norm_num [abs_lt])) (mv va.2 vd'.2 (by simpa using nβ) (by norm_num [abs_lt])) nS (by norm_num [abs_lt])
  have ad_im : (singF.mat[0][0] * d).im.toReal? = some 0 := by
    rw [im_mul]
    refine av (mv va.1 vd'.2 (by simpa using nαβ) (by norm_num [abs_lt])) (mv va.2 vd'.1 (by simpa using nβα) (by norm_num [abs_lt])) ?_ n0
    rw [show (-805306377 / 2 ^ 52 + 805306377 / 2 ^ 52 : ℝ) = 0 by norm_num]; exact Fmt.near_zero
  have ng := neg_val vc'
  generalize -((0 : Cpx F) + singF.mat[1][0] * (1 : Cpx F)) = c at ng ⊢
  have ng1 : c.re.toReal? = some (-5) := by simpa using ng.1
  have ng2 : c.im.toReal? = some 0 := by simpa using ng.2
  have bc_re : (singF.mat[0][1] * c).re.toReal? = some (-4503599728033793 / 2 ^ 48) := by
    rw [re_mul]
    exact sv (mv vb.1 ng1 (by simpa using nB) (by norm_num [abs_lt])) (mv vb.2 ng2 (z := 0) (by simpa using m0' 0) n0) (by rw [sub_zero]; exact r2) (by norm_num [abs_lt])
  have bc_im : (singF.mat[0][1] * c).im.toReal? = some 0 := by
    rw [im_mul]
    exact av (mv vb.1 ng2 (z := 0) (by simpa using m0' 0) n0) (mv vb.2 ng1 (z := 0) (by simpa using m0' 0) n0) (by rw [add_zero]; exact Fmt.near_zero) n0
  have z : (0 : F).toReal? = some (0:ℝ) := rfl
  have k1 : ((0 : Cpx F) + singF.mat[0][0] * d).re.toReal? = some (4503599728033794 / 2 ^ 48) := by
    rw [re_add]; exact av (x := 0) rfl ad_re (by rw [zero_add]; exact r1) (by norm_num [abs_lt])
  have k2 : ((0 : Cpx F) + singF.mat[0][0] * d).im.toReal? = some 0 := by
    rw [im_add]; exact av (x := 0) rfl ad_im (by rw [zero_add]; exact Fmt.near_zero) n0
  refine ⟨?_, ?_⟩
  · rw [re_add, Cpx.re_new]; exact av k1 bc_re r3 (by norm_num [abs_lt])
  · rw [im_add, Cpx.im_new]; exact av k2 bc_im (by rw [zero_add]; exact Fmt.near_zero) n0
end SamplerC

/-- With complex coefficients `Invertible` can return a transformation that is not invertible: a transformation with finite `f64` coefficients below
`8.572` whose exact determinant is `0` is accepted (its computed determinant is `2⁻⁴⁸`, sixteen times epsilon). -/
theorem C111_invertible_complex_refuted : ∃ (m : Moebius (Cpx F)) (M : Moebius (Cpx ℝ)), ValMoebius m M ∧
    (∀ z ∈ [m.a, m.b, m.c, m.d], Datum z.re ∧ Datum z.im) ∧ (∀ Z ∈ [M.a, M.b, M.c, M.d], |Z.re| ≤ 8.572 ∧ |Z.im| ≤ 8.572) ∧
    M.a * M.d - M.b * M.c = 0 ∧
    ∀ (σ : Type) (draw : Eff σ (Cpx F)) (s s' : σ) (fuel : ℕ), (callN draw 4).exec s = (.ok [m.a, m.b, m.c, m.d], s') →
      (Distr.moebiusInvertible Cpx.normL1 draw (fuel + 1)).exec s = (.ok m, s') := by
  refine ⟨singF, singC, sing_val, ?_, ?_, singC_det, fun σ draw s s' fuel h => ?_⟩
  · simp only [List.mem_cons, List.not_mem_nil, or_false, forall_eq_or_imp, forall_eq, singF, Moebius.a_eq, Moebius.b_eq, Moebius.c_eq, Moebius.d_eq,
      Moebius.new_00, Moebius.new_01, Moebius.new_10, Moebius.new_11, Cpx.re_new, Cpx.im_new]
    exact ⟨⟨IeeeEx.lit_datum rα, IeeeEx.lit_datum rβ⟩, ⟨IeeeEx.lit_datum rB, IeeeEx.lit_datum r0⟩, ⟨IeeeEx.lit_datum r5, IeeeEx.lit_datum r0⟩,
      IeeeEx.lit_datum rα, IeeeEx.lit_datum rβ'⟩
  · simp only [List.mem_cons, List.not_mem_nil, or_false, forall_eq_or_imp, forall_eq, singC_a, singC_b, singC_c, singC_d, Cpx.re_new, Cpx.im_new]
    norm_num [abs_le]
  · have hk : (Distr.invertible Cpx.normL1 draw (fuel + 1)).exec s = (.ok singF.mat, s') := by
      unfold Distr.invertible
      rw [Distr.loop_blocks (draw := Distr.matrix draw) (comp := rowMajor) (inner := draw) (C01_mat_init_calls draw) (fun _ _ h => Mat.rowMajor_inj h)
        (fun x => by simp [Mat.length_rowMajor])]
      refine ⟨[], by simp, ?_, by simp, ?_⟩
      · rw [coeffs]; simpa only [Moebius.a_eq, Moebius.b_eq, Moebius.c_eq, Moebius.d_eq, List.length_nil, List.flatMap_nil, List.nil_append] using h
      · have hk : ∃ b, (do let d ← singF.mat.detR; pure (!Distr.isEpsilon (Cpx.normL1 d)) : Res Bool) = .ok b := ⟨_, by
          rw [show singF.mat.detR = .ok singF.mat.det from Res.ok_get _ _]; rfl⟩
        obtain ⟨b, hk⟩ := hk
        rw [hk]
        cases b with
        | true => rfl
        | false =>
          exfalso
          have n : ∀ t : ℝ, 0 ≤ t → (Cpx.new t 0 : Cpx ℝ).norm = t := fun t ht => by
            rw [cnorm_eq, show (Cpx.new t 0 : Cpx ℝ).toC = (t : ℂ) by apply Complex.ext <;> simp [Cpx.toC], Complex.norm_real, Real.norm_of_nonneg ht]
          have n := n (1 / 2 ^ 48) (by positivity)
          have := (accept_val (fun _ => rfl) eps_val singF.mat _ sing_computed (by rw [n]; norm_num) _ hk).2 rfl
          rw [n] at this
          norm_num at this
    rw [Distr.moebiusInvertible, exec_map, hk]; rfl

/-! ## A case that meets the hypotheses -/
namespace SamplerMoebiusEx
open SamplerEx SamplerTypesEx
/-- A source for which the first four normal complex numbers are `x + yi`, `y + yi`, `y + yi`, `x + yi` with `x ≥ 1/2` and `y` tiny. -/
noncomputable def src3 : F → F → Eff ℕ F := fun _ _ => Eff.ofStep fun n => (if n / 2 % 8 = 0 ∨ n / 2 % 8 = 6 then half else 0, n + 1)
theorem src3_ok : UniformOk src3 := by
  have hh := (src_ok (φ := Fmt.f64) C80_formats.2).unit 0 0 half rfl
  have h0 : Datum (0 : F) := trivial
  refine ⟨fun s s' u h => ?_, fun s s' u h => ?_⟩ <;> simp only [src3, exec_ofStep, Prod.mk.injEq, Except.ok.injEq] at h <;> obtain ⟨rfl, -⟩ := h <;> split
  · exact hh
  · exact ⟨h0, 0, rfl, by norm_num, by norm_num⟩
  · exact ⟨1 / 2, rfl⟩
  · exact ⟨0, rfl⟩
noncomputable def g (k : ℕ) : F := if k % 8 = 0 ∨ k % 8 = 6 then zA else zB
theorem step3 (k : ℕ) : (Distr.normal src3).exec (2 * k) = (.ok (g k), 2 * (k + 1)) := by
  unfold Distr.normal
  have e1 : 2 * k / 2 = k := by omega
  have e2 : (2 * k + 1) / 2 = k := by omega
  simp only [src3, exec_bind, exec_ofStep, exec_pure, e1, e2]
  unfold g
  split <;> simp only [zA, zB, Prod.mk.injEq, true_and] <;> omega
theorem cstep (k : ℕ) : (Distr.complexNormal (Distr.normal src3)).exec (2 * k) = (.ok (Cpx.new (g k) (g (k + 1))), 2 * (k + 2)) := by
  obtain ⟨hl, hv⟩ := Vec.exec_initM_of_ok (N := 2) (f := Distr.normal src3) (s := 2 * k) (s' := 2 * (k + 2)) (l := [g k, g (k + 1)])
    (by simp [callN, exec_bind, exec_map, step3])
  have : Cpx.fromVector (Vec.ofList [g k, g (k + 1)] hl) = Cpx.new (g k) (g (k + 1)) := by
    congr 1
  simp [Distr.complexNormal, Distr.vector, exec_map, hv, this]
theorem run4 : (callN (Distr.complexNormal (Distr.normal src3)) 4).exec 0 = (.ok [Cpx.new zA zB, Cpx.new zB zB, Cpx.new zB zB, Cpx.new zA zB], 16) := by
  have c0 := cstep 0
  have c1 := cstep 2
  have c2 := cstep 4
  have c3 := cstep 6
  simp [g] at c0 c1 c2 c3
  simp [callN, exec_bind, exec_map, c0, c1, c2, c3]
noncomputable def moe : Moebius (Cpx F) := .new (Cpx.new zA zB) (Cpx.new zB zB) (Cpx.new zB zB) (Cpx.new zA zB)
/-- The hypotheses of `C111_invertible_complex_accepts` are met by this transformation and this source. -/
theorem moe_run : (Distr.moebiusInvertible Cpx.normL1 (Distr.complexNormal (Distr.normal src3)) 1).exec 0 = (.ok moe, 16) := by
  obtain ⟨x, vx, x1, x2⟩ := vA
  obtain ⟨y, vy, y1⟩ := vB
  have ys : |y| ≤ 1 / 8 := y1.trans (by norm_num)
  have nb : ∀ u v : ℝ, |u| ≤ 8.572 → |v| ≤ 8.572 → (Cpx.new u v : Cpx ℝ).norm ≤ 18 := fun u v hu hv => by
    refine (l1_bounds _).1.trans ?_
    simp only [Cpx.re_new, Cpx.im_new]; linarith
  have xa : |x| ≤ 8.572 := abs_le.2 ⟨by linarith, x2⟩
  have ya : |y| ≤ 8.572 := ys.trans (by norm_num)
  have nn : ∀ Z : Cpx ℝ, 0 ≤ Z.norm := fun Z => by rw [cnorm_eq]; exact norm_nonneg _
  have nA := nb x y xa ya
  have nB := nb y y ya ya
  refine C111_invertible_complex_accepts (fun _ => rfl) eps_val _ 0 0 16 moe (.new (Cpx.new x y) (Cpx.new y y) (Cpx.new y y) (Cpx.new x y)) ?_ ?_ ?_ ?_
  · simp only [ValMoebius, moe, Moebius.a_eq, Moebius.b_eq, Moebius.c_eq, Moebius.d_eq, Moebius.new_00, Moebius.new_01, Moebius.new_10, Moebius.new_11]
    refine ⟨⟨?_, ?_⟩, ⟨?_, ?_⟩, ⟨?_, ?_⟩, ?_, ?_⟩ <;> simp [vx, vy]
  · simp only [Below, Moebius.a_eq, Moebius.b_eq, Moebius.c_eq, Moebius.d_eq, Moebius.new_00, Moebius.new_01, Moebius.new_10, Moebius.new_11]
    have : (18:ℝ) ≤ 2 ^ 300 := by norm_num
    exact ⟨nA.trans this, nB.trans this, nB.trans this, nA.trans this⟩
  · simp only [moe, Moebius.a_eq, Moebius.b_eq, Moebius.c_eq, Moebius.d_eq, Moebius.new_00, Moebius.new_01, Moebius.new_10, Moebius.new_11]
    exact run4
  · simp only [Moebius.a_eq, Moebius.b_eq, Moebius.c_eq, Moebius.d_eq, Moebius.new_00, Moebius.new_01, Moebius.new_10, Moebius.new_11]
    have key : 1 / 8 ≤ (Cpx.new x y * Cpx.new x y - Cpx.new y y * Cpx.new y y : Cpx ℝ).norm := by
      rw [cnorm_eq]
      refine le_trans ?_ (Complex.abs_re_le_norm _)
      refine le_trans ?_ (le_abs_self _)
      simp [Cpx.toC]
      nlinarith [abs_le.1 ys]
    refine lt_of_lt_of_le ?_ key
    calc _ ≤ (5 / 4 / 2 ^ 52 : ℝ) + 16 / 2 ^ 53 * (18 * 18 + 18 * 18) := by
          refine add_le_add le_rfl (mul_le_mul_of_nonneg_left (add_le_add (mul_le_mul nA nA (nn _) (by norm_num)) (mul_le_mul nB nB (nn _) (by norm_num))) (by positivity))
      _ < _ := by norm_num
end SamplerMoebiusEx
open SamplerMoebiusEx SamplerEx SamplerTypesEx
example := C113_invertible_moebius C111_library.1 (fun _ => rfl) eps_val (by positivity) (by norm_num) src3 src3_ok 1 0 16 _ moe_run
example := C111_invertible_complex (fun _ => rfl) eps_val (Distr.complexNormal (Distr.normal src3)) (fun s s' z h => by
  obtain ⟨Z, a, b, c⟩ := (C113_normal_vectors (N := 2) C111_library.1 (by positivity) (by norm_num) src3 src3_ok s s').2.1 z h
  exact ⟨Z, a, (l1_bounds Z).1.trans ((add_le_add b c).trans (by norm_num))⟩) 1 0 16 _ moe_run
end Vecmat
