import Verif.Props.F64Moebius2
/-!
# C103 (continued): the derivative of a Möbius transformation in double precision
-/
namespace Vecmat
open Spec Ieee F64
set_option exponentiation.threshold 3000
namespace F64
theorem csub {z w : Cpx F} {Z W : ℂ} (hz : IsC z Z) (hw : IsC w W) (h : ‖Z - W‖ ≤ 2 ^ 1000) :
    ∃ V, IsC (z - w) V ∧ ‖V - (Z - W)‖ ≤ 1 / 2 ^ 53 * ‖Z - W‖ + 1 / 2 ^ 1074 := by
  rw [sub_eq_add_neg] at h ⊢
  obtain ⟨V, hV, eV⟩ := cadd hz (isC_neg hw) h
  refine ⟨V, ?_, eV⟩
  have e : z - w = z + -w := by apply Cpx.ext' <;> simp [Ieee.sub_def]
  rw [e]; exact hV
theorem add_sub_norm (P' P : ℂ) : ‖P'‖ ≤ ‖P' - P‖ + ‖P‖ := by
  calc ‖P'‖ = ‖(P' - P) + P‖ := by congr 1; ring
    _ ≤ _ := norm_add_le _ _
/-- The numerator `a d' - u' c`. -/
theorem cnum {a c d u : Cpx F} {A C D D' U U' : ℂ} {L S : ℝ} (ha : IsC a A) (hc : IsC c C) (hd : IsC d D') (hu : IsC u U')
    (eD : ‖D' - D‖ ≤ 41 / 2 ^ 56 * L + 1 / 2 ^ 1071) (eU : ‖U' - U‖ ≤ 41 / 2 ^ 56 * S + 1 / 2 ^ 1071) (nD : ‖D‖ ≤ L) (nU : ‖U‖ ≤ S)
    (rA : ‖A‖ ≤ 2 ^ 140) (rC : ‖C‖ ≤ 2 ^ 140) (rL : L ≤ 2 ^ 140) (rS : S ≤ 2 ^ 140) :
    ∃ V, IsC (a * d - u * c) V ∧ ‖V - (A * D - U * C)‖ ≤ 11 / 2 ^ 53 * (‖A‖ * L + S * ‖C‖) + 1 / 2 ^ 920 := by
  have l0 : 0 ≤ L := (norm_nonneg _).trans nD
  have s0 : 0 ≤ S := (norm_nonneg _).trans nU
  have nD' : ‖D'‖ ≤ (1 + 41 / 2 ^ 56) * L + 1 / 2 ^ 1071 := by linarith [add_sub_norm D' D]
  have nU' : ‖U'‖ ≤ (1 + 41 / 2 ^ 56) * S + 1 / 2 ^ 1071 := by linarith [add_sub_norm U' U]
  have ta : ‖A‖ * (1 / 2 ^ 1071) ≤ 1 / 2 ^ 931 := by
    calc _ ≤ (2:ℝ) ^ 140 * (1 / 2 ^ 1071) := by gcongr
      _ = _ := by norm_num
  have tc : ‖C‖ * (1 / 2 ^ 1071) ≤ 1 / 2 ^ 931 := by
    calc _ ≤ (2:ℝ) ^ 140 * (1 / 2 ^ 1071) := by gcongr
      _ = _ := by norm_num
  have rAL : ‖A‖ * L ≤ 2 ^ 280 := by
    calc _ ≤ (2:ℝ) ^ 140 * 2 ^ 140 := by gcongr
      _ = _ := by norm_num
  have rSC : S * ‖C‖ ≤ 2 ^ 280 := by
    calc _ ≤ (2:ℝ) ^ 140 * 2 ^ 140 := by gcongr
      _ = _ := by norm_num
  have pAL : 0 ≤ ‖A‖ * L := by positivity
  have pSC : 0 ≤ S * ‖C‖ := by positivity
  have mA : ‖A‖ * ‖D'‖ ≤ (1 + 41 / 2 ^ 56) * (‖A‖ * L) + 1 / 2 ^ 931 := by
    calc _ ≤ ‖A‖ * ((1 + 41 / 2 ^ 56) * L + 1 / 2 ^ 1071) := by gcongr
      _ = (1 + 41 / 2 ^ 56) * (‖A‖ * L) + ‖A‖ * (1 / 2 ^ 1071) := by ring
      _ ≤ _ := by gcongr
  have mC : ‖U'‖ * ‖C‖ ≤ (1 + 41 / 2 ^ 56) * (S * ‖C‖) + 1 / 2 ^ 931 := by
    calc _ ≤ ((1 + 41 / 2 ^ 56) * S + 1 / 2 ^ 1071) * ‖C‖ := by gcongr
      _ = (1 + 41 / 2 ^ 56) * (S * ‖C‖) + ‖C‖ * (1 / 2 ^ 1071) := by ring
      _ ≤ _ := by gcongr
  have eA : ‖A * D' - A * D‖ ≤ 41 / 2 ^ 56 * (‖A‖ * L) + 1 / 2 ^ 931 := by
    rw [← mul_sub, norm_mul]
    calc _ ≤ ‖A‖ * (41 / 2 ^ 56 * L + 1 / 2 ^ 1071) := by gcongr
      _ = 41 / 2 ^ 56 * (‖A‖ * L) + ‖A‖ * (1 / 2 ^ 1071) := by ring
      _ ≤ _ := by gcongr
  have eC : ‖U' * C - U * C‖ ≤ 41 / 2 ^ 56 * (S * ‖C‖) + 1 / 2 ^ 931 := by
    rw [← sub_mul, norm_mul]
    calc _ ≤ (41 / 2 ^ 56 * S + 1 / 2 ^ 1071) * ‖C‖ := by gcongr
      _ = 41 / 2 ^ 56 * (S * ‖C‖) + ‖C‖ * (1 / 2 ^ 1071) := by ring
      _ ≤ _ := by gcongr
  obtain ⟨P, hP, eP⟩ := cmul ha hd (by
    calc _ ≤ (1 + 41 / 2 ^ 56 : ℝ) * 2 ^ 280 + 1 / 2 ^ 931 := mA.trans (by gcongr)
      _ ≤ _ := by norm_num)
  obtain ⟨Q, hQ, eQ⟩ := cmul hu hc (by
    calc _ ≤ (1 + 41 / 2 ^ 56 : ℝ) * 2 ^ 280 + 1 / 2 ^ 931 := mC.trans (by gcongr)
      _ ≤ _ := by norm_num)
  have t1 : (1:ℝ) / 2 ^ 1072 ≤ 1 / 2 ^ 931 := by norm_num
  have t2 : (1:ℝ) / 2 ^ 1074 ≤ 1 / 2 ^ 931 := by norm_num
  have t3 : (1:ℝ) / 2 ^ 920 = 2048 * (1 / 2 ^ 931) := by norm_num
  have t0 : (0:ℝ) < 1 / 2 ^ 931 := by positivity
  have t4 : (1:ℝ) / 2 ^ 931 ≤ 1 := by norm_num
  rw [t3]
  generalize (1:ℝ) / 2 ^ 1072 = z1 at *
  generalize (1:ℝ) / 2 ^ 931 = t at *
  have eP' : ‖P - A * D‖ ≤ 74 / 2 ^ 56 * (‖A‖ * L) + 3 * t := by
    calc ‖P - A * D‖ = ‖(P - A * D') + (A * D' - A * D)‖ := by congr 1; ring
      _ ≤ _ := norm_add_le _ _
      _ ≤ (4 / 2 ^ 53 * ((1 + 41 / 2 ^ 56) * (‖A‖ * L) + t) + t) + (41 / 2 ^ 56 * (‖A‖ * L) + t) := add_le_add (eP.trans (by gcongr)) eA
      _ ≤ _ := by norm_num; linarith
  have eQ' : ‖Q - U * C‖ ≤ 74 / 2 ^ 56 * (S * ‖C‖) + 3 * t := by
    calc ‖Q - U * C‖ = ‖(Q - U' * C) + (U' * C - U * C)‖ := by congr 1; ring
      _ ≤ _ := norm_add_le _ _
      _ ≤ (4 / 2 ^ 53 * ((1 + 41 / 2 ^ 56) * (S * ‖C‖) + t) + t) + (41 / 2 ^ 56 * (S * ‖C‖) + t) := add_le_add (eQ.trans (by gcongr)) eC
      _ ≤ _ := by norm_num; linarith
  have nAD : ‖A * D‖ ≤ ‖A‖ * L := by rw [norm_mul]; gcongr
  have nUC : ‖U * C‖ ≤ S * ‖C‖ := by rw [norm_mul]; gcongr
  have n : ‖P - Q‖ ≤ (1 + 74 / 2 ^ 56) * (‖A‖ * L + S * ‖C‖) + 6 * t := by
    calc ‖P - Q‖ ≤ ‖P‖ + ‖Q‖ := norm_sub_le _ _
      _ ≤ (‖P - A * D‖ + ‖A * D‖) + (‖Q - U * C‖ + ‖U * C‖) := add_le_add (add_sub_norm _ _) (add_sub_norm _ _)
      _ ≤ _ := by linarith
  obtain ⟨V, hV, eV⟩ := csub hP hQ (n.trans (by
    calc _ ≤ (1 + 74 / 2 ^ 56 : ℝ) * (2 ^ 280 + 2 ^ 280) + 6 * 1 := by gcongr
      _ ≤ _ := by norm_num))
  refine ⟨V, hV, ?_⟩
  calc ‖V - (A * D - U * C)‖ = ‖(V - (P - Q)) + (P - A * D) + -(Q - U * C)‖ := by congr 1; ring
    _ ≤ ‖V - (P - Q)‖ + ‖P - A * D‖ + ‖-(Q - U * C)‖ := norm_add₃_le
    _ ≤ (1 / 2 ^ 53 * ((1 + 74 / 2 ^ 56) * (‖A‖ * L + S * ‖C‖) + 6 * t) + t) + (74 / 2 ^ 56 * (‖A‖ * L) + 3 * t) + (74 / 2 ^ 56 * (S * ‖C‖) + 3 * t) := by
      rw [norm_neg]
      exact add_le_add (add_le_add (eV.trans (by gcongr)) eP') eQ'
    _ ≤ _ := by norm_num; linarith
/-- The denominator `d' d'`. -/
theorem csq {d : Cpx F} {D D' : ℂ} {L : ℝ} (hd : IsC d D') (eD : ‖D' - D‖ ≤ 41 / 2 ^ 56 * L + 1 / 2 ^ 1071) (nD : ‖D‖ ≤ L)
    (rL : L ≤ 2 ^ 140) (hl : 1 / 2 ^ 150 ≤ ‖D‖) (hk : L ≤ 2 ^ 38 * ‖D‖) :
    ∃ V, IsC (d * d) V ∧ ‖V - D * D‖ ≤ 123 / 2 ^ 56 * (L * ‖D‖) := by
  have l0 : 0 ≤ L := (norm_nonneg _).trans nD
  have d0 : 0 < ‖D‖ := lt_of_lt_of_le (by positivity) hl
  have tiny : (1:ℝ) / 2 ^ 1071 ≤ 1 / 2 ^ 66 * L := by
    calc (1:ℝ) / 2 ^ 1071 ≤ 1 / 2 ^ 66 * (1 / 2 ^ 150) := by norm_num
      _ ≤ _ := by gcongr; exact hl.trans nD
  have eD' : ‖D' - D‖ ≤ 165 / 2 ^ 58 * L := by norm_num at *; linarith
  have sm : ‖D' - D‖ ≤ 1 / 2 ^ 10 * ‖D‖ := by
    calc _ ≤ 165 / 2 ^ 58 * (2 ^ 38 * ‖D‖) := eD'.trans (by gcongr)
      _ ≤ _ := by norm_num; linarith
  have nD' : ‖D'‖ ≤ (1 + 1 / 2 ^ 10) * ‖D‖ := by linarith [add_sub_norm D' D]
  have rD : ‖D'‖ ≤ 2 ^ 141 := by
    calc _ ≤ (1 + 1 / 2 ^ 10 : ℝ) * 2 ^ 140 := nD'.trans (by gcongr; exact nD.trans rL)
      _ ≤ _ := by norm_num
  obtain ⟨V, hV, eV⟩ := cmul hd hd (by
    calc _ ≤ (2:ℝ) ^ 141 * 2 ^ 141 := by gcongr
      _ ≤ _ := by norm_num)
  refine ⟨V, hV, ?_⟩
  have ld : (1:ℝ) / 2 ^ 1072 ≤ 1 / 2 ^ 66 * (L * ‖D‖) := by
    calc (1:ℝ) / 2 ^ 1072 ≤ 1 / 2 ^ 66 * (1 / 2 ^ 150 * (1 / 2 ^ 150)) := by norm_num
      _ ≤ _ := by gcongr; exact hl.trans nD
  have LD : 0 ≤ L * ‖D‖ := by positivity
  calc ‖V - D * D‖ = ‖(V - D' * D') + ((D' - D) * D' + D * (D' - D))‖ := by congr 1; ring
    _ ≤ ‖V - D' * D'‖ + (‖(D' - D) * D'‖ + ‖D * (D' - D)‖) := (norm_add_le _ _).trans (by gcongr; exact norm_add_le _ _)
    _ ≤ (4 / 2 ^ 53 * (((1 + 1 / 2 ^ 10) * ‖D‖) * ((1 + 1 / 2 ^ 10) * ‖D‖)) + 1 / 2 ^ 66 * (L * ‖D‖)) +
        (165 / 2 ^ 58 * L * ((1 + 1 / 2 ^ 10) * ‖D‖) + ‖D‖ * (165 / 2 ^ 58 * L)) := by
      rw [norm_mul, norm_mul]
      refine add_le_add (eV.trans (by gcongr)) (by gcongr)
    _ = (4 / 2 ^ 53 * (1 + 1 / 2 ^ 10) ^ 2) * (‖D‖ * ‖D‖) + (1 / 2 ^ 66 + 165 / 2 ^ 58 * (2 + 1 / 2 ^ 10)) * (L * ‖D‖) := by ring
    _ ≤ (4 / 2 ^ 53 * (1 + 1 / 2 ^ 10) ^ 2) * (L * ‖D‖) + (1 / 2 ^ 66 + 165 / 2 ^ 58 * (2 + 1 / 2 ^ 10)) * (L * ‖D‖) := by gcongr
    _ ≤ _ := by rw [← add_mul]; gcongr; norm_num
end F64

set_option maxHeartbeats 1000000 in
/-- `deriv` at a complex point away from the pole: the error is at most `39u (|a| (|c||z| + |d|) + (|a||z| + |b|) |c|) / |c z + d|²` plus
`18u |m'(z)| (|c||z| + |d|) / |c z + d|`. -/
theorem C103_deriv (m : Moebius (Cpx F)) (M : Moebius (Cpx ℝ)) (z : Cpx F) (Z : Cpx ℝ) (hm : ValMoebius m M) (hz : ValC z Z) (h : Below M (2 ^ 140))
    (h₁ : upper M Z.norm ≤ 2 ^ 140) (h₂ : lower M Z.norm ≤ 2 ^ 140) (hl : 1 / 2 ^ 140 ≤ (M.c * Z + M.d).norm)
    (hk : lower M Z.norm ≤ 2 ^ 38 * (M.c * Z + M.d).norm) :
    ∃ V, ValC (m.deriv z) V ∧ (V - M.deriv Z).norm ≤
      39 / 2 ^ 53 * ((M.a.norm * lower M Z.norm + upper M Z.norm * M.c.norm) / (M.c * Z + M.d).norm ^ 2) +
      18 / 2 ^ 53 * ((M.deriv Z).norm * (lower M Z.norm / (M.c * Z + M.d).norm)) + 1 / 2 ^ 500 := by
  obtain ⟨ha, hb, hc, hd⟩ := hm
  obtain ⟨ra, -, rc, -⟩ := h
  have hap : (M.deriv Z).toC = (M.a.toC * (M.c.toC * Z.toC + M.d.toC) - (M.a.toC * Z.toC + M.b.toC) * M.c.toC) /
      ((M.c.toC * Z.toC + M.d.toC) * (M.c.toC * Z.toC + M.d.toC)) := by
    simp only [Moebius.deriv, toC_div, toC_sub, toC_add, toC_mul]
  simp only [upper, lower, cnorm_eq, toC_add, toC_mul, toC_sub] at *
  obtain ⟨U', hU', eU⟩ := caff (A := M.a.toC) (B := M.b.toC) (Z := Z.toC) ha hb hz (h₁.trans (by norm_num))
  obtain ⟨D', hD', eD⟩ := caff (A := M.c.toC) (B := M.d.toC) (Z := Z.toC) hc hd hz (h₂.trans (by norm_num))
  have nU : ‖M.a.toC * Z.toC + M.b.toC‖ ≤ ‖M.a.toC‖ * ‖Z.toC‖ + ‖M.b.toC‖ := (norm_add_le _ _).trans (by rw [norm_mul])
  have nD : ‖M.c.toC * Z.toC + M.d.toC‖ ≤ ‖M.c.toC‖ * ‖Z.toC‖ + ‖M.d.toC‖ := (norm_add_le _ _).trans (by rw [norm_mul])
  have hl' : (1:ℝ) / 2 ^ 150 ≤ ‖M.c.toC * Z.toC + M.d.toC‖ := le_trans (by norm_num) hl
  obtain ⟨P', hP', eP⟩ := cnum (A := M.a.toC) (C := M.c.toC) ha hc hD' hU' eD eU nD nU ra rc h₂ h₁
  obtain ⟨Q', hQ', eQ⟩ := csq hD' eD nD h₂ hl' hk
  have hD : (m.deriv z) = (m.a * (m.c * z + m.d) - (m.a * z + m.b) * m.c) / ((m.c * z + m.d) * (m.c * z + m.d)) := rfl
  rw [hD, hap]
  generalize hLe : ‖M.c.toC‖ * ‖Z.toC‖ + ‖M.d.toC‖ = L at *
  generalize hSe : ‖M.a.toC‖ * ‖Z.toC‖ + ‖M.b.toC‖ = S at *
  generalize M.c.toC * Z.toC + M.d.toC = D at *
  generalize M.a.toC * Z.toC + M.b.toC = U at *
  generalize M.a.toC = A at *
  generalize M.c.toC = C at *
  have d0 : 0 < ‖D‖ := lt_of_lt_of_le (by positivity) hl
  have l0 : 0 < L := d0.trans_le nD
  have s0 : 0 ≤ S := (norm_nonneg _).trans nU
  have k0 : 0 ≤ ‖A‖ * L + S * ‖C‖ := by positivity
  have nP : ‖A * D - U * C‖ ≤ ‖A‖ * L + S * ‖C‖ := (norm_sub_le _ _).trans (by rw [norm_mul, norm_mul]; gcongr)
  have rP : ‖A‖ * L + S * ‖C‖ ≤ 2 ^ 281 := by
    calc _ ≤ (2:ℝ) ^ 140 * 2 ^ 140 + 2 ^ 140 * 2 ^ 140 := by gcongr
      _ = _ := by norm_num
  have nQ : ‖D * D‖ = ‖D‖ * ‖D‖ := norm_mul _ _
  have gQ : (1:ℝ) / 2 ^ 300 ≤ ‖D * D‖ := by
    rw [nQ]
    calc (1:ℝ) / 2 ^ 300 ≤ 1 / 2 ^ 140 * (1 / 2 ^ 140) := by norm_num
      _ ≤ _ := by gcongr
  have rLD : L * ‖D‖ ≤ 2 ^ 280 := by
    calc _ ≤ (2:ℝ) ^ 140 * 2 ^ 140 := by gcongr; exact nD.trans h₂
      _ = _ := by norm_num
  -- the numerator, with its underflow term scaled away from the quotient
  have t920 : (1:ℝ) / 2 ^ 920 ≤ 1 / 2 ^ 900 := by norm_num
  have e₁ : ‖P' - (A * D - U * C)‖ ≤ 41 / 2 ^ 56 * (9 / 4 * (‖A‖ * L + S * ‖C‖) + 1 / 2 ^ 850) + 0 := by
    have t : (1:ℝ) / 2 ^ 920 ≤ 41 / 2 ^ 56 * (1 / 2 ^ 850) := by norm_num
    generalize (1:ℝ) / 2 ^ 920 = w at *
    generalize (1:ℝ) / 2 ^ 850 = w' at *
    norm_num at *; linarith
  have e₂ : ‖Q' - D * D‖ ≤ 41 / 2 ^ 56 * (3 * (L * ‖D‖)) + 0 := by
    refine eQ.trans (le_of_eq ?_); ring
  have hS₁ : ‖A * D - U * C‖ ≤ 9 / 4 * (‖A‖ * L + S * ‖C‖) + 1 / 2 ^ 850 := by
    have : (0:ℝ) < 1 / 2 ^ 850 := by positivity
    linarith
  have hS₂ : ‖D * D‖ ≤ 3 * (L * ‖D‖) := by
    rw [nQ]; have := mul_le_mul_of_nonneg_right nD d0.le; nlinarith [mul_pos l0 d0]
  have r₁ : 9 / 4 * (‖A‖ * L + S * ‖C‖) + 1 / 2 ^ 850 ≤ (2:ℝ) ^ 300 := by
    calc _ ≤ (9 / 4 * 2 ^ 281 + 1 / 2 ^ 850 : ℝ) := by gcongr
      _ ≤ _ := by norm_num
  have r₂ : 3 * (L * ‖D‖) ≤ 2 ^ 300 := by
    calc _ ≤ (3 * 2 ^ 280 : ℝ) := by gcongr
      _ ≤ _ := by norm_num
  have hk' : 3 * (L * ‖D‖) ≤ 2 ^ 40 * ‖D * D‖ := by
    rw [nQ]
    calc _ ≤ 3 * (2 ^ 38 * ‖D‖ * ‖D‖) := by gcongr
      _ = 3 * 2 ^ 38 * (‖D‖ * ‖D‖) := by ring
      _ ≤ _ := by gcongr; norm_num
  have t71 : (1:ℝ) / 2 ^ 1072 ≤ 1 / 2 ^ 1070 := by norm_num
  have e₁' : ‖P' - (A * D - U * C)‖ ≤ 41 / 2 ^ 56 * (9 / 4 * (‖A‖ * L + S * ‖C‖) + 1 / 2 ^ 850) + 1 / 2 ^ 1072 := e₁.trans (by gcongr; positivity)
  have e₂' : ‖Q' - D * D‖ ≤ 41 / 2 ^ 56 * (3 * (L * ‖D‖)) + 1 / 2 ^ 1072 := e₂.trans (by gcongr; positivity)
  obtain ⟨r1, r2, r3⟩ := quot_range hS₁ r₁ gQ hS₂ r₂ hk' (by positivity) t71 e₁' e₂'
  obtain ⟨V, hV, eV⟩ := cdiv0 hP' hQ' r1 r2 r3
  refine ⟨ofC V, valC_ofC hV, ?_⟩
  have := quot_err (κ := 11) hS₁ gQ hS₂ hk' (by positivity) t71 e₁' e₂' (by norm_num) (by norm_num) eV
  rw [toC_ofC]
  refine this.trans ?_
  generalize ‖(A * D - U * C) / (D * D)‖ = q
  rw [nQ]
  have sml : (17:ℝ) * (1 / 2 ^ 850) / (‖D‖ * ‖D‖) / 2 ^ 53 ≤ 1 / 2 ^ 501 := by
    calc _ ≤ (17:ℝ) * (1 / 2 ^ 850) / (1 / 2 ^ 300) / 2 ^ 53 := by rw [nQ] at gQ; gcongr
      _ ≤ _ := by norm_num
  have t700 : (1:ℝ) / 2 ^ 501 + 1 / 2 ^ 700 ≤ 1 / 2 ^ 500 := by norm_num
  calc _ = 153 / 4 / 2 ^ 53 * ((‖A‖ * L + S * ‖C‖) / ‖D‖ ^ 2) + 18 / 2 ^ 53 * (q * (L / ‖D‖)) + (17 * (1 / 2 ^ 850) / (‖D‖ * ‖D‖) / 2 ^ 53 + 1 / 2 ^ 700) := by
        field_simp; ring
    _ ≤ _ := by
      refine add_le_add (add_le_add ?_ le_rfl) ((add_le_add sml le_rfl).trans t700)
      gcongr; norm_num

/-! ## Instances: `m(z) = ((3 + 4i) z + i) / (i z + 4 + 3i)` at `z = 2` and at `q = 2 + j` -/
namespace F64MoebEx
open F64Ex IeeeEx
noncomputable def m : Moebius (Cpx F) := .new (.new (lit 3) (lit 4)) (.new (lit 0) (lit 1)) (.new (lit 0) (lit 1)) (.new (lit 4) (lit 3))
noncomputable def M : Moebius (Cpx ℝ) := .new (.new 3 4) (.new 0 1) (.new 0 1) (.new 4 3)
noncomputable def z : Cpx F := .new (lit 2) (lit 0)
noncomputable def Z : Cpx ℝ := .new 2 0
noncomputable def q : Quat F := .new (lit 2) (lit 0) (lit 1) (lit 0)
noncomputable def Q : Quat ℝ := .new 2 0 1 0
theorem hm : ValMoebius m M := ⟨valC _ _, valC _ _, valC _ _, valC _ _⟩
theorem hz : ValC z Z := valC _ _
theorem hq : ValQ q Q := valQ _ _ _ _
theorem nrm (x y r : ℝ) (h : x * x + y * y = r ^ 2) (hr : 0 ≤ r) : (Cpx.new x y).norm = r := by
  rw [cnorm_eq, Complex.norm_eq_sqrt_sq_add_sq, ← Real.sqrt_sq hr]
  congr 1; rw [← h]; simp [Cpx.toC]; ring
theorem na : M.a.norm = 5 := nrm 3 4 5 (by norm_num) (by norm_num)
theorem nb : M.b.norm = 1 := nrm 0 1 1 (by norm_num) (by norm_num)
theorem nc : M.c.norm = 1 := nrm 0 1 1 (by norm_num) (by norm_num)
theorem nd : M.d.norm = 5 := nrm 4 3 5 (by norm_num) (by norm_num)
theorem nz : Z.norm = 2 := nrm 2 0 2 (by norm_num) (by norm_num)
theorem nq : Q.norm ≤ 3 := by
  rw [norm_eq, quat_norm, Real.sqrt_le_left (by norm_num)]
  show (2:ℝ) ^ 2 + 0 ^ 2 + 1 ^ 2 + 0 ^ 2 ≤ _
  norm_num
theorem below {r : ℝ} (h : 5 ≤ r) : Below M r := ⟨na ▸ h, nb ▸ (by linarith), nc ▸ (by linarith), nd ▸ h⟩
theorem up : upper M Z.norm = 11 := by rw [upper, na, nb, nz]; norm_num
theorem lo : lower M Z.norm = 7 := by rw [lower, nc, nd, nz]; norm_num
theorem upq : upper M Q.norm ≤ 16 := by rw [upper, na, nb]; linarith [nq]
theorem loq : lower M Q.norm ≤ 8 := by rw [lower, nc, nd]; linarith [nq]
theorem den : 4 ≤ (M.c * Z + M.d).norm := by
  rw [cnorm_eq]
  refine le_trans ?_ (abs_re_le _)
  have : (M.c * Z + M.d).toC.re = 4 := by
    simp [Cpx.toC, M, Z]
  rw [this]; norm_num
theorem denq : 4 ≤ (M.c * Q + M.d).norm := by
  rw [norm_eq, quat_norm]
  apply Real.le_sqrt_of_sq_le
  have : (M.c * Q + M.d).toH.re = 4 := by
    rw [Quat.hAdd_C, Quat.hMul_C]; simp [Quat.toH, M, Q, Quat.ofC]
  rw [this]; nlinarith [sq_nonneg (M.c * Q + M.d).toH.imI, sq_nonneg (M.c * Q + M.d).toH.imJ, sq_nonneg (M.c * Q + M.d).toH.imK]
theorem ndet : 25 ≤ M.det.norm := by
  rw [cnorm_eq, (C51_det_formula M).1]
  refine le_trans ?_ (abs_im_le _)
  have : (M.a * M.d - M.b * M.c).toC.im = 25 := by
    simp [Cpx.toC, M]; norm_num
  rw [this]; norm_num
example := C103_apply_complex m M z Z hm hz (by rw [up]; norm_num) (by rw [lo]; norm_num) (le_trans (by norm_num) den) (by rw [lo]; linarith [den])
example := C103_apply_quaternion m M q Q hm hq (upq.trans (by norm_num)) (loq.trans (by norm_num)) (le_trans (by norm_num) denq) (by linarith [denq, loq])
example := C103_chain m m M M hm hm (below (by norm_num)) (below (by norm_num))
example := C103_det m M hm (below (by norm_num))
example := C103_inv m M hm (below (by norm_num)) (le_trans (by norm_num) ndet) 2 (by rw [na, nb, nc, nd]; linarith [ndet]) (by norm_num)
example := C103_normalize m M hm (below (by norm_num)) (le_trans (by norm_num) ndet) 2 (by rw [na, nb, nc, nd]; linarith [ndet]) (by norm_num)
example := C103_deriv m M z Z hm hz (below (by norm_num)) (by rw [up]; norm_num) (by rw [lo]; norm_num) (le_trans (by norm_num) den) (by rw [lo]; linarith [den])
end F64MoebEx
end Vecmat
