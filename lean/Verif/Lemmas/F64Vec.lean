import Verif.Lemmas.IeeeQuat
import Verif.Props.Rounding
import Verif.Lemmas.Transforms
/-! # Lengths, normalisation and cross products in double precision, for inputs in range -/
namespace Vecmat
open Spec Ieee F64
set_option exponentiation.threshold 3000
variable {N : Nat}

namespace F64
/-- A real vector as a point of Euclidean space. -/
noncomputable def toE (v : Vec ℝ N) : EuclideanSpace ℝ (Fin N) := WithLp.toLp 2 fun i => v[i.1]
@[simp] theorem toE_apply (v : Vec ℝ N) (i : Fin N) : toE v i = v[i.1] := rfl
theorem squareLength_eq [NeZero N] (v : Vec ℝ N) : v.squareLength = ∑ i : Fin N, v[i.1] ^ 2 := by
  simp only [Vec.squareLength_eq_sum, sq]
theorem length_eq [NeZero N] (v : Vec ℝ N) : v.length = Real.sqrt (∑ i : Fin N, v[i.1] ^ 2) := by
  show Real.sqrt v.squareLength = _
  rw [squareLength_eq]
theorem norm_toE [NeZero N] (v : Vec ℝ N) : ‖toE v‖ = v.length := by
  rw [EuclideanSpace.norm_eq, length_eq]; simp
theorem toE_add (v w : Vec ℝ N) : toE (v + w) = toE v + toE w := by ext i; simp
theorem toE_sub (v w : Vec ℝ N) : toE (v - w) = toE v - toE w := by ext i; simp
theorem toE_neg (v : Vec ℝ N) : toE (-v) = -toE v := by ext i; simp
theorem toE_mulS (v : Vec ℝ N) (s : ℝ) : toE (v.mulS s) = s • toE v := by ext i; simp [mul_comm]
theorem toE_divS (v : Vec ℝ N) (s : ℝ) : toE (v.divS s) = s⁻¹ • toE v := by ext i; simp [div_eq_inv_mul]
theorem abs_le_norm (x : EuclideanSpace ℝ (Fin N)) (i : Fin N) : |x i| ≤ ‖x‖ := by
  simpa using PiLp.norm_apply_le x i
/-- The vector with given components. -/
def ofFn (f : Fin N → ℝ) : Vec ℝ N := ⟨Vector.ofFn f⟩
@[simp] theorem ofFn_get (f : Fin N → ℝ) (i : Fin N) : (ofFn f)[i.1] = f i := by
  show (Vector.ofFn f)[i.1] = f i
  simp

theorem gam_le {n : ℕ} (hn : n ≤ 2 ^ 20) : gam (1 / 2 ^ 53 : ℝ) n ≤ n / 2 ^ 53 + 1 / 2 ^ 65 := by
  have hn' : (n : ℝ) ≤ 2 ^ 20 := by exact_mod_cast hn
  have n0 : (0:ℝ) ≤ n := Nat.cast_nonneg n
  have hk : (n : ℝ) * (1 / 2 ^ 53) < 1 := by
    calc (n : ℝ) * (1 / 2 ^ 53) ≤ 2 ^ 20 * (1 / 2 ^ 53) := by gcongr
      _ < 1 := by norm_num
  refine (C70_factor (by positivity) n hk).trans ?_
  rw [div_le_iff₀ (by linarith)]
  have e : (n:ℝ) / 2 ^ 53 = n * (1 / 2 ^ 53) := by ring
  rw [e]
  have hx0 : 0 ≤ (n:ℝ) * (1 / 2 ^ 53) := by positivity
  have hx : (n:ℝ) * (1 / 2 ^ 53) ≤ 1 / 2 ^ 33 := by
    calc (n : ℝ) * (1 / 2 ^ 53) ≤ 2 ^ 20 * (1 / 2 ^ 53) := by gcongr
      _ = 1 / 2 ^ 33 := by norm_num
  have := mul_le_mul hx hx hx0 (by positivity)
  norm_num at this hx ⊢
  nlinarith
theorem errNN {n : ℕ} (hn : n ≤ 2 ^ 20) {s : ℝ} (hs : (1 / 2 ^ 800 : ℝ) ≤ s) : errBound Fmt.f64 n n s ≤ (n + 1) / 2 ^ 53 * s := by
  have hn' : (n : ℝ) ≤ 2 ^ 20 := by exact_mod_cast hn
  have s0 : 0 ≤ s := le_trans (by positivity) hs
  have g := gam_le hn
  have g1 : (1 + 1 / 2 ^ 53 : ℝ) ^ n ≤ 2 := by
    have : gam (1 / 2 ^ 53 : ℝ) n = (1 + 1 / 2 ^ 53 : ℝ) ^ n - 1 := rfl
    rw [this] at g
    calc (1 + 1 / 2 ^ 53 : ℝ) ^ n ≤ 1 + (n / 2 ^ 53 + 1 / 2 ^ 65) := by linarith
      _ ≤ 1 + (2 ^ 20 / 2 ^ 53 + 1 / 2 ^ 65) := by gcongr
      _ ≤ 2 := by norm_num
  unfold errBound
  rw [u_eq, tiny_eq]
  calc gam (1 / 2 ^ 53) n * s + n * (1 / 2 ^ 1075) * (1 + 1 / 2 ^ 53) ^ n
      ≤ (n / 2 ^ 53 + 1 / 2 ^ 65) * s + 2 ^ 20 * (1 / 2 ^ 1075) * 2 := by gcongr
    _ ≤ (n / 2 ^ 53 + 1 / 2 ^ 65) * s + 1 / 2 ^ 60 * (1 / 2 ^ 800) := add_le_add le_rfl (by norm_num)
    _ ≤ (n / 2 ^ 53 + 1 / 2 ^ 65) * s + 1 / 2 ^ 60 * s := by gcongr
    _ = n / 2 ^ 53 * s + (1 / 2 ^ 65 + 1 / 2 ^ 60) * s := by ring
    _ ≤ n / 2 ^ 53 * s + (1 / 2 ^ 53) * s := by gcongr; norm_num
    _ = _ := by ring

/-- Relative error of a length. -/
theorem len_val [NeZero N] (hN : N ≤ 2 ^ 20) {v : Vec F N} {X : Vec ℝ N} (hv : ValV v X) (hl : 1 / 2 ^ 400 ≤ X.length) (hr : X.length ≤ 2 ^ 400) :
    ∃ l, v.length.toReal? = some l ∧ |l - X.length| ≤ (N + 5) / 2 ^ 54 * X.length := by
  obtain ⟨d, hd, h1, h2⟩ := C84_length C80_formats.2 (by decide) (Nat.pos_of_ne_zero (NeZero.ne N)) v (fun i => X[i.1]) hv
  rw [Vec.length_ok] at hd; cases hd
  have hN' : (N : ℝ) ≤ 2 ^ 20 := by exact_mod_cast hN
  have n0 : (0:ℝ) ≤ N := Nat.cast_nonneg N
  have ρ0 : 0 < X.length := lt_of_lt_of_le (by positivity) hl
  have hs : ∑ i : Fin N, X[i.1] ^ 2 = X.length ^ 2 := by
    rw [length_eq, Real.sq_sqrt (Finset.sum_nonneg fun i _ => sq_nonneg _)]
  rw [hs] at h1 h2
  have hE := errNN hN (s := X.length ^ 2) (by
    calc (1 / 2 ^ 800 : ℝ) = (1 / 2 ^ 400) ^ 2 := by norm_num
      _ ≤ _ := by gcongr)
  generalize hρ : X.length = ρ at *
  generalize hB : errBound Fmt.f64 N N (ρ ^ 2) = B at *
  set E : ℝ := (N + 1) / 2 ^ 53 with hEd
  have E0 : 0 ≤ E := by positivity
  have E1 : E ≤ 1 / 2 ^ 32 := by
    calc E ≤ (2 ^ 20 + 1) / 2 ^ 53 := by rw [hEd]; gcongr
      _ ≤ _ := by norm_num
  obtain ⟨l, hlv⟩ := h2 (by
    rw [huge_eq]
    calc ρ ^ 2 + B ≤ (2 ^ 400) ^ 2 + 1 / 2 ^ 32 * (2 ^ 400) ^ 2 := by
            refine add_le_add (by gcongr) (hE.trans (by gcongr))
      _ < _ := by norm_num)
  obtain ⟨a, b⟩ := h1 l hlv
  rw [u_eq] at a b
  refine ⟨l, hlv, abs_le.2 ⟨?_, ?_⟩⟩
  · have : (1 - E / 2 - E ^ 2 / 2) * ρ ≤ Real.sqrt (ρ ^ 2 - B) := by
      apply Real.le_sqrt_of_sq_le
      have : (1 - E / 2 - E ^ 2 / 2) ^ 2 ≤ 1 - E := by nlinarith [sq_nonneg E, mul_nonneg E0 (sq_nonneg E)]
      calc ((1 - E / 2 - E ^ 2 / 2) * ρ) ^ 2 = (1 - E / 2 - E ^ 2 / 2) ^ 2 * ρ ^ 2 := by ring
        _ ≤ (1 - E) * ρ ^ 2 := by gcongr
        _ ≤ _ := by linarith
    have h := (mul_le_mul_of_nonneg_left this (by norm_num : (0:ℝ) ≤ 1 - 1 / 2 ^ 53)).trans a
    have k : 1 - (N + 5) / 2 ^ 54 ≤ (1 - 1 / 2 ^ 53) * (1 - E / 2 - E ^ 2 / 2) := by
      have e2 : (N + 5 : ℝ) / 2 ^ 54 = E / 2 + 2 * (1 / 2 ^ 53) := by rw [hEd]; ring
      rw [e2]
      have e3 : E ^ 2 ≤ 1 / 2 ^ 60 := by calc E ^ 2 ≤ (1 / 2 ^ 32) ^ 2 := by gcongr
                                          _ ≤ _ := by norm_num
      norm_num at e3 E1 ⊢
      nlinarith
    have := mul_le_mul_of_nonneg_right k ρ0.le
    nlinarith
  · have : Real.sqrt (ρ ^ 2 + B) ≤ (1 + E / 2) * ρ := by
      rw [Real.sqrt_le_left (by positivity)]
      nlinarith [mul_nonneg (sq_nonneg E) (sq_nonneg ρ)]
    have h := b.trans (mul_le_mul_of_nonneg_left this (by norm_num : (0:ℝ) ≤ 1 + 1 / 2 ^ 53))
    have k : (1 + 1 / 2 ^ 53) * (1 + E / 2) ≤ 1 + (N + 5) / 2 ^ 54 := by
      have e2 : (N + 5 : ℝ) / 2 ^ 54 = E / 2 + 2 * (1 / 2 ^ 53) := by rw [hEd]; ring
      rw [e2]
      norm_num at E1 ⊢
      nlinarith
    have := mul_le_mul_of_nonneg_right k ρ0.le
    nlinarith

/-- Error of a normalised vector. -/
theorem nrm_val [NeZero N] (hN : N ≤ 2 ^ 20) {v : Vec F N} {X : Vec ℝ N} (hv : ValV v X) (hl : 1 / 2 ^ 400 ≤ X.length) (hr : X.length ≤ 2 ^ 400) :
    ∃ W, ValV v.normalize W ∧ (W - X.normalize).length ≤ (N + 9) / 2 ^ 54 := by
  obtain ⟨l, hlv, he⟩ := len_val hN hv hl hr
  have hN' : (N : ℝ) ≤ 2 ^ 20 := by exact_mod_cast hN
  have n0 : (0:ℝ) ≤ N := Nat.cast_nonneg N
  have ρ0 : 0 < X.length := lt_of_lt_of_le (by positivity) hl
  generalize hρ : X.length = ρ at *
  set ε : ℝ := (N + 5) / 2 ^ 54 with hε
  have ε0 : 0 ≤ ε := by positivity
  have ε1 : ε ≤ 1 / 2 ^ 33 := by
    calc ε ≤ (2 ^ 20 + 5) / 2 ^ 54 := by rw [hε]; gcongr
      _ ≤ _ := by norm_num
  obtain ⟨a, b⟩ := abs_le.1 he
  have hlρ : (1 - 1 / 2 ^ 33) * ρ ≤ l := by nlinarith
  have l0 : 0 < l := lt_of_lt_of_le (by positivity) hlρ
  have q : ρ / l ≤ 1 + 1 / 2 ^ 32 := by
    rw [div_le_iff₀ l0]; nlinarith
  have q0 : 0 ≤ ρ / l := by positivity
  have hx : ∀ i : Fin N, |X[i.1]| ≤ ρ := fun i => by
    rw [← hρ, ← norm_toE]; exact abs_le_norm (toE X) i
  have hc : ∀ i : Fin N, ∃ r, v.normalize[i.1].toReal? = some r ∧ |r - X[i.1] / l| ≤ 1 / 2 ^ 53 * |X[i.1] / l| + 1 / 2 ^ 1075 := fun i => by
    have e : v.normalize[i.1] = v[i.1] / v.length := by simp [Vec.normalize]
    rw [e]
    refine div_comp (hv i) hlv l0 ?_
    rw [abs_div, abs_of_pos l0]
    calc |X[i.1]| / l ≤ ρ / l := by gcongr; exact hx i
      _ ≤ 1 + 1 / 2 ^ 32 := q
      _ ≤ _ := by norm_num
  choose w hw hwe using hc
  refine ⟨ofFn w, fun i => by rw [ofFn_get]; exact hw i, ?_⟩
  have e1 : ‖toE (ofFn w) - l⁻¹ • toE X‖ ≤ 1 / 2 ^ 53 * (ρ / l) + N * (1 / 2 ^ 1075) := by
    set t : EuclideanSpace ℝ (Fin N) := (1 / 2 ^ 53 : ℝ) • WithLp.toLp 2 (fun i : Fin N => |X[i.1] / l|) + WithLp.toLp 2 (fun _ : Fin N => (1 / 2 ^ 1075 : ℝ)) with ht
    have c1 : ‖(WithLp.toLp 2 (fun i : Fin N => |X[i.1] / l|) : EuclideanSpace ℝ (Fin N))‖ = ρ / l := by
      have e : ‖(WithLp.toLp 2 (fun i : Fin N => |X[i.1] / l|) : EuclideanSpace ℝ (Fin N))‖ = ‖l⁻¹ • toE X‖ := by
        rw [EuclideanSpace.norm_eq, EuclideanSpace.norm_eq]
        congr 1
        refine Finset.sum_congr rfl fun i _ => ?_
        simp [div_eq_inv_mul]
      rw [e, norm_smul, norm_toE, hρ, Real.norm_eq_abs, abs_of_pos (by positivity), div_eq_inv_mul]
    have c2 : ‖(WithLp.toLp 2 (fun _ : Fin N => (1 / 2 ^ 1075 : ℝ)) : EuclideanSpace ℝ (Fin N))‖ ≤ N * (1 / 2 ^ 1075) := by
      rw [EuclideanSpace.norm_eq, Real.sqrt_le_left (by positivity)]
      simp only [Finset.sum_const, Finset.card_univ, Fintype.card_fin, nsmul_eq_mul, Real.norm_eq_abs, sq_abs]
      have h1 : (1:ℝ) ≤ N := by exact_mod_cast Nat.pos_of_ne_zero (NeZero.ne N)
      rw [mul_pow]
      gcongr
      nlinarith
    calc ‖toE (ofFn w) - l⁻¹ • toE X‖ ≤ ‖t‖ := by
          rw [EuclideanSpace.norm_eq, EuclideanSpace.norm_eq]
          apply Real.sqrt_le_sqrt
          refine Finset.sum_le_sum fun i _ => ?_
          have := hwe i
          have e : (toE (ofFn w) - l⁻¹ • toE X) i = w i - X[i.1] / l := by
            simp [div_eq_inv_mul]
          have e' : t i = 1 / 2 ^ 53 * |X[i.1] / l| + 1 / 2 ^ 1075 := by simp [ht]
          rw [e, e', Real.norm_eq_abs, Real.norm_eq_abs]
          exact pow_le_pow_left₀ (abs_nonneg _) (this.trans (le_abs_self _)) 2
      _ ≤ _ := norm_add_le _ _
      _ ≤ _ := by rw [norm_smul, c1, Real.norm_eq_abs, abs_of_pos (by positivity)]; gcongr
  have e2 : ‖l⁻¹ • toE X - ρ⁻¹ • toE X‖ ≤ ε * (ρ / l) := by
    rw [← sub_smul, norm_smul, norm_toE, hρ, Real.norm_eq_abs]
    have : l⁻¹ - ρ⁻¹ = -((l - ρ) / (l * ρ)) := by field_simp; ring
    rw [this, abs_neg, abs_div, abs_of_pos (mul_pos l0 ρ0)]
    calc |l - ρ| / (l * ρ) * ρ ≤ (ε * ρ) / (l * ρ) * ρ := by gcongr
      _ = ε * (ρ / l) := by field_simp
  have hn : toE X.normalize = ρ⁻¹ • toE X := by rw [← hρ]; exact toE_divS X X.length
  rw [← norm_toE, toE_sub, hn]
  calc ‖toE (ofFn w) - ρ⁻¹ • toE X‖ = ‖(toE (ofFn w) - l⁻¹ • toE X) + (l⁻¹ • toE X - ρ⁻¹ • toE X)‖ := by congr 1; abel
    _ ≤ _ := norm_add_le _ _
    _ ≤ (1 / 2 ^ 53 * (ρ / l) + N * (1 / 2 ^ 1075)) + ε * (ρ / l) := add_le_add e1 e2
    _ ≤ (1 / 2 ^ 53 * (1 + 1 / 2 ^ 32) + 2 ^ 20 * (1 / 2 ^ 1075)) + ε * (1 + 1 / 2 ^ 32) := by gcongr
    _ = ε + (1 / 2 ^ 53 * (1 + 1 / 2 ^ 32) + 2 ^ 20 * (1 / 2 ^ 1075) + ε * (1 / 2 ^ 32)) := by ring
    _ ≤ ε + (1 / 2 ^ 53 * (1 + 1 / 2 ^ 32) + 2 ^ 20 * (1 / 2 ^ 1075) + 1 / 2 ^ 33 * (1 / 2 ^ 32)) := by gcongr
    _ ≤ ε + 2 / 2 ^ 53 := add_le_add le_rfl (by norm_num)
    _ = _ := by rw [hε]; ring

/-! ## cross products -/

theorem length3 (X : Vec ℝ 3) : X.length ^ 2 = X[0] ^ 2 + X[1] ^ 2 + X[2] ^ 2 := by
  rw [length_eq, Real.sq_sqrt (Finset.sum_nonneg fun i _ => sq_nonneg _), Fin.sum_univ_three]; rfl
theorem length_nonneg [NeZero N] (X : Vec ℝ N) : 0 ≤ X.length := Real.sqrt_nonneg _
theorem length_le_of_sq [NeZero N] {X : Vec ℝ N} {b : ℝ} (hb : 0 ≤ b) (h : X.length ^ 2 ≤ b ^ 2) : X.length ≤ b := by
  exact abs_le_of_sq_le_sq' h hb |>.2
theorem cross_lagrange (X Y : Vec ℝ 3) : (X.cross3 Y).length ^ 2 = X.length ^ 2 * Y.length ^ 2 - X.dot Y ^ 2 := by
  have hd : X.dot Y = X[0] * Y[0] + X[1] * Y[1] + X[2] * Y[2] := by rw [Vec.dot_eq_sum, Fin.sum_univ_three]; rfl
  rw [length3, length3, length3, hd, Vec.cross3_0, Vec.cross3_1, Vec.cross3_2]
  ring
theorem cross_le (X Y : Vec ℝ 3) : (X.cross3 Y).length ≤ X.length * Y.length := by
  refine length_le_of_sq (mul_nonneg (length_nonneg X) (length_nonneg Y)) ?_
  rw [cross_lagrange, mul_pow]; nlinarith [sq_nonneg (X.dot Y)]
theorem length_le3' {X : Vec ℝ 3} {b : ℝ} (h : ∀ i : Fin 3, |X[i.1]| ≤ b) : X.length ≤ 2 * b := by
  have h0 := h 0; have h1 := h 1; have h2 := h 2
  have hb : 0 ≤ b := (abs_nonneg _).trans h0
  refine length_le_of_sq (by linarith) ?_
  rw [length3]
  have s : ∀ {x : ℝ}, |x| ≤ b → x ^ 2 ≤ b ^ 2 := fun {x} h => by rw [← sq_abs x]; exact pow_le_pow_left₀ (abs_nonneg x) h 2
  have a0 := s h0; have a1 := s h1; have a2 := s h2
  simp only [Fin.val_zero, Fin.val_one, Fin.val_two] at a0 a1 a2
  nlinarith [sq_nonneg b]
theorem cross_val {v w : Vec F 3} {X Y : Vec ℝ 3} (hv : ValV v X) (hw : ValV w Y) (h : X.length * Y.length ≤ 2 ^ 1000) :
    ∃ W, ValV (v.cross3 w) W ∧ (W - X.cross3 Y).length ≤ 17 / 2 ^ 55 * (X.length * Y.length) + 1 / 2 ^ 1072 := by
  have m0 : 0 ≤ X.length * Y.length := mul_nonneg (length_nonneg X) (length_nonneg Y)
  have hc : ∀ i : Fin 3, ∃ r, (v.cross3 w)[i.1].toReal? = some r ∧ |r - (X.cross3 Y)[i.1]| ≤ 17 / 2 ^ 56 * (X.length * Y.length) + 1 / 2 ^ 1073 := by
    intro i
    have c := C84_cross3 C80_formats.2 v w (fun i => X[i.1]) (fun i => Y[i.1]) hv hw i
    have e : (X.cross3 Y)[i.1] = X[(i + 1).1] * Y[(i + 2).1] - X[(i + 2).1] * Y[(i + 1).1] := by
      fin_cases i <;> simp [Vec.cross3, Vec.fromArray]
    rw [← e] at c
    have hm : |X[(i + 1).1]| * |Y[(i + 2).1]| + |X[(i + 2).1]| * |Y[(i + 1).1]| ≤ X.length * Y.length := by
      refine (abs_le_of_sq_le_sq' ?_ m0).2
      rw [mul_pow, length3, length3]
      have cs : ∀ a b c d e f : ℝ, (|a| * |d| + |b| * |c|) ^ 2 ≤ (a ^ 2 + b ^ 2 + e ^ 2) * (c ^ 2 + d ^ 2 + f ^ 2) := fun a b c d e f => by
        have ha := sq_abs a; have hb := sq_abs b; have hc := sq_abs c; have hd := sq_abs d
        nlinarith [sq_nonneg (|a| * |c| - |b| * |d|), mul_nonneg (sq_nonneg e) (sq_nonneg c), mul_nonneg (sq_nonneg e) (sq_nonneg d), mul_nonneg (sq_nonneg e) (sq_nonneg f),
          mul_nonneg (sq_nonneg a) (sq_nonneg f), mul_nonneg (sq_nonneg b) (sq_nonneg f), mul_nonneg (sq_nonneg a) (sq_nonneg d)]
      fin_cases i
      · exact (cs X[1] X[2] Y[1] Y[2] X[0] Y[0]).trans (le_of_eq (by ring))
      · exact (cs X[2] X[0] Y[2] Y[0] X[1] Y[1]).trans (le_of_eq (by ring))
      · exact (cs X[0] X[1] Y[0] Y[1] X[2] Y[2]).trans (le_of_eq (by ring))
    have cm : errBound Fmt.f64 2 2 (|X[(i + 1).1]| * |Y[(i + 2).1]| + |X[(i + 2).1]| * |Y[(i + 1).1]|) ≤ 17 / 2 ^ 56 * (X.length * Y.length) + 1 / 2 ^ 1073 := by
      refine (err22 (by positivity)).trans ?_
      gcongr
    refine close_val c cm ?_
    calc _ ≤ 2 ^ 1000 + (17 / 2 ^ 56 * 2 ^ 1000 + 1 / 2 ^ 1073) := by
            refine add_le_add (hm.trans h) ?_; gcongr
      _ < (2:ℝ) ^ 1024 := by norm_num
  choose r hr he using hc
  refine ⟨ofFn r, fun i => by rw [ofFn_get]; exact hr i, ?_⟩
  refine (length_le3' (b := 17 / 2 ^ 56 * (X.length * Y.length) + 1 / 2 ^ 1073) fun i => ?_).trans (le_of_eq (by ring))
  rw [Vec.getElem_sub, ofFn_get]; exact he i

/-! ## orthogonal frames -/

theorem unit_sub {E : Type*} [NormedAddCommGroup E] [NormedSpace ℝ E] {x y : E} (hx : x ≠ 0) (hy : y ≠ 0) :
    ‖‖x‖⁻¹ • x - ‖y‖⁻¹ • y‖ ≤ 2 * ‖x - y‖ / ‖y‖ := by
  have hx' : 0 < ‖x‖ := norm_pos_iff.2 hx
  have hy' : 0 < ‖y‖ := norm_pos_iff.2 hy
  have e : ‖x‖⁻¹ • x - ‖y‖⁻¹ • y = ‖y‖⁻¹ • (x - y) + (‖x‖⁻¹ - ‖y‖⁻¹) • x := by
    rw [smul_sub, sub_smul]; abel
  rw [e]
  refine (norm_add_le _ _).trans ?_
  rw [norm_smul, norm_smul, norm_inv, norm_norm, Real.norm_eq_abs]
  have h : |‖x‖⁻¹ - ‖y‖⁻¹| * ‖x‖ ≤ ‖x - y‖ / ‖y‖ := by
    have e : ‖x‖⁻¹ - ‖y‖⁻¹ = (‖y‖ - ‖x‖) / (‖x‖ * ‖y‖) := by field_simp
    rw [e, abs_div, abs_of_pos (mul_pos hx' hy'), div_mul_eq_mul_div, div_le_div_iff₀ (mul_pos hx' hy') hy']
    have := abs_norm_sub_norm_le y x
    rw [norm_sub_rev] at this
    calc |‖y‖ - ‖x‖| * ‖x‖ * ‖y‖ ≤ ‖x - y‖ * ‖x‖ * ‖y‖ := by gcongr
      _ = _ := by ring
  calc ‖y‖⁻¹ * ‖x - y‖ + |‖x‖⁻¹ - ‖y‖⁻¹| * ‖x‖ ≤ ‖y‖⁻¹ * ‖x - y‖ + ‖x - y‖ / ‖y‖ := by gcongr
    _ = _ := by ring
theorem normalize_eq [NeZero N] (X : Vec ℝ N) : toE X.normalize = ‖toE X‖⁻¹ • toE X := by rw [norm_toE]; exact toE_divS X X.length
theorem normalize_length [NeZero N] {X : Vec ℝ N} (h : 0 < X.length) : X.normalize.length = 1 := by
  rw [← norm_toE] at h ⊢
  rw [normalize_eq, norm_smul, norm_inv, norm_norm, inv_mul_cancel₀ h.ne']
theorem cross_sub_left (X X' Y : Vec ℝ 3) : X.cross3 Y - X'.cross3 Y = (X - X').cross3 Y := by
  refine Vec.ext3 ?_ ?_ ?_ <;> simp <;> ring
theorem length_tri [NeZero N] (X Y Z : Vec ℝ N) : (X - Z).length ≤ (X - Y).length + (Y - Z).length := by
  rw [← norm_toE, ← norm_toE, ← norm_toE, toE_sub, toE_sub, toE_sub]
  exact norm_sub_le_norm_sub_add_norm_sub _ _ _
theorem length_close [NeZero N] (X Y : Vec ℝ N) : |X.length - Y.length| ≤ (X - Y).length := by
  rw [← norm_toE, ← norm_toE, ← norm_toE, toE_sub]; exact abs_norm_sub_norm_le _ _

theorem frame_val {dir up : Vec F 3} {D U : Vec ℝ 3} (hd : ValV dir D) (hu : ValV up U) (hD : |D.length - 1| ≤ 1 / 2 ^ 10)
    (ul : 1 / 2 ^ 300 ≤ U.length) (ur : U.length ≤ 2 ^ 300) {σ : ℝ} (hσ : 1 / 2 ^ 40 ≤ σ) (hc : σ * (D.length * U.length) ≤ (D.cross3 U).length) :
    ∃ R S, ValV (dir.cross3 up).normalize R ∧ ValV ((dir.cross3 up).normalize.cross3 dir) S ∧
      (R - (D.cross3 U).normalize).length ≤ (6 + 9 / σ) / 2 ^ 53 ∧
      (S - (D.cross3 U).normalize.cross3 D).length ≤ (11 + 10 / σ) / 2 ^ 53 := by
  obtain ⟨dl, dr⟩ := abs_le.1 hD
  have dl' : 1 - 1 / 2 ^ 10 ≤ D.length := by linarith
  have dr' : D.length ≤ 1 + 1 / 2 ^ 10 := by linarith
  have σ0 : 0 < σ := lt_of_lt_of_le (by positivity) hσ
  have u0 : 0 < U.length := lt_of_lt_of_le (by positivity) ul
  have d0 : 0 < D.length := lt_of_lt_of_le (by norm_num) dl'
  set m := D.length * U.length with hm
  set γ := (D.cross3 U).length with hγ
  have m0 : 0 < m := mul_pos d0 u0
  have ml : 1 / 2 ^ 301 ≤ m := by
    calc (1 / 2 ^ 301 : ℝ) ≤ (1 - 1 / 2 ^ 10) * (1 / 2 ^ 300) := by norm_num
      _ ≤ m := by rw [hm]; gcongr
  have mr : m ≤ 2 ^ 301 := by
    calc m ≤ (1 + 1 / 2 ^ 10) * 2 ^ 300 := by rw [hm]; gcongr
      _ ≤ _ := by norm_num
  have γl : 1 / 2 ^ 341 ≤ γ := by
    calc (1 / 2 ^ 341 : ℝ) = 1 / 2 ^ 40 * (1 / 2 ^ 301) := by norm_num
      _ ≤ σ * m := by gcongr
      _ ≤ _ := hc
  have γ0 : 0 < γ := lt_of_lt_of_le (by positivity) γl
  have γr : γ ≤ 2 ^ 301 := (cross_le D U).trans mr
  have mσ : m ≤ γ / σ := by rw [le_div_iff₀ σ0]; linarith [mul_comm σ m]
  obtain ⟨C, hC, eC⟩ := cross_val hd hu (mr.trans (by norm_num))
  have eC' : (C - D.cross3 U).length ≤ 35 / 8 / 2 ^ 53 * (γ / σ) := by
    refine eC.trans ?_
    calc 17 / 2 ^ 55 * m + 1 / 2 ^ 1072 ≤ 17 / 2 ^ 55 * m + 1 / 8 / 2 ^ 53 * (1 / 2 ^ 301) := add_le_add le_rfl (by norm_num)
      _ ≤ 17 / 2 ^ 55 * m + 1 / 8 / 2 ^ 53 * m := by gcongr
      _ = 35 / 8 / 2 ^ 53 * m := by ring
      _ ≤ _ := by gcongr
  have eC2 : (C - D.cross3 U).length ≤ 1 / 2 ^ 10 * γ := by
    refine eC'.trans ?_
    rw [div_eq_mul_one_div γ σ]
    have : 1 / σ ≤ 2 ^ 40 := by rw [div_le_iff₀ σ0]; linarith [mul_le_mul_of_nonneg_left hσ (by positivity : (0:ℝ) ≤ 2 ^ 40)]
    calc 35 / 8 / 2 ^ 53 * (γ * (1 / σ)) ≤ 35 / 8 / 2 ^ 53 * (γ * 2 ^ 40) := by gcongr
      _ = (35 / 8 / 2 ^ 53 * 2 ^ 40) * γ := by ring
      _ ≤ _ := by gcongr; norm_num
  obtain ⟨c1, c2⟩ := abs_le.1 ((length_close C (D.cross3 U)).trans eC2)
  have Cl : (1 - 1 / 2 ^ 10) * γ ≤ C.length := by linarith
  have Cr : C.length ≤ (1 + 1 / 2 ^ 10) * γ := by linarith
  have C0 : 0 < C.length := lt_of_lt_of_le (by positivity) Cl
  obtain ⟨R, hR, eR⟩ := nrm_val (N := 3) (by norm_num) hC (by
      calc (1 / 2 ^ 400 : ℝ) ≤ (1 - 1 / 2 ^ 10) * (1 / 2 ^ 341) := by norm_num
        _ ≤ (1 - 1 / 2 ^ 10) * γ := mul_le_mul_of_nonneg_left γl (by norm_num)
        _ ≤ _ := Cl) (by
      calc C.length ≤ (1 + 1 / 2 ^ 10) * γ := Cr
        _ ≤ (1 + 1 / 2 ^ 10) * 2 ^ 301 := by gcongr
        _ ≤ _ := by norm_num)
  have eN : (C.normalize - (D.cross3 U).normalize).length ≤ 35 / 4 / 2 ^ 53 / σ := by
    rw [← norm_toE, toE_sub, normalize_eq, normalize_eq]
    refine (unit_sub (by rw [← norm_pos_iff, norm_toE]; exact C0) (by rw [← norm_pos_iff, norm_toE]; exact γ0)).trans ?_
    rw [← toE_sub, norm_toE, norm_toE, ← hγ, div_le_iff₀ γ0]
    calc 2 * (C - D.cross3 U).length ≤ 2 * (35 / 8 / 2 ^ 53 * (γ / σ)) := by gcongr
      _ = _ := by ring
  have eR' : (R - (D.cross3 U).normalize).length ≤ (6 + 35 / 4 / σ) / 2 ^ 53 := by
    refine (length_tri R C.normalize _).trans ?_
    refine (add_le_add eR eN).trans (le_of_eq ?_)
    push_cast; ring
  have iσ : 0 < 1 / σ := by positivity
  have iσ2 : 1 / σ ≤ 2 ^ 40 := by rw [div_le_iff₀ σ0]; linarith [mul_le_mul_of_nonneg_left hσ (by positivity : (0:ℝ) ≤ 2 ^ 40)]
  have e9 : ∀ c : ℝ, c / σ = c * (1 / σ) := fun c => by ring
  have Rl : R.length ≤ 1 + 1 / 2 ^ 9 := by
    have h1 := (length_close R (D.cross3 U).normalize).trans eR'
    rw [normalize_length γ0] at h1
    have := (abs_le.1 h1).2
    rw [e9] at this
    have h2 : (6 + 35 / 4 * (1 / σ)) / 2 ^ 53 ≤ (6 + 35 / 4 * 2 ^ 40) / 2 ^ 53 := by gcongr
    have h3 : ((6 + 35 / 4 * 2 ^ 40) / 2 ^ 53 : ℝ) ≤ 1 / 2 ^ 9 := by norm_num
    linarith
  have RD : R.length * D.length ≤ 1 + 1 / 2 ^ 8 := by
    calc R.length * D.length ≤ (1 + 1 / 2 ^ 9) * (1 + 1 / 2 ^ 10) := by gcongr
      _ ≤ _ := by norm_num
  obtain ⟨S, hS, eS⟩ := cross_val hR hd (RD.trans (by norm_num))
  refine ⟨R, S, hR, hS, eR'.trans ?_, ?_⟩
  · rw [e9 (35 / 4), e9 9]
    refine div_le_div_of_nonneg_right ?_ (by positivity)
    nlinarith
  refine (length_tri S (R.cross3 D) _).trans ?_
  rw [cross_sub_left]
  have e3 := (cross_le (R - (D.cross3 U).normalize) D).trans (mul_le_mul eR' dr' d0.le (by positivity))
  refine (add_le_add eS e3).trans ?_
  rw [e9 (35 / 4), e9 10]
  calc 17 / 2 ^ 55 * (R.length * D.length) + 1 / 2 ^ 1072 + (6 + 35 / 4 * (1 / σ)) / 2 ^ 53 * (1 + 1 / 2 ^ 10)
      ≤ 17 / 2 ^ 55 * (1 + 1 / 2 ^ 8) + 1 / 2 ^ 60 + (6 + 35 / 4 * (1 / σ)) / 2 ^ 53 * (1 + 1 / 2 ^ 10) :=
        add_le_add (add_le_add (mul_le_mul_of_nonneg_left RD (by positivity)) (by norm_num)) le_rfl
    _ ≤ (11 + 10 * (1 / σ)) / 2 ^ 53 := by
        generalize 1 / σ = t at *
        norm_num
        nlinarith
end F64
end Vecmat
