import Verif.Model.Math
import Verif.Model.Real
import Verif.Lemmas.VectorPure
import Verif.Lemmas.VectorOps
import Verif.Lemmas.MatrixOps
/-!
# C25 element-wise float functions and broadcasting (generated by tools/genmath.py)
The scalar functions are arbitrary: no law of `FloatOps` is used except in the clauses about `ℝ`.
-/
namespace Vecmat
variable {T A B : Type} {M N : Nat}

/-- Every unary float method of a vector applies its scalar function at each index. -/
theorem C25_vector_unary [FloatOps T] (s : Vec T N) :
    ∀ i (h : i < N), 
    s.abs[i] = FloatOps.abs s[i] ∧
    s.signum[i] = FloatOps.signum s[i] ∧
    s.cbrt[i] = FloatOps.cbrt s[i] ∧
    s.sqrt[i] = FloatOps.sqrt s[i] ∧
    s.acos[i] = FloatOps.acos s[i] ∧
    s.asin[i] = FloatOps.asin s[i] ∧
    s.atan[i] = FloatOps.atan s[i] ∧
    s.cosh[i] = FloatOps.cosh s[i] ∧
    s.sinh[i] = FloatOps.sinh s[i] ∧
    s.tan[i] = FloatOps.tan s[i] ∧
    s.tanh[i] = FloatOps.tanh s[i] ∧
    s.log2[i] = FloatOps.log2 s[i] ∧
    s.exp[i] = FloatOps.exp s[i] ∧
    s.ln[i] = FloatOps.ln s[i] ∧
    s.sin[i] = FloatOps.sin s[i] ∧
    s.cos[i] = FloatOps.cos s[i] ∧
    s.asinh[i] = FloatOps.asinh s[i] ∧
    s.acosh[i] = FloatOps.acosh s[i] ∧
    s.atanh[i] = FloatOps.atanh s[i] ∧
    s.floor[i] = FloatOps.floor s[i] ∧
    s.ceil[i] = FloatOps.ceil s[i] ∧
    s.round[i] = FloatOps.round s[i] ∧
    s.trunc[i] = FloatOps.trunc s[i] ∧
    s.fract[i] = FloatOps.fract s[i] ∧
    s.recip[i] = FloatOps.recip s[i] ∧
    s.exp2[i] = FloatOps.exp2 s[i] ∧
    s.log10[i] = FloatOps.log10 s[i] ∧
    s.expM1[i] = FloatOps.expM1 s[i] ∧
    s.ln1p[i] = FloatOps.ln1p s[i] := by
  intros; simp only [Vec.abs, Vec.signum, Vec.cbrt, Vec.sqrt, Vec.acos, Vec.asin, Vec.atan, Vec.cosh, Vec.sinh, Vec.tan, Vec.tanh, Vec.log2, Vec.exp, Vec.ln, Vec.sin, Vec.cos, Vec.asinh, Vec.acosh, Vec.atanh, Vec.floor, Vec.ceil, Vec.round, Vec.trunc, Vec.fract, Vec.recip, Vec.exp2, Vec.log10, Vec.expM1, Vec.ln1p, Vec.getElem_map, and_self]
/-- Binary float methods of a vector combine equal indices, in this operand order, after broadcasting the other operand. -/
theorem C25_vector_binary [FloatOps T] [Broadcast B (Vec T N)] (s : Vec T N) (o : B) :
    ∀ i (h : i < N), 
    (s.absSub o)[i] = FloatOps.absSub s[i] (broadcast o : Vec T N)[i] ∧
    (s.vmin o)[i] = FloatOps.fmin s[i] (broadcast o : Vec T N)[i] ∧
    (s.vmax o)[i] = FloatOps.fmax s[i] (broadcast o : Vec T N)[i] ∧
    (s.atan2 o)[i] = FloatOps.atan2 s[i] (broadcast o : Vec T N)[i] ∧
    (s.hypot o)[i] = FloatOps.hypot s[i] (broadcast o : Vec T N)[i] ∧
    (s.powf o)[i] = FloatOps.powf s[i] (broadcast o : Vec T N)[i] ∧
    (s.log o)[i] = FloatOps.log s[i] (broadcast o : Vec T N)[i] := by
  intros; simp only [Vec.absSub, Vec.vmin, Vec.vmax, Vec.atan2, Vec.hypot, Vec.powf, Vec.log, Vec.getElem_map, Vec.getElem_zip, and_self]
theorem C25_vector_powi [FloatOps T] [Broadcast B (Vec Int N)] (s : Vec T N) (o : B) :
    ∀ i (h : i < N), (s.powi o)[i] = FloatOps.powi s[i] (broadcast o : Vec Int N)[i] := by
  intros; simp only [Vec.powi, Vec.getElem_map, Vec.getElem_zip]
theorem C25_vector_ternary [FloatOps T] [Broadcast A (Vec T N)] [Broadcast B (Vec T N)] (s : Vec T N) (a : A) (b : B) :
    ∀ i (h : i < N), 
    (s.mulAdd a b)[i] = FloatOps.mulAdd s[i] (broadcast a : Vec T N)[i] (broadcast b : Vec T N)[i] ∧
    (s.clamp a b)[i] = FloatOps.fmin (FloatOps.fmax s[i] (broadcast a : Vec T N)[i]) (broadcast b : Vec T N)[i] := by
  intros; simp only [Vec.mulAdd, Vec.clamp, Vec.getElem_map, Vec.getElem_zip, and_self]
/-- `sin_cos` returns the first and the second components of the scalar function, in this order. -/
theorem C25_vector_sin_cos [FloatOps T] (s : Vec T N) :
    ∀ i (h : i < N), s.sinCos.1[i] = (FloatOps.sinCos s[i]).1 ∧ s.sinCos.2[i] = (FloatOps.sinCos s[i]).2 := by
  intros; simp only [Vec.sinCos, Vec.getElem_map, Vec.getElem_unzip_fst, Vec.getElem_unzip_snd, and_self]
/-- Over the reals `clamp(a, b)` at each index where `a ≤ b` lies in `[a, b]`, leaves values already inside unchanged, and is the nearer bound for the others. -/
theorem C25_vector_clamp [Broadcast A (Vec ℝ N)] [Broadcast B (Vec ℝ N)] (s : Vec ℝ N) (a : A) (b : B) : ∀ i (h : i < N), 
    (broadcast a : Vec ℝ N)[i] ≤ (broadcast b : Vec ℝ N)[i] →
      (broadcast a : Vec ℝ N)[i] ≤ (s.clamp a b)[i] ∧ (s.clamp a b)[i] ≤ (broadcast b : Vec ℝ N)[i] ∧
      ((broadcast a : Vec ℝ N)[i] ≤ s[i] → s[i] ≤ (broadcast b : Vec ℝ N)[i] → (s.clamp a b)[i] = s[i]) ∧
      (s[i] ≤ (broadcast a : Vec ℝ N)[i] → (s.clamp a b)[i] = (broadcast a : Vec ℝ N)[i]) ∧
      ((broadcast b : Vec ℝ N)[i] ≤ s[i] → (s.clamp a b)[i] = (broadcast b : Vec ℝ N)[i]) := by
  intros
  simp only [(C25_vector_ternary s a b _ _).2, FloatOps.fmin, FloatOps.fmax]
  refine ⟨by simp [*], by simp, fun h1 h2 => by simp [h1, h2], fun h => by simp [*], fun h => by simp [h]⟩
/-- Over the reals `vmin`/`vmax` are the pointwise minimum and maximum, and `sin_cos` agrees with `sin` and `cos`. -/
theorem C25_vector_real [Broadcast B (Vec ℝ N)] (s : Vec ℝ N) (o : B) : ∀ i (h : i < N), 
    (s.vmin o)[i] = min s[i] (broadcast o : Vec ℝ N)[i] ∧ (s.vmax o)[i] = max s[i] (broadcast o : Vec ℝ N)[i] ∧
    s.sinCos.1[i] = s.sin[i] ∧ s.sinCos.2[i] = s.cos[i] := by
  intros
  simp only [Vec.vmin, Vec.vmax, Vec.sin, Vec.cos, Vec.sinCos, Vec.getElem_map, Vec.getElem_zip, Vec.getElem_unzip_fst, Vec.getElem_unzip_snd]
  exact ⟨rfl, rfl, rfl, rfl⟩
/-- Every unary float method of a matrix applies its scalar function at each index. -/
theorem C25_matrix_unary [FloatOps T] (s : Mat T M N) :
    ∀ i (_ : i < M) j (_ : j < N), 
    s.abs[i][j] = FloatOps.abs s[i][j] ∧
    s.signum[i][j] = FloatOps.signum s[i][j] ∧
    s.cbrt[i][j] = FloatOps.cbrt s[i][j] ∧
    s.sqrt[i][j] = FloatOps.sqrt s[i][j] ∧
    s.acos[i][j] = FloatOps.acos s[i][j] ∧
    s.asin[i][j] = FloatOps.asin s[i][j] ∧
    s.atan[i][j] = FloatOps.atan s[i][j] ∧
    s.cosh[i][j] = FloatOps.cosh s[i][j] ∧
    s.sinh[i][j] = FloatOps.sinh s[i][j] ∧
    s.tan[i][j] = FloatOps.tan s[i][j] ∧
    s.tanh[i][j] = FloatOps.tanh s[i][j] ∧
    s.log2[i][j] = FloatOps.log2 s[i][j] ∧
    s.exp[i][j] = FloatOps.exp s[i][j] ∧
    s.ln[i][j] = FloatOps.ln s[i][j] ∧
    s.sin[i][j] = FloatOps.sin s[i][j] ∧
    s.cos[i][j] = FloatOps.cos s[i][j] ∧
    s.asinh[i][j] = FloatOps.asinh s[i][j] ∧
    s.acosh[i][j] = FloatOps.acosh s[i][j] ∧
    s.atanh[i][j] = FloatOps.atanh s[i][j] ∧
    s.floor[i][j] = FloatOps.floor s[i][j] ∧
    s.ceil[i][j] = FloatOps.ceil s[i][j] ∧
    s.round[i][j] = FloatOps.round s[i][j] ∧
    s.trunc[i][j] = FloatOps.trunc s[i][j] ∧
    s.fract[i][j] = FloatOps.fract s[i][j] ∧
    s.recip[i][j] = FloatOps.recip s[i][j] ∧
    s.exp2[i][j] = FloatOps.exp2 s[i][j] ∧
    s.log10[i][j] = FloatOps.log10 s[i][j] ∧
    s.expM1[i][j] = FloatOps.expM1 s[i][j] ∧
    s.ln1p[i][j] = FloatOps.ln1p s[i][j] := by
  intros; simp only [Mat.abs, Mat.signum, Mat.cbrt, Mat.sqrt, Mat.acos, Mat.asin, Mat.atan, Mat.cosh, Mat.sinh, Mat.tan, Mat.tanh, Mat.log2, Mat.exp, Mat.ln, Mat.sin, Mat.cos, Mat.asinh, Mat.acosh, Mat.atanh, Mat.floor, Mat.ceil, Mat.round, Mat.trunc, Mat.fract, Mat.recip, Mat.exp2, Mat.log10, Mat.expM1, Mat.ln1p, Mat.getElem_map, and_self]
/-- Binary float methods of a matrix combine equal indices, in this operand order, after broadcasting the other operand. -/
theorem C25_matrix_binary [FloatOps T] [Broadcast B (Mat T M N)] (s : Mat T M N) (o : B) :
    ∀ i (_ : i < M) j (_ : j < N), 
    (s.absSub o)[i][j] = FloatOps.absSub s[i][j] (broadcast o : Mat T M N)[i][j] ∧
    (s.vmin o)[i][j] = FloatOps.fmin s[i][j] (broadcast o : Mat T M N)[i][j] ∧
    (s.vmax o)[i][j] = FloatOps.fmax s[i][j] (broadcast o : Mat T M N)[i][j] ∧
    (s.atan2 o)[i][j] = FloatOps.atan2 s[i][j] (broadcast o : Mat T M N)[i][j] ∧
    (s.hypot o)[i][j] = FloatOps.hypot s[i][j] (broadcast o : Mat T M N)[i][j] ∧
    (s.powf o)[i][j] = FloatOps.powf s[i][j] (broadcast o : Mat T M N)[i][j] ∧
    (s.log o)[i][j] = FloatOps.log s[i][j] (broadcast o : Mat T M N)[i][j] := by
  intros; simp only [Mat.absSub, Mat.vmin, Mat.vmax, Mat.atan2, Mat.hypot, Mat.powf, Mat.log, Mat.getElem_map, Mat.getElem_zip, and_self]
theorem C25_matrix_powi [FloatOps T] [Broadcast B (Mat Int M N)] (s : Mat T M N) (o : B) :
    ∀ i (_ : i < M) j (_ : j < N), (s.powi o)[i][j] = FloatOps.powi s[i][j] (broadcast o : Mat Int M N)[i][j] := by
  intros; simp only [Mat.powi, Mat.getElem_map, Mat.getElem_zip]
theorem C25_matrix_ternary [FloatOps T] [Broadcast A (Mat T M N)] [Broadcast B (Mat T M N)] (s : Mat T M N) (a : A) (b : B) :
    ∀ i (_ : i < M) j (_ : j < N), 
    (s.mulAdd a b)[i][j] = FloatOps.mulAdd s[i][j] (broadcast a : Mat T M N)[i][j] (broadcast b : Mat T M N)[i][j] ∧
    (s.clamp a b)[i][j] = FloatOps.fmin (FloatOps.fmax s[i][j] (broadcast a : Mat T M N)[i][j]) (broadcast b : Mat T M N)[i][j] := by
  intros; simp only [Mat.mulAdd, Mat.clamp, Mat.getElem_map, Mat.getElem_zip, and_self]
/-- `sin_cos` returns the first and the second components of the scalar function, in this order. -/
theorem C25_matrix_sin_cos [FloatOps T] (s : Mat T M N) :
    ∀ i (_ : i < M) j (_ : j < N), s.sinCos.1[i][j] = (FloatOps.sinCos s[i][j]).1 ∧ s.sinCos.2[i][j] = (FloatOps.sinCos s[i][j]).2 := by
  intros; simp only [Mat.sinCos, Mat.getElem_map, Mat.getElem_unzip_fst, Mat.getElem_unzip_snd, and_self]
/-- Over the reals `clamp(a, b)` at each index where `a ≤ b` lies in `[a, b]`, leaves values already inside unchanged, and is the nearer bound for the others. -/
theorem C25_matrix_clamp [Broadcast A (Mat ℝ M N)] [Broadcast B (Mat ℝ M N)] (s : Mat ℝ M N) (a : A) (b : B) : ∀ i (_ : i < M) j (_ : j < N), 
    (broadcast a : Mat ℝ M N)[i][j] ≤ (broadcast b : Mat ℝ M N)[i][j] →
      (broadcast a : Mat ℝ M N)[i][j] ≤ (s.clamp a b)[i][j] ∧ (s.clamp a b)[i][j] ≤ (broadcast b : Mat ℝ M N)[i][j] ∧
      ((broadcast a : Mat ℝ M N)[i][j] ≤ s[i][j] → s[i][j] ≤ (broadcast b : Mat ℝ M N)[i][j] → (s.clamp a b)[i][j] = s[i][j]) ∧
      (s[i][j] ≤ (broadcast a : Mat ℝ M N)[i][j] → (s.clamp a b)[i][j] = (broadcast a : Mat ℝ M N)[i][j]) ∧
      ((broadcast b : Mat ℝ M N)[i][j] ≤ s[i][j] → (s.clamp a b)[i][j] = (broadcast b : Mat ℝ M N)[i][j]) := by
  intros
  simp only [(C25_matrix_ternary s a b _ _ _ _).2, FloatOps.fmin, FloatOps.fmax]
  refine ⟨by simp [*], by simp, fun h1 h2 => by simp [h1, h2], fun h => by simp [*], fun h => by simp [h]⟩
/-- Over the reals `vmin`/`vmax` are the pointwise minimum and maximum, and `sin_cos` agrees with `sin` and `cos`. -/
theorem C25_matrix_real [Broadcast B (Mat ℝ M N)] (s : Mat ℝ M N) (o : B) : ∀ i (_ : i < M) j (_ : j < N), 
    (s.vmin o)[i][j] = min s[i][j] (broadcast o : Mat ℝ M N)[i][j] ∧ (s.vmax o)[i][j] = max s[i][j] (broadcast o : Mat ℝ M N)[i][j] ∧
    s.sinCos.1[i][j] = s.sin[i][j] ∧ s.sinCos.2[i][j] = s.cos[i][j] := by
  intros
  simp only [Mat.vmin, Mat.vmax, Mat.sin, Mat.cos, Mat.sinCos, Mat.getElem_map, Mat.getElem_zip, Mat.getElem_unzip_fst, Mat.getElem_unzip_snd]
  exact ⟨rfl, rfl, rfl, rfl⟩
/-- Broadcasting to a vector: a vector is itself, a scalar is used at every index. -/
theorem C25_vector_broadcast (v : Vec T N) (x : T) (i : Nat) (h : i < N) :
    (broadcast v : Vec T N)[i] = v[i] ∧ (broadcast x : Vec T N)[i] = x := ⟨rfl, Vec.getElem_fill x i h⟩
/-- Broadcasting to a matrix: a matrix is itself, a vector is used as every row, a scalar is used at every index. -/
theorem C25_matrix_broadcast (m : Mat T M N) (v : Vec T N) (x : T) (i : Nat) (hi : i < M) (j : Nat) (hj : j < N) :
    (broadcast m : Mat T M N)[i][j] = m[i][j] ∧ (broadcast v : Mat T M N)[i][j] = v[j] ∧ (broadcast x : Mat T M N)[i][j] = x := by
  refine ⟨rfl, ?_, ?_⟩
  · have : (Vec.fill v : Vec (Vec T N) M)[i][j] = v[j] := by simp
    exact this
  · exact Mat.getElem_fill x i hi j hj

/-- Concrete instance: `vmax` with a scalar, `vmin` with a row vector. -/
example : ((⟨#v[-1, 2]⟩ : Vec ℝ 2).vmax (0 : ℝ))[0] = 0 := by
  rw [(C25_vector_real (B := ℝ) _ _ 0 (by omega)).2.1, (C25_vector_broadcast (⟨#v[-1, 2]⟩ : Vec ℝ 2) (0 : ℝ) 0 (by omega)).2]
  have : (⟨#v[-1, 2]⟩ : Vec ℝ 2)[0] = -1 := rfl
  rw [this]; norm_num
example : ((⟨⟨#v[⟨#v[5, 2]⟩, ⟨#v[1, 7]⟩]⟩⟩ : Mat ℝ 2 2).vmin (⟨#v[3, 4]⟩ : Vec ℝ 2))[1][1] = 4 := by
  rw [(C25_matrix_real (B := Vec ℝ 2) _ _ 1 (by omega) 1 (by omega)).1,
    (C25_matrix_broadcast (⟨⟨#v[⟨#v[5, 2]⟩, ⟨#v[1, 7]⟩]⟩⟩ : Mat ℝ 2 2) (⟨#v[3, 4]⟩ : Vec ℝ 2) (0 : ℝ) 1 (by omega) 1 (by omega)).2.1]
  have : (⟨⟨#v[⟨#v[5, 2]⟩, ⟨#v[1, 7]⟩]⟩⟩ : Mat ℝ 2 2)[1][1] = 7 := rfl
  have h2 : (⟨#v[3, 4]⟩ : Vec ℝ 2)[1] = 4 := rfl
  rw [this, h2]; norm_num

/-! ## further cases: the hypotheses are satisfiable -/
example : ((⟨#v[-3, 1/2, 7]⟩ : Vec ℝ 3).clamp (0 : ℝ) (1 : ℝ))[0] = 0 ∧ ((⟨#v[-3, 1/2, 7]⟩ : Vec ℝ 3).clamp (0 : ℝ) (1 : ℝ))[1] = 1/2 ∧
    ((⟨#v[-3, 1/2, 7]⟩ : Vec ℝ 3).clamp (0 : ℝ) (1 : ℝ))[2] = 1 := by
  have b : ∀ (x : ℝ) i (h : i < 3), (broadcast x : Vec ℝ 3)[i] = x := fun x i h => (C25_vector_broadcast (⟨#v[0, 0, 0]⟩ : Vec ℝ 3) x i h).2
  have h := C25_vector_clamp (⟨#v[-3, 1/2, 7]⟩ : Vec ℝ 3) (0 : ℝ) (1 : ℝ)
  have h0 := (h 0 (by decide) (by rw [b, b]; norm_num)).2.2.2.1
  have h1 := (h 1 (by decide) (by rw [b, b]; norm_num)).2.2.1
  have h2 := (h 2 (by decide) (by rw [b, b]; norm_num)).2.2.2.2
  simp only [b] at h0 h1 h2
  exact ⟨h0 (show (-3 : ℝ) ≤ 0 by norm_num), h1 (show (0 : ℝ) ≤ 1/2 by norm_num) (show (1/2 : ℝ) ≤ 1 by norm_num), h2 (show (1 : ℝ) ≤ 7 by norm_num)⟩
example (A : Mat ℝ 2 2) : (A.clamp (0 : ℝ) (1 : ℝ))[1][0] ≤ 1 := by
  have b : ∀ (x : ℝ) i (h : i < 2) j (h' : j < 2), (broadcast x : Mat ℝ 2 2)[i][j] = x := fun x i h j h' =>
    (C25_matrix_broadcast A (⟨#v[0, 0]⟩ : Vec ℝ 2) x i h j h').2.2
  have h := (C25_matrix_clamp A (0 : ℝ) (1 : ℝ) 1 (by decide) 0 (by decide) (by rw [b, b]; norm_num)).2.1
  rwa [b] at h

end Vecmat
