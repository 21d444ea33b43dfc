import Verif.Lemmas.Quaternion
import Verif.Props.Complex
import Mathlib.Analysis.SpecialFunctions.Trigonometric.Deriv
/-!
# C68, C69: conversions of `Complex` and `Quaternion`; delegation to `num_complex`
-/
namespace Vecmat
variable {T : Type}

/-! ## C68 -/

/-- All ways to build a complex number from two components agree, and all ways to take it apart return those components. -/
theorem C68_complex (a b : T) (z : Cpx T) :
    Cpx.fromArray #v[a, b] = Cpx.new a b ∧ Cpx.fromTuple (a, b) = Cpx.new a b ∧ Cpx.fromVector ⟨#v[a, b]⟩ = Cpx.new a b ∧
    (Cpx.new a b).intoArray = #v[a, b] ∧ (Cpx.new a b).intoTuple = (a, b) ∧ (Cpx.new a b).intoVector = ⟨#v[a, b]⟩ ∧
    (Cpx.new a b).re = a ∧ (Cpx.new a b).im = b ∧
    Cpx.fromArray z.intoArray = z ∧ Cpx.fromTuple z.intoTuple = z ∧ Cpx.fromVector z.intoVector = z := by
  refine ⟨rfl, ?_, rfl, rfl, by simp, rfl, by simp, by simp, rfl, ?_, rfl⟩
  · apply Cpx.ext' <;> rfl
  · rw [Cpx.intoTuple_eq]; exact (Cpx.eq_new z).symm

/-- Writing a component changes that component only. -/
theorem C68_complex_set (z : Cpx T) (t : T) :
    (z.setRe t).re = t ∧ (z.setRe t).im = z.im ∧ (z.setIm t).im = t ∧ (z.setIm t).re = z.re := by simp

/-- All ways to build a quaternion agree (component order `w, x, y, z`) and all ways to take it apart return the components. -/
theorem C68_quaternion (a b c d : T) (q : Quat T) :
    Quat.fromArray #v[a, b, c, d] = Quat.new a b c d ∧ Quat.fromTuple (a, b, c, d) = Quat.new a b c d ∧
    Quat.fromVector ⟨#v[a, b, c, d]⟩ = Quat.new a b c d ∧ Quat.fromScalarAndVector3 a ⟨#v[b, c, d]⟩ = Quat.new a b c d ∧
    (Quat.new a b c d).intoArray = #v[a, b, c, d] ∧ (Quat.new a b c d).intoTuple = (a, b, c, d) ∧
    (Quat.new a b c d).intoVector = ⟨#v[a, b, c, d]⟩ ∧ (Quat.new a b c d).intoScalarAndVector3 = (a, ⟨#v[b, c, d]⟩) ∧
    (Quat.new a b c d).w = a ∧ (Quat.new a b c d).x = b ∧ (Quat.new a b c d).y = c ∧ (Quat.new a b c d).z = d ∧
    (Quat.new a b c d).xyz = ⟨#v[b, c, d]⟩ ∧
    Quat.fromArray q.intoArray = q ∧ Quat.fromTuple q.intoTuple = q ∧ Quat.fromVector q.intoVector = q ∧
    Quat.fromScalarAndVector3 q.intoScalarAndVector3.1 q.intoScalarAndVector3.2 = q := by
  refine ⟨rfl, ?_, rfl, ?_, rfl, by simp, rfl, ?_, by simp, by simp, by simp, by simp, ?_, rfl, ?_, rfl, ?_⟩
  · apply Quat.ext' <;> rfl
  · simp [Quat.fromScalarAndVector3]
  · simp [Quat.intoScalarAndVector3, Quat.new, Vec.fromArray]
  · simp [Quat.xyz, Quat.intoScalarAndVector3, Quat.new, Vec.fromArray]
  · rw [Quat.intoTuple_eq]; apply Quat.ext' <;> simp [Quat.fromTuple, Vec.fromTuple4, Vec.fromArray]
  · apply Quat.ext' <;> simp [Quat.fromScalarAndVector3, Quat.intoScalarAndVector3, Vec.fromArray]

/-- Writing a component changes that component only. -/
theorem C68_quaternion_set (q : Quat T) (t : T) :
    q.setW t = Quat.new t q.x q.y q.z ∧ q.setX t = Quat.new q.w t q.y q.z ∧
    q.setY t = Quat.new q.w q.x t q.z ∧ q.setZ t = Quat.new q.w q.x q.y t := by
  refine ⟨?_, ?_, ?_, ?_⟩ <;> apply Quat.ext' <;> simp

/-- Case: distinct components stay distinguishable. -/
example : (Quat.new 1 2 3 4 : Quat Nat).setY 7 = Quat.new 1 2 7 4 := by
  rw [(C68_quaternion_set _ _).2.2.1]; simp

/-- The Manhattan norms are the sums of the component norms. -/
theorem C68_norm_l1 [ScalarNorm T] [AddCommMonoid T] (z : Cpx T) (q : Quat T) :
    z.normL1 = ScalarNorm.normL1 z.re + ScalarNorm.normL1 z.im ∧
    q.normL1 = ScalarNorm.normL1 q.w + ScalarNorm.normL1 q.x + ScalarNorm.normL1 q.y + ScalarNorm.normL1 q.z := by
  constructor
  · simp [Cpx.normL1, Vec.sum_eq_sum, Fin.sum_univ_two]
  · simp [Quat.normL1, Vec.sum_eq_sum, Fin.sum_univ_four]

/-! ## C69 -/

/-- `from_num` and `into_num` are mutually inverse and keep real and imaginary part. -/
theorem C69_round_trip (z : Cpx T) (c : NumCpx T) :
    Cpx.fromNum z.intoNum = z ∧ (Cpx.fromNum c).intoNum = c ∧ z.intoNum.re = z.re ∧ z.intoNum.im = z.im ∧
    (Cpx.fromNum c).re = c.re ∧ (Cpx.fromNum c).im = c.im := by
  refine ⟨?_, ?_, ?_, ?_, ?_, ?_⟩ <;> simp [Cpx.fromNum, Cpx.intoNum]
  exact (Cpx.eq_new z).symm

/-- The value of a `num_complex` number. -/
def NumCpx.toC (c : NumCpx ℝ) : ℂ := ⟨c.re, c.im⟩
theorem Cpx.toC_fromNum (c : NumCpx ℝ) : (Cpx.fromNum c).toC = c.toC := by
  apply Complex.ext <;> simp [Cpx.fromNum, Cpx.toC, NumCpx.toC]
theorem Cpx.toC_intoNum (z : Cpx ℝ) : z.intoNum.toC = z.toC := by
  apply Complex.ext <;> simp [Cpx.intoNum, Cpx.toC, NumCpx.toC]

/-- What is assumed of the external crate: its functions compute the mathematical functions of the same name. -/
structure NumCpxExact [o : NumCpxOps ℝ] : Prop where
  powu : ∀ c e, (o.powu c e).toC = c.toC ^ e
  powi : ∀ c e, (o.powi c e).toC = c.toC ^ e
  exp : ∀ c, (o.exp c).toC = Complex.exp c.toC
  ln : ∀ c, (o.ln c).toC = Complex.log c.toC
  sqrt : ∀ c, (o.sqrt c).toC = c.toC ^ (1 / 2 : ℂ)
  cbrt : ∀ c, (o.cbrt c).toC = c.toC ^ (1 / 3 : ℂ)
  powf : ∀ c (e : ℝ), (o.powf c e).toC = c.toC ^ (e : ℂ)
  log : ∀ c (b : ℝ), (o.log c b).toC = Complex.log c.toC / Complex.log b
  powc : ∀ c e, (o.powc c e).toC = c.toC ^ e.toC
  expf : ∀ c (b : ℝ), (o.expf c b).toC = (b : ℂ) ^ c.toC
  sin : ∀ c, (o.sin c).toC = Complex.sin c.toC
  cos : ∀ c, (o.cos c).toC = Complex.cos c.toC
  tan : ∀ c, (o.tan c).toC = Complex.tan c.toC
  sinh : ∀ c, (o.sinh c).toC = Complex.sinh c.toC
  cosh : ∀ c, (o.cosh c).toC = Complex.cosh c.toC
  tanh : ∀ c, (o.tanh c).toC = Complex.tanh c.toC
  finv : ∀ c, (o.finv c).toC = c.toC⁻¹
  fdiv : ∀ c d, (o.fdiv c d).toC = c.toC / d.toC
  /-- inverse functions: right inverses of the functions they invert -/
  asin : ∀ c, Complex.sin (o.asin c).toC = c.toC
  acos : ∀ c, Complex.cos (o.acos c).toC = c.toC
  asinh : ∀ c, Complex.sinh (o.asinh c).toC = c.toC
  acosh : ∀ c, Complex.cosh (o.acosh c).toC = c.toC

/-- Each delegating method computes the mathematical function of its name, when `num_complex` does: arguments and results are
neither swapped nor altered on the way. -/
theorem C69_delegation [NumCpxOps ℝ] (h : NumCpxExact) (z w : Cpx ℝ) (n : Nat) (k : Int) (b : ℝ) :
    (z.powu n).toC = z.toC ^ n ∧ (z.powi k).toC = z.toC ^ k ∧ z.exp.toC = Complex.exp z.toC ∧ z.ln.toC = Complex.log z.toC ∧
    z.sqrt.toC = z.toC ^ (1 / 2 : ℂ) ∧ z.cbrt.toC = z.toC ^ (1 / 3 : ℂ) ∧ (z.powf b).toC = z.toC ^ (b : ℂ) ∧
    (z.log b).toC = Complex.log z.toC / Complex.log b ∧ (z.powc w).toC = z.toC ^ w.toC ∧ (z.expf b).toC = (b : ℂ) ^ z.toC ∧
    z.sin.toC = Complex.sin z.toC ∧ z.cos.toC = Complex.cos z.toC ∧ z.tan.toC = Complex.tan z.toC ∧
    z.sinh.toC = Complex.sinh z.toC ∧ z.cosh.toC = Complex.cosh z.toC ∧ z.tanh.toC = Complex.tanh z.toC ∧
    z.finv.toC = z.toC⁻¹ ∧ (z.fdiv w).toC = z.toC / w.toC ∧
    Complex.sin z.asin.toC = z.toC ∧ Complex.cos z.acos.toC = z.toC ∧ Complex.sinh z.asinh.toC = z.toC ∧
    Complex.cosh z.acosh.toC = z.toC := by
  refine ⟨?_, ?_, ?_, ?_, ?_, ?_, ?_, ?_, ?_, ?_, ?_, ?_, ?_, ?_, ?_, ?_, ?_, ?_, ?_, ?_, ?_, ?_⟩
  · rw [Cpx.powu, Cpx.toC_fromNum, h.powu, Cpx.toC_intoNum]
  · rw [Cpx.powi, Cpx.toC_fromNum, h.powi, Cpx.toC_intoNum]
  · rw [Cpx.exp, Cpx.toC_fromNum, h.exp, Cpx.toC_intoNum]
  · rw [Cpx.ln, Cpx.toC_fromNum, h.ln, Cpx.toC_intoNum]
  · rw [Cpx.sqrt, Cpx.toC_fromNum, h.sqrt, Cpx.toC_intoNum]
  · rw [Cpx.cbrt, Cpx.toC_fromNum, h.cbrt, Cpx.toC_intoNum]
  · rw [Cpx.powf, Cpx.toC_fromNum, h.powf, Cpx.toC_intoNum]
  · rw [Cpx.log, Cpx.toC_fromNum, h.log, Cpx.toC_intoNum]
  · rw [Cpx.powc, Cpx.toC_fromNum, h.powc, Cpx.toC_intoNum, Cpx.toC_intoNum]
  · rw [Cpx.expf, Cpx.toC_fromNum, h.expf, Cpx.toC_intoNum]
  · rw [Cpx.sin, Cpx.toC_fromNum, h.sin, Cpx.toC_intoNum]
  · rw [Cpx.cos, Cpx.toC_fromNum, h.cos, Cpx.toC_intoNum]
  · rw [Cpx.tan, Cpx.toC_fromNum, h.tan, Cpx.toC_intoNum]
  · rw [Cpx.sinh, Cpx.toC_fromNum, h.sinh, Cpx.toC_intoNum]
  · rw [Cpx.cosh, Cpx.toC_fromNum, h.cosh, Cpx.toC_intoNum]
  · rw [Cpx.tanh, Cpx.toC_fromNum, h.tanh, Cpx.toC_intoNum]
  · rw [Cpx.finv, Cpx.toC_fromNum, h.finv, Cpx.toC_intoNum]
  · rw [Cpx.fdiv, Cpx.toC_fromNum, h.fdiv, Cpx.toC_intoNum, Cpx.toC_intoNum]
  · rw [Cpx.asin, Cpx.toC_fromNum, h.asin, Cpx.toC_intoNum]
  · rw [Cpx.acos, Cpx.toC_fromNum, h.acos, Cpx.toC_intoNum]
  · rw [Cpx.asinh, Cpx.toC_fromNum, h.asinh, Cpx.toC_intoNum]
  · rw [Cpx.acosh, Cpx.toC_fromNum, h.acosh, Cpx.toC_intoNum]

/-- `atan` and `atanh` (whose `num_complex` versions have poles) pass through the same conversion. -/
theorem C69_delegation_atan [o : NumCpxOps ℝ] (z w : Cpx ℝ) :
    z.atan.toC = (o.atan ⟨z.re, z.im⟩).toC ∧ z.atanh.toC = (o.atanh ⟨z.re, z.im⟩).toC ∧
    (z % w).toC = (o.rem ⟨z.re, z.im⟩ ⟨w.re, w.im⟩).toC := by
  refine ⟨?_, ?_, ?_⟩
  · rw [Cpx.atan, Cpx.toC_fromNum, Cpx.intoNum, Cpx.intoTuple_eq]
  · rw [Cpx.atanh, Cpx.toC_fromNum, Cpx.intoNum, Cpx.intoTuple_eq]
  · show (Cpx.fromNum (NumCpxOps.rem z.intoNum w.intoNum)).toC = _
    rw [Cpx.toC_fromNum, Cpx.intoNum, Cpx.intoNum, Cpx.intoTuple_eq, Cpx.intoTuple_eq]

/-- `from_str_radix` hands text and radix to `num_complex`, fails exactly when that parser fails and with its error, and otherwise has the parsed real
and imaginary part. -/
theorem C69_from_str_radix {E : Type} (parse : String → Nat → Except E (NumCpx T)) (s : String) (radix : Nat) :
    (∀ e, Cpx.fromStrRadix parse s radix = .error e ↔ parse s radix = .error e) ∧
    (∀ z, Cpx.fromStrRadix parse s radix = .ok z ↔ parse s radix = .ok ⟨z.re, z.im⟩) := by
  unfold Cpx.fromStrRadix
  cases h : parse s radix with
  | error e => exact ⟨fun e' => by simp [Except.map], fun z => by simp [Except.map]⟩
  | ok c =>
    refine ⟨fun e' => by simp [Except.map], fun z => ?_⟩
    simp only [Except.map, Except.ok.injEq]
    constructor
    · rintro rfl; simp [Cpx.fromNum]
    · rintro rfl; exact (Cpx.eq_new z).symm

open Classical in
/-- The exact instance used to show that the hypotheses of `C69_delegation` can be met. -/
@[instance_reducible] noncomputable def exactNum : NumCpxOps ℝ :=
  let of (z : ℂ) : NumCpx ℝ := ⟨z.re, z.im⟩
  { rem := fun a _ => a
    powu := fun c e => of (c.toC ^ e), powi := fun c e => of (c.toC ^ e), exp := fun c => of (Complex.exp c.toC)
    ln := fun c => of (Complex.log c.toC), sqrt := fun c => of (c.toC ^ (1 / 2 : ℂ)), cbrt := fun c => of (c.toC ^ (1 / 3 : ℂ))
    powf := fun c e => of (c.toC ^ (e : ℂ)), log := fun c b => of (Complex.log c.toC / Complex.log b)
    powc := fun c e => of (c.toC ^ e.toC), expf := fun c b => of ((b : ℂ) ^ c.toC)
    sin := fun c => of (Complex.sin c.toC), cos := fun c => of (Complex.cos c.toC), tan := fun c => of (Complex.tan c.toC)
    asin := fun c => of (Complex.sin_surjective c.toC).choose
    acos := fun c => of (Complex.cos_surjective c.toC).choose
    atan := fun c => c
    sinh := fun c => of (Complex.sinh c.toC), cosh := fun c => of (Complex.cosh c.toC), tanh := fun c => of (Complex.tanh c.toC)
    asinh := fun c => of ((Complex.sin_surjective (c.toC * Complex.I)).choose * -Complex.I)
    acosh := fun c => of ((Complex.cos_surjective c.toC).choose * Complex.I)
    atanh := fun c => c
    finv := fun c => of c.toC⁻¹, fdiv := fun c d => of (c.toC / d.toC) }

attribute [local instance] exactNum in
/-- Case: an exact `num_complex` exists. -/
theorem exactNum_exact : NumCpxExact where
  powu _ _ := rfl
  powi _ _ := rfl
  exp _ := rfl
  ln _ := rfl
  sqrt _ := rfl
  cbrt _ := rfl
  powf _ _ := rfl
  log _ _ := rfl
  powc _ _ := rfl
  expf _ _ := rfl
  sin _ := rfl
  cos _ := rfl
  tan _ := rfl
  sinh _ := rfl
  cosh _ := rfl
  tanh _ := rfl
  finv _ := rfl
  fdiv _ _ := rfl
  asin c := (Complex.sin_surjective c.toC).choose_spec
  acos c := (Complex.cos_surjective c.toC).choose_spec
  asinh c := by
    show Complex.sinh ((Complex.sin_surjective (c.toC * Complex.I)).choose * -Complex.I) = _
    rw [mul_neg, Complex.sinh_neg, Complex.sinh_mul_I, (Complex.sin_surjective (c.toC * Complex.I)).choose_spec]
    rw [mul_assoc, Complex.I_mul_I]; ring
  acosh c := by
    show Complex.cosh ((Complex.cos_surjective c.toC).choose * Complex.I) = _
    rw [Complex.cosh_mul_I, (Complex.cos_surjective c.toC).choose_spec]

/-! ## further cases: the hypotheses are satisfiable -/
example : Cpx.fromStrRadix (fun s r => if s = "1+2i" ∧ r = 10 then .ok ⟨1, 2⟩ else .error ()) "1+2i" 10 = .ok (Cpx.new (1 : Int) 2) :=
  ((C69_from_str_radix _ _ _).2 _).2 (by decide)
example := @C69_delegation exactNum exactNum_exact (Cpx.new 1 2) (Cpx.new 3 4) 3 (-2) 2

end Vecmat
