import Verif.Model.Approx
import Verif.Lemmas.MatrixOps
import Verif.Lemmas.Quaternion
import Verif.Lemmas.Complex
import Verif.Lemmas.Transforms
import Verif.Lemmas.MatrixIter
import Mathlib.Tactic.IntervalCases
/-!
# C64: approximate comparison
-/
namespace Vecmat
open Spec
variable {T α : Type} {M N : Nat}

namespace Spec
/-- The laws of a comparison with tolerance: reflexive for a non-negative tolerance, symmetric, monotone in the tolerance,
tolerances add up along a chain, and tolerance 0 means equality. -/
structure ApproxLaws [AddCommGroup T] [LinearOrder T] (rel : α → α → T → Prop) : Prop where
  refl : ∀ x e, 0 ≤ e → rel x x e
  symm : ∀ x y e, rel x y e → rel y x e
  mono : ∀ x y e e', e ≤ e' → rel x y e → rel x y e'
  triangle : ∀ x y z e e', rel x y e → rel y z e' → rel x z (e + e')
  exact_ : ∀ x y, rel x y 0 → x = y
end Spec

/-! ## Componentwise, for every scalar type -/
section
variable [AbsDiffEq T]
theorem C64_vector (v w : Vec T N) (eps : T) :
    v.absDiffEq w eps = true ↔ ∀ i (h : i < N), AbsDiffEq.absDiffEq v[i] w[i] eps = true := by
  unfold Vec.absDiffEq Vec.all
  rw [Vec.toList_map, List.all_map, List.all_eq_true]
  constructor
  · intro h i hi
    have := h (v.zip w)[i] (by
      rw [← Vec.getElem_toList (v.zip w) i (by simpa using hi)]; exact List.getElem_mem _)
    simpa using this
  · intro h p hp
    obtain ⟨i, hi, rfl⟩ := List.getElem_of_mem hp
    have hi' : i < N := by simpa using hi
    simpa using h i hi'
/-- A matrix comparison returns exactly when there is at least one row. -/
theorem C64_matrix (C D : Mat T M N) (eps : T) :
    (0 < M → ∃ b, C.absDiffEqR D eps = .ok b ∧
      (b = true ↔ ∀ i (hi : i < M) j (hj : j < N), AbsDiffEq.absDiffEq C[i][j] D[i][j] eps = true)) ∧
    (M = 0 → C.absDiffEqR D eps = .error .unwrapNone) := by
  constructor
  · intro hM
    refine ⟨_, Mat.allR_ok hM _, ?_⟩
    rw [Mat.all_rowMajor]
    simp
  · rintro rfl
    simp only [Mat.absDiffEqR, Mat.allR]
    rw [Mat.iterNew_zero]; rfl
theorem C64_complex (z w : Cpx T) (eps : T) :
    z.absDiffEq w eps = true ↔ AbsDiffEq.absDiffEq z.re w.re eps = true ∧ AbsDiffEq.absDiffEq z.im w.im eps = true := by
  unfold Cpx.absDiffEq
  rw [C64_vector]
  constructor
  · intro h
    have h0 := h 0 (by omega)
    have h1 := h 1 (by omega)
    simpa [Cpx.intoVector] using ⟨h0, h1⟩
  · rintro ⟨h0, h1⟩ i hi
    interval_cases i
    · exact h0
    · exact h1
theorem C64_quaternion (p q : Quat T) (eps : T) :
    p.absDiffEq q eps = true ↔ AbsDiffEq.absDiffEq p.w q.w eps = true ∧ AbsDiffEq.absDiffEq p.x q.x eps = true ∧
      AbsDiffEq.absDiffEq p.y q.y eps = true ∧ AbsDiffEq.absDiffEq p.z q.z eps = true := by
  unfold Quat.absDiffEq
  rw [C64_vector]
  constructor
  · intro h
    have h0 := h 0 (by omega)
    have h1 := h 1 (by omega)
    have h2 := h 2 (by omega)
    have h3 := h 3 (by omega)
    simpa [Quat.intoVector] using ⟨h0, h1, h2, h3⟩
  · rintro ⟨h0, h1, h2, h3⟩ i hi
    interval_cases i
    · exact h0
    · exact h1
    · exact h2
    · exact h3
/-- `Moebius` never panics; it compares the four coefficients. -/
theorem C64_moebius (m n : Moebius T) (eps : T) : ∃ b, m.absDiffEqR n eps = .ok b ∧
    (b = true ↔ AbsDiffEq.absDiffEq m.a n.a eps = true ∧ AbsDiffEq.absDiffEq m.b n.b eps = true ∧
      AbsDiffEq.absDiffEq m.c n.c eps = true ∧ AbsDiffEq.absDiffEq m.d n.d eps = true) := by
  obtain ⟨b, h1, h2⟩ := (C64_matrix m.intoMatrix n.intoMatrix eps).1 (by omega)
  refine ⟨b, h1, h2.trans ⟨fun h => ?_, ?_⟩⟩
  · exact ⟨h 0 (by omega) 0 (by omega), h 0 (by omega) 1 (by omega), h 1 (by omega) 0 (by omega), h 1 (by omega) 1 (by omega)⟩
  · rintro ⟨h0, h1, h2, h3⟩ i hi j hj
    interval_cases i <;> interval_cases j
    · exact h0
    · exact h1
    · exact h2
    · exact h3
theorem C64_transforms (s t : Shift T N) (a b : Scale T) (l k : Linear T N) (r r' : Rotation2 T) (q q' : Rotation3 T) (eps : T) :
    s.absDiffEq t eps = s.intoVector.absDiffEq t.intoVector eps ∧
    a.absDiffEq b eps = AbsDiffEq.absDiffEq a.intoMag b.intoMag eps ∧
    l.absDiffEqR k eps = l.intoMatrix.absDiffEqR k.intoMatrix eps ∧
    r.absDiffEq r' eps = r.intoComplex.absDiffEq r'.intoComplex eps ∧
    q.absDiffEq q' eps = q.intoQuaternion.absDiffEq q'.intoQuaternion eps := by
  refine ⟨rfl, rfl, rfl, ?_, rfl⟩
  rw [Bool.eq_iff_iff, C64_complex]
  simp [Rotation2.absDiffEq, Rotation2.intoComplex]
end

/-- The default tolerance of every composite type is the one of the scalar type, so `abs_diff_eq!(a, b)` without `epsilon` means the
component-wise scalar `abs_diff_eq!` without `epsilon`. -/
theorem C64_default_vector [AbsDiffEq T] (v w : Vec T N) : v.absDiffEq w Vec.defaultEpsilon = true ↔
    ∀ i (h : i < N), AbsDiffEq.absDiffEq v[i] w[i] AbsDiffEq.defaultEpsilon = true := C64_vector v w _
theorem C64_default_matrix [AbsDiffEq T] (hM : 0 < M) (C D : Mat T M N) : C.absDiffEqR D Mat.defaultEpsilon = .ok true ↔
    ∀ i (h : i < M) j (h' : j < N), AbsDiffEq.absDiffEq (C[i]'h)[j] (D[i]'h)[j] AbsDiffEq.defaultEpsilon = true := by
  obtain ⟨b, h1, h2⟩ := (C64_matrix C D Mat.defaultEpsilon).1 hM
  rw [h1]
  constructor
  · intro h; cases h; exact fun i hi j hj => h2.mp rfl i hi j hj
  · intro h; rw [h2.mpr fun i hi j hj => h i hi j hj]
theorem C64_default_transforms [AbsDiffEq T] :
    (Cpx.defaultEpsilon : T) = AbsDiffEq.defaultEpsilon ∧ (Quat.defaultEpsilon : T) = AbsDiffEq.defaultEpsilon ∧
    (Moebius.defaultEpsilon : T) = AbsDiffEq.defaultEpsilon ∧ (Shift.defaultEpsilon : T) = AbsDiffEq.defaultEpsilon ∧
    (Scale.defaultEpsilon : T) = AbsDiffEq.defaultEpsilon ∧ (Linear.defaultEpsilon : T) = AbsDiffEq.defaultEpsilon ∧
    (Rotation2.defaultEpsilon : T) = AbsDiffEq.defaultEpsilon ∧ (Rotation3.defaultEpsilon : T) = AbsDiffEq.defaultEpsilon ∧
    (Chain.defaultEpsilon : T) = AbsDiffEq.defaultEpsilon := ⟨rfl, rfl, rfl, rfl, rfl, rfl, rfl, rfl, rfl⟩

/-- A `Chain` comparison holds exactly when it holds for both parts. -/
theorem C64_chain {A B X : Type} (a : A → A → T → Bool) (b : B → B → T → Bool) (c d : Chain A B X) (eps : T) :
    Chain.absDiffEq a b c d eps = true ↔ a c.split.1 d.split.1 eps = true ∧ b c.split.2 d.split.2 eps = true := by
  simp [Chain.absDiffEq, Chain.split]

/-! ## The laws, with exact scalars -/
section
variable [AddCommGroup T] [LinearOrder T] [IsOrderedAddMonoid T]

/-- `approx::AbsDiffEq` of the signed and floating types without rounding: `|x - y| <= eps` (the default tolerance plays no role
below). -/
instance (priority := 900) instAbsDiffEqOfAbs : AbsDiffEq T := ⟨0, fun x y e => decide (|x - y| ≤ e)⟩

omit [IsOrderedAddMonoid T] in
theorem absDiffEq_iff (x y e : T) : AbsDiffEq.absDiffEq x y e = true ↔ |x - y| ≤ e := by simp [AbsDiffEq.absDiffEq]

theorem ApproxLaws.scalar : ApproxLaws (fun x y e : T => AbsDiffEq.absDiffEq x y e = true) := by
  simp only [absDiffEq_iff]
  refine ⟨?_, ?_, ?_, ?_, ?_⟩
  · intro x e h; simpa using h
  · intro x y e h; rwa [abs_sub_comm]
  · intro x y e e' h h1; exact h1.trans h
  · intro x y z e e' h1 h2
    calc |x - z| = |(x - y) + (y - z)| := by rw [sub_add_sub_cancel]
      _ ≤ |x - y| + |y - z| := abs_add_le _ _
      _ ≤ e + e' := add_le_add h1 h2
  · intro x y h
    exact sub_eq_zero.mp (abs_nonpos_iff.mp h)

omit [IsOrderedAddMonoid T] in
/-- The laws transfer to any type compared component by component. -/
theorem ApproxLaws.components {ι : Type} (comp : α → ι → T) (hinj : Function.Injective comp) {rel : α → α → T → Prop}
    (hs : ApproxLaws (fun x y e : T => AbsDiffEq.absDiffEq x y e = true))
    (hrel : ∀ x y e, rel x y e ↔ ∀ i, AbsDiffEq.absDiffEq (comp x i) (comp y i) e = true) : ApproxLaws rel := by
  refine ⟨?_, ?_, ?_, ?_, ?_⟩ <;> simp only [hrel]
  · intro x e h i; exact hs.refl _ _ h
  · intro x y e h i; exact hs.symm _ _ _ (h i)
  · intro x y e e' h h1 i; exact hs.mono _ _ _ _ h (h1 i)
  · intro x y z e e' h1 h2 i; exact hs.triangle _ _ _ _ _ (h1 i) (h2 i)
  · intro x y h; exact hinj (funext fun i => hs.exact_ _ _ (h i))

theorem C64_laws_vector : ApproxLaws (fun (v w : Vec T N) (e : T) => v.absDiffEq w e = true) := by
  refine ApproxLaws.components (ι := Fin N) (fun v i => v[i.1]) (fun v w h => ?_) ApproxLaws.scalar fun v w e => ?_
  · apply Vec.ext_getElem; intro i hi; exact congrFun h ⟨i, hi⟩
  · rw [C64_vector]
    exact ⟨fun h i => h i.1 i.2, fun h i hi => h ⟨i, hi⟩⟩
theorem C64_laws_matrix (hM : 0 < M) : ApproxLaws (fun (C D : Mat T M N) (e : T) => C.absDiffEqR D e = .ok true) := by
  refine ApproxLaws.components (ι := Fin M × Fin N) (fun C p => C[p.1.1][p.2.1]) (fun C D h => ?_) ApproxLaws.scalar fun C D e => ?_
  · apply Mat.ext_getElem; intro i hi j hj; exact congrFun h (⟨i, hi⟩, ⟨j, hj⟩)
  · obtain ⟨b, h1, h2⟩ := (C64_matrix C D e).1 hM
    rw [h1]
    constructor
    · intro hb p; exact h2.mp (by simpa using hb) p.1.1 p.1.2 p.2.1 p.2.2
    · intro h; rw [h2.mpr fun i hi j hj => h (⟨i, hi⟩, ⟨j, hj⟩)]
theorem C64_laws_complex : ApproxLaws (fun (z w : Cpx T) (e : T) => z.absDiffEq w e = true) := by
  refine ApproxLaws.components (ι := Fin 2) (fun z i => z.vec[i.1]) (fun z w h => ?_) ApproxLaws.scalar fun v w e => ?_
  · apply Cpx.ext; apply Vec.ext_getElem; intro i hi; exact congrFun h ⟨i, hi⟩
  · unfold Cpx.absDiffEq
    rw [C64_vector]
    exact ⟨fun h i => h i.1 i.2, fun h i hi => h ⟨i, hi⟩⟩
theorem C64_laws_quaternion : ApproxLaws (fun (z w : Quat T) (e : T) => z.absDiffEq w e = true) := by
  refine ApproxLaws.components (ι := Fin 4) (fun z i => z.vec[i.1]) (fun z w h => ?_) ApproxLaws.scalar fun v w e => ?_
  · apply Quat.ext; apply Vec.ext_getElem; intro i hi; exact congrFun h ⟨i, hi⟩
  · unfold Quat.absDiffEq
    rw [C64_vector]
    exact ⟨fun h i => h i.1 i.2, fun h i hi => h ⟨i, hi⟩⟩
theorem C64_laws_moebius : ApproxLaws (fun (m n : Moebius T) (e : T) => m.absDiffEqR n e = .ok true) := by
  have h := C64_laws_matrix (T := T) (M := 2) (N := 2) (by omega)
  exact ⟨fun x e => h.refl x.mat e, fun x y e => h.symm x.mat y.mat e, fun x y e e' => h.mono x.mat y.mat e e',
    fun x y z e e' => h.triangle x.mat y.mat z.mat e e', fun x y hxy => Moebius.ext (h.exact_ x.mat y.mat hxy)⟩
theorem C64_laws_transforms (hN : 0 < N) : ApproxLaws (fun (s t : Shift T N) (e : T) => s.absDiffEq t e = true) ∧
    ApproxLaws (fun (s t : Scale T) (e : T) => s.absDiffEq t e = true) ∧
    ApproxLaws (fun (l k : Linear T N) (e : T) => l.absDiffEqR k e = .ok true) ∧
    ApproxLaws (fun (r s : Rotation2 T) (e : T) => r.absDiffEq s e = true) ∧
    ApproxLaws (fun (r s : Rotation3 T) (e : T) => r.absDiffEq s e = true) := by
  have hv := C64_laws_vector (T := T) (N := N)
  have hm := C64_laws_matrix (T := T) (M := N) (N := N) hN
  have hq := C64_laws_quaternion (T := T)
  have hs := ApproxLaws.scalar (T := T)
  refine ⟨?_, ?_, ?_, ?_, ?_⟩
  · exact ⟨fun x e => hv.refl x.pos e, fun x y e => hv.symm x.pos y.pos e, fun x y e e' => hv.mono x.pos y.pos e e',
      fun x y z e e' => hv.triangle x.pos y.pos z.pos e e', fun x y h => Shift.ext (hv.exact_ x.pos y.pos h)⟩
  · exact ⟨fun x e => hs.refl x.mag e, fun x y e => hs.symm x.mag y.mag e, fun x y e e' => hs.mono x.mag y.mag e e',
      fun x y z e e' => hs.triangle x.mag y.mag z.mag e e', fun x y h => Scale.ext (hs.exact_ x.mag y.mag h)⟩
  · exact ⟨fun x e => hm.refl x.lin e, fun x y e => hm.symm x.lin y.lin e, fun x y e e' => hm.mono x.lin y.lin e e',
      fun x y z e e' => hm.triangle x.lin y.lin z.lin e e', fun x y h => Linear.ext (hm.exact_ x.lin y.lin h)⟩
  · have hc := C64_laws_complex (T := T)
    have e : ∀ (x y : Rotation2 T) (e : T), x.absDiffEq y e = x.comp.absDiffEq y.comp e := fun x y e =>
      (C64_transforms (N := N) ⟨0⟩ ⟨0⟩ ⟨0⟩ ⟨0⟩ ⟨Mat.fill 0⟩ ⟨Mat.fill 0⟩ x y ⟨0⟩ ⟨0⟩ e).2.2.2.1
    simp only [e]
    exact ⟨fun x e => hc.refl x.comp e, fun x y e => hc.symm x.comp y.comp e, fun x y e e' => hc.mono x.comp y.comp e e',
      fun x y z e e' => hc.triangle x.comp y.comp z.comp e e', fun x y h => Rotation2.ext (hc.exact_ x.comp y.comp h)⟩
  · exact ⟨fun x e => hq.refl x.quat e, fun x y e => hq.symm x.quat y.quat e, fun x y e e' => hq.mono x.quat y.quat e e',
      fun x y z e e' => hq.triangle x.quat y.quat z.quat e e', fun x y h => Rotation3.ext (hq.exact_ x.quat y.quat h)⟩
end

example : (Vec.fromArray #v[(1 : Int), 5]).absDiffEq (Vec.fromArray #v[2, 4]) 1 = true ∧
    (Vec.fromArray #v[(1 : Int), 5]).absDiffEq (Vec.fromArray #v[2, 3]) 1 = false := by decide

/-! ## further cases: the hypotheses are satisfiable -/
example := C64_default_matrix (T := ℝ) (M := 2) (N := 2) (by decide)
example := C64_laws_matrix (T := ℝ) (M := 2) (N := 2) (by decide)
example := C64_laws_transforms (T := ℝ) (N := 2) (by decide)

end Vecmat
