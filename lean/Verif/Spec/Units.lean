import Verif.Spec.Ieee
import Verif.Spec.Hom
/-! # Specification: data in other units -/
namespace Vecmat.Spec
open Vecmat
variable {φ : Fmt}

/-- `b` is `2^k` times `a`, exactly (both finite). -/
def Scaled (k : ℤ) (a b : Ieee φ) : Prop := ∃ x, a.toReal? = some x ∧ b.toReal? = some (2 ^ k * x)

open Classical in
/-- Rounding of `φ` with overflow and underflow trapped: an exact result is zero or at least as large as the smallest normal number,
and is not rounded to infinity. -/
noncomputable def normal (φ : Fmt) (x : ℝ) : Option ℝ :=
  if x = 0 then some 0 else if 2 ^ φ.emin ≤ |x| ∧ |φ.near x| < huge φ then some (φ.near x) else none
/-- The datum as an operand of the arithmetic that stops at overflow, underflow, division by zero and invalid operations. -/
def _root_.Vecmat.Ieee.strict {φ : Fmt} (a : Ieee φ) : Fl (normal φ) := ⟨a.toReal?⟩

/-- The constants of the strict arithmetic. -/
noncomputable instance (F : ℝ → Option ℝ) : NumConst (Fl F) := ⟨⟨some 2⟩, ⟨some (1 / 2)⟩⟩
/-- `d` and `e` are what the program computes from two inputs, `a` and `b` what the arithmetic that stops at overflow and underflow
computes from the same inputs: if neither of the two stops, `d` and `e` are finite and `e` is exactly `2^k` times `d`. -/
def Rescales (k : ℤ) (a b : Fl (normal φ)) (d e : Ieee φ) : Prop :=
  ∀ r s, a.val = some r → b.val = some s → d.toReal? = some r ∧ e.toReal? = some s ∧ s = 2 ^ k * r

/-- `F` rounds `2^k x` to `2^k` times what it rounds `x` to, where it does not stop. -/
def Dyadic (F : ℝ → Option ℝ) : Prop := ∀ (k : ℤ) x u v, F x = some u → F (2 ^ k * x) = some v → v = 2 ^ k * u
/-! the same for complex numbers and quaternions, component by component -/
def ScaledC (k : ℤ) (z w : Cpx (Ieee φ)) : Prop := Scaled k z.re w.re ∧ Scaled k z.im w.im
def ScaledQ (k : ℤ) (p q : Quat (Ieee φ)) : Prop := Scaled k p.w q.w ∧ Scaled k p.x q.x ∧ Scaled k p.y q.y ∧ Scaled k p.z q.z
def RescalesC (k : ℤ) (a b : Cpx (Fl (normal φ))) (d e : Cpx (Ieee φ)) : Prop := Rescales k a.re b.re d.re e.re ∧ Rescales k a.im b.im d.im e.im
def RescalesQ (k : ℤ) (a b : Quat (Fl (normal φ))) (d e : Quat (Ieee φ)) : Prop :=
  Rescales k a.w b.w d.w e.w ∧ Rescales k a.x b.x d.x e.x ∧ Rescales k a.y b.y d.y e.y ∧ Rescales k a.z b.z d.z e.z
end Vecmat.Spec
