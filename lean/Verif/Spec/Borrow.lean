import Verif.Model.Memory
/-!
# What a mutable reference into a value has to do
-/
namespace Vecmat
variable {A S T : Type}

/-- `ref` computes from the address of a value of type `S` a reference to its component `get`: wherever the value is and whatever it
is, reading through the reference gives the component, and writing `a` through it makes the memory what it would be had `set s a` been
stored instead: the component is `a`, and nothing else in memory, inside or outside the value, has changed. -/
def RefersTo (L : Layout S T) (l : Layout A T) (ref : Nat → Res Nat) (get : S → A) (set : S → A → S) : Prop :=
  ∀ (m : Memory T) (p : Nat) (s : S), ∃ q, ref p = .ok q ∧ l.load (L.store m p s) q = .ok (get s) ∧
    ∀ a, l.store (L.store m p s) q a = L.store m p (set s a)
end Vecmat
