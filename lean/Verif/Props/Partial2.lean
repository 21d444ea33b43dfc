import Verif.Props.Partial
import Verif.Props.Transforms
import Verif.Props.Moebius
import Verif.Props.Square
/-!
# C101, continued: fields in which a division by zero panics
`Ratio<BigInt>`, and any other exact field type, possibly with further panics (such as the overflows of `Ratio<i32>`): what the library
returns is right without any condition on the arguments.
-/
namespace Vecmat
open Spec
variable {T U α β σ A B X : Type} {L M N : Nat}

theorem Spec.Only.never {c : Eff σ α} {e : Fault} (h : Only c (.error e)) : Never c := fun s x t hx => by
  have := h s x t hx
  simp at this
theorem Spec.Never.bind {c : Eff σ α} (h : Never c) (f : α → Eff σ β) : Never (c >>= f) := by
  intro s y t hy
  rw [exec_bind] at hy
  rcases hc : c.exec s with ⟨e | z, s1⟩
  · rw [hc] at hy; simp at hy
  · exact h s z s1 hc
theorem Spec.Never.bind_right {c : Eff σ α} {x : α} {f : α → Eff σ β} (h : Only c (.ok x)) (h' : Never (f x)) : Never (c >>= f) := by
  intro s y t hy
  rw [exec_bind] at hy
  rcases hc : c.exec s with ⟨e | z, s1⟩
  · rw [hc] at hy; simp at hy
  · rw [hc] at hy
    obtain rfl : x = z := by simpa using h s z s1 hc
    exact h' s1 y t hy
theorem Vec.never_mapM (hN : 0 < N) {f : T → Eff σ U} (h : ∀ x, Never (f x)) (v : Vec T N) : Never (v.mapM f) := by
  have key : ∀ l : List T, l.length = N → Never (listMapM f l) := fun l hl => by
    cases l with
    | nil => simp at hl; omega
    | cons x l => exact (h x).bind _
  exact (key v.intoArray.toList (by simp)).bind _
theorem Mat.never_mapM (hM : 0 < M) (hN : 0 < N) {f : T → Eff σ U} (h : ∀ x, Never (f x)) (A : Mat T M N) : Never (A.mapM f) :=
  (Vec.never_mapM hM (fun a => Vec.never_mapM hN h a) _).bind _

section
variable [Field T] [Mod T] {o : ScalarE σ T}

/-- The inverse of a singular matrix: no call returns. -/
theorem C101_field_inv_singular (h : PartialOf o) (hz : ∀ x, Never (o.div x 0)) (A : Mat T N N) (hN : 0 < N) (hA : A.det = 0) :
    Never (A.invE o) := by
  have hs := C101_square h A A 0 0 0
  refine .bind_right hs.2.2.2.2.2.1 (.bind_right hs.2.2.2.1 ?_)
  rw [hA]
  exact Mat.never_mapM hN hN hz _
/-- Whatever `inv` returns is the inverse, on both sides. -/
theorem C101_field_inv (h : PartialOf o) (hz : ∀ x, Never (o.div x 0)) (A B : Mat T N N) (s t : σ) (hB : (A.invE o).exec s = (.ok B, t)) :
    A.dotM B = 1 ∧ B.dotM A = 1 := by
  rcases Nat.eq_zero_or_pos N with rfl | hN
  · constructor <;> apply Mat.ext_getElem <;> intro i hi <;> omega
  · have hd : A.det ≠ 0 := fun hd => C101_field_inv_singular h hz A hN hd s B t hB
    obtain rfl : A.inv = B := by simpa using (C101_square h A A 0 0 0).2.2.2.2.2.2 s B t hB
    exact C33_inv A hd

/-- The round trip through a linear transformation and its inverse, in either order: if every call returns, the result is the start. -/
theorem C101_field_linear (h : PartialOf o) (hz : ∀ x, Never (o.div x 0)) (l k : Linear T N) (x y z : Vec T N) (s : Fin 6 → σ)
    (hk : ((linearE o).inv l).exec (s 0) = (.ok k, s 1))
    (hy : ((linearE o).apply l x).exec (s 2) = (.ok y, s 3) ∧ ((linearE o).apply k y).exec (s 4) = (.ok z, s 5) ∨
      ((linearE o).apply k x).exec (s 2) = (.ok y, s 3) ∧ ((linearE o).apply l y).exec (s 4) = (.ok z, s 5)) : z = x := by
  have hl := C101_linear (N := N) h
  have hk' : l.lin.dotM k.lin = 1 ∧ k.lin.dotM l.lin = 1 := by
    rcases hc : (l.lin.invE o).exec (s 0) with ⟨e | B, t⟩
    · have : ((linearE o).inv l).exec (s 0) = (.error e, t) := by
        show (l.lin.invE o >>= _).exec (s 0) = _
        rw [exec_bind, hc]
      rw [this] at hk; simp at hk
    · have : ((linearE o).inv l).exec (s 0) = (.ok ⟨B⟩, t) := by
        show (l.lin.invE o >>= _).exec (s 0) = _
        rw [exec_bind, hc]; rfl
      rw [this] at hk
      simp only [Prod.mk.injEq, Except.ok.injEq] at hk
      rw [← hk.1]
      exact C101_field_inv h hz _ _ _ _ hc
  have ap : ∀ (l : Linear T N) (x y : Vec T N) (s t : σ), ((linearE o).apply l x).exec s = (.ok y, t) → y = l.lin.dotV x :=
    fun l x y s t e => by
      have := hl.apply l x s y t e
      simp only [Except.ok.injEq] at this
      exact this.symm
  rcases hy with ⟨h1, h2⟩ | ⟨h1, h2⟩
  · rw [ap _ _ _ _ _ h2, ap _ _ _ _ _ h1, ← Mat.dotV_dotM, hk'.2, Mat.one_dotV]
  · rw [ap _ _ _ _ _ h2, ap _ _ _ _ _ h1, ← Mat.dotV_dotM, hk'.1, Mat.one_dotV]

/-- The same for affine transformations. -/
theorem C101_field_affine (h : PartialOf o) (hz : ∀ x, Never (o.div x 0)) (a b : Affine T N) (x y z : Vec T N) (s : Fin 6 → σ)
    (hb : ((affineE o).inv a).exec (s 0) = (.ok b, s 1))
    (hy : ((affineE o).apply a x).exec (s 2) = (.ok y, s 3) ∧ ((affineE o).apply b y).exec (s 4) = (.ok z, s 5) ∨
      ((affineE o).apply b x).exec (s 2) = (.ok y, s 3) ∧ ((affineE o).apply a y).exec (s 4) = (.ok z, s 5)) : z = x := by
  rcases Nat.eq_zero_or_pos N with rfl | hN
  · apply Vec.ext_getElem; intro i hi; omega
  have ha := C101_affine (N := N) h
  have hd : a.linear.intoMatrix.det ≠ 0 := fun hd => by
    have hn : Never ((affineE o).inv a) :=
      Spec.Never.bind (c := (linearE o).inv a.inner) ((C101_field_inv_singular h hz a.inner.lin hN hd).bind _) _
    exact hn _ _ _ hb
  obtain rfl : Transform.inv (Vec T N) a = b := by
    have := ha.inv a _ _ _ hb
    simpa only [Except.ok.injEq] using this
  have ap : ∀ (a : Affine T N) (x y : Vec T N) (s t : σ), ((affineE o).apply a x).exec s = (.ok y, t) → y = Transform.apply a x :=
    fun a x y s t e => by
      have := ha.apply a x s y t e
      simp only [Except.ok.injEq] at this
      exact this.symm
  have hi := C58_affine_group.2.2.1 a hd x
  rcases hy with ⟨h1, h2⟩ | ⟨h1, h2⟩
  · rw [ap _ _ _ _ _ h2, ap _ _ _ _ _ h1, hi.1]
  · rw [ap _ _ _ _ _ h2, ap _ _ _ _ _ h1, hi.2]

omit [Mod T] in
theorem Vec.never_divSE (hz : ∀ x, Never (o.div x 0)) (hN : 0 < N) (v : Vec T N) : Never (v.divSE o 0) := Vec.never_mapM hN hz _
/-- Whatever complex reciprocal or quotient is returned is right. -/
theorem C101_field_complex (h : PartialOf o) (hz : ∀ x, Never (o.div x 0)) (z w q : Cpx T) (s t : σ) :
    ((z.invE o).exec s = (.ok w, t) → z * w = 1 ∧ w * z = 1) ∧ ((z.divE o w).exec s = (.ok q, t) → q * w = z) := by
  have nv : ∀ z : Cpx T, z.normSqr = 0 → Never (z.invE o) := fun z h0 => by
    have hq : z.vec.squareLengthR = .ok z.normSqr := Res.ok_get _ _
    have hc := C101_complex h z z
    have hv := (C101_vector h z.vec z.vec 0).2.2.2.2.2.2.2.2.2.2.2
    rw [hq] at hv
    refine .bind_right hc.2.1 (.bind_right hv ?_)
    rw [h0]
    exact (Vec.never_divSE hz (by omega) _).bind _
  constructor
  · intro e
    obtain rfl : z.inv = w := by simpa using (C101_complex h z z).2.2.2.2.2.1 s w t e
    have := C38_inverse z fun h0 => nv z h0 s _ t e
    exact ⟨this.1, this.2.1⟩
  · intro e
    obtain rfl : z / w = q := by simpa using (C101_complex h z w).2.2.2.2.2.2 s q t e
    exact ((C38_inverse w fun h0 => ((nv w h0).bind _) s _ t e).2.2 z).1
/-- Whatever quaternion reciprocal or quotient is returned is right. -/
theorem C101_field_quaternion (h : PartialOf o) (hz : ∀ x, Never (o.div x 0)) (z w q : Quat T) (s t : σ) :
    ((z.invE o).exec s = (.ok w, t) → z * w = 1 ∧ w * z = 1) ∧ ((z.divE o w).exec s = (.ok q, t) → q * w = z) := by
  have nv : ∀ z : Quat T, z.normSqr = 0 → Never (z.invE o) := fun z h0 => by
    have hq : z.vec.squareLengthR = .ok z.normSqr := Res.ok_get _ _
    have hc := C101_quaternion h z z
    have hv := (C101_vector h z.vec z.vec 0).2.2.2.2.2.2.2.2.2.2.2
    rw [hq] at hv
    refine .bind_right hc.1 (.bind_right hv ?_)
    rw [h0]
    exact (Vec.never_divSE hz (by omega) _).bind _
  constructor
  · intro e
    obtain rfl : z.inv = w := by simpa using (C101_quaternion h z z).2.2.1 s w t e
    have := C43_inverse z fun h0 => nv z h0 s _ t e
    exact ⟨this.1, this.2.1⟩
  · intro e
    obtain rfl : z / w = q := by simpa using (C101_quaternion h z w).2.2.2 s q t e
    exact ((C43_inverse w fun h0 => ((nv w h0).bind _) s _ t e).2.2 z).1

/-- `apply` of a Moebius transformation never returns at a pole; elsewhere what it returns is the quotient. -/
theorem C101_field_moebius_apply (h : PartialOf o) (hz : ∀ x, Never (o.div x 0)) (m : Moebius T) (x y : T) (s t : σ)
    (hy : (m.applyE o x).exec s = (.ok y, t)) : m.c * x + m.d ≠ 0 ∧ y * (m.c * x + m.d) = m.a * x + m.b := by
  have hd : m.c * x + m.d ≠ 0 := fun h0 => by
    have : Never (m.applyE o x) := .bind_right (h.mul _ _) (.bind_right (h.add _ _) (.bind_right (h.mul _ _) (.bind_right (h.add _ _)
      (by rw [h0]; exact hz _))))
    exact this _ _ _ hy
  refine ⟨hd, ?_⟩
  have := (C101_moebius h m m x).1 s y t hy
  simp only [Except.ok.injEq] at this
  rw [← this, Moebius.apply, div_mul_cancel₀ _ hd]
/-- Composition and inverse of Moebius transformations: if all calls return, the results agree. -/
theorem C101_field_moebius (h : PartialOf o) (hz : ∀ x, Never (o.div x 0)) (m n k : Moebius T) (x y z w : T) (s : Fin 8 → σ)
    (hx : (n.applyE o x).exec (s 0) = (.ok y, s 1)) :
    ((m.chainE o n).exec (s 2) = (.ok k, s 3) → (m.applyE o y).exec (s 4) = (.ok z, s 5) → (k.applyE o x).exec (s 6) = (.ok w, s 7) →
      w = z) ∧
    ((n.invE o).exec (s 2) = (.ok k, s 3) → (k.applyE o y).exec (s 4) = (.ok z, s 5) → z = x) := by
  have ap : ∀ (m : Moebius T) (x y : T) (s t : σ), (m.applyE o x).exec s = (.ok y, t) → y = m.apply x := fun m x y s t e => by
    have := (C101_moebius h m m x).1 s y t e
    simp only [Except.ok.injEq] at this
    exact this.symm
  have hd := (C101_field_moebius_apply h hz n x y _ _ hx).1
  constructor
  · intro hk h1 h2
    obtain rfl : m.chain n = k := by simpa using (C101_moebius h m n x).2.1 _ _ _ hk
    rw [ap _ _ _ _ _ h2, ap _ _ _ _ _ h1, ap _ _ _ _ _ hx]
    exact Moebius.apply_chain id (fun _ _ => rfl) (fun _ _ => rfl) (fun _ _ => rfl) (fun _ _ => rfl) m n x hd
  · intro hk h1
    have hdet : n.det ≠ 0 := fun h0 => ((C101_field_inv_singular h hz n.mat (by omega) h0).bind _) _ _ _ hk
    obtain rfl : n.inv = k := by simpa using (C101_moebius h n n x).2.2.2.2 _ _ _ hk
    rw [ap _ _ _ _ _ h1, ap _ _ _ _ _ hx]
    exact (Moebius.apply_inv_of_chain (T := T) (U := T) id (fun _ _ => rfl) (fun _ _ => rfl) (fun _ _ => rfl) (fun _ _ => rfl) rfl rfl
      n.inv n x (Moebius.inv_chain n hdet).1 hd).1
end

section
variable [Field T] [Mod T] [DecidableEq T]
/-- Exact arithmetic whose only panic is division by zero is such a type. -/
theorem C101_strict : PartialOf (strict : ScalarE σ T) ∧ ∀ x : T, Never ((strict : ScalarE σ T).div x 0) := by
  have nv : ∀ {α : Type} (e : Fault), Never (throw e : Eff σ α) := fun e s x t h => by
    have h : ((Except.error e : Res _), s) = (.ok x, t) := h
    simp at h
  have on : ∀ {α : Type} {c : Eff σ α} (r : Res α), Never c → Only c r := fun r h s x t e => absurd e (h s x t)
  refine ⟨⟨fun x y => .pure _, fun x y => .pure _, fun x y => .pure _, fun x y => ?_, fun x y => ?_, fun x => .pure _, .pure _, .pure _⟩,
    fun x => ?_⟩
  · show Only (if y = 0 then _ else _) _
    split
    · exact on _ (nv _)
    · exact .pure _
  · show Only (if y = 0 then _ else _) _
    split
    · exact on _ (nv _)
    · exact .pure _
  · show Never (if (0 : T) = 0 then _ else _)
    rw [if_pos rfl]
    exact nv _
omit [Mod T] in
theorem eval_strict [Mod T] (e : Expr T) : e.eval (strict : ScalarE σ T) = e.eval plain := by
  induction e with
  | lit x => rfl
  | zero => rfl
  | one => rfl
  | neg a ih => rw [Expr.eval, Expr.eval, ih]; rfl
  | add a b iha ihb => rw [Expr.eval, Expr.eval, iha, ihb]; rfl
  | sub a b iha ihb => rw [Expr.eval, Expr.eval, iha, ihb]; rfl
  | mul a b iha ihb => rw [Expr.eval, Expr.eval, iha, ihb]; rfl
theorem detE_strict (A : Mat T N N) : A.detE (strict : ScalarE σ T) = pure A.det := by
  rw [Mat.detE_eq, eval_strict, ← Mat.detE_eq, Mat.detE_plain, show A.detR = .ok A.det from Res.ok_get _ _, liftRes_ok]
theorem adjE_strict (A : Mat T N N) : A.adjE (strict : ScalarE σ T) = pure A.adj := by
  have h0 : ∀ i j, A.cofactorE (strict : ScalarE σ T) i j = A.cofactorE plain i j := fun i j => by
    rw [(C100_det strict A i j).2, (C100_det plain A i j).2]
    split
    · exact eval_strict _
    · rfl
  have h1 : A.adjE (strict : ScalarE σ T) = A.adjE plain := by simp only [Mat.adjE, h0]
  rw [h1, Mat.adjE_plain, show A.adjR = .ok A.adj from Res.ok_get _ _, liftRes_ok]
theorem divSE_strict (A : Mat T N N) (d : T) (hd : d ≠ 0) : A.divSE (strict : ScalarE σ T) d = pure (A.divS d) := by
  have : (fun x : T => (strict : ScalarE σ T).div x d) = fun x => pure (x / d) := funext fun x => if_neg hd
  rw [Mat.divSE, this, Mat.mapM_pure']; rfl
theorem Vec.exec_mapM_error {V W : Type} (hN : 0 < N) (e : Fault) (f : V → Eff σ W) (h : ∀ x s, (f x).exec s = (.error e, s)) (v : Vec V N)
    (s : σ) : (v.mapM f).exec s = (.error e, s) := by
  have key : ∀ l : List V, l.length = N → (listMapM f l).exec s = (.error e, s) := fun l hl => by
    cases l with
    | nil => simp at hl; omega
    | cons x l => rw [listMapM, exec_bind, h]
  rw [Vec.mapM, exec_bind, key _ (by simp)]
theorem exec_divSE_strict_zero (hN : 0 < N) (A : Mat T N N) (s : σ) :
    (A.divSE (strict : ScalarE σ T) 0).exec s = (.error .arithOverflow, s) := by
  have h : ∀ (x : T) (s : σ), ((strict : ScalarE σ T).div x 0).exec s = (.error .arithOverflow, s) := fun x s => by
    show (if (0 : T) = 0 then (throw Fault.arithOverflow : Eff σ T) else _).exec s = _
    rw [if_pos rfl]; rfl
  rw [Mat.divSE, Mat.mapM, exec_bind, Vec.exec_mapM_error hN .arithOverflow _ (fun a s => Vec.exec_mapM_error hN .arithOverflow _ h a s)]
/-- Over exact arithmetic `inv` returns exactly for the invertible matrices (and for the empty one). -/
theorem C101_strict_inv (A : Mat T N N) (s : σ) :
    (A.invE (strict : ScalarE σ T)).exec s = if N = 0 ∨ A.det ≠ 0 then (.ok A.inv, s) else (.error .arithOverflow, s) := by
  have e : A.invE (strict : ScalarE σ T) = A.adj.divSE strict A.det := by
    rw [Mat.invE, adjE_strict, detE_strict, pure_bind, pure_bind]
  rw [e]
  by_cases hd : A.det = 0
  · rcases Nat.eq_zero_or_pos N with rfl | hN
    · rw [if_pos (Or.inl rfl)]
      have : ∀ (B C : Mat T 0 0), B = C := fun B C => by apply Mat.ext_getElem; intro i hi; omega
      rw [this A.adj ⟨⟨#v[]⟩⟩, this A.inv ⟨⟨#v[]⟩⟩]; rfl
    · rw [if_neg (by simp [hd]; omega), hd, exec_divSE_strict_zero hN]
  · rw [if_pos (Or.inr hd), divSE_strict _ _ hd]
    have h3 : A.invR = .ok (A.adj.divS A.det) := by
      rw [Mat.invR, show A.adjR = .ok A.adj from Res.ok_get _ _, show A.detR = .ok A.det from Res.ok_get _ _]; rfl
    rw [show A.inv = A.adj.divS A.det from Res.get_eq h3 _]; rfl
end
end Vecmat
