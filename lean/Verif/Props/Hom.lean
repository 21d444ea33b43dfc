import Verif.Spec.Hom
import Verif.Lemmas.Rel
import Verif.Lemmas.Flat
import Verif.Lemmas.Transforms
import Verif.Lemmas.Rotation
import Verif.Lemmas.Moebius
import Mathlib.Data.ZMod.Basic
/-!
# C89: changing the scalar type commutes with the arithmetic
-/
namespace Vecmat
open Spec
variable {T S : Type} {L M N : Nat}

namespace Hom
theorem relV (φ : T → S) (v : Vec T N) : RelV (fun a b => φ a = b) v (v.map φ) := fun i hi => by simp
theorem relM (φ : T → S) (A : Mat T M N) : RelM (fun a b => φ a = b) A (A.map φ) := fun i hi j hj => by simp
theorem eqV {φ : T → S} {v : Vec T N} {w : Vec S N} (h : RelV (fun a b => φ a = b) v w) : w = v.map φ := by
  apply Vec.ext_getElem; intro i hi; simpa using (h i hi).symm
theorem eqM {φ : T → S} {A : Mat T M N} {B : Mat S M N} (h : RelM (fun a b => φ a = b) A B) : B = A.map φ := by
  apply Mat.ext_getElem; intro i hi j hj; simpa using (h i hi j hj).symm
theorem opRel [Add T] [Sub T] [Neg T] [Mul T] [Zero T] [One T] [Add S] [Sub S] [Neg S] [Mul S] [Zero S] [One S] {φ : T → S} (h : RingConv φ) :
    OpRel T S fun a b => φ a = b where
  add := by rintro a _ c _ rfl rfl; exact h.add a c
  sub := by rintro a _ c _ rfl rfl; exact h.sub a c
  mul := by rintro a _ c _ rfl rfl; exact h.mul a c
  neg := by rintro a _ rfl; exact h.neg a
  zero := h.zero
  one := h.one
theorem foldFirstR_map {φ : T → S} {f : T → T → T} {g : S → S → S} (h : ∀ a b, φ (f a b) = g (φ a) (φ b)) (v : Vec T N) :
    (v.map φ).foldFirstR g = (v.foldFirstR f).map φ := by
  rw [Vec.foldFirstR_eq, Vec.foldFirstR_eq, Vec.toList_map]
  cases v.toList with
  | nil => rfl
  | cons x l =>
    show Except.ok _ = Except.ok _
    congr 1
    induction l generalizing x with
    | nil => rfl
    | cons y l ih => simpa [h] using ih (f x y)
theorem mFoldFirstR_map {φ : T → S} {f : T → T → T} {g : S → S → S} (h : ∀ a b, φ (f a b) = g (φ a) (φ b)) (A : Mat T M N) :
    (A.map φ).foldFirstR g = (A.foldFirstR f).map φ := by
  rw [Mat.foldFirstR_flat, Mat.foldFirstR_flat, Mat.flat_map, foldFirstR_map h]
theorem list_mapM {U V W : Type} (φ : V → W) (f : U → Res V) (l : List U) : l.mapM (fun x => (f x).map φ) = (l.mapM f).map (List.map φ) := by
  induction l with
  | nil => rfl
  | cons x l ih =>
    simp only [List.mapM_cons, ih]
    cases f x with
    | error e => rfl
    | ok a => cases l.mapM f <;> rfl
theorem mapM_nat {U V W : Type} (φ : V → W) (f : U → Res V) (v : Vec U N) : v.mapM (fun x => (f x).map φ) = (v.mapM f).map (Vec.map φ) := by
  have h1 : Vec.toList <$> v.mapM (fun x => (f x).map φ) = (Vec.toList <$> v.mapM f).map (List.map φ) := by
    rw [Vec.toList_mapM, Vec.toList_mapM, list_mapM]
  cases h2 : v.mapM (fun x => (f x).map φ) with
  | error e => cases h3 : v.mapM f with
    | error e' => rw [h2, h3] at h1; cases h1; rfl
    | ok a => rw [h2, h3] at h1; cases h1
  | ok b => cases h3 : v.mapM f with
    | error e' => rw [h2, h3] at h1; cases h1
    | ok a =>
      rw [h2, h3] at h1
      have : b.toList = a.toList.map φ := Except.ok.inj h1
      show Except.ok b = Except.ok _
      rw [Vec.toList_inj (this.trans (Vec.toList_map φ a).symm)]
theorem mMapM_nat {U V W : Type} (φ : V → W) (f : U → Res V) (A : Mat U M N) : A.mapM (fun x => (f x).map φ) = (A.mapM f).map (Mat.map φ) := by
  unfold Mat.mapM
  simp only [mapM_nat]
  cases h : A.data.mapM fun a => a.mapM f <;> rfl
theorem sumR_map [Add T] [Sub T] [Neg T] [Mul T] [Zero T] [One T] [Add S] [Sub S] [Neg S] [Mul S] [Zero S] [One S] {φ : T → S} (h : RingConv φ) (v : Vec T N) :
    (v.map φ).sumR = v.sumR.map φ := foldFirstR_map h.add v
theorem index_map (φ : T → S) (v : Vec T N) (i : Nat) : (v.map φ).index i = (v.index i).map φ := by
  by_cases h : i < N
  · rw [Vec.index_lt _ _ h, Vec.index_lt _ _ h]; simp [Except.map]
  · rw [Vec.index_ge _ _ (by omega), Vec.index_ge _ _ (by omega)]; rfl
theorem mIndex_map (φ : T → S) (A : Mat T M N) (p : Nat × Nat) : (A.map φ).index p = (A.index p).map φ := by
  obtain ⟨i, j⟩ := p
  by_cases h : i < M ∧ j < N
  · rw [Mat.index_lt _ _ _ h.1 h.2, Mat.index_lt _ _ _ h.1 h.2]; simp [Except.map]
  · rw [Mat.index_ge _ _ _ (by omega), Mat.index_ge _ _ _ (by omega)]; rfl
theorem rowR_map (φ : T → S) (A : Mat T M N) (i : Nat) : (A.map φ).rowR i = (A.rowR i).map (Vec.map φ) := index_map (Vec.map φ) A.data i
theorem colR_map (φ : T → S) (A : Mat T M N) (j : Nat) : (A.map φ).colR j = (A.colR j).map (Vec.map φ) := by
  unfold Mat.colR
  rw [← mapM_nat]
  congr 1; funext i; exact mIndex_map φ A _
theorem bind_map {U U' V V' : Type} (φ : U → U') (ψ : V → V') (a : Res U) (f : U → Res V) (g : U' → Res V') (h : ∀ x, g (φ x) = (f x).map ψ) :
    (a.map φ >>= g) = (a >>= f).map ψ := by
  cases a with
  | error e => rfl
  | ok x => exact h x
theorem zip_map (φ : T → S) (v w : Vec T N) : (v.map φ).zip (w.map φ) = (v.zip w).map fun p => (φ p.1, φ p.2) := by
  apply Vec.ext_getElem; intro i hi; simp
theorem map_map {U V W : Type} (f : V → W) (g : U → V) (v : Vec U N) : (v.map g).map f = v.map fun x => f (g x) := by
  apply Vec.ext_getElem; intro i hi; simp
theorem mZip_map (φ : T → S) (A B : Mat T M N) : (A.map φ).zip (B.map φ) = (A.zip B).map fun p => (φ p.1, φ p.2) := by
  apply Mat.ext_getElem; intro i hi j hj; simp
theorem mMap_map {U V W : Type} (f : V → W) (g : U → V) (A : Mat U M N) : (A.map g).map f = A.map fun x => f (g x) := by
  apply Mat.ext_getElem; intro i hi j hj; simp
theorem mapC_vec (φ : T → S) (z : Cpx T) : (mapC φ z).vec = z.vec.map φ := by
  apply Vec.ext_getElem; intro i hi
  match i, hi with
  | 0, _ => simp [mapC, Cpx.new, Vec.fromArray]
  | 1, _ => simp [mapC, Cpx.new, Vec.fromArray]
theorem mapQ_vec (φ : T → S) (z : Quat T) : (mapQ φ z).vec = z.vec.map φ := by
  apply Vec.ext_getElem; intro i hi
  match i, hi with
  | 0, _ => simp [mapQ, Quat.new, Vec.fromArray]
  | 1, _ => simp [mapQ, Quat.new, Vec.fromArray]
  | 2, _ => simp [mapQ, Quat.new, Vec.fromArray]
  | 3, _ => simp [mapQ, Quat.new, Vec.fromArray]
theorem fromArrArr_map (φ : T → S) (a : Vector (Vector T N) M) : (Mat.fromArrArr a).map φ = Mat.fromArrArr (a.map (Vector.map φ)) := by
  apply Mat.ext_getElem; intro i hi j hj; simp [Mat.fromArrArr, Mat.fromVecVec, Vec.fromArray]
end Hom

section
variable [Add T] [Sub T] [Neg T] [Mul T] [Zero T] [One T] [Add S] [Sub S] [Neg S] [Mul S] [Zero S] [One S] {φ : T → S}

/-- Vectors: converting before or after an operation gives the same result; empty vectors panic on both sides. -/
theorem C89_vector (h : RingConv φ) (v w : Vec T N) (s : T) :
    (v + w).map φ = v.map φ + w.map φ ∧ (v - w).map φ = v.map φ - w.map φ ∧ (-v).map φ = -v.map φ ∧ (v * w).map φ = v.map φ * w.map φ ∧
    (v.mulS s).map φ = (v.map φ).mulS (φ s) ∧ (Vec.sMul s v).map φ = Vec.sMul (φ s) (v.map φ) ∧ (0 : Vec T N).map φ = 0 ∧
    (v.map φ).sumR = v.sumR.map φ ∧ (v.map φ).dotR (w.map φ) = (v.dotR w).map φ ∧
    (v.map φ).squareLengthR = v.squareLengthR.map φ ∧ (v.map φ).normL2SqrR = v.normL2SqrR.map φ := by
  refine ⟨?_, ?_, ?_, ?_, ?_, ?_, ?_, ?_, ?_, ?_, ?_⟩
  · apply Vec.ext_getElem; intro i hi; simp [h.add]
  · apply Vec.ext_getElem; intro i hi; simp [h.sub]
  · apply Vec.ext_getElem; intro i hi; simp [h.neg]
  · apply Vec.ext_getElem; intro i hi; simp [h.mul]
  · apply Vec.ext_getElem; intro i hi; simp [h.mul]
  · apply Vec.ext_getElem; intro i hi; simp [h.mul]
  · apply Vec.ext_getElem; intro i hi; simp [h.zero]
  · exact Hom.foldFirstR_map h.add v
  · unfold Vec.dotR
    rw [Hom.zip_map, Hom.map_map, ← Hom.sumR_map h, Hom.map_map]
    simp only [h.mul]
  · unfold Vec.squareLengthR
    rw [Hom.map_map, ← Hom.sumR_map h, Hom.map_map]
    simp only [h.mul]
  · unfold Vec.normL2SqrR
    rw [Hom.map_map, ← Hom.sumR_map h, Hom.map_map]
    simp only [h.mul]

/-- Sums over iterators of vectors and matrices. -/
theorem C89_iter_sum (h : RingConv φ) (l : List (Vec T N)) (k : List (Mat T M N)) :
    Vec.iterSum (l.map (Vec.map φ)) = (Vec.iterSum l).map φ ∧ Mat.iterSum (k.map (Mat.map φ)) = (Mat.iterSum k).map φ := by
  constructor
  · unfold Vec.iterSum
    rw [List.foldl_map]
    have : ∀ a : Vec T N, l.foldl (fun x y => x + y.map φ) (a.map φ) = (l.foldl (fun x y => x + y) a).map φ := by
      induction l with
      | nil => intro a; rfl
      | cons x l ih => intro a; rw [List.foldl_cons, List.foldl_cons, ← (C89_vector h a x 0).1, ih]
    rw [← this]; congr 1; apply Vec.ext_getElem; intro i hi; simp [h.zero]
  · unfold Mat.iterSum
    rw [List.foldl_map]
    have : ∀ a : Mat T M N, k.foldl (fun x y => x + y.map φ) (a.map φ) = (k.foldl (fun x y => x + y) a).map φ := by
      induction k with
      | nil => intro a; rfl
      | cons x k ih =>
        intro a
        have e : a.map φ + x.map φ = (a + x).map φ := by apply Mat.ext_getElem; intro i hi j hj; simp [h.add]
        rw [List.foldl_cons, List.foldl_cons, e, ih]
    rw [← this]; congr 1; apply Mat.ext_getElem; intro i hi j hj; simp [h.zero]

/-- Cross products. -/
theorem C89_cross (h : RingConv φ) (a b : Vec T 2) (c d : Vec T 3) (e f : Vec T 4) :
    (a.map φ).cross2 (b.map φ) = φ (a.cross2 b) ∧ (c.map φ).cross3 (d.map φ) = (c.cross3 d).map φ ∧ (e.map φ).cross4 (f.map φ) = (e.cross4 f).map φ := by
  refine ⟨by simp [Vec.cross2, h.sub, h.mul], Vec.ext3 ?_ ?_ ?_, ?_⟩
  · simp [h.sub, h.mul]
  · simp [h.sub, h.mul]
  · simp [h.sub, h.mul]
  · apply Vec.ext_getElem; intro i hi
    match i, hi with
    | 0, _ => simp [Vec.cross4, Vec.fromArray, h.sub, h.mul]
    | 1, _ => simp [Vec.cross4, Vec.fromArray, h.sub, h.mul]
    | 2, _ => simp [Vec.cross4, Vec.fromArray, h.sub, h.mul]
    | 3, _ => simp [Vec.cross4, Vec.fromArray, h.zero]

/-- Matrices: arithmetic, sums, transposition and all products. -/
theorem C89_matrix (h : RingConv φ) (A B : Mat T M N) (C : Mat T N L) (v : Vec T N) (u : Vec T M) (s : T) :
    (A + B).map φ = A.map φ + B.map φ ∧ (A - B).map φ = A.map φ - B.map φ ∧ (-A).map φ = -A.map φ ∧ (A * B).map φ = A.map φ * B.map φ ∧
    (A.mulS s).map φ = (A.map φ).mulS (φ s) ∧ (0 : Mat T M N).map φ = 0 ∧ A.transpose.map φ = (A.map φ).transpose ∧
    (A.map φ).sumR = A.sumR.map φ ∧ (A.map φ).dotVR (v.map φ) = (A.dotVR v).map (Vec.map φ) ∧
    Mat.vDotR (u.map φ) (A.map φ) = (Mat.vDotR u A).map (Vec.map φ) ∧ (A.map φ).dotMR (C.map φ) = (A.dotMR C).map (Mat.map φ) ∧
    Mat.outerR (u.map φ) (v.map φ) = (Mat.outerR u v).map (Mat.map φ) := by
  have hd : ∀ {n : Nat} (a b : Vec T n), (a.map φ).dotR (b.map φ) = (a.dotR b).map φ := fun a b => (C89_vector h a b 0).2.2.2.2.2.2.2.2.1
  refine ⟨?_, ?_, ?_, ?_, ?_, ?_, ?_, ?_, ?_, ?_, ?_, ?_⟩
  · apply Mat.ext_getElem; intro i hi j hj; simp [h.add]
  · apply Mat.ext_getElem; intro i hi j hj; simp [h.sub]
  · apply Mat.ext_getElem; intro i hi j hj; simp [h.neg]
  · apply Mat.ext_getElem; intro i hi j hj; simp [h.mul]
  · apply Mat.ext_getElem; intro i hi j hj; simp [h.mul]
  · apply Mat.ext_getElem; intro i hi j hj; simp [h.zero]
  · apply Mat.ext_getElem; intro i hi j hj; simp
  · exact Hom.mFoldFirstR_map h.add A
  · unfold Mat.dotVR
    rw [← Hom.mapM_nat]; congr 1; funext i
    rw [Hom.rowR_map]; exact Hom.bind_map _ _ _ _ _ fun x => hd x v
  · unfold Mat.vDotR
    rw [← Hom.mapM_nat]; congr 1; funext i
    rw [Hom.colR_map]; exact Hom.bind_map _ _ _ _ _ fun x => hd u x
  · unfold Mat.dotMR
    rw [← Hom.mMapM_nat]; congr 1; funext i
    rw [Hom.rowR_map]; refine Hom.bind_map _ _ _ _ _ fun x => ?_
    rw [Hom.colR_map]; exact Hom.bind_map _ _ _ _ _ fun y => hd x y
  · unfold Mat.outerR
    rw [← Hom.mMapM_nat]; congr 1; funext i
    rw [Hom.index_map]; refine Hom.bind_map _ _ _ _ _ fun x => ?_
    rw [Hom.index_map]; refine Hom.bind_map _ _ _ _ _ fun y => ?_
    rw [← h.mul]; rfl

/-- Square matrices: products, identity, diagonal, determinant, cofactors and adjugate. -/
theorem C89_square (h : RingConv φ) (A B : Mat T N N) (v : Vec T N) :
    (A.map φ).dotV (v.map φ) = (A.dotV v).map φ ∧ Mat.vDot (v.map φ) (A.map φ) = (Mat.vDot v A).map φ ∧ (A.map φ).dotM (B.map φ) = (A.dotM B).map φ ∧
    (1 : Mat T N N).map φ = 1 ∧ (Mat.diagonal v).map φ = Mat.diagonal (v.map φ) ∧
    (A.map φ).det = φ A.det ∧ (A.map φ).adj = A.adj.map φ ∧ ∀ i j, (A.map φ).cofactorR i j = (A.cofactorR i j).map φ := by
  have m := C89_matrix h A B B v v 0
  refine ⟨?_, ?_, ?_, ?_, ?_, ((Hom.opRel h).det (Hom.relM φ A)).symm, Hom.eqM ((Hom.opRel h).adj (Hom.relM φ A)), ?_⟩
  · exact Res.get_eq (m.2.2.2.2.2.2.2.2.1.trans (by rw [show A.dotVR v = .ok (A.dotV v) from Res.ok_get _ _]; rfl)) _
  · exact Res.get_eq (m.2.2.2.2.2.2.2.2.2.1.trans (by rw [show Mat.vDotR v A = .ok (Mat.vDot v A) from Res.ok_get _ _]; rfl)) _
  · exact Res.get_eq (m.2.2.2.2.2.2.2.2.2.2.1.trans (by rw [show A.dotMR B = .ok (A.dotM B) from Res.ok_get _ _]; rfl)) _
  · apply Mat.ext_getElem; intro i hi j hj; simp [apply_ite φ, h.zero, h.one]
  · apply Mat.ext_getElem; intro i hi j hj; simp [apply_ite φ, h.zero]
  · intro i j
    by_cases hij : i < N ∧ j < N
    · rw [Mat.cofactorR_eq _ _ _ hij.1 hij.2, Mat.cofactorR_eq _ _ _ hij.1 hij.2]
      show _ = Except.ok (φ _)
      rw [(Hom.opRel h).sgn ((Hom.opRel h).lap ((Hom.opRel h).ent (Hom.relM φ A)) _ _)]
    · unfold Mat.cofactorR; rw [if_neg hij, if_neg hij]; rfl

/-- Complex numbers: the conversion of the parts preserves the arithmetic of complex numbers (so all of this property applies to vectors,
matrices and Moebius maps with complex entries), conjugation, squared norm, scaling and the matrix representation. -/
theorem C89_complex (h : RingConv φ) :
    RingConv (mapC φ) ∧ ∀ (z w : Cpx T) (s : T), mapC φ z.conj = (mapC φ z).conj ∧ (mapC φ z).normSqr = φ z.normSqr ∧ (mapC φ z).dot (mapC φ w) = φ (z.dot w) ∧
      mapC φ (z.mulS s) = (mapC φ z).mulS (φ s) ∧ mapC φ (z.addS s) = (mapC φ z).addS (φ s) ∧ mapC φ (z.subS s) = (mapC φ z).subS (φ s) ∧
      mapC φ (Cpx.sSub s z) = Cpx.sSub (φ s) (mapC φ z) ∧ z.intoMatrix.map φ = (mapC φ z).intoMatrix ∧ mapC φ Cpx.i = Cpx.i := by
  have hr : ∀ z : Cpx T, RelV (fun a b => φ a = b) z.vec (mapC φ z).vec := by
    intro z i hi
    match i, hi with
    | 0, _ => simp [mapC, Cpx.new, Vec.fromArray]
    | 1, _ => simp [mapC, Cpx.new, Vec.fromArray]
  refine ⟨⟨?_, ?_, ?_, ?_, ?_, ?_⟩, fun z w s => ⟨?_, ?_, ?_, ?_, ?_, ?_, ?_, ?_, ?_⟩⟩
  · intro a b; apply Cpx.ext' <;> simp [mapC, h.add]
  · intro a b; apply Cpx.ext' <;> simp [mapC, h.sub]
  · intro a; apply Cpx.ext' <;> simp [mapC, h.neg]
  · intro a b; apply Cpx.ext' <;> simp [mapC, h.add, h.sub, h.mul]
  · apply Cpx.ext' <;> simp [mapC, h.zero]
  · apply Cpx.ext' <;> simp [mapC, h.zero, h.one]
  · apply Cpx.ext' <;> simp [mapC, h.neg]
  · exact ((Hom.opRel h).vSquareLength (hr z)).symm
  · exact ((Hom.opRel h).vDot (hr z) (hr w)).symm
  · apply Cpx.ext' <;> simp [mapC, h.mul]
  · apply Cpx.ext' <;> simp [mapC, h.add]
  · apply Cpx.ext' <;> simp [mapC, h.sub]
  · apply Cpx.ext' <;> simp [mapC, Cpx.sSub, h.add, h.neg]
  · unfold Cpx.intoMatrix; rw [Hom.fromArrArr_map, Cpx.intoTuple_eq, Cpx.intoTuple_eq]; simp [mapC, h.neg]
  · apply Cpx.ext' <;> simp [mapC, h.zero, h.one]

/-- Quaternions, likewise; with the mixed operations. -/
theorem C89_quaternion (h : RingConv φ) :
    RingConv (mapQ φ) ∧ ∀ (p q : Quat T) (c : Cpx T) (s : T), mapQ φ q.conj = (mapQ φ q).conj ∧ (mapQ φ q).normSqr = φ q.normSqr ∧
      (mapQ φ p).dot (mapQ φ q) = φ (p.dot q) ∧ mapQ φ (q.mulS s) = (mapQ φ q).mulS (φ s) ∧ mapQ φ (q.addS s) = (mapQ φ q).addS (φ s) ∧
      mapQ φ (q.addC c) = (mapQ φ q).addC (mapC φ c) ∧ mapQ φ (q.subC c) = (mapQ φ q).subC (mapC φ c) ∧
      mapQ φ (q.mulC c) = (mapQ φ q).mulC (mapC φ c) ∧ mapQ φ (Quat.cMul c q) = Quat.cMul (mapC φ c) (mapQ φ q) ∧
      q.intoMatrix.map φ = (mapQ φ q).intoMatrix ∧ mapQ φ Quat.i = Quat.i ∧ mapQ φ Quat.j = Quat.j ∧ mapQ φ Quat.k = Quat.k := by
  have hr : ∀ z : Quat T, RelV (fun a b => φ a = b) z.vec (mapQ φ z).vec := by
    intro z i hi
    match i, hi with
    | 0, _ => simp [mapQ, Quat.new, Vec.fromArray]
    | 1, _ => simp [mapQ, Quat.new, Vec.fromArray]
    | 2, _ => simp [mapQ, Quat.new, Vec.fromArray]
    | 3, _ => simp [mapQ, Quat.new, Vec.fromArray]
  refine ⟨⟨?_, ?_, ?_, ?_, ?_, ?_⟩, fun p q c s => ⟨?_, ?_, ?_, ?_, ?_, ?_, ?_, ?_, ?_, ?_, ?_, ?_, ?_⟩⟩
  · intro a b; apply Quat.ext' <;> simp [mapQ, h.add]
  · intro a b; apply Quat.ext' <;> simp [mapQ, h.sub]
  · intro a; apply Quat.ext' <;> simp [mapQ, h.neg]
  · intro a b; apply Quat.ext' <;> simp [mapQ, h.add, h.sub, h.mul]
  · apply Quat.ext' <;> simp [mapQ, h.zero]
  · apply Quat.ext' <;> simp [mapQ, h.zero, h.one]
  · apply Quat.ext' <;> simp [mapQ, h.neg]
  · exact ((Hom.opRel h).vSquareLength (hr q)).symm
  · exact ((Hom.opRel h).vDot (hr p) (hr q)).symm
  · apply Quat.ext' <;> simp [mapQ, h.mul]
  · apply Quat.ext' <;> simp [mapQ, Quat.addS, h.add]
  · apply Quat.ext' <;> simp [mapQ, mapC, Quat.addC, h.add]
  · apply Quat.ext' <;> simp [mapQ, mapC, Quat.subC, h.sub]
  · apply Quat.ext' <;> simp [mapQ, mapC, Quat.mulC, h.add, h.sub, h.mul]
  · apply Quat.ext' <;> simp [mapQ, mapC, Quat.cMul, h.add, h.sub, h.mul]
  · unfold Quat.intoMatrix; simp only [Quat.intoTuple_eq]; rw [Hom.fromArrArr_map]; simp [mapQ, h.neg]
  · apply Quat.ext' <;> simp [mapQ, h.zero, h.one]
  · apply Quat.ext' <;> simp [mapQ, h.zero, h.one]
  · apply Quat.ext' <;> simp [mapQ, h.zero, h.one]
end

section
variable [Add T] [Sub T] [Neg T] [Mul T] [Zero T] [One T] [Div T] [Add S] [Sub S] [Neg S] [Mul S] [Zero S] [One S] [Div S] {φ : T → S}
/-- Divisions, matrix inverses; inverses and quotients of complex numbers and quaternions. -/
theorem C89_division (h : FieldConv φ) :
    (∀ (v w : Vec T N) (s : T), (v / w).map φ = v.map φ / w.map φ ∧ (v.divS s).map φ = (v.map φ).divS (φ s)) ∧
    (∀ (A B : Mat T M N) (s : T), (A / B).map φ = A.map φ / B.map φ ∧ (A.divS s).map φ = (A.map φ).divS (φ s)) ∧
    (∀ A : Mat T N N, (A.map φ).inv = A.inv.map φ) ∧ FieldConv (mapC φ) ∧ FieldConv (mapQ φ) ∧
    (∀ (z : Cpx T) (s : T), mapC φ z.inv = (mapC φ z).inv ∧ mapC φ (z.divS s) = (mapC φ z).divS (φ s) ∧ mapC φ (Cpx.sDiv s z) = Cpx.sDiv (φ s) (mapC φ z)) ∧
    ∀ (q : Quat T) (c : Cpx T) (s : T), mapQ φ q.inv = (mapQ φ q).inv ∧ mapQ φ (q.divS s) = (mapQ φ q).divS (φ s) ∧
      mapQ φ (q.divC c) = (mapQ φ q).divC (mapC φ c) ∧ mapQ φ (Quat.cDiv c q) = Quat.cDiv (mapC φ c) (mapQ φ q) ∧ mapQ φ (Quat.sDiv s q) = Quat.sDiv (φ s) (mapQ φ q) := by
  have hc := C89_complex h.toRingConv
  have hq := C89_quaternion h.toRingConv
  have cd : ∀ (z : Cpx T) (s : T), mapC φ (z.divS s) = (mapC φ z).divS (φ s) := fun z s => by apply Cpx.ext' <;> simp [mapC, h.div]
  have qd : ∀ (z : Quat T) (s : T), mapQ φ (z.divS s) = (mapQ φ z).divS (φ s) := fun z s => by apply Quat.ext' <;> simp [mapQ, h.div]
  have ci : ∀ z : Cpx T, mapC φ z.inv = (mapC φ z).inv := fun z => by
    unfold Cpx.inv; rw [cd, (hc.2 z z 0).1, (hc.2 z z 0).2.1]
  have qi : ∀ z : Quat T, mapQ φ z.inv = (mapQ φ z).inv := fun z => by
    unfold Quat.inv; rw [qd, (hq.2 z z 0 0).1, (hq.2 z z 0 0).2.1]
  refine ⟨fun v w s => ⟨?_, ?_⟩, fun A B s => ⟨?_, ?_⟩, fun A => ?_, ⟨hc.1, fun a b => ?_⟩, ⟨hq.1, fun a b => ?_⟩, fun z s => ⟨ci z, cd z s, ?_⟩,
    fun q c s => ⟨qi q, qd q s, ?_, ?_, ?_⟩⟩
  · apply Vec.ext_getElem; intro i hi; simp [h.div]
  · apply Vec.ext_getElem; intro i hi; simp [h.div]
  · apply Mat.ext_getElem; intro i hi j hj; simp [h.div]
  · apply Mat.ext_getElem; intro i hi j hj; simp [h.div]
  · have := C89_square h.toRingConv A A 0
    rw [Mat.inv_eq, Mat.inv_eq, this.2.2.2.2.2.1, this.2.2.2.2.2.2.1]
    apply Mat.ext_getElem; intro i hi j hj; simp [h.div]
  · show mapC φ (a * b.inv) = mapC φ a * (mapC φ b).inv
    rw [hc.1.mul, ci]
  · show mapQ φ (a * b.inv) = mapQ φ a * (mapQ φ b).inv
    rw [hq.1.mul, qi]
  · unfold Cpx.sDiv Cpx.sMul; rw [(hc.2 _ z s).2.2.2.1, ci]
  · unfold Quat.divC; rw [(hq.2 q q _ s).2.2.2.2.2.2.2.1, ci]
  · unfold Quat.cDiv; rw [(hq.2 q _ _ s).2.2.2.2.2.2.2.2.1, qi]
  · unfold Quat.sDiv Quat.sMul; rw [(hq.2 q _ 0 s).2.2.2.1, qi]

/-- Moebius maps: composition, determinant, inverse, normalization, and application at scalar, complex and quaternion points. -/
theorem C89_moebius (h : FieldConv φ) (m n : Moebius T) (x : T) (z : Cpx T) (q : Quat T) :
    mapMo φ (m.chain n) = (mapMo φ m).chain (mapMo φ n) ∧ mapMo φ (Moebius.identity : Moebius T) = Moebius.identity ∧ (mapMo φ m).det = φ m.det ∧
    mapMo φ m.inv = (mapMo φ m).inv ∧ mapMo φ m.normalize = (mapMo φ m).normalize ∧
    (mapMo φ m).apply (φ x) = φ (m.apply x) ∧ (mapMo φ m).apply (mapC φ z) = mapC φ (m.apply z) ∧ (mapMo φ m).apply (mapQ φ q) = mapQ φ (m.apply q) := by
  have e : ∀ m : Moebius T, (mapMo φ m).mat = m.mat.map φ := fun m => by
    apply Mat.ext_getElem; intro i hi j hj
    match i, hi, j, hj with
    | 0, _, 0, _ => simp [mapMo]
    | 0, _, 1, _ => simp [mapMo]
    | 1, _, 0, _ => simp [mapMo]
    | 1, _, 1, _ => simp [mapMo]
  have sq := C89_square h.toRingConv m.mat n.mat 0
  have dv := C89_division (N := 2) (M := 2) h
  have hc := C89_complex h.toRingConv
  have hq := C89_quaternion h.toRingConv
  have ea : (mapMo φ m).a = φ m.a := by simp [mapMo]
  have eb : (mapMo φ m).b = φ m.b := by simp [mapMo]
  have ec : (mapMo φ m).c = φ m.c := by simp [mapMo]
  have ed : (mapMo φ m).d = φ m.d := by simp [mapMo]
  have cA : ∀ (z : Cpx T) (s : T), mapC φ (z.addS s) = (mapC φ z).addS (φ s) := fun z s => (hc.2 z z s).2.2.2.2.1
  have cM : ∀ (z : Cpx T) (s : T), mapC φ (z.mulS s) = (mapC φ z).mulS (φ s) := fun z s => (hc.2 z z s).2.2.2.1
  have qA : ∀ (z : Quat T) (s : T), mapQ φ (z.addS s) = (mapQ φ z).addS (φ s) := fun z s => (hq.2 z z 0 s).2.2.2.2.1
  have qM : ∀ (z : Quat T) (s : T), mapQ φ (z.mulS s) = (mapQ φ z).mulS (φ s) := fun z s => (hq.2 z z 0 s).2.2.2.1
  refine ⟨?_, ?_, ?_, ?_, ?_, ?_, ?_, ?_⟩
  · refine Moebius.ext ((e _).trans (sq.2.2.1.symm.trans ?_))
    rw [← e, ← e, Moebius.chain]
  · apply Moebius.ext; rw [e]; exact sq.2.2.2.1
  · show (mapMo φ m).mat.det = φ m.mat.det; rw [e]; exact sq.2.2.2.2.2.1
  · apply Moebius.ext; rw [e]; show m.mat.inv.map φ = (mapMo φ m).mat.inv; rw [e]; exact (dv.2.2.1 _).symm
  · apply Moebius.ext; rw [e]; show (m.mat.divS m.mat.det).map φ = (mapMo φ m).mat.divS (mapMo φ m).mat.det
    rw [e, sq.2.2.2.2.2.1]; exact (dv.2.1 _ m.mat _).2
  · simp [Moebius.apply, e, h.add, h.mul, h.div]
  · show (Cpx.addS (Cpx.sMul _ _) _ : Cpx S) / (Cpx.addS (Cpx.sMul _ _) _) = mapC φ ((Cpx.addS (Cpx.sMul _ _) _) / (Cpx.addS (Cpx.sMul _ _) _))
    rw [dv.2.2.2.1.div, cA, cA]
    unfold Cpx.sMul
    rw [cM, cM, ea, eb, ec, ed]
  · show (Quat.addS (Quat.sMul _ _) _ : Quat S) / (Quat.addS (Quat.sMul _ _) _) = mapQ φ ((Quat.addS (Quat.sMul _ _) _) / (Quat.addS (Quat.sMul _ _) _))
    rw [dv.2.2.2.2.1.div, qA, qA]
    unfold Quat.sMul
    rw [qM, qM, ea, eb, ec, ed]

/-- Moebius maps with complex coefficients: `deriv`, and the action and `deriv_dir` at quaternion points. -/
theorem C89_moebius_complex [NumConst T] [NumConst S] (h : FieldConv φ) (h2 : φ two = two) (m : Moebius (Cpx T)) (p : Cpx T) (q v : Quat T) :
    (mapMo (mapC φ) m).deriv (mapC φ p) = mapC φ (m.deriv p) ∧ (mapMo (mapC φ) m).apply (mapQ φ q) = mapQ φ (m.apply q) ∧
    (mapMo (mapC φ) m).derivDir (mapQ φ q) (mapQ φ v) = mapQ φ (m.derivDir q v) := by
  have dv := C89_division (N := 2) (M := 2) h
  have hc := C89_complex h.toRingConv
  have hq := C89_quaternion h.toRingConv
  have ea : (mapMo (mapC φ) m).a = mapC φ m.a := by simp [mapMo]
  have eb : (mapMo (mapC φ) m).b = mapC φ m.b := by simp [mapMo]
  have ec : (mapMo (mapC φ) m).c = mapC φ m.c := by simp [mapMo]
  have ed : (mapMo (mapC φ) m).d = mapC φ m.d := by simp [mapMo]
  have qA : ∀ (z : Quat T) (c : Cpx T), mapQ φ z + mapC φ c = mapQ φ (z + c) := fun z c => ((hq.2 z z c 0).2.2.2.2.2.1).symm
  have qM : ∀ (c : Cpx T) (z : Quat T), mapC φ c * mapQ φ z = mapQ φ (c * z) := fun c z => ((hq.2 z z c 0).2.2.2.2.2.2.2.2.1).symm
  have qS : ∀ (z : Quat T) (s : T), (mapQ φ z).mulS (φ s) = mapQ φ (z.mulS s) := fun z s => ((hq.2 z z 0 s).2.2.2.1).symm
  have qD : ∀ (z : Quat T) (s : T), (mapQ φ z).divS (φ s) = mapQ φ (z.divS s) := fun z s => ((dv.2.2.2.2.2.2 z 0 s).2.1).symm
  have qN : ∀ z : Quat T, (mapQ φ z).normSqr = φ z.normSqr := fun z => (hq.2 z z 0 0).2.1
  have qC : ∀ z : Quat T, (mapQ φ z).conj = mapQ φ z.conj := fun z => ((hq.2 z z 0 0).1).symm
  have qd : ∀ z w : Quat T, (mapQ φ z).dot (mapQ φ w) = φ (z.dot w) := fun z w => (hq.2 z w 0 0).2.2.1
  have fq := dv.2.2.2.2.1
  have fc := dv.2.2.2.1
  refine ⟨?_, ?_, ?_⟩
  · unfold Moebius.deriv
    simp only [ea, eb, ec, ed, ← fc.mul, ← fc.add, ← fc.sub, ← fc.div]
  · unfold Moebius.apply
    simp only [ea, eb, ec, ed, qM, qA, ← fq.div]
  · unfold Moebius.derivDir
    simp only [ea, eb, ec, ed, qM, qA, qN, qC, qd, ← fq.div, ← fq.sub, ← h2, ← h.mul, ← h.div, qS, qD, ← fq.mul, ← fq.add]

/-- A chain of convertible transformations is convertible. -/
theorem C89_chain {A A' B B' X X' : Type} [Transform A X] [Transform A' X'] [Transform B X] [Transform B' X'] [Reorder B A X] [Reorder B' A' X']
    {α : A → A'} {β : B → B'} {ξ : X → X'} (ha : TransformConv α ξ) (hb : TransformConv β ξ) (hr : ReorderConv X X' β α) :
    TransformConv (mapChain α β : Chain A B X → Chain A' B' X') ξ := by
  refine ⟨fun c x => ?_, fun c x d => ?_, fun c d => ?_, fun c => ?_, ?_⟩
  · show Transform.apply (α c.outer) (Transform.apply (β c.inner) (ξ x)) = _
    rw [hb.apply, ha.apply]; rfl
  · show Transform.deriv (α c.outer) (Transform.apply (β c.inner) (ξ x)) (Transform.deriv (β c.inner) (ξ x) (ξ d)) = _
    rw [hb.apply, hb.deriv, ha.deriv]; rfl
  · show Chain.new (Transform.chain X' (α c.outer) (Reorder.reorder X' (β c.inner) (α d.outer)).1) (Transform.chain X' (Reorder.reorder X' (β c.inner) (α d.outer)).2 (β d.inner)) = _
    rw [hr, ha.chain, hb.chain]; rfl
  · show Chain.new (Reorder.reorder X' (Transform.inv X' (β c.inner)) (Transform.inv X' (α c.outer))).1 (Reorder.reorder X' (Transform.inv X' (β c.inner)) (Transform.inv X' (α c.outer))).2 = _
    rw [ha.inv, hb.inv, hr]; rfl
  · show Chain.new (Transform.identity X') (Transform.identity X') = _
    rw [ha.identity, hb.identity]; rfl
/-- Shifts, linear maps and affine maps, with reordering. -/
theorem C89_shift_linear (h : FieldConv φ) :
    TransformConv (mapShift φ (N := N)) (Vec.map φ (N := N)) ∧ TransformConv (mapLinear φ (N := N)) (Vec.map φ (N := N)) ∧ TransformConv (mapAffine φ (N := N)) (Vec.map φ (N := N)) ∧
    ReorderConv (Vec T N) (Vec S N) (mapShift φ (N := N)) (mapLinear φ (N := N)) ∧ ReorderConv (Vec T N) (Vec S N) (mapLinear φ (N := N)) (mapShift φ (N := N)) ∧
    ∀ a : Linear T N, (mapLinear φ a).normalTransform = mapLinear φ a.normalTransform := by
  have hv := fun (v w : Vec T N) => C89_vector h.toRingConv v w 0
  have hm := fun (A B : Mat T N N) (v : Vec T N) => C89_square h.toRingConv A B v
  have hi := (C89_division (N := N) (M := N) h).2.2.1
  have ht := fun (A : Mat T N N) => (C89_matrix h.toRingConv A A A 0 0 0).2.2.2.2.2.2.1
  have hs : TransformConv (mapShift φ (N := N)) (Vec.map φ (N := N)) :=
    ⟨fun a x => (hv x a.pos).1.symm, fun a x d => rfl, fun a b => Shift.ext (hv a.pos b.pos).1.symm, fun a => Shift.ext (hv a.pos a.pos).2.2.1.symm,
      Shift.ext (hv 0 0).2.2.2.2.2.2.1.symm⟩
  have hl : TransformConv (mapLinear φ (N := N)) (Vec.map φ (N := N)) :=
    ⟨fun a x => (hm a.lin a.lin x).1, fun a x d => (hm a.lin a.lin d).1, fun a b => Linear.ext (hm a.lin b.lin 0).2.2.1, fun a => Linear.ext (hi a.lin),
      Linear.ext (hm 1 1 0).2.2.2.1.symm⟩
  have r1 : ReorderConv (Vec T N) (Vec S N) (mapShift φ (N := N)) (mapLinear φ (N := N)) := fun a b => by
    show (mapLinear φ b, (⟨Transform.apply (Transform.inv (Vec S N) (mapLinear φ b)) (a.pos.map φ)⟩ : Shift S N)) = _
    rw [hl.inv, hl.apply]; rfl
  have r2 : ReorderConv (Vec T N) (Vec S N) (mapLinear φ (N := N)) (mapShift φ (N := N)) := fun a b => by
    show ((⟨Transform.apply (mapLinear φ a) (b.pos.map φ)⟩ : Shift S N), mapLinear φ a) = _
    rw [hl.apply]; rfl
  refine ⟨hs, hl, C89_chain hs hl r2, r1, r2, fun a => Linear.ext ?_⟩
  show (a.lin.map φ).inv.transpose = a.lin.inv.transpose.map φ
  rw [hi, ht]

/-- Scalings; `inv` is the scalar `Inv`. -/
theorem C89_scale [Inv T] [Inv S] (h : FieldConv φ) (hi : ∀ a, φ a⁻¹ = (φ a)⁻¹) :
    DirectionalConv (mapScale φ) (Vec.map φ (N := N)) ∧ ReorderConv (Vec T N) (Vec S N) (mapShift φ (N := N)) (mapScale φ) ∧
    ReorderConv (Vec T N) (Vec S N) (mapScale φ) (mapShift φ (N := N)) := by
  have hv := fun (v : Vec T N) (s : T) => (C89_vector h.toRingConv v v s).2.2.2.2.1
  have hs : DirectionalConv (mapScale φ) (Vec.map φ (N := N)) :=
    ⟨⟨fun a x => (hv x a.mag).symm, fun a x d => (hv d a.mag).symm, fun a b => Scale.ext (h.mul _ _).symm, fun a => Scale.ext (hi _).symm, Scale.ext h.one.symm⟩,
      fun a x d => rfl, fun a x d => rfl⟩
  refine ⟨hs, fun a b => ?_, fun a b => ?_⟩
  · show (mapScale φ b, (⟨Transform.apply (Transform.inv (Vec S N) (mapScale φ b)) (a.pos.map φ)⟩ : Shift S N)) = _
    rw [hs.inv, hs.apply]; rfl
  · show ((⟨Transform.apply (mapScale φ a) (b.pos.map φ)⟩ : Shift S N), mapScale φ a) = _
    rw [hs.apply]; rfl
end
section
variable [Add T] [Sub T] [Neg T] [Mul T] [Zero T] [One T] [Add S] [Sub S] [Neg S] [Mul S] [Zero S] [One S] {φ : T → S}
/-- Rotations of the plane and of space; their matrices. -/
theorem C89_rotation (h : RingConv φ) :
    DirectionalConv (mapRot2 φ) (Vec.map φ (N := 2)) ∧ DirectionalConv (mapRot3 φ) (Vec.map φ (N := 3)) ∧
    (∀ r : Rotation2 T, (mapRot2 φ r).toLinear = mapLinear φ r.toLinear) ∧
    ∀ [NumConst T] [NumConst S], φ two = two → ∀ r : Rotation3 T, (mapRot3 φ r).toLinear = mapLinear φ r.toLinear := by
  have hc := C89_complex h
  have hq := C89_quaternion h
  have a2 : ∀ (a : Rotation2 T) (x : Vec T 2), Transform.apply (mapRot2 φ a) (x.map φ) = (Transform.apply a x).map φ := fun a x => by
    show ((⟨x.map φ⟩ : Cpx S) * mapC φ a.comp).vec = ((⟨x⟩ : Cpx T) * a.comp).vec.map φ
    rw [show (⟨x.map φ⟩ : Cpx S) = mapC φ ⟨x⟩ from Cpx.ext (Hom.mapC_vec φ ⟨x⟩).symm, ← hc.1.mul, Hom.mapC_vec]
  have a3 : ∀ (a : Rotation3 T) (x : Vec T 3), Transform.apply (mapRot3 φ a) (x.map φ) = (Transform.apply a x).map φ := fun a x => by
    have e : Quat.fromScalarAndVector3 0 (x.map φ) = mapQ φ (Quat.fromScalarAndVector3 0 x) := by apply Quat.ext' <;> simp [mapQ, h.zero]
    show (mapQ φ a.quat * Quat.fromScalarAndVector3 0 (x.map φ) * (mapQ φ a.quat).conj).intoScalarAndVector3.2 =
      (a.quat * Quat.fromScalarAndVector3 0 x * a.quat.conj).intoScalarAndVector3.2.map φ
    rw [e]
    rw [← (hq.2 a.quat a.quat 0 0).1, ← hq.1.mul, ← hq.1.mul]
    apply Vec.ext3 <;> simp [mapQ]
  refine ⟨⟨⟨a2, fun a x d => a2 a d, fun a b => Rotation2.ext (hc.1.mul _ _).symm, fun a => Rotation2.ext (hc.2 _ 0 0).1.symm, Rotation2.ext hc.1.one.symm⟩, ?_, ?_⟩,
    ⟨⟨a3, fun a x d => a3 a d, fun a b => Rotation3.ext (hq.1.mul _ _).symm, fun a => Rotation3.ext (hq.2 0 _ 0 0).1.symm, Rotation3.ext hq.1.one.symm⟩, ?_, ?_⟩, ?_, ?_⟩
  · exact fun a x d => a2 a d
  · exact fun a x d => a2 a d
  · exact fun a x d => a3 a d
  · exact fun a x d => a3 a d
  · intro r; apply Linear.ext
    show _ = Mat.map φ _
    unfold Rotation2.toLinear; rw [Linear.intoMatrix, Hom.fromArrArr_map]; simp [mapRot2, Rotation2.fromComplex, Rotation2.intoComplex, mapC, h.neg]
  · intro _ _ h2 r; apply Linear.ext
    show _ = Mat.map φ _
    unfold Rotation3.toLinear; rw [Linear.intoMatrix, Hom.fromArrArr_map]; simp [mapRot3, Rotation3.fromQuaternion, Rotation3.intoQuaternion, mapQ, h.sub, h.add, h.mul, h.one, h2]

/-- Reordering of shifts and rotations (hence, with `C89_chain`, chains of them). -/
theorem C89_rotation_reorder (h : RingConv φ) :
    ReorderConv (Vec T 2) (Vec S 2) (mapShift φ (N := 2)) (mapRot2 φ) ∧ ReorderConv (Vec T 2) (Vec S 2) (mapRot2 φ) (mapShift φ (N := 2)) ∧
    ReorderConv (Vec T 3) (Vec S 3) (mapShift φ (N := 3)) (mapRot3 φ) ∧ ReorderConv (Vec T 3) (Vec S 3) (mapRot3 φ) (mapShift φ (N := 3)) := by
  obtain ⟨r2, r3, -, -⟩ := C89_rotation h
  refine ⟨fun a b => ?_, fun a b => ?_, fun a b => ?_, fun a b => ?_⟩
  · show (mapRot2 φ b, (⟨Transform.apply (Transform.inv (Vec S 2) (mapRot2 φ b)) (a.pos.map φ)⟩ : Shift S 2)) = _
    rw [r2.inv, r2.apply]; rfl
  · show ((⟨Transform.apply (mapRot2 φ a) (b.pos.map φ)⟩ : Shift S 2), mapRot2 φ a) = _
    rw [r2.apply]; rfl
  · show (mapRot3 φ b, (⟨Transform.apply (Transform.inv (Vec S 3) (mapRot3 φ b)) (a.pos.map φ)⟩ : Shift S 3)) = _
    rw [r3.inv, r3.apply]; rfl
  · show ((⟨Transform.apply (mapRot3 φ a) (b.pos.map φ)⟩ : Shift S 3), mapRot3 φ a) = _
    rw [r3.apply]; rfl
end

/-- Comparisons: maxima, minima and comparison masks. -/
theorem C89_order [RPartialOrd T] [RPartialOrd S] {φ : T → S} (h : OrdConv φ) (v w : Vec T N) (A B : Mat T M N) :
    (v.map φ).maxR = v.maxR.map φ ∧ (v.map φ).minR = v.minR.map φ ∧ (A.map φ).maxR = A.maxR.map φ ∧ (A.map φ).minR = A.minR.map φ ∧
    (v.map φ).vlt (w.map φ) = v.vlt w ∧ (v.map φ).vle (w.map φ) = v.vle w ∧ (v.map φ).vgt (w.map φ) = v.vgt w ∧ (v.map φ).vge (w.map φ) = v.vge w ∧
    (A.map φ).vlt (B.map φ) = A.vlt B ∧ (A.map φ).vle (B.map φ) = A.vle B ∧ (A.map φ).vgt (B.map φ) = A.vgt B ∧ (A.map φ).vge (B.map φ) = A.vge B := by
  have hl : ∀ a b : T, rlt (φ a) (φ b) = rlt a b := fun a b => by unfold rlt; rw [h]
  refine ⟨Hom.foldFirstR_map (fun a b => ?_) v, Hom.foldFirstR_map (fun a b => ?_) v, Hom.mFoldFirstR_map (fun a b => ?_) A, Hom.mFoldFirstR_map (fun a b => ?_) A,
    ?_, ?_, ?_, ?_, ?_, ?_, ?_, ?_⟩
  · rw [apply_ite φ, hl]
  · rw [apply_ite φ, hl]
  · rw [apply_ite φ, hl]
  · rw [apply_ite φ, hl]
  · unfold Vec.vlt; rw [Hom.zip_map, Hom.map_map]; simp only [hl]
  · unfold Vec.vle rle; rw [Hom.zip_map, Hom.map_map]; simp only [h _ _]
  · unfold Vec.vgt rgt; rw [Hom.zip_map, Hom.map_map]; simp only [h _ _]
  · unfold Vec.vge rge; rw [Hom.zip_map, Hom.map_map]; simp only [h _ _]
  · unfold Mat.vlt; rw [Hom.mZip_map, Hom.mMap_map]; simp only [hl]
  · unfold Mat.vle rle; rw [Hom.mZip_map, Hom.mMap_map]; simp only [h _ _]
  · unfold Mat.vgt rgt; rw [Hom.mZip_map, Hom.mMap_map]; simp only [h _ _]
  · unfold Mat.vge rge; rw [Hom.mZip_map, Hom.mMap_map]; simp only [h _ _]

/-- Functions using the square root: lengths, normalization, `look_at`, and the `Directional` methods of linear and affine maps. -/
theorem C89_sqrt [Add T] [Sub T] [Neg T] [Mul T] [Zero T] [One T] [Div T] [FloatOps T] [Add S] [Sub S] [Neg S] [Mul S] [Zero S] [One S] [Div S] [FloatOps S]
    {φ : T → S} (h : FieldConv φ) (hs : ∀ a, φ (FloatOps.sqrt a) = FloatOps.sqrt (φ a)) :
    (∀ v : Vec T N, (v.map φ).lengthR = v.lengthR.map φ ∧ (v.map φ).normalizeR = v.normalizeR.map (Vec.map φ) ∧ (v.map φ).normL2R = v.normL2R.map φ) ∧
    (∀ z : Cpx T, (mapC φ z).norm = φ z.norm ∧ (mapC φ z).normalize = mapC φ z.normalize) ∧
    (∀ q : Quat T, (mapQ φ q).norm = φ q.norm ∧ (mapQ φ q).normalize = mapQ φ q.normalize) ∧
    (∀ d u : Vec T 3, Linear.lookAt (d.map φ) (u.map φ) = mapLinear φ (Linear.lookAt d u)) ∧
    ∀ [NeZero N], DirectionalConv (mapLinear φ (N := N)) (Vec.map φ (N := N)) ∧ DirectionalConv (mapAffine φ (N := N)) (Vec.map φ (N := N)) := by
  have hv := fun {n : Nat} (v : Vec T n) => C89_vector h.toRingConv v v 0
  have hd := fun {n : Nat} (v : Vec T n) (s : T) => ((C89_division (N := n) (M := n) h).1 v v s).2
  have hL : ∀ {n : Nat} (v : Vec T n), (v.map φ).lengthR = v.lengthR.map φ := fun {n} v => by
    unfold Vec.lengthR
    rw [(hv v).2.2.2.2.2.2.2.2.2.1]
    refine Hom.bind_map _ _ _ _ _ fun x => ?_
    rw [← hs]; rfl
  have hN : ∀ {n : Nat} (v : Vec T n), (v.map φ).normalizeR = v.normalizeR.map (Vec.map φ) := fun {n} v => by
    unfold Vec.normalizeR
    rw [hL]
    refine Hom.bind_map _ _ _ _ _ fun x => ?_
    rw [← hd]; rfl
  have hn : ∀ {n : Nat} [NeZero n] (v : Vec T n), (v.map φ).normalize = v.normalize.map φ := fun {n} _ v => by
    have := hN v
    rw [Vec.normalize_ok, Vec.normalize_ok] at this
    exact Except.ok.inj this
  have hl : ∀ {n : Nat} [NeZero n] (v : Vec T n), (v.map φ).length = φ v.length := fun {n} _ v => by
    have := hL v
    rw [Vec.length_ok, Vec.length_ok] at this
    exact Except.ok.inj this
  have dv := C89_division (N := N) (M := N) h
  have cn : ∀ z : Cpx T, (mapC φ z).norm = φ z.norm := fun z => by unfold Cpx.norm; rw [Hom.mapC_vec, hl]
  have qn : ∀ z : Quat T, (mapQ φ z).norm = φ z.norm := fun z => by unfold Quat.norm; rw [Hom.mapQ_vec, hl]
  refine ⟨fun v => ⟨hL v, hN v, ?_⟩, fun z => ⟨cn z, ?_⟩, fun z => ⟨qn z, ?_⟩, fun d u => ?_, ?_⟩
  · unfold Vec.normL2R
    rw [(hv v).2.2.2.2.2.2.2.2.2.2]
    refine Hom.bind_map _ _ _ _ _ fun x => ?_
    rw [← hs]; rfl
  · unfold Cpx.normalize; rw [cn, ← (dv.2.2.2.2.2.1 z _).2.1]
  · unfold Quat.normalize; rw [qn, ← (dv.2.2.2.2.2.2 z 0 _).2.1]
  · have hc := fun a b : Vec T 3 => (C89_cross h.toRingConv 0 0 a b 0 0).2.1
    apply Linear.ext
    show _ = (Linear.lookAt d u).lin.map φ
    unfold Linear.lookAt
    simp only [hc, hn]
    rw [(hv d).2.2.1.symm]
    apply Mat.ext_getElem
    intro i hi j hj
    rcases (by omega : j = 0 ∨ j = 1 ∨ j = 2) with rfl | rfl | rfl <;> simp [Mat.fromArrVec, Mat.fromVecVec, Vec.fromArray]
  · intro _
    obtain ⟨s1, l1, a1, -, -, nt⟩ := C89_shift_linear (N := N) h
    have dl : DirectionalConv (mapLinear φ (N := N)) (Vec.map φ (N := N)) := by
      refine ⟨l1, fun a x d => ?_, fun a x d => ?_⟩
      · show (Transform.deriv (mapLinear φ a) (x.map φ) (d.map φ)).normalize = (Transform.deriv a x d).normalize.map φ
        rw [l1.deriv, hn]
      · show (Transform.apply (mapLinear φ a).normalTransform (d.map φ)).normalize = (Transform.apply a.normalTransform d).normalize.map φ
        rw [nt, l1.apply, hn]
    refine ⟨dl, a1, fun a x d => ?_, fun a x d => ?_⟩
    · exact dl.applyDir a.inner x d
    · exact dl.applyNormal a.inner x d

/-! ## The conversions in use: every ring homomorphism, every field homomorphism, every strictly increasing map -/

/-- Every ring homomorphism (integers to rationals, integers to residues, reals to complex numbers …) is such a conversion, and every homomorphism
of (skew) fields also preserves division. -/
theorem C89_homs :
    (∀ {R R' : Type} [Ring R] [Ring R'] (f : R →+* R'), RingConv f) ∧
    (∀ {F F' : Type} [DivisionRing F] [DivisionRing F'] (f : F →+* F'), FieldConv f) ∧
    ∀ {K K' : Type} [LinearOrder K] [LinearOrder K'] (f : K → K'), StrictMono f → OrdConv f := by
  have r : ∀ {R R' : Type} [Ring R] [Ring R'] (f : R →+* R'), RingConv f := fun f => ⟨map_add f, map_sub f, map_neg f, map_mul f, map_zero f, map_one f⟩
  refine ⟨r, fun f => ⟨r f, map_div₀ f⟩, fun f hf a b => congrArg some ?_⟩
  rcases lt_trichotomy a b with h | h | h
  · rw [compare_lt_iff_lt.mpr h, compare_lt_iff_lt.mpr (hf h)]
  · rw [compare_eq_iff_eq.mpr h, compare_eq_iff_eq.mpr (congrArg f h)]
  · rw [compare_gt_iff_gt.mpr h, compare_gt_iff_gt.mpr (hf h)]

/-- An integer matrix: its determinant may be computed in the rationals (exactly the same number), and modulo any `m`, in particular in wrapping
machine arithmetic (`m = 2 ^ w`). -/
theorem C89_int_det (A : Mat Int N N) (m : Nat) :
    (A.map fun x : ℤ => (x : ℚ)).det = (A.det : ℚ) ∧ ((A.map fun x : ℤ => (x : ZMod m)).det = 0 ↔ (m : Int) ∣ A.det) := by
  have c : ∀ {R : Type} [Ring R], RingConv (fun x : ℤ => (x : R)) := fun {R} _ => C89_homs.1 (Int.castRingHom R)
  have h1 := (C89_square (N := N) (c (R := ℚ)) A A 0).2.2.2.2.2.1
  have h2 := (C89_square (N := N) (c (R := ZMod m)) A A 0).2.2.2.2.2.1
  refine ⟨h1, ?_⟩
  rw [← ZMod.intCast_zmod_eq_zero_iff_dvd]
  rw [h2]

/-! ## Witnesses -/
section
private noncomputable instance : FloatOps (ℝ × ℝ) :=
  let l (f : ℝ → ℝ) : ℝ × ℝ → ℝ × ℝ := fun x => (f x.1, f x.2)
  let l2 (f : ℝ → ℝ → ℝ) : ℝ × ℝ → ℝ × ℝ → ℝ × ℝ := fun x y => (f x.1 y.1, f x.2 y.2)
  { abs := l FloatOps.abs, absSub := l2 FloatOps.absSub, signum := l FloatOps.signum, cbrt := l FloatOps.cbrt, sqrt := l FloatOps.sqrt,
    fmin := l2 FloatOps.fmin, fmax := l2 FloatOps.fmax, acos := l FloatOps.acos, asin := l FloatOps.asin, atan := l FloatOps.atan,
    atan2 := l2 FloatOps.atan2, cosh := l FloatOps.cosh, hypot := l2 FloatOps.hypot, sinh := l FloatOps.sinh, tan := l FloatOps.tan,
    tanh := l FloatOps.tanh, log2 := l FloatOps.log2, mulAdd := fun x a b => (FloatOps.mulAdd x.1 a.1 b.1, FloatOps.mulAdd x.2 a.2 b.2),
    exp := l FloatOps.exp, powi := fun x n => (FloatOps.powi x.1 n, FloatOps.powi x.2 n), ln := l FloatOps.ln, powf := l2 FloatOps.powf,
    log := l2 FloatOps.log, sin := l FloatOps.sin, cos := l FloatOps.cos, asinh := l FloatOps.asinh, acosh := l FloatOps.acosh,
    atanh := l FloatOps.atanh, floor := l FloatOps.floor, ceil := l FloatOps.ceil, round := l FloatOps.round, trunc := l FloatOps.trunc,
    fract := l FloatOps.fract, recip := l FloatOps.recip, exp2 := l FloatOps.exp2, log10 := l FloatOps.log10,
    sinCos := fun x => ((Real.sin x.1, Real.sin x.2), (Real.cos x.1, Real.cos x.2)), expM1 := l FloatOps.expM1, ln1p := l FloatOps.ln1p,
    epsilon := (FloatOps.epsilon, FloatOps.epsilon) }
/-- Two independent copies of the reals, with the diagonal embedding: square roots are preserved. -/
example : ∀ d u : Vec ℝ 3, Linear.lookAt (d.map fun x => (x, x)) (u.map fun x => (x, x)) = mapLinear (fun x => (x, x)) (Linear.lookAt d u) :=
  (C89_sqrt (N := 3) (φ := fun x : ℝ => (x, x)) ⟨⟨fun _ _ => rfl, fun _ _ => rfl, fun _ => rfl, fun _ _ => rfl, rfl, rfl⟩, fun _ _ => rfl⟩ fun _ => rfl).2.2.2.1
end
/-- A concrete integer matrix with determinant 10: singular modulo 5, not modulo 4. -/
example : let A : Mat Int 2 2 := ⟨⟨#v[⟨#v[2, -4]⟩, ⟨#v[1, 3]⟩]⟩⟩
    (A.map fun x : ℤ => (x : ZMod 5)).det = 0 ∧ (A.map fun x : ℤ => (x : ZMod 4)).det ≠ 0 ∧ (A.map fun x : ℤ => (x : ℚ)).det = 10 := by
  intro A
  have hd : A.det = 10 := by decide +kernel
  exact ⟨(C89_int_det A 5).2.mpr (by rw [hd]; decide), fun h => absurd ((C89_int_det A 4).2.mp h) (by rw [hd]; decide), by rw [(C89_int_det A 0).1, hd]; rfl⟩
section
private def cz : ℤ →+* ℚ := Int.castRingHom ℚ
private noncomputable def cq : ℚ →+* ℝ := Rat.castHom ℝ
private theorem hz : RingConv cz := C89_homs.1 cz
private theorem hq : FieldConv cq := C89_homs.2.1 cq
private theorem hq2 : cq (two : ℚ) = two := by simp [cq]
example := C89_vector hz (⟨#v[1, -2, 3]⟩ : Vec ℤ 3) ⟨#v[4, 5, -6]⟩ 7
example := C89_iter_sum hz [(⟨#v[1, -2]⟩ : Vec ℤ 2), ⟨#v[3, 4]⟩] [(⟨⟨#v[⟨#v[1, 2]⟩]⟩⟩ : Mat ℤ 1 2)]
example := C89_cross hz ⟨#v[1, 2]⟩ ⟨#v[3, 4]⟩ ⟨#v[1, 2, 3]⟩ ⟨#v[4, 5, 6]⟩ ⟨#v[1, 2, 3, 4]⟩ ⟨#v[5, 6, 7, 8]⟩
example := C89_matrix hz (⟨⟨#v[⟨#v[1, 2]⟩]⟩⟩ : Mat ℤ 1 2) ⟨⟨#v[⟨#v[3, 4]⟩]⟩⟩ (⟨⟨#v[⟨#v[1]⟩, ⟨#v[2]⟩]⟩⟩ : Mat ℤ 2 1) ⟨#v[1, 2]⟩ ⟨#v[1]⟩ 5
example := C89_square hz (⟨⟨#v[⟨#v[1, 2]⟩, ⟨#v[3, 4]⟩]⟩⟩ : Mat ℤ 2 2) ⟨⟨#v[⟨#v[5, 6]⟩, ⟨#v[7, 8]⟩]⟩⟩ ⟨#v[9, 10]⟩
example := C89_complex hz
example := C89_quaternion hz
example := C89_division (M := 2) (N := 3) hq
example := C89_moebius hq ⟨⟨⟨#v[⟨#v[1, 2]⟩, ⟨#v[3, 4]⟩]⟩⟩⟩ (Moebius.new 5 6 7 8) 9 (Cpx.new 1 2) (Quat.new 1 2 3 4)
example (m : Moebius (Cpx ℚ)) := C89_moebius_complex hq hq2 m (Cpx.new 1 2) (Quat.new 1 2 3 4) (Quat.new 0 1 0 1)
example := C89_shift_linear (N := 3) hq
example := C89_scale (N := 3) hq (map_inv₀ cq)
example := C89_rotation hq.toRingConv
example : ∀ r : Rotation3 ℚ, (mapRot3 cq r).toLinear = mapLinear cq r.toLinear := (C89_rotation hq.toRingConv).2.2.2 hq2
example := C89_rotation_reorder hq.toRingConv
/-- A rigid motion of the plane as a chain of a shift and a rotation. -/
example := C89_chain (B := Rotation2 ℚ) (X := Vec ℚ 2) (X' := Vec ℝ 2) (C89_shift_linear (N := 2) hq).1 (C89_rotation hq.toRingConv).1.toTransformConv (C89_rotation_reorder hq.toRingConv).2.1
example := C89_order (M := 1) (N := 2) (C89_homs.2.2 cz (fun a b h => by simpa [cz] using h)) ⟨#v[1, -2]⟩ ⟨#v[4, -5]⟩ (⟨⟨#v[⟨#v[1, 2]⟩]⟩⟩ : Mat ℤ 1 2) ⟨⟨#v[⟨#v[2, 1]⟩]⟩⟩
end
end Vecmat
