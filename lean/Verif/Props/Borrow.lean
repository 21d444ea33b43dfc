import Verif.Model.Borrow
import Verif.Spec.Borrow
import Verif.Props.Memory
import Verif.Props.Moebius
import Verif.Props.Convert
/-!
# C76: mutable references
-/
namespace Vecmat
variable {A B X S S' T : Type} {M N : Nat}
open Layout

/-- `l` at offset `o` of `L` is the component `get`. -/
structure Focus (L : Layout S T) (l : Layout A T) (o : Nat) (get : S → A) (set : S → A → S) : Prop where
  le : o + l.size ≤ L.size
  get : ∀ s k, k < l.size → L.enc s (o + k) = l.enc (get s) k
  set_in : ∀ s a k, k < l.size → L.enc (set s a) (o + k) = l.enc a k
  set_out : ∀ s a k, k < L.size → (k < o ∨ o + l.size ≤ k) → L.enc (set s a) k = L.enc s k

theorem Focus.refl (L : Layout S T) : Focus L L 0 id (fun _ a => a) where
  le := by omega
  get s k h := by simp
  set_in s a k h := by simp
  set_out s a k h h' := by omega
theorem Focus.trans {L : Layout S T} {L' : Layout S' T} {l : Layout A T} {o o' g g' t t'} (h : Focus L L' o g t)
    (h' : Focus L' l o' g' t') : Focus L l (o + o') (fun s => g' (g s)) (fun s a => t s (t' (g s) a)) where
  le := by have := h.le; have := h'.le; omega
  get s k hk := by
    have := h'.le
    rw [Nat.add_assoc, h.get s _ (by omega), h'.get _ _ hk]
  set_in s a k hk := by
    have := h'.le
    rw [Nat.add_assoc, h.set_in s _ _ (by omega), h'.set_in _ _ _ hk]
  set_out s a k hk hk' := by
    have := h.le
    by_cases c : k < o ∨ o + L'.size ≤ k
    · exact h.set_out s _ k hk c
    · obtain ⟨j, rfl⟩ := Nat.exists_eq_add_of_le (show o ≤ k by omega)
      rw [h.set_in s _ j (by omega), h'.set_out _ _ j (by omega) (by omega), ← h.get s j (by omega)]
theorem Focus.refers {L : Layout S T} {l : Layout A T} {o g t} (h : Focus L l o g t) (hl : l.Lawful) (ref : Nat → Res Nat)
    (hr : ∀ p, ref p = .ok (p + o)) : RefersTo L l ref g t := by
  intro m p s
  have hle := h.le
  refine ⟨p + o, hr p, ?_, fun a => ?_⟩
  · refine hl _ _ fun k hk => ?_
    simp only [store]
    rw [if_pos (by omega), ← h.get s k hk]
    congr 1; omega
  · funext q
    simp only [store]
    by_cases c : p + o ≤ q ∧ q < p + o + l.size
    · rw [if_pos c, if_pos (by omega), ← h.set_in s a (q - (p + o)) (by omega)]
      congr 1; omega
    · rw [if_neg c]
      by_cases c' : p ≤ q ∧ q < p + L.size
      · rw [if_pos c', if_pos c', h.set_out s a (q - p) (by omega) (by omega)]
      · rw [if_neg c', if_neg c']

theorem Focus.elem (l : Layout A T) (i : Nat) (hi : i < N) :
    Focus (l.array N) l (i * l.size) (fun v => v[i]) (fun v a => v.set i a) where
  le := by
    show _ ≤ N * l.size
    have : (i + 1) * l.size ≤ N * l.size := Nat.mul_le_mul_right _ hi
    rw [Nat.add_mul] at this; omega
  get s k hk := enc_array l s i k hi hk
  set_in s a k hk := by rw [enc_array l _ i k hi hk]; simp
  set_out s a k hk hk' := by
    change k < N * l.size at hk
    obtain ⟨j, b, hj, hb, rfl⟩ := offset_cases hk
    rw [enc_array l _ j b hj hb, enc_array l _ j b hj hb, Vector.getElem_set_ne _ _]
    rintro rfl
    omega
theorem Focus.transparent (l : Layout A T) (mk : A → S) (field : S → A) (h : ∀ a, field (mk a) = a) :
    Focus (l.transparent mk field) l 0 field (fun _ a => mk a) where
  le := by show 0 + l.size ≤ l.size; omega
  get s k hk := by rw [Nat.zero_add]; rfl
  set_in s a k hk := by rw [Nat.zero_add]; show l.enc (field (mk a)) k = _; rw [h]
  set_out s a k hk hk' := by change k < l.size at hk; omega
theorem Focus.vecArray (l : Layout A T) : Focus (Vec.layout l N) (l.array N) 0 Vec.data (fun _ a => ⟨a⟩) :=
  Focus.transparent _ _ _ fun _ => rfl
theorem Focus.vecElem (l : Layout A T) (i : Nat) (hi : i < N) :
    Focus (Vec.layout l N) l (i * l.size) (fun v => v[i]) (fun v a => ⟨v.data.set i a⟩) := by
  have := (Focus.vecArray (N := N) l).trans (Focus.elem l i hi)
  rwa [Nat.zero_add] at this
theorem Focus.matVecVec (l : Layout A T) : Focus (Mat.layout l M N) (Vec.layout (Vec.layout l N) M) 0 Mat.data (fun _ a => ⟨a⟩) :=
  Focus.transparent _ _ _ fun _ => rfl
theorem Focus.row (l : Layout A T) (i : Nat) (hi : i < M) :
    Focus (Mat.layout l M N) (Vec.layout l N) (i * (N * l.size)) (fun C => C[i]) (fun C r => ⟨⟨C.data.data.set i r⟩⟩) := by
  have := (Focus.matVecVec (M := M) (N := N) l).trans (Focus.vecElem (Vec.layout l N) i hi)
  rwa [Nat.zero_add] at this
theorem Focus.matElem (l : Layout A T) (i j : Nat) (hi : i < M) (hj : j < N) :
    Focus (Mat.layout l M N) l (i * (N * l.size) + j * l.size) (fun C => C[i][j])
      (fun C a => ⟨⟨C.data.data.set i ⟨C[i].data.set j a⟩⟩⟩) :=
  (Focus.row (M := M) (N := N) l i hi).trans (Focus.vecElem l j hj)
/-- Two layouts with the same cells. -/
theorem Focus.cast {L : Layout S T} {l : Layout A T} (f : S → A) (g : A → S) (hs : L.size = l.size)
    (h1 : ∀ s k, k < l.size → L.enc s k = l.enc (f s) k) (h2 : ∀ a, f (g a) = a) : Focus L l 0 f (fun _ a => g a) where
  le := by omega
  get s k hk := by rw [Nat.zero_add]; exact h1 s k hk
  set_in s a k hk := by rw [Nat.zero_add, h1 _ _ hk, h2]
  set_out s a k hk hk' := by omega
theorem Focus.arrArr (l : Layout A T) : Focus (Mat.layout l M N) ((l.array N).array M) 0 Mat.intoArrArr (fun _ a => Mat.fromArrArr a) := by
  refine Focus.cast _ _ rfl (fun C k hk => ?_) fun a => ?_
  · change k < M * (N * l.size) at hk
    obtain ⟨i, r, hi, hr, rfl⟩ := offset_cases hk
    obtain ⟨j, b, hj, hb, rfl⟩ := offset_cases hr
    rw [Mat.enc_layout l C i j b hi hj hb, Mat.enc_arrArr l _ i j b hi hj hb,
      (C09_mat_positions C C.intoVecVec C.intoArrVec C.intoArrArr i hi j hj).2.2.2.2.2]
  · exact (C09_mat_roundtrip (Mat.fromArrArr a) (Mat.fromArrArr a).intoVecVec (Mat.fromArrArr a).intoArrVec a).2.2.2.2.2
theorem Focus.struct1 (l : Layout A T) (o n : Nat) (mk : A → S) (f : S → A) (h : ∀ a, f (mk a) = a) (hn : o + l.size ≤ n) :
    Focus (l.struct1 o n mk f) l o f (fun _ a => mk a) where
  le := hn
  get s k hk := by
    show (if _ then _ else _) = _
    rw [if_pos (by omega)]; congr 1; omega
  set_in s a k hk := by
    show (if _ then _ else _) = _
    rw [if_pos (by omega), h]; congr 1; omega
  set_out s a k hk hk' := by
    show (if _ then _ else _) = (if _ then _ else _)
    rw [if_neg (by omega), if_neg (by omega)]
theorem Focus.fst (la : Layout A T) (lb : Layout B T) (oa ob n : Nat) (mk : A → B → S) (fa : S → A) (fb : S → B)
    (h1 : ∀ a b, fa (mk a b) = a) (h2 : ∀ a b, fb (mk a b) = b) (hn : oa + la.size ≤ n) :
    Focus (la.struct2 lb oa ob n mk fa fb) la oa fa (fun s a => mk a (fb s)) where
  le := hn
  get s k hk := by
    show (if _ then _ else _) = _
    rw [if_pos (by omega)]; congr 1; omega
  set_in s a k hk := by
    show (if _ then _ else _) = _
    rw [if_pos (by omega), h1]; congr 1; omega
  set_out s a k hk hk' := by
    show (if _ then _ else if _ then _ else _) = (if _ then _ else if _ then _ else _)
    rw [h2, if_neg (show ¬ (oa ≤ k ∧ k < oa + la.size) by omega), if_neg (show ¬ (oa ≤ k ∧ k < oa + la.size) by omega)]
theorem Focus.snd (la : Layout A T) (lb : Layout B T) (oa ob n : Nat) (mk : A → B → S) (fa : S → A) (fb : S → B)
    (h1 : ∀ a b, fa (mk a b) = a) (h2 : ∀ a b, fb (mk a b) = b) (hn : ob + lb.size ≤ n)
    (hd : oa + la.size ≤ ob ∨ ob + lb.size ≤ oa) :
    Focus (la.struct2 lb oa ob n mk fa fb) lb ob fb (fun s b => mk (fa s) b) where
  le := hn
  get s k hk := by
    show (if _ then _ else if _ then _ else _) = _
    rw [if_neg (by omega), if_pos (by omega)]; congr 1; omega
  set_in s a k hk := by
    show (if _ then _ else if _ then _ else _) = _
    rw [if_neg (by omega), if_pos (by omega), h2]; congr 1; omega
  set_out s a k hk hk' := by
    show (if _ then _ else if _ then _ else _) = (if _ then _ else if _ then _ else _)
    rw [h1]
    split
    · rfl
    · rw [if_neg (by omega), if_neg (by omega)]

/-! ## C76 -/

variable {l : Layout A T}

/-- `&mut v[i]` refers to element `i` for `i < N`, `get_unchecked_mut(i)` too; out of range the first panics and the second is undefined
behaviour. -/
theorem C76_vector_element (hl : l.Lawful) (i : Nat) (hi : i < N) :
    RefersTo (Vec.layout l N) l (fun p => Vec.indexMut l N p i) (fun v => v[i]) (fun v a => ⟨v.data.set i a⟩) ∧
    RefersTo (Vec.layout l N) l (fun p => Vec.getUncheckedMut l N p i) (fun v => v[i]) (fun v a => ⟨v.data.set i a⟩) :=
  ⟨(Focus.vecElem l i hi).refers hl _ fun p => by simp [Vec.indexMut, elemMut, hi],
   (Focus.vecElem l i hi).refers hl _ fun p => by simp [Vec.getUncheckedMut, elemUncheckedMut, hi, Vec.asMutArray]⟩
theorem C76_vector_out_of_range (p i : Nat) (hi : N ≤ i) :
    Vec.indexMut l N p i = .error .indexOob ∧ Vec.getUncheckedMut l N p i = .error .ub := by
  simp [Vec.indexMut, elemMut, Vec.getUncheckedMut, elemUncheckedMut, Nat.not_lt.mpr hi]
/-- `as_mut_array` refers to the whole contents of the vector. -/
theorem C76_vector_array (hl : l.Lawful) :
    RefersTo (Vec.layout l N) (l.array N) (fun p => .ok (Vec.asMutArray p)) Vec.intoArray (fun _ a => Vec.fromArray a) :=
  (Focus.vecArray l).refers (hl.array N) _ fun _ => rfl
theorem Focus.at {L : Layout S T} {l : Layout A T} {o g t} {g' : S → A} {t' : S → A → S} (h : Focus L l o g t) (hg : ∀ s, g s = g' s)
    (ht : ∀ s a, t s a = t' s a) : Focus L l o g' t' := by
  have e1 : g = g' := funext hg
  have e2 : t = t' := funext fun s => funext fun a => ht s a
  rw [← e1, ← e2]; exact h
/-- `x_mut`, `y_mut`, `z_mut`, `w_mut` of 2-, 3- and 4-vectors refer to the components 0, 1, 2, 3. -/
theorem C76_vector_components (hl : l.Lawful) :
    RefersTo (Vec.layout l 2) l (Vec.xMut l 2) (fun v => v[0]) (fun v a => ⟨#v[a, v[1]]⟩) ∧
    RefersTo (Vec.layout l 2) l (Vec.yMut l 2) (fun v => v[1]) (fun v a => ⟨#v[v[0], a]⟩) ∧
    RefersTo (Vec.layout l 3) l (Vec.xMut l 3) (fun v => v[0]) (fun v a => ⟨#v[a, v[1], v[2]]⟩) ∧
    RefersTo (Vec.layout l 3) l (Vec.yMut l 3) (fun v => v[1]) (fun v a => ⟨#v[v[0], a, v[2]]⟩) ∧
    RefersTo (Vec.layout l 3) l (Vec.zMut l 3) (fun v => v[2]) (fun v a => ⟨#v[v[0], v[1], a]⟩) ∧
    RefersTo (Vec.layout l 4) l (Vec.xMut l 4) (fun v => v[0]) (fun v a => ⟨#v[a, v[1], v[2], v[3]]⟩) ∧
    RefersTo (Vec.layout l 4) l (Vec.yMut l 4) (fun v => v[1]) (fun v a => ⟨#v[v[0], a, v[2], v[3]]⟩) ∧
    RefersTo (Vec.layout l 4) l (Vec.zMut l 4) (fun v => v[2]) (fun v a => ⟨#v[v[0], v[1], a, v[3]]⟩) ∧
    RefersTo (Vec.layout l 4) l (Vec.wMut l 4) (fun v => v[3]) (fun v a => ⟨#v[v[0], v[1], v[2], a]⟩) := by
  refine ⟨?_, ?_, ?_, ?_, ?_, ?_, ?_, ?_, ?_⟩ <;>
  [refine ((Focus.vecElem l 0 (by omega)).at (fun s => rfl) ?_).refers hl _ ?_; refine ((Focus.vecElem l 1 (by omega)).at (fun s => rfl) ?_).refers hl _ ?_;
   refine ((Focus.vecElem l 0 (by omega)).at (fun s => rfl) ?_).refers hl _ ?_; refine ((Focus.vecElem l 1 (by omega)).at (fun s => rfl) ?_).refers hl _ ?_;
   refine ((Focus.vecElem l 2 (by omega)).at (fun s => rfl) ?_).refers hl _ ?_;
   refine ((Focus.vecElem l 0 (by omega)).at (fun s => rfl) ?_).refers hl _ ?_; refine ((Focus.vecElem l 1 (by omega)).at (fun s => rfl) ?_).refers hl _ ?_;
   refine ((Focus.vecElem l 2 (by omega)).at (fun s => rfl) ?_).refers hl _ ?_; refine ((Focus.vecElem l 3 (by omega)).at (fun s => rfl) ?_).refers hl _ ?_]
  all_goals first
    | (intro s a
       apply Vec.ext; apply Vector.ext; intro i hi
       have : i = 0 ∨ i = 1 ∨ i = 2 ∨ i = 3 := by omega
       rcases this with rfl | rfl | rfl | rfl <;> first | omega | (simp [Vector.getElem_set]; done) | (simp [Vector.getElem_set]; rfl))
    | (intro p; simp [Vec.xMut, Vec.yMut, Vec.zMut, Vec.wMut, Vec.getUncheckedMut, elemUncheckedMut, Vec.asMutArray])

/-- The views of a matrix as a vector of vectors, an array of vectors and an array of arrays refer to the rows of the matrix. -/
theorem C76_matrix_views (hl : l.Lawful) :
    RefersTo (Mat.layout l M N) (Vec.layout (Vec.layout l N) M) (fun p => .ok (Mat.asMutVecVec p)) Mat.intoVecVec (fun _ a => Mat.fromVecVec a) ∧
    RefersTo (Mat.layout l M N) ((Vec.layout l N).array M) (fun p => .ok (Mat.asMutArrVec p)) Mat.intoArrVec (fun _ a => Mat.fromArrVec a) ∧
    RefersTo (Mat.layout l M N) ((l.array N).array M) (fun p => .ok (Mat.asMutArrArr p)) Mat.intoArrArr (fun _ a => Mat.fromArrArr a) :=
  ⟨(Focus.matVecVec l).refers ((hl.vec N).vec M) _ fun _ => rfl,
   ((Focus.matVecVec l).trans (Focus.vecArray _)).refers ((hl.vec N).array M) _ fun _ => rfl,
   (Focus.arrArr l).refers ((hl.array N).array M) _ fun _ => rfl⟩
/-- `row_mut(i)` refers to row `i`; out of range it panics. -/
theorem C76_row_mut (hl : l.Lawful) (i : Nat) :
    (∀ hi : i < M, RefersTo (Mat.layout l M N) (Vec.layout l N) (fun p => Mat.rowMut l M N p i) (fun C => C[i])
      (fun C r => ⟨⟨C.data.data.set i r⟩⟩)) ∧
    (M ≤ i → ∀ p, Mat.rowMut l M N p i = .error .indexOob) :=
  ⟨fun hi => (Focus.row l i hi).refers (hl.vec N) _ fun p => by simp [Mat.rowMut, Vec.indexMut, elemMut, hi, Mat.asMutVecVec]; exact Or.inl rfl,
   fun hi p => by simp [Mat.rowMut, Vec.indexMut, elemMut, Nat.not_lt.mpr hi]⟩
/-- `&mut m[(i, j)]` and `get_unchecked_mut(i, j)` refer to the element in row `i` and column `j`; out of range the first panics and
the second is undefined behaviour. -/
theorem C76_matrix_element (hl : l.Lawful) (i j : Nat) (hi : i < M) (hj : j < N) :
    RefersTo (Mat.layout l M N) l (fun p => Mat.indexMut l M N p (i, j)) (fun C => C[i][j])
      (fun C a => ⟨⟨C.data.data.set i ⟨C[i].data.set j a⟩⟩⟩) ∧
    RefersTo (Mat.layout l M N) l (fun p => Mat.getUncheckedMut l M N p i j) (fun C => C[i][j])
      (fun C a => ⟨⟨C.data.data.set i ⟨C[i].data.set j a⟩⟩⟩) := by
  have e : (Vec.layout l N).size = N * l.size := rfl
  exact ⟨(Focus.matElem l i j hi hj).refers hl _ fun p => by
      simp [Mat.indexMut, Vec.indexMut, elemMut, hi, hj, e, Nat.add_assoc],
    (Focus.matElem l i j hi hj).refers hl _ fun p => by
      simp [Mat.getUncheckedMut, Vec.getUncheckedMut, elemUncheckedMut, hi, hj, Vec.asMutArray, Mat.asMutVecVec, e, Nat.add_assoc]⟩
theorem C76_matrix_out_of_range (p i j : Nat) (h : M ≤ i ∨ N ≤ j) :
    Mat.indexMut l M N p (i, j) = .error .indexOob ∧ Mat.getUncheckedMut l M N p i j = .error .ub := by
  by_cases hi : i < M
  · have hj : ¬ j < N := by omega
    simp [Mat.indexMut, Vec.indexMut, elemMut, hi, hj, Mat.getUncheckedMut, Vec.getUncheckedMut, elemUncheckedMut]
  · simp [Mat.indexMut, Vec.indexMut, elemMut, hi, Mat.getUncheckedMut, Vec.getUncheckedMut, elemUncheckedMut]

theorem RefersTo.transparent {L : Layout S T} {ref : Nat → Res Nat} {g : S → A} {t : S → A → S} (h : RefersTo L l ref g t)
    (mk : S → S') (field : S' → S) (hf : ∀ s, field (mk s) = s) {g' : S' → A} {t' : S' → A → S'}
    (hg : ∀ s, g (field s) = g' s) (ht : ∀ s a, mk (t (field s) a) = t' s a) :
    RefersTo (L.transparent mk field) l ref g' t' := by
  intro m p s
  obtain ⟨q, h1, h2, h3⟩ := h m p (field s)
  refine ⟨q, h1, ?_, fun a => ?_⟩
  · rw [← hg]; exact h2
  · refine (h3 a).trans ?_
    rw [← ht]
    show _ = L.store m p (field (mk _))
    rw [hf]
/-- `re_mut` and `im_mut` refer to the real and the imaginary part. -/
theorem C76_complex (hl : l.Lawful) :
    RefersTo (Cpx.layout l) l (Cpx.reMut l) Cpx.re (fun z a => Cpx.new a z.im) ∧
    RefersTo (Cpx.layout l) l (Cpx.imMut l) Cpx.im (fun z a => Cpx.new z.re a) :=
  ⟨(C76_vector_components hl).1.transparent _ _ (fun _ => rfl) (fun _ => rfl) fun _ _ => rfl,
   (C76_vector_components hl).2.1.transparent _ _ (fun _ => rfl) (fun _ => rfl) fun _ _ => rfl⟩
/-- `w_mut`, `x_mut`, `y_mut`, `z_mut` of a quaternion refer to its scalar and vector parts. -/
theorem C76_quaternion (hl : l.Lawful) :
    RefersTo (Quat.layout l) l (Quat.wMut l) Quat.w (fun q a => Quat.new a q.x q.y q.z) ∧
    RefersTo (Quat.layout l) l (Quat.xMut l) Quat.x (fun q a => Quat.new q.w a q.y q.z) ∧
    RefersTo (Quat.layout l) l (Quat.yMut l) Quat.y (fun q a => Quat.new q.w q.x a q.z) ∧
    RefersTo (Quat.layout l) l (Quat.zMut l) Quat.z (fun q a => Quat.new q.w q.x q.y a) := by
  obtain ⟨-, -, -, -, -, h0, h1, h2, h3⟩ := C76_vector_components hl
  exact ⟨h0.transparent _ _ (fun _ => rfl) (fun _ => rfl) fun _ _ => rfl,
    h1.transparent _ _ (fun _ => rfl) (fun _ => rfl) fun _ _ => rfl,
    h2.transparent _ _ (fun _ => rfl) (fun _ => rfl) fun _ _ => rfl,
    h3.transparent _ _ (fun _ => rfl) (fun _ => rfl) fun _ _ => rfl⟩

theorem Mat.setElem_get (C : Mat A M N) (i j : Nat) (hi : i < M) (hj : j < N) (x : A) (a b : Nat) (ha : a < M) (hb : b < N) :
    (⟨⟨C.data.data.set i ⟨C[i].data.set j x⟩⟩⟩ : Mat A M N)[a][b] = if i = a ∧ j = b then x else C[a][b] := by
  show ((C.data.data.set i (⟨C[i].data.set j x⟩ : Vec A N))[a]).data[b] = _
  rw [Vector.getElem_set]
  split
  · rename_i h; subst h
    show (C[i].data.set j x)[b] = _
    rw [Vector.getElem_set]
    simp only [true_and]
    rfl
  · rename_i h; exact (if_neg (fun h' : i = a ∧ j = b => h h'.1)).symm
theorem Moebius.new_mat (a b c d : A) : (Moebius.new a b c d).mat = ⟨⟨#v[⟨#v[a, b]⟩, ⟨#v[c, d]⟩]⟩⟩ := rfl
/-- `as_mut_matrix`, `as_mut_array_of_arrays` and `a_mut`, `b_mut`, `c_mut`, `d_mut` of a Möbius transformation, at whatever offset `o`
the compiler places its matrix. -/
theorem C76_moebius (hl : l.Lawful) (o n : Nat) (hn : o + 2 * (2 * l.size) ≤ n) :
    RefersTo (Moebius.layout l o n) (Mat.layout l 2 2) (fun p => .ok (Moebius.asMutMatrix o p)) Moebius.intoMatrix (fun _ a => Moebius.fromMatrix a) ∧
    RefersTo (Moebius.layout l o n) ((l.array 2).array 2) (fun p => .ok (Moebius.asMutArrArr o p)) Moebius.intoArray (fun _ a => Moebius.fromArray a) ∧
    RefersTo (Moebius.layout l o n) l (Moebius.aMut l o) Moebius.a (fun f x => Moebius.new x f.b f.c f.d) ∧
    RefersTo (Moebius.layout l o n) l (Moebius.bMut l o) Moebius.b (fun f x => Moebius.new f.a x f.c f.d) ∧
    RefersTo (Moebius.layout l o n) l (Moebius.cMut l o) Moebius.c (fun f x => Moebius.new f.a f.b x f.d) ∧
    RefersTo (Moebius.layout l o n) l (Moebius.dMut l o) Moebius.d (fun f x => Moebius.new f.a f.b f.c x) := by
  have hF : Focus (Moebius.layout l o n) (Mat.layout l 2 2) o Moebius.mat (fun _ a => ⟨a⟩) :=
    Focus.struct1 _ o n _ _ (fun _ => rfl) hn
  have e : (Vec.layout l 2).size = 2 * l.size := rfl
  have ext4 : ∀ (f g : Moebius A), f.mat[0][0] = g.mat[0][0] → f.mat[0][1] = g.mat[0][1] → f.mat[1][0] = g.mat[1][0] →
      f.mat[1][1] = g.mat[1][1] → f = g := by
    intro f g h0 h1 h2 h3
    apply Moebius.ext; apply Mat.ext_getElem; intro i hi j hj
    have : i = 0 ∨ i = 1 := by omega
    have : j = 0 ∨ j = 1 := by omega
    rcases ‹i = 0 ∨ i = 1› with rfl | rfl <;> rcases ‹j = 0 ∨ j = 1› with rfl | rfl <;> assumption
  refine ⟨hF.refers (hl.mat 2 2) _ fun _ => rfl, (hF.trans (Focus.arrArr l)).refers ((hl.array 2).array 2) _ fun _ => rfl, ?_, ?_, ?_, ?_⟩
  · refine ((hF.trans (Focus.matElem l 0 0 (by omega) (by omega))).at (fun _ => rfl) fun f x => ?_).refers hl _ fun p => by
      simp [Moebius.aMut, Mat.indexMut, Vec.indexMut, elemMut, e]
    apply ext4 <;> (refine (Mat.setElem_get f.mat _ _ (by omega) (by omega) x _ _ (by omega) (by omega)).trans ?_) <;>
      simp only [Moebius.new_mat] <;> rfl
  · refine ((hF.trans (Focus.matElem l 0 1 (by omega) (by omega))).at (fun _ => rfl) fun f x => ?_).refers hl _ fun p => by
      simp [Moebius.bMut, Mat.indexMut, Vec.indexMut, elemMut, e, Nat.add_assoc]
    apply ext4 <;> (refine (Mat.setElem_get f.mat _ _ (by omega) (by omega) x _ _ (by omega) (by omega)).trans ?_) <;>
      simp only [Moebius.new_mat] <;> rfl
  · refine ((hF.trans (Focus.matElem l 1 0 (by omega) (by omega))).at (fun _ => rfl) fun f x => ?_).refers hl _ fun p => by
      simp [Moebius.cMut, Mat.indexMut, Vec.indexMut, elemMut, e, Nat.add_assoc]
    apply ext4 <;> (refine (Mat.setElem_get f.mat _ _ (by omega) (by omega) x _ _ (by omega) (by omega)).trans ?_) <;>
      simp only [Moebius.new_mat] <;> rfl
  · refine ((hF.trans (Focus.matElem l 1 1 (by omega) (by omega))).at (fun _ => rfl) fun f x => ?_).refers hl _ fun p => by
      simp [Moebius.dMut, Mat.indexMut, Vec.indexMut, elemMut, e, Nat.add_assoc]
    apply ext4 <;> (refine (Mat.setElem_get f.mat _ _ (by omega) (by omega) x _ _ (by omega) (by omega)).trans ?_) <;>
      simp only [Moebius.new_mat] <;> rfl
/-- `outer_mut` and `inner_mut` of a `Chain` refer to its two transformations, wherever the compiler places the two fields. -/
theorem C76_chain {la : Layout A T} {lb : Layout B T} (ha : la.Lawful) (hb : lb.Lawful) (oa ob n : Nat)
    (h1 : oa + la.size ≤ n) (h2 : ob + lb.size ≤ n) (hd : oa + la.size ≤ ob ∨ ob + lb.size ≤ oa) :
    RefersTo (Chain.layout la lb oa ob n : Layout (Chain A B X) T) la (fun p => .ok (Chain.outerMut oa p)) Chain.outer
      (fun c a => Chain.new a c.inner) ∧
    RefersTo (Chain.layout la lb oa ob n : Layout (Chain A B X) T) lb (fun p => .ok (Chain.innerMut ob p)) Chain.inner
      (fun c b => Chain.new c.outer b) :=
  ⟨(Focus.fst la lb oa ob n _ _ _ (fun _ _ => rfl) (fun _ _ => rfl) h1).refers ha _ fun _ => rfl,
   (Focus.snd la lb oa ob n _ _ _ (fun _ _ => rfl) (fun _ _ => rfl) h2 hd).refers hb _ fun _ => rfl⟩

theorem Layout.Lawful.struct1 (hl : l.Lawful) (o n : Nat) (mk : A → S) (f : S → A) (h : ∀ s, mk (f s) = s) (hn : o + l.size ≤ n) :
    (l.struct1 o n mk f).Lawful := by
  intro s c hc
  have h1 : l.dec (fun k => c (o + k)) = .ok (f s) := hl _ _ fun k hk => by
    rw [hc _ (show o + k < n by omega)]
    show (if _ then _ else _) = _
    rw [if_pos (by omega)]; congr 1; omega
  show ((l.dec fun k => c (o + k)) >>= fun a => pure (mk a)) = _
  rw [h1, Res.bind_ok, h]; rfl
theorem Layout.Lawful.struct2 {la : Layout A T} {lb : Layout B T} (ha : la.Lawful) (hb : lb.Lawful) (oa ob n : Nat) (mk : A → B → S)
    (fa : S → A) (fb : S → B) (h : ∀ s, mk (fa s) (fb s) = s) (h1 : oa + la.size ≤ n) (h2 : ob + lb.size ≤ n)
    (hd : oa + la.size ≤ ob ∨ ob + lb.size ≤ oa) : (la.struct2 lb oa ob n mk fa fb).Lawful := by
  intro s c hc
  have e1 : la.dec (fun k => c (oa + k)) = .ok (fa s) := ha _ _ fun k hk => by
    rw [hc _ (show oa + k < n by omega)]
    show (if _ then _ else if _ then _ else _) = _
    rw [if_pos (by omega)]; congr 1; omega
  have e2 : lb.dec (fun k => c (ob + k)) = .ok (fb s) := hb _ _ fun k hk => by
    rw [hc _ (show ob + k < n by omega)]
    show (if _ then _ else if _ then _ else _) = _
    rw [if_neg (by omega), if_pos (by omega)]; congr 1; omega
  show ((la.dec fun k => c (oa + k)) >>= fun a => (lb.dec fun k => c (ob + k)) >>= fun b => pure (mk a b)) = _
  rw [e1, Res.bind_ok, e2, Res.bind_ok, h]; rfl
/-- A vector, matrix, complex number, quaternion, Möbius transformation or chain stored in memory is read back as a whole, at every
address and wherever the compiler places the fields; the other memory is not touched by the store. -/
theorem C76_read_whole (hl : l.Lawful) {lb : Layout B T} (hb : lb.Lawful) (m : Memory T) (p o n oa ob n' : Nat)
    (hn : o + 2 * (2 * l.size) ≤ n) (h1 : oa + l.size ≤ n') (h2 : ob + lb.size ≤ n') (hd : oa + l.size ≤ ob ∨ ob + lb.size ≤ oa)
    (v : Vec A N) (C : Mat A M N) (z : Cpx A) (q : Quat A) (f : Moebius A) (c : Chain A B X) :
    (Vec.layout l N).load ((Vec.layout l N).store m p v) p = .ok v ∧
    (Mat.layout l M N).load ((Mat.layout l M N).store m p C) p = .ok C ∧
    (Cpx.layout l).load ((Cpx.layout l).store m p z) p = .ok z ∧
    (Quat.layout l).load ((Quat.layout l).store m p q) p = .ok q ∧
    (Moebius.layout l o n).load ((Moebius.layout l o n).store m p f) p = .ok f ∧
    (Chain.layout l lb oa ob n' : Layout (Chain A B X) T).load ((Chain.layout l lb oa ob n').store m p c) p = .ok c :=
  ⟨(hl.vec N).load_store m p v, (hl.mat M N).load_store m p C, ((hl.vec 2).transparent fun _ => rfl).load_store m p z,
   ((hl.vec 4).transparent fun _ => rfl).load_store m p q,
   ((hl.mat 2 2).struct1 o n _ _ (fun _ => rfl) hn).load_store m p f,
   (hl.struct2 hb oa ob n' _ _ _ (fun _ => rfl) h1 h2 hd).load_store m p c⟩
/-- Writing through the references into a Möbius transformation or a chain and then reading the whole value gives the value with that
component replaced and the others as they were. -/
theorem C76_write_then_read (hl : l.Lawful) {lb : Layout B T} (hb : lb.Lawful) (m : Memory T) (p o n oa ob n' : Nat)
    (hn : o + 2 * (2 * l.size) ≤ n) (h1 : oa + l.size ≤ n') (h2 : ob + lb.size ≤ n') (hd : oa + l.size ≤ ob ∨ ob + lb.size ≤ oa)
    (f : Moebius A) (c : Chain A B X) (x : A) (y : B) :
    (∃ q, Moebius.cMut l o p = .ok q ∧
      (Moebius.layout l o n).load (l.store ((Moebius.layout l o n).store m p f) q x) p = .ok (Moebius.new f.a f.b x f.d)) ∧
    (Chain.layout l lb oa ob n' : Layout (Chain A B X) T).load (l.store ((Chain.layout l lb oa ob n').store m p c) (Chain.outerMut oa p) x) p
      = .ok (Chain.new x c.inner) ∧
    (Chain.layout l lb oa ob n' : Layout (Chain A B X) T).load (lb.store ((Chain.layout l lb oa ob n').store m p c) (Chain.innerMut ob p) y) p
      = .ok (Chain.new c.outer y) := by
  have R := fun f c => C76_read_whole (N := 0) (M := 0) (X := X) hl hb m p o n oa ob n' hn h1 h2 hd ⟨#v[]⟩ ⟨⟨#v[]⟩⟩ ⟨⟨#v[x, x]⟩⟩
    ⟨⟨#v[x, x, x, x]⟩⟩ f c
  refine ⟨?_, ?_, ?_⟩
  · obtain ⟨q, e, -, h⟩ := (C76_moebius hl o n hn).2.2.2.2.1 m p f
    exact ⟨q, e, by rw [h]; exact (R (Moebius.new f.a f.b x f.d) c).2.2.2.2.1⟩
  · obtain ⟨q, e, -, h⟩ := (C76_chain (X := X) hl hb oa ob n' h1 h2 hd).1 m p c
    cases e
    rw [h]; exact (R f (Chain.new x c.inner)).2.2.2.2.2
  · obtain ⟨q, e, -, h⟩ := (C76_chain (X := X) hl hb oa ob n' h1 h2 hd).2 m p c
    cases e
    rw [h]; exact (R f (Chain.new c.outer y)).2.2.2.2.2
/-- A Möbius transformation at offset 1 of 6 cells, and a chain with its inner part first and padding. -/
example (m : Memory Nat) := C76_write_then_read (X := Unit) (lawful_scalar (T := Nat)) (lawful_scalar.vec 3) m 10 1 6 4 0 5 (by decide) (by decide)
  (by decide) (by decide) (Moebius.new 1 2 3 4) (Chain.new 5 ⟨#v[6, 7, 8]⟩) 9 ⟨#v[1, 1, 1]⟩
example (m : Memory Nat) := C76_read_whole (X := Unit) (lawful_scalar (T := Nat)) (lawful_scalar.vec 3) m 10 1 6 4 0 5 (by decide) (by decide)
  (by decide) (by decide) (⟨#v[1, 2]⟩ : Vec Nat 2) (⟨⟨#v[⟨#v[1, 2]⟩]⟩⟩ : Mat Nat 1 2) (Cpx.new 1 2) (Quat.new 1 2 3 4) (Moebius.new 1 2 3 4)
  (Chain.new 5 ⟨#v[6, 7, 8]⟩)

/-- A chain of a quaternion-sized and a scalar component, inner component first and a cell of padding. -/
example : RefersTo (Chain.layout (Quat.layout scalar) (scalar : Layout Nat Nat) 2 0 6 : Layout (Chain (Quat Nat) Nat Unit) Nat)
    (Quat.layout scalar) (fun p => .ok (Chain.outerMut 2 p)) Chain.outer (fun c a => Chain.new a c.inner) :=
  (C76_chain ((lawful_scalar.vec 4).transparent fun _ => rfl) lawful_scalar 2 0 6 (by decide) (by decide) (by decide)).1
/-- Writing `x_mut` of the quaternion `(1, 2, 3, 4)` at address 10 changes address 11 only. -/
example (m : Memory Nat) : ∃ q, Quat.xMut (scalar : Layout Nat Nat) 10 = .ok q ∧
    ∀ a, scalar.store ((Quat.layout scalar).store m 10 (Quat.new 1 2 3 4)) q a = (Quat.layout scalar).store m 10 (Quat.new 1 a 3 4) := by
  obtain ⟨q, h1, -, h3⟩ := (C76_quaternion (l := (scalar : Layout Nat Nat)) lawful_scalar).2.1 m 10 (Quat.new 1 2 3 4)
  exact ⟨q, h1, h3⟩
example : Mat.rowMut (scalar : Layout Nat Nat) 3 4 100 2 = .ok 108 := by simp [Mat.rowMut, Vec.indexMut, elemMut, Mat.asMutVecVec, Vec.layout, Layout.transparent, Layout.array, scalar]

/-! ## further cases: the hypotheses are satisfiable -/
/-- Elements that occupy three scalars, to see that the stride is used. -/
example := C76_vector_element (N := 5) ((lawful_scalar (T := Nat)).vec 3) 3 (by decide)
example := C76_vector_out_of_range (N := 5) (l := (scalar : Layout Nat Nat)) 100 5 (by decide)
example := C76_vector_components (lawful_scalar (T := Nat))
example := C76_vector_array (N := 5) (lawful_scalar (T := Nat))
example := C76_row_mut (M := 3) (N := 4) (lawful_scalar (T := Nat)) 2
example := C76_matrix_element (M := 3) (N := 4) (lawful_scalar (T := Nat)) 2 1 (by decide) (by decide)
example := C76_matrix_out_of_range (M := 3) (N := 4) (l := (scalar : Layout Nat Nat)) 100 2 4 (by decide)
example := C76_matrix_views (M := 3) (N := 4) (lawful_scalar (T := Nat))
example := C76_complex (lawful_scalar (T := Nat))
example := C76_moebius (lawful_scalar (T := Nat)) 1 6 (by decide)

end Vecmat
