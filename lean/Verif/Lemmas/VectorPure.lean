import Verif.Model.VectorPure
/-! Helper lemmas: element access of the pure vector functions. -/
namespace Vecmat
variable {T U S σ : Type} {N : Nat}
namespace Vec

theorem initS_fst (f : σ → T × σ) (s : σ) : (initS (N := N) f s).1 = ofList (stepResults f N s) (by simp) :=
  Res.get_eq (exec_initM_ofStep f s) _
theorem initS_snd (f : σ → T × σ) (s : σ) : (initS (N := N) f s).2 = stepState f N s := by
  simp [initS, exec_initM_ofStep']

theorem stepResults_const (x : T) (n : Nat) : stepResults (fun _ : Unit => (x, ())) n () = List.replicate n x := by
  induction n with
  | zero => rfl
  | succ n ih => simp [stepResults, List.replicate_succ, ih]

theorem getElem_congr_vec {v w : Vec T N} (h : v = w) (i : Nat) (hi : i < N) : v[i] = w[i] := by rw [h]

@[simp] theorem getElem_fill (x : T) (i : Nat) (h : i < N) : (fill x : Vec T N)[i] = x := by
  unfold fill
  rw [getElem_congr_vec (initS_fst (N := N) (fun _ : Unit => (x, ())) ()) i h]
  simp [stepResults_const]

@[simp] theorem getElem_default [Inhabited T] (i : Nat) (h : i < N) :
    (default : Vec T N)[i] = Inhabited.default := by
  unfold default
  rw [getElem_congr_vec (initS_fst (N := N) (fun _ : Unit => (Inhabited.default, ())) ()) i h]
  simp [stepResults_const]

theorem zip_eq (v : Vec T N) (w : Vec U N) : v.zip w = ofList (v.toList.zip w.toList) (by simp) :=
  Res.get_eq (zipR_eq v w) _
@[simp] theorem getElem_zip (v : Vec T N) (w : Vec U N) (i : Nat) (h : i < N) :
    (v.zip w)[i] = (v[i], w[i]) := by
  rw [getElem_congr_vec (zip_eq v w) i h]; simp

theorem indices_eq : (indices : Vec Nat N) = ofList (List.range N) (by simp) := Res.get_eq indicesR_eq _
@[simp] theorem getElem_indices (i : Nat) (h : i < N) : (indices : Vec Nat N)[i] = i := by
  rw [getElem_congr_vec indices_eq i h]; simp
@[simp] theorem getElem_enumerate (v : Vec T N) (i : Nat) (h : i < N) : v.enumerate[i] = (i, v[i]) := by
  simp [enumerate]

theorem unzip_eq (v : Vec (T × U) N) :
    v.unzip = (ofList (v.toList.map Prod.fst) (by simp), ofList (v.toList.map Prod.snd) (by simp)) :=
  Res.get_eq (unzipR_eq v) _
@[simp] theorem getElem_unzip_fst (v : Vec (T × U) N) (i : Nat) (h : i < N) : v.unzip.1[i] = v[i].1 := by
  rw [getElem_congr_vec (congrArg Prod.fst (unzip_eq v)) i h]; simp
@[simp] theorem getElem_unzip_snd (v : Vec (T × U) N) (i : Nat) (h : i < N) : v.unzip.2[i] = v[i].2 := by
  rw [getElem_congr_vec (congrArg Prod.snd (unzip_eq v)) i h]; simp

theorem foldFirst_ok [NeZero N] (f : T → T → T) (v : Vec T N) : v.foldFirstR f = .ok (v.foldFirst f) :=
  Res.ok_get _ _

theorem toList_eq_ofFn (v : Vec T N) : v.toList = List.ofFn fun i : Fin N => v[i.1] := by
  apply List.ext_getElem (by simp)
  intro i h1 h2; simp

end Vec
end Vecmat
