import Verif.Model.Vector
import Verif.Lemmas.VectorIter
/-!
# `Vector<T, N>`: functions that provably never fault, as pure functions
Each function here is *extracted* with `Res.get` from the faithful model in `Verif/Model/Vector.lean`
(which contains the `unwrap`s, uninitialised slots and index checks), using the proof that the model returns.
-/
namespace Vecmat
variable {T U S : Type} {N : Nat}
namespace Vec

/-- `Vector::init`, src/vector/base/init.rs:37-45, with a stateful closure `f : σ → T × σ` that does not panic,
as a pure function of the initial closure state; returns the vector and the final closure state. -/
def initS {σ : Type} (f : σ → T × σ) (s : σ) : Vec T N × σ :=
  (((initM (N := N) (Eff.ofStep f)).exec s).1.get ⟨_, exec_initM_ofStep f s⟩,
   ((initM (N := N) (Eff.ofStep f)).exec s).2)

/-- `Vector::fill`, src/vector/base/init.rs:73-75: `Self::init(|| v)`. -/
def fill (x : T) : Vec T N := (initS (fun _ : Unit => (x, ())) ()).1

/-- `Default::default` / `Vector::new`, src/vector/base/init.rs:48-66: `Self::init(T::default)`. -/
def default [Inhabited T] : Vec T N := (initS (fun _ : Unit => (Inhabited.default, ())) ()).1

/-- `Vector::indices`, src/vector/base/iter.rs:89-94. -/
def indices : Vec Nat N := indicesR.get ⟨_, indicesR_eq⟩

/-- `Vector::zip`, src/vector/base/iter.rs:106-108. -/
def zip (v : Vec T N) (w : Vec U N) : Vec (T × U) N := (zipR v w).get ⟨_, zipR_eq v w⟩

/-- `Vector::enumerate`, src/vector/base/iter.rs:110-112: `Vector::indices().zip(self)`. -/
def enumerate (v : Vec T N) : Vec (Nat × T) N := indices.zip v

/-- `Vector::unzip`, src/vector/base/iter.rs:117-127. -/
def unzip (v : Vec (T × U) N) : Vec T N × Vec U N := (unzipR v).get ⟨_, unzipR_eq v⟩

/-- `Vector::fold_first`, src/vector/base/iter.rs:134-138, for a non-empty vector. -/
def foldFirst [NeZero N] (f : T → T → T) (v : Vec T N) : T := (foldFirstR f v).get (by
  rw [foldFirstR_eq]
  have h : v.toList.length = N := by simp
  have := NeZero.ne N
  cases hv : v.toList with
  | nil => simp [hv] at h; omega
  | cons x l => exact ⟨_, rfl⟩)

/-- `Vector::scan`, src/vector/base/iter.rs:139-141, with a closure without side effects. -/
def scanR (v : Vec T N) (s : S) (f : S → T → U × S) : Res (Vec U N) :=
  ((v.scanE (σ := Unit) s fun s x => pure (f s x)).exec ()).1

end Vec
end Vecmat
