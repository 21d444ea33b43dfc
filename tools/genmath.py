#!/usr/bin/env python3
"""Generates lean/Verif/Model/Math.lean from src/{vector,matrix}/math.rs (reads the Rust text for line numbers)."""
import re
camel={'abs_sub':'absSub','vmin':'fmin','vmax':'fmax','mul_add':'mulAdd','sin_cos':'sinCos','exp_m1':'expM1','ln_1p':'ln1p'}
def c(n): return camel.get(n,n)
def mname(n): return {'vmin':'vmin','vmax':'vmax'}.get(n,c(n))
out=["import Verif.Model.MatrixOps","/-!","# Element-wise float functions and broadcasting","Models `src/vector/math.rs` and `src/matrix/math.rs` (generated by tools/genmath.py from the Rust text).","-/","namespace Vecmat","variable {T : Type} {M N : Nat}",
"","/-- `trait Broadcast<V>`, src/traits.rs:63-67. -/","class Broadcast (B V : Type) where","  broadcast : B → V","export Broadcast (broadcast)",
"/-- `Vector` as itself, src/vector/math.rs:4-6. -/","instance : Broadcast (Vec T N) (Vec T N) := ⟨fun v => v⟩",
"/-- scalar to `Vector`, src/vector/math.rs:7-9. -/","instance : Broadcast T (Vec T N) := ⟨fun x => Vec.fill x⟩",
"/-- `Matrix` as itself, src/matrix/math.rs:4-6. -/","instance : Broadcast (Mat T M N) (Mat T M N) := ⟨fun A => A⟩",
"/-- `Vector` to `Matrix`: the vector becomes every row, src/matrix/math.rs:7-9. -/","instance : Broadcast (Vec T N) (Mat T M N) := ⟨fun v => Mat.fromVecVec (Vec.fill v)⟩",
"/-- scalar to `Matrix`, src/matrix/math.rs:10-12. -/","instance : Broadcast T (Mat T M N) := ⟨fun x => Mat.fill x⟩",""]
props=[]
info={}
for ns,f,ty,tyi in [('Vec','vector','Vec T N','Vec Int N'),('Mat','matrix','Mat T M N','Mat Int M N')]:
    out.append(f"namespace {ns}")
    un=[];bi=[]
    for k,l in enumerate(open(f'/repo/src/{f}/math.rs'),1):
        m=re.match(r'\s*pub fn (\w+)(<.*?>)?\((.*?)\) -> (.*?) \{ (.*) \}',l)
        if not m: continue
        n,g,args,ret,body=m.groups()
        cite=f"/-- `{n}`, src/{f}/math.rs:{k}. -/"
        fn='FloatOps.'+c(n)
        if body==f'self.map(T::{n})':
            out+= [cite,f"def {mname(n)} [FloatOps T] (s : {ty}) : {ty} := s.map {fn}"]; un.append(n)
        elif n=='sin_cos':
            out+= [cite,f"def sinCos [FloatOps T] (s : {ty}) : {ty} × {ty} := (s.map {fn}).unzip"]
        elif n=='clamp':
            assert 'T::min(T::max(s, a), b)' in body
            out+=[cite,f"def clamp [FloatOps T] [Broadcast A ({ty})] [Broadcast B ({ty})] (s : {ty}) (a : A) (b : B) : {ty} :=",f"  (s.zip ((broadcast a : {ty}).zip (broadcast b : {ty}))).map fun p => FloatOps.fmin (FloatOps.fmax p.1 p.2.1) p.2.2"]
        elif n=='mul_add':
            assert 'T::mul_add(s, a, b)' in body
            out+=[cite,f"def mulAdd [FloatOps T] [Broadcast A ({ty})] [Broadcast B ({ty})] (s : {ty}) (a : A) (b : B) : {ty} :=",f"  (s.zip ((broadcast a : {ty}).zip (broadcast b : {ty}))).map fun p => {fn} p.1 p.2.1 p.2.2"]
        else:
            t=tyi if n=='powi' else ty
            rn={'vmin':'min','vmax':'max'}.get(n,n)
            assert body==f'self.zip(other.broadcast()).map(|(s, o)| T::{rn}(s, o))',(n,body)
            out+=[cite,f"def {mname(n)} [FloatOps T] [Broadcast B ({t})] (s : {ty}) (o : B) : {ty} := (s.zip (broadcast o : {t})).map fun p => {fn} p.1 p.2"]
            bi.append(n)
    out+=[f"end {ns}",""]
    info[ns]=(un,bi)
out.append("end Vecmat")
open('/verif/lean/Verif/Model/Math.lean','w').write('\n'.join(out)+'\n')
# property file
P=["import Verif.Model.Math","import Verif.Model.Real","import Verif.Lemmas.VectorPure","import Verif.Lemmas.VectorOps","import Verif.Lemmas.MatrixOps","/-!","# C25 element-wise float functions and broadcasting (generated by tools/genmath.py)","The scalar functions are arbitrary: no law of `FloatOps` is used except in the clauses about `ℝ`.","-/","namespace Vecmat","variable {T A B : Type} {M N : Nat}",""]
for ns,ty,tyi,ix,q in [('Vec','Vec T N','Vec Int N','[i]','∀ i (h : i < N), '),('Mat','Mat T M N','Mat Int M N','[i][j]','∀ i (_ : i < M) j (_ : j < N), ')]:
    un,bi=info[ns]; kind='vector' if ns=='Vec' else 'matrix'
    P.append(f"/-- Every unary float method of a {kind} applies its scalar function at each index. -/")
    P.append(f"theorem C25_{kind}_unary [FloatOps T] (s : {ty}) :\n    "+q+"\n    "+" ∧\n    ".join(f"s.{mname(n)}{ix} = FloatOps.{c(n)} s{ix}" for n in un)+" := by\n  intros; simp only ["+", ".join(f"{ns}.{mname(n)}" for n in un)+f", {ns}.getElem_map, and_self]")
    P.append(f"/-- Binary float methods of a {kind} combine equal indices, in this operand order, after broadcasting the other operand. -/")
    P.append(f"theorem C25_{kind}_binary [FloatOps T] [Broadcast B ({ty})] (s : {ty}) (o : B) :\n    "+q+"\n    "+" ∧\n    ".join(f"(s.{mname(n)} o){ix} = FloatOps.{c(n)} s{ix} (broadcast o : {ty}){ix}" for n in bi if n!='powi')+" := by\n  intros; simp only ["+", ".join(f"{ns}.{mname(n)}" for n in bi if n!='powi')+f", {ns}.getElem_map, {ns}.getElem_zip, and_self]")
    P.append(f"theorem C25_{kind}_powi [FloatOps T] [Broadcast B ({tyi})] (s : {ty}) (o : B) :\n    "+q+f"(s.powi o){ix} = FloatOps.powi s{ix} (broadcast o : {tyi}){ix} := by\n  intros; simp only [{ns}.powi, {ns}.getElem_map, {ns}.getElem_zip]")
    P.append(f"theorem C25_{kind}_ternary [FloatOps T] [Broadcast A ({ty})] [Broadcast B ({ty})] (s : {ty}) (a : A) (b : B) :\n    "+q+f"\n    (s.mulAdd a b){ix} = FloatOps.mulAdd s{ix} (broadcast a : {ty}){ix} (broadcast b : {ty}){ix} ∧\n    (s.clamp a b){ix} = FloatOps.fmin (FloatOps.fmax s{ix} (broadcast a : {ty}){ix}) (broadcast b : {ty}){ix} := by\n  intros; simp only [{ns}.mulAdd, {ns}.clamp, {ns}.getElem_map, {ns}.getElem_zip, and_self]")
    P.append(f"/-- `sin_cos` returns the first and the second components of the scalar function, in this order. -/")
    P.append(f"theorem C25_{kind}_sin_cos [FloatOps T] (s : {ty}) :\n    "+q+f"s.sinCos.1{ix} = (FloatOps.sinCos s{ix}).1 ∧ s.sinCos.2{ix} = (FloatOps.sinCos s{ix}).2 := by\n  intros; simp only [{ns}.sinCos, {ns}.getElem_map, {ns}.getElem_unzip_fst, {ns}.getElem_unzip_snd, and_self]")
    rty=ty.replace('T','ℝ',1).replace('Matrix','Mat') if False else (ty.replace(' T',' ℝ'))
    P.append(f"""/-- Over the reals `clamp(a, b)` lies in `[a, b]` at each index where `a ≤ b`, and leaves values already inside unchanged. -/
theorem C25_{kind}_clamp [Broadcast A ({rty})] [Broadcast B ({rty})] (s : {rty}) (a : A) (b : B) : {q}
    (broadcast a : {rty}){ix} ≤ (broadcast b : {rty}){ix} →
      (broadcast a : {rty}){ix} ≤ (s.clamp a b){ix} ∧ (s.clamp a b){ix} ≤ (broadcast b : {rty}){ix} ∧
      ((broadcast a : {rty}){ix} ≤ s{ix} → s{ix} ≤ (broadcast b : {rty}){ix} → (s.clamp a b){ix} = s{ix}) := by
  intros
  simp only [(C25_{kind}_ternary s a b _ _{' _ _' if ns=='Mat' else ''}).2, FloatOps.fmin, FloatOps.fmax]
  refine ⟨by simp [*], by simp, fun h1 h2 => by simp [h1, h2]⟩""")
    P.append(f"""/-- Over the reals `vmin`/`vmax` are the pointwise minimum and maximum, and `sin_cos` agrees with `sin` and `cos`. -/
theorem C25_{kind}_real [Broadcast B ({rty})] (s : {rty}) (o : B) : {q}
    (s.vmin o){ix} = min s{ix} (broadcast o : {rty}){ix} ∧ (s.vmax o){ix} = max s{ix} (broadcast o : {rty}){ix} ∧
    s.sinCos.1{ix} = s.sin{ix} ∧ s.sinCos.2{ix} = s.cos{ix} := by
  intros
  simp only [{ns}.vmin, {ns}.vmax, {ns}.sin, {ns}.cos, {ns}.sinCos, {ns}.getElem_map, {ns}.getElem_zip, {ns}.getElem_unzip_fst, {ns}.getElem_unzip_snd]
  exact ⟨rfl, rfl, rfl, rfl⟩""")
P.append("""/-- Broadcasting to a vector: a vector is itself, a scalar is used at every index. -/
theorem C25_vector_broadcast (v : Vec T N) (x : T) (i : Nat) (h : i < N) :
    (broadcast v : Vec T N)[i] = v[i] ∧ (broadcast x : Vec T N)[i] = x := ⟨rfl, Vec.getElem_fill x i h⟩
/-- Broadcasting to a matrix: a matrix is itself, a vector is used as every row, a scalar is used at every index. -/
theorem C25_matrix_broadcast (m : Mat T M N) (v : Vec T N) (x : T) (i : Nat) (hi : i < M) (j : Nat) (hj : j < N) :
    (broadcast m : Mat T M N)[i][j] = m[i][j] ∧ (broadcast v : Mat T M N)[i][j] = v[j] ∧ (broadcast x : Mat T M N)[i][j] = x := by
  refine ⟨rfl, ?_, ?_⟩
  · have : (Vec.fill v : Vec (Vec T N) M)[i][j] = v[j] := by simp
    exact this
  · exact Mat.getElem_fill x i hi j hj

/-- Concrete instance: `vmax` with a scalar, `vmin` with a row vector. -/
example : ((⟨#v[-1, 2]⟩ : Vec ℝ 2).vmax (0 : ℝ))[0] = 0 := by
  rw [(C25_vector_real (B := ℝ) _ _ 0 (by omega)).2.1, (C25_vector_broadcast (⟨#v[-1, 2]⟩ : Vec ℝ 2) (0 : ℝ) 0 (by omega)).2]
  have : (⟨#v[-1, 2]⟩ : Vec ℝ 2)[0] = -1 := rfl
  rw [this]; norm_num
example : ((⟨⟨#v[⟨#v[5, 2]⟩, ⟨#v[1, 7]⟩]⟩⟩ : Mat ℝ 2 2).vmin (⟨#v[3, 4]⟩ : Vec ℝ 2))[1][1] = 4 := by
  rw [(C25_matrix_real (B := Vec ℝ 2) _ _ 1 (by omega) 1 (by omega)).1,
    (C25_matrix_broadcast (⟨⟨#v[⟨#v[5, 2]⟩, ⟨#v[1, 7]⟩]⟩⟩ : Mat ℝ 2 2) (⟨#v[3, 4]⟩ : Vec ℝ 2) (0 : ℝ) 1 (by omega) 1 (by omega)).2.1]
  have : (⟨⟨#v[⟨#v[5, 2]⟩, ⟨#v[1, 7]⟩]⟩⟩ : Mat ℝ 2 2)[1][1] = 7 := rfl
  have h2 : (⟨#v[3, 4]⟩ : Vec ℝ 2)[1] = 4 := rfl
  rw [this, h2]; norm_num

end Vecmat""")
open('/verif/lean/Verif/Props/Math.lean','w').write('\n'.join(P)+'\n')
