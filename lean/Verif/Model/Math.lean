import Verif.Model.MatrixOps
/-!
# Element-wise float functions and broadcasting
Models `src/vector/math.rs` and `src/matrix/math.rs` (generated by tools/genmath.py from the Rust text).
-/
namespace Vecmat
variable {T : Type} {M N : Nat}

/-- `trait Broadcast<V>`, src/traits.rs:63-67. -/
class Broadcast (B V : Type) where
  broadcast : B → V
export Broadcast (broadcast)
/-- `Vector` as itself, src/vector/math.rs:4-6. -/
instance : Broadcast (Vec T N) (Vec T N) := ⟨fun v => v⟩
/-- scalar to `Vector`, src/vector/math.rs:7-9. -/
instance : Broadcast T (Vec T N) := ⟨fun x => Vec.fill x⟩
/-- `Matrix` as itself, src/matrix/math.rs:4-6. -/
instance : Broadcast (Mat T M N) (Mat T M N) := ⟨fun A => A⟩
/-- `Vector` to `Matrix`: the vector becomes every row, src/matrix/math.rs:7-9. -/
instance : Broadcast (Vec T N) (Mat T M N) := ⟨fun v => Mat.fromVecVec (Vec.fill v)⟩
/-- scalar to `Matrix`, src/matrix/math.rs:10-12. -/
instance : Broadcast T (Mat T M N) := ⟨fun x => Mat.fill x⟩

namespace Vec
/-- `abs`, src/vector/math.rs:12. -/
def abs [FloatOps T] (s : Vec T N) : Vec T N := s.map FloatOps.abs
/-- `abs_sub`, src/vector/math.rs:13. -/
def absSub [FloatOps T] [Broadcast B (Vec T N)] (s : Vec T N) (o : B) : Vec T N := (s.zip (broadcast o : Vec T N)).map fun p => FloatOps.absSub p.1 p.2
/-- `signum`, src/vector/math.rs:14. -/
def signum [FloatOps T] (s : Vec T N) : Vec T N := s.map FloatOps.signum
/-- `cbrt`, src/vector/math.rs:15. -/
def cbrt [FloatOps T] (s : Vec T N) : Vec T N := s.map FloatOps.cbrt
/-- `sqrt`, src/vector/math.rs:16. -/
def sqrt [FloatOps T] (s : Vec T N) : Vec T N := s.map FloatOps.sqrt
/-- `vmin`, src/vector/math.rs:17. -/
def vmin [FloatOps T] [Broadcast B (Vec T N)] (s : Vec T N) (o : B) : Vec T N := (s.zip (broadcast o : Vec T N)).map fun p => FloatOps.fmin p.1 p.2
/-- `vmax`, src/vector/math.rs:18. -/
def vmax [FloatOps T] [Broadcast B (Vec T N)] (s : Vec T N) (o : B) : Vec T N := (s.zip (broadcast o : Vec T N)).map fun p => FloatOps.fmax p.1 p.2
/-- `clamp`, src/vector/math.rs:19. -/
def clamp [FloatOps T] [Broadcast A (Vec T N)] [Broadcast B (Vec T N)] (s : Vec T N) (a : A) (b : B) : Vec T N :=
  (s.zip ((broadcast a : Vec T N).zip (broadcast b : Vec T N))).map fun p => FloatOps.fmin (FloatOps.fmax p.1 p.2.1) p.2.2
/-- `acos`, src/vector/math.rs:20. -/
def acos [FloatOps T] (s : Vec T N) : Vec T N := s.map FloatOps.acos
/-- `asin`, src/vector/math.rs:21. -/
def asin [FloatOps T] (s : Vec T N) : Vec T N := s.map FloatOps.asin
/-- `atan`, src/vector/math.rs:22. -/
def atan [FloatOps T] (s : Vec T N) : Vec T N := s.map FloatOps.atan
/-- `atan2`, src/vector/math.rs:23. -/
def atan2 [FloatOps T] [Broadcast B (Vec T N)] (s : Vec T N) (o : B) : Vec T N := (s.zip (broadcast o : Vec T N)).map fun p => FloatOps.atan2 p.1 p.2
/-- `cosh`, src/vector/math.rs:24. -/
def cosh [FloatOps T] (s : Vec T N) : Vec T N := s.map FloatOps.cosh
/-- `hypot`, src/vector/math.rs:25. -/
def hypot [FloatOps T] [Broadcast B (Vec T N)] (s : Vec T N) (o : B) : Vec T N := (s.zip (broadcast o : Vec T N)).map fun p => FloatOps.hypot p.1 p.2
/-- `sinh`, src/vector/math.rs:26. -/
def sinh [FloatOps T] (s : Vec T N) : Vec T N := s.map FloatOps.sinh
/-- `tan`, src/vector/math.rs:27. -/
def tan [FloatOps T] (s : Vec T N) : Vec T N := s.map FloatOps.tan
/-- `tanh`, src/vector/math.rs:28. -/
def tanh [FloatOps T] (s : Vec T N) : Vec T N := s.map FloatOps.tanh
/-- `log2`, src/vector/math.rs:29. -/
def log2 [FloatOps T] (s : Vec T N) : Vec T N := s.map FloatOps.log2
/-- `mul_add`, src/vector/math.rs:30. -/
def mulAdd [FloatOps T] [Broadcast A (Vec T N)] [Broadcast B (Vec T N)] (s : Vec T N) (a : A) (b : B) : Vec T N :=
  (s.zip ((broadcast a : Vec T N).zip (broadcast b : Vec T N))).map fun p => FloatOps.mulAdd p.1 p.2.1 p.2.2
/-- `exp`, src/vector/math.rs:31. -/
def exp [FloatOps T] (s : Vec T N) : Vec T N := s.map FloatOps.exp
/-- `powi`, src/vector/math.rs:32. -/
def powi [FloatOps T] [Broadcast B (Vec Int N)] (s : Vec T N) (o : B) : Vec T N := (s.zip (broadcast o : Vec Int N)).map fun p => FloatOps.powi p.1 p.2
/-- `ln`, src/vector/math.rs:33. -/
def ln [FloatOps T] (s : Vec T N) : Vec T N := s.map FloatOps.ln
/-- `powf`, src/vector/math.rs:34. -/
def powf [FloatOps T] [Broadcast B (Vec T N)] (s : Vec T N) (o : B) : Vec T N := (s.zip (broadcast o : Vec T N)).map fun p => FloatOps.powf p.1 p.2
/-- `log`, src/vector/math.rs:35. -/
def log [FloatOps T] [Broadcast B (Vec T N)] (s : Vec T N) (o : B) : Vec T N := (s.zip (broadcast o : Vec T N)).map fun p => FloatOps.log p.1 p.2
/-- `sin`, src/vector/math.rs:36. -/
def sin [FloatOps T] (s : Vec T N) : Vec T N := s.map FloatOps.sin
/-- `cos`, src/vector/math.rs:37. -/
def cos [FloatOps T] (s : Vec T N) : Vec T N := s.map FloatOps.cos
/-- `asinh`, src/vector/math.rs:38. -/
def asinh [FloatOps T] (s : Vec T N) : Vec T N := s.map FloatOps.asinh
/-- `acosh`, src/vector/math.rs:39. -/
def acosh [FloatOps T] (s : Vec T N) : Vec T N := s.map FloatOps.acosh
/-- `atanh`, src/vector/math.rs:40. -/
def atanh [FloatOps T] (s : Vec T N) : Vec T N := s.map FloatOps.atanh
/-- `floor`, src/vector/math.rs:41. -/
def floor [FloatOps T] (s : Vec T N) : Vec T N := s.map FloatOps.floor
/-- `ceil`, src/vector/math.rs:42. -/
def ceil [FloatOps T] (s : Vec T N) : Vec T N := s.map FloatOps.ceil
/-- `round`, src/vector/math.rs:43. -/
def round [FloatOps T] (s : Vec T N) : Vec T N := s.map FloatOps.round
/-- `trunc`, src/vector/math.rs:44. -/
def trunc [FloatOps T] (s : Vec T N) : Vec T N := s.map FloatOps.trunc
/-- `fract`, src/vector/math.rs:45. -/
def fract [FloatOps T] (s : Vec T N) : Vec T N := s.map FloatOps.fract
/-- `recip`, src/vector/math.rs:46. -/
def recip [FloatOps T] (s : Vec T N) : Vec T N := s.map FloatOps.recip
/-- `exp2`, src/vector/math.rs:47. -/
def exp2 [FloatOps T] (s : Vec T N) : Vec T N := s.map FloatOps.exp2
/-- `log10`, src/vector/math.rs:48. -/
def log10 [FloatOps T] (s : Vec T N) : Vec T N := s.map FloatOps.log10
/-- `sin_cos`, src/vector/math.rs:49. -/
def sinCos [FloatOps T] (s : Vec T N) : Vec T N × Vec T N := (s.map FloatOps.sinCos).unzip
/-- `exp_m1`, src/vector/math.rs:50. -/
def expM1 [FloatOps T] (s : Vec T N) : Vec T N := s.map FloatOps.expM1
/-- `ln_1p`, src/vector/math.rs:51. -/
def ln1p [FloatOps T] (s : Vec T N) : Vec T N := s.map FloatOps.ln1p
end Vec

namespace Mat
/-- `abs`, src/matrix/math.rs:15. -/
def abs [FloatOps T] (s : Mat T M N) : Mat T M N := s.map FloatOps.abs
/-- `abs_sub`, src/matrix/math.rs:16. -/
def absSub [FloatOps T] [Broadcast B (Mat T M N)] (s : Mat T M N) (o : B) : Mat T M N := (s.zip (broadcast o : Mat T M N)).map fun p => FloatOps.absSub p.1 p.2
/-- `signum`, src/matrix/math.rs:17. -/
def signum [FloatOps T] (s : Mat T M N) : Mat T M N := s.map FloatOps.signum
/-- `cbrt`, src/matrix/math.rs:18. -/
def cbrt [FloatOps T] (s : Mat T M N) : Mat T M N := s.map FloatOps.cbrt
/-- `sqrt`, src/matrix/math.rs:19. -/
def sqrt [FloatOps T] (s : Mat T M N) : Mat T M N := s.map FloatOps.sqrt
/-- `vmin`, src/matrix/math.rs:20. -/
def vmin [FloatOps T] [Broadcast B (Mat T M N)] (s : Mat T M N) (o : B) : Mat T M N := (s.zip (broadcast o : Mat T M N)).map fun p => FloatOps.fmin p.1 p.2
/-- `vmax`, src/matrix/math.rs:21. -/
def vmax [FloatOps T] [Broadcast B (Mat T M N)] (s : Mat T M N) (o : B) : Mat T M N := (s.zip (broadcast o : Mat T M N)).map fun p => FloatOps.fmax p.1 p.2
/-- `clamp`, src/matrix/math.rs:22. -/
def clamp [FloatOps T] [Broadcast A (Mat T M N)] [Broadcast B (Mat T M N)] (s : Mat T M N) (a : A) (b : B) : Mat T M N :=
  (s.zip ((broadcast a : Mat T M N).zip (broadcast b : Mat T M N))).map fun p => FloatOps.fmin (FloatOps.fmax p.1 p.2.1) p.2.2
/-- `acos`, src/matrix/math.rs:23. -/
def acos [FloatOps T] (s : Mat T M N) : Mat T M N := s.map FloatOps.acos
/-- `asin`, src/matrix/math.rs:24. -/
def asin [FloatOps T] (s : Mat T M N) : Mat T M N := s.map FloatOps.asin
/-- `atan`, src/matrix/math.rs:25. -/
def atan [FloatOps T] (s : Mat T M N) : Mat T M N := s.map FloatOps.atan
/-- `atan2`, src/matrix/math.rs:26. -/
def atan2 [FloatOps T] [Broadcast B (Mat T M N)] (s : Mat T M N) (o : B) : Mat T M N := (s.zip (broadcast o : Mat T M N)).map fun p => FloatOps.atan2 p.1 p.2
/-- `cosh`, src/matrix/math.rs:27. -/
def cosh [FloatOps T] (s : Mat T M N) : Mat T M N := s.map FloatOps.cosh
/-- `hypot`, src/matrix/math.rs:28. -/
def hypot [FloatOps T] [Broadcast B (Mat T M N)] (s : Mat T M N) (o : B) : Mat T M N := (s.zip (broadcast o : Mat T M N)).map fun p => FloatOps.hypot p.1 p.2
/-- `sinh`, src/matrix/math.rs:29. -/
def sinh [FloatOps T] (s : Mat T M N) : Mat T M N := s.map FloatOps.sinh
/-- `tan`, src/matrix/math.rs:30. -/
def tan [FloatOps T] (s : Mat T M N) : Mat T M N := s.map FloatOps.tan
/-- `tanh`, src/matrix/math.rs:31. -/
def tanh [FloatOps T] (s : Mat T M N) : Mat T M N := s.map FloatOps.tanh
/-- `log2`, src/matrix/math.rs:32. -/
def log2 [FloatOps T] (s : Mat T M N) : Mat T M N := s.map FloatOps.log2
/-- `mul_add`, src/matrix/math.rs:33. -/
def mulAdd [FloatOps T] [Broadcast A (Mat T M N)] [Broadcast B (Mat T M N)] (s : Mat T M N) (a : A) (b : B) : Mat T M N :=
  (s.zip ((broadcast a : Mat T M N).zip (broadcast b : Mat T M N))).map fun p => FloatOps.mulAdd p.1 p.2.1 p.2.2
/-- `exp`, src/matrix/math.rs:34. -/
def exp [FloatOps T] (s : Mat T M N) : Mat T M N := s.map FloatOps.exp
/-- `powi`, src/matrix/math.rs:35. -/
def powi [FloatOps T] [Broadcast B (Mat Int M N)] (s : Mat T M N) (o : B) : Mat T M N := (s.zip (broadcast o : Mat Int M N)).map fun p => FloatOps.powi p.1 p.2
/-- `ln`, src/matrix/math.rs:36. -/
def ln [FloatOps T] (s : Mat T M N) : Mat T M N := s.map FloatOps.ln
/-- `powf`, src/matrix/math.rs:37. -/
def powf [FloatOps T] [Broadcast B (Mat T M N)] (s : Mat T M N) (o : B) : Mat T M N := (s.zip (broadcast o : Mat T M N)).map fun p => FloatOps.powf p.1 p.2
/-- `log`, src/matrix/math.rs:38. -/
def log [FloatOps T] [Broadcast B (Mat T M N)] (s : Mat T M N) (o : B) : Mat T M N := (s.zip (broadcast o : Mat T M N)).map fun p => FloatOps.log p.1 p.2
/-- `sin`, src/matrix/math.rs:39. -/
def sin [FloatOps T] (s : Mat T M N) : Mat T M N := s.map FloatOps.sin
/-- `cos`, src/matrix/math.rs:40. -/
def cos [FloatOps T] (s : Mat T M N) : Mat T M N := s.map FloatOps.cos
/-- `asinh`, src/matrix/math.rs:41. -/
def asinh [FloatOps T] (s : Mat T M N) : Mat T M N := s.map FloatOps.asinh
/-- `acosh`, src/matrix/math.rs:42. -/
def acosh [FloatOps T] (s : Mat T M N) : Mat T M N := s.map FloatOps.acosh
/-- `atanh`, src/matrix/math.rs:43. -/
def atanh [FloatOps T] (s : Mat T M N) : Mat T M N := s.map FloatOps.atanh
/-- `floor`, src/matrix/math.rs:44. -/
def floor [FloatOps T] (s : Mat T M N) : Mat T M N := s.map FloatOps.floor
/-- `ceil`, src/matrix/math.rs:45. -/
def ceil [FloatOps T] (s : Mat T M N) : Mat T M N := s.map FloatOps.ceil
/-- `round`, src/matrix/math.rs:46. -/
def round [FloatOps T] (s : Mat T M N) : Mat T M N := s.map FloatOps.round
/-- `trunc`, src/matrix/math.rs:47. -/
def trunc [FloatOps T] (s : Mat T M N) : Mat T M N := s.map FloatOps.trunc
/-- `fract`, src/matrix/math.rs:48. -/
def fract [FloatOps T] (s : Mat T M N) : Mat T M N := s.map FloatOps.fract
/-- `recip`, src/matrix/math.rs:49. -/
def recip [FloatOps T] (s : Mat T M N) : Mat T M N := s.map FloatOps.recip
/-- `exp2`, src/matrix/math.rs:50. -/
def exp2 [FloatOps T] (s : Mat T M N) : Mat T M N := s.map FloatOps.exp2
/-- `log10`, src/matrix/math.rs:51. -/
def log10 [FloatOps T] (s : Mat T M N) : Mat T M N := s.map FloatOps.log10
/-- `sin_cos`, src/matrix/math.rs:52. -/
def sinCos [FloatOps T] (s : Mat T M N) : Mat T M N × Mat T M N := (s.map FloatOps.sinCos).unzip
/-- `exp_m1`, src/matrix/math.rs:53. -/
def expM1 [FloatOps T] (s : Mat T M N) : Mat T M N := s.map FloatOps.expM1
/-- `ln_1p`, src/matrix/math.rs:54. -/
def ln1p [FloatOps T] (s : Mat T M N) : Mat T M N := s.map FloatOps.ln1p
end Mat

end Vecmat
