import Verif.Model.Square
import Verif.Lemmas.Diagonal
/-!
# Square matrices and products: pure versions
Extracted with `Res.get` from the faithful models, with the proof that these calls return.
-/
namespace Vecmat
variable {T : Type} {M N : Nat}
namespace Mat

/-- `Vector::outer`, src/matrix/product.rs:7-15. -/
def outer [Mul T] (v : Vec T M) (w : Vec T N) : Mat T M N := (outerR v w).get ((outerR_ok v w).imp fun _ h => h.1)
/-- `Matrix::diagonal`, src/matrix/square.rs:9-19. -/
def diagonal [Zero T] (d : Vec T N) : Mat T N N := (diagonalR d).get ((diagonalR_ok d).imp fun _ h => h.1)
/-- `Matrix.dot(Vector)` for a square matrix, src/matrix/product.rs:17-25. -/
def dotV [Mul T] [Add T] (A : Mat T N N) (v : Vec T N) : Vec T N := (A.dotVR v).get (dotVR_ok A v)
/-- `Vector.dot(Matrix)` for a square matrix, src/matrix/product.rs:27-35. -/
def vDot [Mul T] [Add T] (v : Vec T N) (A : Mat T N N) : Vec T N := (vDotR v A).get (vDotR_ok v A)
/-- `Matrix.dot(Matrix)` for square matrices, src/matrix/product.rs:37-45. -/
def dotM [Mul T] [Add T] (A B : Mat T N N) : Mat T N N := (A.dotMR B).get (dotMR_ok A B)
/-- `Matrix::det`, src/matrix/square.rs:155-157. -/
def det [Neg T] [Add T] [Mul T] [Zero T] [One T] (A : Mat T N N) : T := A.detR.get (detR_ok A)
/-- `Matrix::adj`, src/matrix/square.rs:160-162. -/
def adj [Neg T] [Add T] [Mul T] [Zero T] [One T] (A : Mat T N N) : Mat T N N :=
  A.adjR.get ((adjR_ok A).imp fun _ h => h.1)
/-- `Matrix::inv`, src/matrix/square.rs:165-167. -/
def inv [Neg T] [Add T] [Mul T] [Div T] [Zero T] [One T] (A : Mat T N N) : Mat T N N := A.invR.get (invR_ok A)

end Mat
end Vecmat
