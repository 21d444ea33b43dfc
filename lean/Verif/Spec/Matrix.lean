import Verif.Model.Matrix
/-! # Specification vocabulary: matrices -/
namespace Vecmat.Spec
variable {T : Type} {M N : Nat}

/-- The elements of a matrix in row-major order: `(0,0), (0,1), …, (0,N-1), (1,0), …`. -/
def rowMajor (A : Mat T M N) : List T :=
  (List.finRange M).flatMap fun i => (List.finRange N).map fun j => A[i.1][j.1]

end Vecmat.Spec
