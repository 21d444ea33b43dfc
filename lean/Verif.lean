import Verif.Conformance.Algebra
import Verif.Conformance.Containers
import Verif.Lemmas.Bilinear
import Verif.Lemmas.Complex
import Verif.Lemmas.Det
import Verif.Lemmas.Diagonal
import Verif.Lemmas.Distr
import Verif.Lemmas.Exec
import Verif.Lemmas.F32Ex
import Verif.Lemmas.F32Moebius
import Verif.Lemmas.F32Moebius2
import Verif.Lemmas.F32Quat
import Verif.Lemmas.F32Vec
import Verif.Lemmas.F64Moebius
import Verif.Lemmas.F64Moebius2
import Verif.Lemmas.F64Vec
import Verif.Lemmas.Flat
import Verif.Lemmas.FloatEval
import Verif.Lemmas.Ieee
import Verif.Lemmas.IeeeErr
import Verif.Lemmas.IeeeEx
import Verif.Lemmas.IeeeExact
import Verif.Lemmas.IeeeNearest
import Verif.Lemmas.IeeeOrder
import Verif.Lemmas.IeeeQuat
import Verif.Lemmas.IeeeSqrt
import Verif.Lemmas.Iter
import Verif.Lemmas.Law
import Verif.Lemmas.Matrix
import Verif.Lemmas.MatrixIter
import Verif.Lemmas.MatrixOps
import Verif.Lemmas.Moebius
import Verif.Lemmas.NormErr
import Verif.Lemmas.NormErrInst
import Verif.Lemmas.Own
import Verif.Lemmas.OwnAgree
import Verif.Lemmas.OwnIter
import Verif.Lemmas.OwnMat
import Verif.Lemmas.OwnRefine
import Verif.Lemmas.OwnRun
import Verif.Lemmas.Partial
import Verif.Lemmas.Permanent
import Verif.Lemmas.Quaternion
import Verif.Lemmas.Rel
import Verif.Lemmas.Renorm
import Verif.Lemmas.Rotation
import Verif.Lemmas.Rounding
import Verif.Lemmas.ScalarEff
import Verif.Lemmas.Square
import Verif.Lemmas.Transforms
import Verif.Lemmas.Transpose
import Verif.Lemmas.Units
import Verif.Lemmas.VectorBase
import Verif.Lemmas.VectorIter
import Verif.Lemmas.VectorOps
import Verif.Lemmas.VectorPure
import Verif.Model.Approx
import Verif.Model.Base
import Verif.Model.Borrow
import Verif.Model.Complex
import Verif.Model.Derive
import Verif.Model.Distr
import Verif.Model.Float
import Verif.Model.Format
import Verif.Model.FormatSink
import Verif.Model.Ieee
import Verif.Model.IntNorm
import Verif.Model.Iter
import Verif.Model.MachineInt
import Verif.Model.Math
import Verif.Model.Matrix
import Verif.Model.MatrixOps
import Verif.Model.Memory
import Verif.Model.Moebius
import Verif.Model.Own
import Verif.Model.OwnIter
import Verif.Model.Quaternion
import Verif.Model.Real
import Verif.Model.Scalar
import Verif.Model.ScalarEff
import Verif.Model.Square
import Verif.Model.SquarePure
import Verif.Model.Transform
import Verif.Model.TransformEff
import Verif.Model.Transforms
import Verif.Model.Tuple
import Verif.Model.Usize
import Verif.Model.Vector
import Verif.Model.VectorOps
import Verif.Model.VectorPure
import Verif.Props.Approx
import Verif.Props.Borrow
import Verif.Props.Complex
import Verif.Props.Compose
import Verif.Props.Conformal
import Verif.Props.Continuity
import Verif.Props.Convert
import Verif.Props.CrateTests
import Verif.Props.Curve
import Verif.Props.Derivative
import Verif.Props.Derive
import Verif.Props.Distr
import Verif.Props.F32
import Verif.Props.F32Affine
import Verif.Props.F32Angle
import Verif.Props.F32Det
import Verif.Props.F32Direction
import Verif.Props.F32Linear
import Verif.Props.F32LookAt
import Verif.Props.F32Moebius
import Verif.Props.F32Moebius2
import Verif.Props.F32MoebiusDeriv
import Verif.Props.F32MoebiusDir
import Verif.Props.F32Motion
import Verif.Props.F32Renorm
import Verif.Props.F32Rotation
import Verif.Props.F32Solve
import Verif.Props.F64
import Verif.Props.F64Affine
import Verif.Props.F64Angle
import Verif.Props.F64Det
import Verif.Props.F64Direction
import Verif.Props.F64Linear
import Verif.Props.F64LookAt
import Verif.Props.F64Moebius
import Verif.Props.F64Moebius2
import Verif.Props.F64MoebiusDeriv
import Verif.Props.F64MoebiusDir
import Verif.Props.F64Motion
import Verif.Props.F64Renorm
import Verif.Props.F64Rotation
import Verif.Props.F64Solve
import Verif.Props.Format
import Verif.Props.FormatSink
import Verif.Props.Hom
import Verif.Props.IeeeCompose
import Verif.Props.IeeeDiv
import Verif.Props.IeeeDiv2
import Verif.Props.IeeeError
import Verif.Props.IeeeExact
import Verif.Props.IeeeInt
import Verif.Props.IeeeNan
import Verif.Props.IeeeOrder
import Verif.Props.IeeeRange
import Verif.Props.IeeeRounding
import Verif.Props.IeeeSym
import Verif.Props.IeeeTrap
import Verif.Props.IntNorm
import Verif.Props.Law
import Verif.Props.LawTransforms
import Verif.Props.LookAtExact
import Verif.Props.MachineInt
import Verif.Props.Math
import Verif.Props.MathLaws
import Verif.Props.MatrixBase
import Verif.Props.MatrixOps
import Verif.Props.Memory
import Verif.Props.Moebius
import Verif.Props.MoebiusGeometry
import Verif.Props.Own
import Verif.Props.OwnIter
import Verif.Props.OwnPanic
import Verif.Props.Panics
import Verif.Props.Partial
import Verif.Props.Partial2
import Verif.Props.Partial3
import Verif.Props.Partial4
import Verif.Props.Partial5
import Verif.Props.PartialEx
import Verif.Props.Quaternion
import Verif.Props.Quotient
import Verif.Props.Represent
import Verif.Props.Rotation
import Verif.Props.Rounding
import Verif.Props.Sampler
import Verif.Props.Sampler32
import Verif.Props.SamplerMoebius
import Verif.Props.SamplerMoebius32
import Verif.Props.SamplerTypes
import Verif.Props.SamplerTypes32
import Verif.Props.ScalarEff
import Verif.Props.ScalarEff2
import Verif.Props.ScalarEff3
import Verif.Props.ScalarEff4
import Verif.Props.ScalarEff5
import Verif.Props.Square
import Verif.Props.Transforms
import Verif.Props.Units
import Verif.Props.Usize
import Verif.Props.VectorBase
import Verif.Props.VectorOps
import Verif.Spec.Borrow
import Verif.Spec.Compose
import Verif.Spec.Curve
import Verif.Spec.Float
import Verif.Spec.Hom
import Verif.Spec.Ieee
import Verif.Spec.IeeeRun
import Verif.Spec.IeeeVal
import Verif.Spec.Law
import Verif.Spec.Matrix
import Verif.Spec.MoebiusVal
import Verif.Spec.Own
import Verif.Spec.ScalarEff
import Verif.Spec.Seq
import Verif.Spec.Transform
import Verif.Spec.Units
