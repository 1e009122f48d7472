import Verif.Float.Exact
import Verif.Float.Binary
import Verif.Float.BinaryLawful
import Verif.Model.Gjk
import Verif.Model.Quat
import Verif.Props.MatrixAccess
import Verif.Props.MatrixAlg
import Verif.Props.Inverse
import Verif.Props.Vector
import Verif.Props.QuatAlg
import Verif.Props.QuatMat
import Verif.Props.AxisAngle
import Verif.Props.QuatFun
import Verif.Props.QuatFloat
import Verif.Props.Bounds
import Verif.Props.BoundInit
import Verif.Props.Dispatch
import Verif.Props.ShapeBounds
import Verif.Props.PointQueries
import Verif.Props.SphereQueries
import Verif.Props.RayQueries
import Verif.Props.RayQueries2
import Verif.Props.PrismQueries
import Verif.Props.Support
import Verif.Props.Gjk
import Verif.Props.GjkTouch
import Verif.Props.FloatAcc
import Verif.Props.FloatAcc2
import Verif.Spec.ShapesFloat
import Verif.Props.FloatBounds
import Verif.Props.FloatSphere
import Verif.Proofs.Lim
import Verif.Props.FloatPlane
import Verif.Props.FloatPoint
import Verif.Props.FloatRayPlane
import Verif.Props.FloatRaySphere
import Verif.Props.FloatRotate
import Verif.Props.FloatVec
import Verif.Props.Degenerate
import Verif.Props.FloatInverse
import Verif.Props.Tolerance
import Verif.Props.Monotone
import Verif.Props.Bitwise
import Verif.Props.Translate
import Verif.Props.Mirror
import Verif.Props.FloatSupport
import Verif.Props.FloatPrismPoint
import Verif.Props.FloatPrismLine
import Verif.Props.FloatRayPoint
import Verif.Props.FloatRayRay
import Verif.Proofs.Grid
import Verif.Props.FloatGjk
import Verif.Props.FloatGjkOrbit
import Verif.Props.FloatGjkLoop
import Verif.Props.GjkTurns
import Verif.Props.Similar
import Verif.Props.FloatQuat
import Verif.Props.FloatAxis
import Verif.Props.FloatSlerp
import Verif.Props.FloatPow
import Verif.Props.FloatChain
import Verif.Props.FloatGjkDeep
import Verif.Props.PowerScale
import Verif.Props.PowerScaleQuery
import Verif.Props.GjkScale
import Verif.Props.QuarterTurn
import Verif.Props.GjkMirror
import Verif.Props.GjkAxis
import Verif.Props.FloatMatChain
import Verif.Props.SlerpLaws
import Verif.Props.Undo
import Verif.Props.Motion
import Verif.Props.BoundNest
import Verif.Props.InverseLaws
import Verif.Props.Recheck
import Verif.Props.Reflections
import Verif.Props.TwoQueries
import Verif.Props.InverseRotation
import Verif.Props.Search
import Verif.Props.Trace
import Verif.Props.FloatTrace
import Verif.Props.Watertight
import Verif.Props.LookFrame
import Verif.Props.Sweep
import Verif.Props.Refine
import Verif.Props.Bisect
import Verif.Props.SweepBound
import Verif.Props.Sight
import Verif.Props.SweepScene
import Verif.Props.Negative
import Verif.Props.NegativeSupport
import Verif.Conformance.Shapes
import Verif.Conformance.Mats
import Verif.Conformance.Quats
import Verif.Props.MatrixSize
