import Verif.Basic
import Verif.Scalar
import Verif.Model.Utils
import Verif.Model.Common
import Verif.Model.Vector
import Verif.Model.Matrix
import Verif.Model.Decomp
import Verif.Model.Quaternion
import Verif.Model.AhrsCommon
import Verif.Model.Gyrometer
import Verif.Model.Accelerometer
import Verif.Model.Magnetometer
import Verif.Model.Ar
import Verif.Model.Aqua
import Verif.Model.Davenport
import Verif.Model.Dsp
import Verif.Model.Pid
import Verif.Lib.Loops
import Verif.Lib.Safe
import Verif.Lib.SafeLinalg
import Verif.Lib.SafeDecomp
import Verif.Spec.History
import Verif.Spec.Views
import Verif.Lib.Store
import Verif.Lib.VecOps
import Verif.Lib.MatOps
import Verif.Lib.MatStruct

import Verif.Ext
import Verif.F32
import Verif.Props.Reachable
import Verif.Props.Elements
import Verif.Props.ElementWise
import Verif.Lib.Exact
import Verif.Lib.Lup
import Verif.Lib.LupRounded
import Verif.Props.MatrixOps
import Verif.Props.Predicates
import Verif.Props.Lup
import Verif.Props.DetNaive
import Verif.Props.Norms
import Verif.Props.Factor
import Verif.Lib.Qr
import Verif.Props.Qr
import Verif.Props.Chol
import Verif.Props.Eigen
import Verif.Props.QrAscent
import Verif.Props.EigenConv
import Verif.Props.Orthogonal
import Verif.Lib.Quat
import Verif.Lib.Sensor
import Verif.Props.QuatAlgebra
import Verif.Props.Rotation
import Verif.Props.Extract
import Verif.Props.QuatFuncs
import Verif.Props.Euler
import Verif.Spec.Sensors
import Verif.Props.Gyrometer
import Verif.Props.Accelerometer
import Verif.Props.Magnetometer
import Verif.Props.SensorNames
import Verif.Spec.Filters
import Verif.Props.Ar
import Verif.Props.ArExact
import Verif.Lib.Frame
import Verif.Props.Aqua
import Verif.Props.AquaExact
import Verif.Props.AquaMarg
import Verif.Props.AquaStep
import Verif.Props.AquaCases
import Verif.Props.Davenport
import Verif.Props.Utils
import Verif.Props.Dsp
import Verif.Props.Random
import Verif.Props.QuatAccess
import Verif.Props.MatrixLog
import Verif.Rounded
import Verif.Grid
import Verif.Props.Rounding
import Verif.Props.RoundedQuat
import Verif.Props.RoundedAr
import Verif.Props.RoundedLup
import Verif.Props.RoundedSensors
import Verif.Props.RoundedClosed
import Verif.Props.RoundedTrack
import Verif.Props.EigenShift
import Verif.Props.Uninit
import Verif.Props.Shapes
import Verif.Props.RoundedDcm
import Verif.Props.RoundedAm
import Verif.Props.RoundedAmStep
import Verif.Props.RoundedAqua
import Verif.Literals
import Verif.Propagate
import Verif.Props.TempDsp
import Verif.Props.TempDft
import Verif.Props.TempDftRounded
import Verif.Model.AhrsTest
import Verif.Props.AhrsTest
import Verif.Props.AhrsTestRun
import Verif.RepoTests
import Verif.Model.Measurements
import Verif.Props.Measurements
import Verif.Props.RoundedDet
import Verif.Props.RoundedChol
import Verif.Props.RoundedQr
import Verif.Props.DftMerge
import Verif.Props.RoundedExtract
import Verif.Props.RoundedSarabandi
import Verif.Props.RoundedHughes
import Verif.Props.RoundedExtractCases
import Verif.Props.RoundedEuler
import Verif.Props.RoundedEulerCases
import Verif.Props.CroutSmall
import Verif.Props.RoundedInterp
import Verif.Props.RoundedArEuler
import Verif.Props.ArShake
import Verif.Props.RoundedArTaylor
import Verif.Props.SensorDiff
import Verif.Model.Print
import Verif.Props.LupWhen
import Verif.Props.LupRot
import Verif.Props.LupRefused
import Verif.Props.Print
import Verif.Props.AquaSettle
import Verif.Props.RoundedMarg
import Verif.Props.RoundedMargInterp
import Verif.Props.RoundedMargParts
import Verif.Props.RoundedMargStep
import Verif.Props.RoundedMargRest
import Verif.Props.ArMotion
import Verif.Props.AquaTurn
import Verif.Props.EigenNorm
import Verif.Props.RoundedEigen
import Verif.Props.RoundedQuatInv
import Verif.Props.AquaNoise
import Verif.Props.RoundedMargMove
import Verif.Props.RoundedComplex
import Verif.Props.RoundedSo3
import Verif.Props.RoundedLog
import Verif.Props.LrDefect
import Verif.Props.CroutDefect
import Verif.Props.ArAngles
import Verif.Props.AquaAngles
import Verif.Props.ElementPlain
import Verif.Props.SlerpArc
import Verif.Props.AmAngles
import Verif.Monotone
import Verif.Props.AdaptiveGain
import Verif.Props.Tolerance32
import Verif.Props.PosDef32
import Verif.Props.UninitRest
import Verif.Props.RoundedLr
import Verif.Props.RoundedRandom
import Verif.Props.RoundedSim
import Verif.Props.RoundedTest
import Verif.Props.RoundedTestRun
import Verif.Props.RoundedTestAr
import Verif.Props.RoundedTestAqua
import Verif.Props.RoundedTestStep
import Verif.Props.RoundedTestAll
import Verif.Props.RoundedYaw
import Verif.Props.RoundedAxes
import Verif.Props.RoundedDiag
import Verif.Props.RoundedUpper
import Verif.Props.RoundedShake
import Verif.Props.RoundedTrace
import Verif.Props.RoundedExact
import Verif.Props.RoundedBias
import Verif.Props.RoundedRest
