import Verif.Model.Callbacks
import Verif.Model.ControlPar
import Verif.Model.CovReports
import Verif.Model.Dbl
import Verif.Model.Diag
import Verif.Model.Ekf
import Verif.Model.Estimator
import Verif.Model.FilterBase
import Verif.Model.Geometry
import Verif.Model.Listener
import Verif.Model.Llt
import Verif.Model.Lookup
import Verif.Model.Navsat
import Verif.Model.NavsatPar
import Verif.Model.NavsatThrows
import Verif.Model.Node
import Verif.Model.NodePar
import Verif.Model.Output
import Verif.Model.Overflow
import Verif.Model.Params
import Verif.Model.Planar
import Verif.Model.Prepare
import Verif.Model.Query
import Verif.Model.Queue
import Verif.Model.Reports
import Verif.Model.Rounding
import Verif.Model.Settings
import Verif.Model.Streams
import Verif.Model.Sync
import Verif.Model.System
import Verif.Model.Throws
import Verif.Model.Together
import Verif.Model.Ukf
import Verif.Model.Utm
import Verif.Proofs.Angle
import Verif.Proofs.Callbacks
import Verif.Proofs.Commute
import Verif.Proofs.EkfCov
import Verif.Proofs.Geometry
import Verif.Proofs.Kalman
import Verif.Proofs.Listener
import Verif.Proofs.Lists
import Verif.Proofs.Llt
import Verif.Proofs.Marks
import Verif.Proofs.MirrorMsg
import Verif.Proofs.MirrorUkf
import Verif.Proofs.Motion
import Verif.Proofs.Navsat
import Verif.Proofs.NavsatMap
import Verif.Proofs.NavsatTruth
import Verif.Proofs.NodeClock
import Verif.Proofs.NodeDrain
import Verif.Proofs.NodeInv
import Verif.Proofs.NodeSim
import Verif.Proofs.NodeTimes
import Verif.Proofs.Pair
import Verif.Proofs.Parts
import Verif.Proofs.Planar
import Verif.Proofs.Prepare
import Verif.Proofs.Ranged
import Verif.Proofs.Rescale
import Verif.Proofs.RescaleUkf
import Verif.Proofs.Smoothing
import Verif.Proofs.SmoothingRun
import Verif.Proofs.Sync
import Verif.Proofs.SysSim
import Verif.Proofs.System
import Verif.Proofs.SystemFirst
import Verif.Proofs.SystemInv
import Verif.Proofs.Truth
import Verif.Proofs.Turn
import Verif.Proofs.Ukf
import Verif.Proofs.Upright
import Verif.Proofs.UprightProper
import Verif.Proofs.Utm
import Verif.Proofs.UtmConformal
import Verif.Props.Accel
import Verif.Props.Alive
import Verif.Props.Ancestor
import Verif.Props.Answers
import Verif.Props.Arrival
import Verif.Props.ArrivalPlane
import Verif.Props.Average
import Verif.Props.AverageUkf
import Verif.Props.BetterMessages
import Verif.Props.Bundle
import Verif.Props.Callbacks
import Verif.Props.Carry
import Verif.Props.Clock
import Verif.Props.Commute
import Verif.Props.Continuous
import Verif.Props.ControlPar
import Verif.Props.CovReports
import Verif.Props.Covers
import Verif.Props.Definite
import Verif.Props.Diag
import Verif.Props.DiffFrame
import Verif.Props.Disagree
import Verif.Props.EkfControl
import Verif.Props.EkfCorrect
import Verif.Props.EkfCov
import Verif.Props.EkfMotion
import Verif.Props.EkfPlanar
import Verif.Props.Ends
import Verif.Props.Epoch
import Verif.Props.Estimator
import Verif.Props.FirstDemo
import Verif.Props.FirstOdom
import Verif.Props.FirstOdomUkf
import Verif.Props.FirstWord
import Verif.Props.Forget
import Verif.Props.Forgets
import Verif.Props.ForgetsLever
import Verif.Props.ForgetsMessages
import Verif.Props.FrameNames
import Verif.Props.FrameNamesListen
import Verif.Props.FrameNamesNav
import Verif.Props.Fusion
import Verif.Props.Gate
import Verif.Props.Heading
import Verif.Props.HeadingMsg
import Verif.Props.Heard
import Verif.Props.History
import Verif.Props.Imu
import Verif.Props.Inflated
import Verif.Props.Informed
import Verif.Props.Jump
import Verif.Props.Knowing
import Verif.Props.KnowingBetter
import Verif.Props.KnowingMessages
import Verif.Props.LevelUkf
import Verif.Props.Listener
import Verif.Props.Memory
import Verif.Props.Mirror
import Verif.Props.MirrorMsg
import Verif.Props.MirrorNode
import Verif.Props.MirrorUkf
import Verif.Props.Mounted
import Verif.Props.NavsatEnds
import Verif.Props.NavsatHeading
import Verif.Props.NavsatMap
import Verif.Props.NavsatOut
import Verif.Props.NavsatPar
import Verif.Props.NavsatRun
import Verif.Props.NavsatStart
import Verif.Props.NavsatTf
import Verif.Props.NodeControl
import Verif.Props.NodePar
import Verif.Props.NodeStarts
import Verif.Props.Origin
import Verif.Props.OriginGate
import Verif.Props.OriginNode
import Verif.Props.OriginNodeU
import Verif.Props.OriginUkf
import Verif.Props.Output
import Verif.Props.Overflow
import Verif.Props.Params
import Verif.Props.Parts
import Verif.Props.Pose
import Verif.Props.PoseFrames
import Verif.Props.PrepareCov
import Verif.Props.PrepareTurn
import Verif.Props.Publication
import Verif.Props.Query
import Verif.Props.Regroup
import Verif.Props.Remount
import Verif.Props.Repeat
import Verif.Props.Replay
import Verif.Props.Reports
import Verif.Props.Rescale
import Verif.Props.RescaleUkf
import Verif.Props.ResetNoise
import Verif.Props.RestUkf
import Verif.Props.Rounding
import Verif.Props.Rpy
import Verif.Props.Separate
import Verif.Props.SeparateMessages
import Verif.Props.Services
import Verif.Props.SetBack
import Verif.Props.Settings
import Verif.Props.Slope
import Verif.Props.Smoothing
import Verif.Props.Stale
import Verif.Props.Standstill
import Verif.Props.Steps
import Verif.Props.StepsMotion
import Verif.Props.Streams
import Verif.Props.Superpose
import Verif.Props.SuperposeMessages
import Verif.Props.Surer
import Verif.Props.Sync
import Verif.Props.System
import Verif.Props.SystemCov
import Verif.Props.SystemCovDemo
import Verif.Props.SystemDemo
import Verif.Props.SystemFlat
import Verif.Props.SystemPlane
import Verif.Props.SystemTwice
import Verif.Props.Together
import Verif.Props.TogetherDemo
import Verif.Props.Truth
import Verif.Props.Twist
import Verif.Props.Ukf
import Verif.Props.UkfCorrect
import Verif.Props.UkfCross
import Verif.Props.UkfMemory
import Verif.Props.UkfPsd
import Verif.Props.UkfTwice
import Verif.Props.Unmeasured
import Verif.Props.Upright
import Verif.Props.Utm
import Verif.Props.UtmConformal
import Verif.Props.ZeroVar
import Verif.Spec.Audit
import Verif.Spec.Clock
import Verif.Spec.EkfDemo
import Verif.Spec.Fusion
import Verif.Spec.Geodesy
import Verif.Spec.Kept
import Verif.Spec.NavsatDemo
import Verif.Spec.NavsatTruth
import Verif.Spec.RigidBody
