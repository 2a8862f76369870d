import Verif.Lemmas.Arm
import Verif.Lemmas.Binary
import Verif.Lemmas.Biped
import Verif.Lemmas.Body
import Verif.Lemmas.Carried
import Verif.Lemmas.ClosedForm
import Verif.Lemmas.CodRank
import Verif.Lemmas.ConstraintRows
import Verif.Lemmas.Contact
import Verif.Lemmas.ContactRank
import Verif.Lemmas.Continuity
import Verif.Lemmas.ContinuityContact
import Verif.Lemmas.ContinuityQP
import Verif.Lemmas.CopyKin
import Verif.Lemmas.Energy
import Verif.Lemmas.Filter
import Verif.Lemmas.FixGeom
import Verif.Lemmas.HQP
import Verif.Lemmas.HQPExists
import Verif.Lemmas.Handover
import Verif.Lemmas.HandoverRobot
import Verif.Lemmas.Heading
import Verif.Lemmas.Held
import Verif.Lemmas.HqpObject
import Verif.Lemmas.HqpOwner
import Verif.Lemmas.HqpWarm
import Verif.Lemmas.JaccExists
import Verif.Lemmas.JaccQP
import Verif.Lemmas.JaccStack
import Verif.Lemmas.Kinematics
import Verif.Lemmas.LinkMod
import Verif.Lemmas.LinkTree
import Verif.Lemmas.Mirror
import Verif.Lemmas.Moving
import Verif.Lemmas.Order
import Verif.Lemmas.Pendulum
import Verif.Lemmas.Points
import Verif.Lemmas.PolyImage
import Verif.Lemmas.QLayout
import Verif.Lemmas.QPControl
import Verif.Lemmas.QPExists
import Verif.Lemmas.QPLeast
import Verif.Lemmas.QPWrapper
import Verif.Lemmas.Redistribute
import Verif.Lemmas.Reduced
import Verif.Lemmas.ReducedClosed
import Verif.Lemmas.ReducedFail
import Verif.Lemmas.ReducedIdx
import Verif.Lemmas.ReducedJacc
import Verif.Lemmas.ReducedJaccNC
import Verif.Lemmas.ReducedLqp
import Verif.Lemmas.ReducedMod
import Verif.Lemmas.ReducedQP
import Verif.Lemmas.ReducedSession
import Verif.Lemmas.ReducedTask
import Verif.Lemmas.Registry
import Verif.Lemmas.Renumbered
import Verif.Lemmas.RenumberedQP
import Verif.Lemmas.Rotation
import Verif.Lemmas.Sampled
import Verif.Lemmas.Scaled
import Verif.Lemmas.Session
import Verif.Lemmas.Settle
import Verif.Lemmas.SettleRot
import Verif.Lemmas.Spd
import Verif.Lemmas.Spline
import Verif.Lemmas.Stance
import Verif.Lemmas.Supply
import Verif.Lemmas.SwapFeet
import Verif.Lemmas.Task
import Verif.Lemmas.TaskLinkObj
import Verif.Lemmas.TaskOrder
import Verif.Lemmas.TaskPD
import Verif.Lemmas.TaskRegistry
import Verif.Lemmas.TaskRows
import Verif.Lemmas.Terrain
import Verif.Lemmas.Tolerance
import Verif.Lemmas.TurnRows
import Verif.Lemmas.Turned
import Verif.Lemmas.TurnedQP
import Verif.Lemmas.TurnedRobot
import Verif.Lemmas.Zmp
import Verif.Model.Binary
import Verif.Model.Body
import Verif.Model.Bridge
import Verif.Model.BridgeNew
import Verif.Model.BridgeSession
import Verif.Model.ClosedForm
import Verif.Model.CodRank
import Verif.Model.Command
import Verif.Model.ConstraintRows
import Verif.Model.Contact
import Verif.Model.CopyKin
import Verif.Model.Feet
import Verif.Model.Filter
import Verif.Model.FixGeom
import Verif.Model.HQP
import Verif.Model.Handover
import Verif.Model.HandoverRobot
import Verif.Model.Heading
import Verif.Model.HqpObject
import Verif.Model.HqpOwner
import Verif.Model.HqpWarm
import Verif.Model.JacDot
import Verif.Model.JaccQP
import Verif.Model.Kinematics
import Verif.Model.Level
import Verif.Model.LinkMod
import Verif.Model.LinkTree
import Verif.Model.Pinv
import Verif.Model.QLayout
import Verif.Model.QPControl
import Verif.Model.QPWrapper
import Verif.Model.Redistribute
import Verif.Model.Reduced
import Verif.Model.ReducedClosed
import Verif.Model.ReducedIdx
import Verif.Model.ReducedJacc
import Verif.Model.ReducedJaccNC
import Verif.Model.ReducedLqp
import Verif.Model.ReducedMod
import Verif.Model.ReducedQP
import Verif.Model.ReducedRecord
import Verif.Model.ReducedSession
import Verif.Model.ReducedTask
import Verif.Model.Registry
import Verif.Model.Repeat
import Verif.Model.Rotation
import Verif.Model.Session
import Verif.Model.Spline
import Verif.Model.Task
import Verif.Model.TaskKind
import Verif.Model.TaskLinkObj
import Verif.Model.TaskPD
import Verif.Model.TaskRecord
import Verif.Model.TaskRegistry
import Verif.Model.TaskRows
import Verif.Model.TorqueLimit
import Verif.Props.Binary
import Verif.Props.Blend
import Verif.Props.BlendMet
import Verif.Props.BlendReduced
import Verif.Props.BlendReducedMet
import Verif.Props.BlendWeighted
import Verif.Props.Body
import Verif.Props.Bridge
import Verif.Props.BridgeNew
import Verif.Props.BridgeSession
import Verif.Props.ClosedForm
import Verif.Props.CodRank
import Verif.Props.ConstraintRows
import Verif.Props.Contact
import Verif.Props.Continuity
import Verif.Props.ContinuityQP
import Verif.Props.CopyKin
import Verif.Props.Effort
import Verif.Props.EffortJacc
import Verif.Props.EffortLqp
import Verif.Props.EffortQP
import Verif.Props.Energy
import Verif.Props.EnergyMet
import Verif.Props.EnergyQP
import Verif.Props.Filter
import Verif.Props.FixGeom
import Verif.Props.Followed
import Verif.Props.FollowedMet
import Verif.Props.FollowedQP
import Verif.Props.HQP
import Verif.Props.Handover
import Verif.Props.HqpObject
import Verif.Props.HqpOwner
import Verif.Props.HqpWarm
import Verif.Props.JacDot
import Verif.Props.JaccAnswers
import Verif.Props.JaccQP
import Verif.Props.Kept
import Verif.Props.KeptReduced
import Verif.Props.Kinematics
import Verif.Props.Levels
import Verif.Props.LevelsReduced
import Verif.Props.LevelsReducedMet
import Verif.Props.Lift
import Verif.Props.LinkMod
import Verif.Props.LinkTree
import Verif.Props.Loosen
import Verif.Props.LoosenJacc
import Verif.Props.LoosenLqp
import Verif.Props.LoosenMet
import Verif.Props.LoosenReduced
import Verif.Props.Lqp
import Verif.Props.Mirror
import Verif.Props.MirrorJacc
import Verif.Props.MirrorKin
import Verif.Props.MirrorLqp
import Verif.Props.MirrorMet
import Verif.Props.Mismodel
import Verif.Props.Moderate
import Verif.Props.ModerateJacc
import Verif.Props.ModerateLqp
import Verif.Props.Moving
import Verif.Props.MovingLqp
import Verif.Props.MovingMet
import Verif.Props.Order
import Verif.Props.OrderClosed
import Verif.Props.OrderLast
import Verif.Props.OrderLqp
import Verif.Props.OrderZmp
import Verif.Props.QLayout
import Verif.Props.QPControl
import Verif.Props.QPFail
import Verif.Props.QPWrapper
import Verif.Props.Redistribute
import Verif.Props.Reduced
import Verif.Props.ReducedClosed
import Verif.Props.ReducedFail
import Verif.Props.ReducedIdx
import Verif.Props.ReducedJacc
import Verif.Props.ReducedJaccNC
import Verif.Props.ReducedLeast
import Verif.Props.ReducedLqp
import Verif.Props.ReducedMix
import Verif.Props.ReducedMod
import Verif.Props.ReducedModerate
import Verif.Props.ReducedQP
import Verif.Props.ReducedRecord
import Verif.Props.ReducedSession
import Verif.Props.ReducedTask
import Verif.Props.Registry
import Verif.Props.Renumbered
import Verif.Props.RenumberedLqp
import Verif.Props.RenumberedUnits
import Verif.Props.Repeat
import Verif.Props.Rotation
import Verif.Props.RowsLqp
import Verif.Props.Sampled
import Verif.Props.Scaled
import Verif.Props.ScaledJacc
import Verif.Props.ScaledLqp
import Verif.Props.Session
import Verif.Props.Settle
import Verif.Props.SettleRot
import Verif.Props.Spline
import Verif.Props.Stance
import Verif.Props.StanceMet
import Verif.Props.StanceReduced
import Verif.Props.StanceReducedMet
import Verif.Props.Step
import Verif.Props.StepMet
import Verif.Props.Supply
import Verif.Props.SupplyMet
import Verif.Props.SupplyReduced
import Verif.Props.SupplyReducedMet
import Verif.Props.Sweep
import Verif.Props.Task
import Verif.Props.TaskKind
import Verif.Props.TaskLinkObj
import Verif.Props.TaskOrder
import Verif.Props.TaskPD
import Verif.Props.TaskRecord
import Verif.Props.TaskRegistry
import Verif.Props.TaskRows
import Verif.Props.TaskUnits
import Verif.Props.Terrain
import Verif.Props.TerrainJacc
import Verif.Props.TerrainLqp
import Verif.Props.TerrainMet
import Verif.Props.TerrainReduced
import Verif.Props.TerrainReducedMet
import Verif.Props.TerrainStep
import Verif.Props.TerrainStepMet
import Verif.Props.Tolerance
import Verif.Props.ToleranceJacc
import Verif.Props.ToleranceLqp
import Verif.Props.ToleranceMet
import Verif.Props.ToleranceReduced
import Verif.Props.TorqueLimit
import Verif.Props.Turned
import Verif.Props.TurnedContact
import Verif.Props.TurnedKin
import Verif.Props.TurnedMet
import Verif.Props.TwinJacc
import Verif.Props.UnusedJacc
import Verif.Props.UnusedReduced
import Verif.Props.Weight
import Verif.Props.WeightMet
import Verif.Props.WithinDirection
import Verif.Props.Zmp
import Verif.Spec.Binary
import Verif.Spec.Body
import Verif.Spec.BoxQP
import Verif.Spec.Bridge
import Verif.Spec.Carried
import Verif.Spec.Continuity
import Verif.Spec.CopyKin
import Verif.Spec.Dynamics
import Verif.Spec.Effort
import Verif.Spec.Energy
import Verif.Spec.FixGeom
import Verif.Spec.HQP
import Verif.Spec.Handover
import Verif.Spec.HqpOwner
import Verif.Spec.LinkMod
import Verif.Spec.LinkTree
import Verif.Spec.Mirror
import Verif.Spec.MirrorLink
import Verif.Spec.Momentum
import Verif.Spec.Moving
import Verif.Spec.QLayout
import Verif.Spec.QP
import Verif.Spec.QPWrapper
import Verif.Spec.ReducedIdx
import Verif.Spec.ReducedMod
import Verif.Spec.Registry
import Verif.Spec.Renumbered
import Verif.Spec.Rotation
import Verif.Spec.Sampled
import Verif.Spec.Stance
import Verif.Spec.Supply
import Verif.Spec.Sweep
import Verif.Spec.TaskLinkObj
import Verif.Spec.TaskOrder
import Verif.Spec.TaskPD
import Verif.Spec.TaskRows
import Verif.Spec.Terrain
import Verif.Spec.Tolerance
import Verif.Spec.Turned
import Verif.Spec.TwoContacts
import Verif.Spec.Weight
import Verif.Spec.Wrench
