import Mathlib.Data.Real.Basic
import Mathlib.Data.List.Basic

/-!
# Specification: what two robot objects with the same kinematic state have in common
-/

namespace Verif.Spec

/-- A registered contact: its geometry and pose (opaque), and whether it is switched on (`none`: indeterminate). -/
structure KinContact (C : Type*) where
  data : C
  on : Option Bool

/-- The kinematic part of a `RobotData` object (include/dwbc.h 68-180).  `V`: vectors and matrices; `M`: RBDL model;
`L`, `J`, `C`, `T`, `Q`: link, joint, contact, task and QP records. -/
structure KinState (V M L J C T Q : Type*) where
  controlTime : ℝ
  q : V
  qdot : V
  qddot : V
  torqueLimitSet : Bool
  torqueLimit : V
  model : M
  A : V
  Ainv : V
  G : V
  CMM : V
  B : V
  comPos : V
  link : List L
  joint : List J
  cc : List (KinContact C)
  ts : List T
  qp : List Q

/-- Same kinematic state, contacts and tasks. -/
structure SameKinematics {V M L J C T Q : Type*} (a b : KinState V M L J C T Q) : Prop where
  time : b.controlTime = a.controlTime
  q : b.q = a.q
  qdot : b.qdot = a.qdot
  qddot : b.qddot = a.qddot
  model : b.model = a.model
  inertia : b.A = a.A ∧ b.Ainv = a.Ainv
  gravity : b.G = a.G ∧ b.B = a.B
  momentum : b.CMM = a.CMM
  com : b.comPos = a.comPos
  links : b.link = a.link
  joints : b.joint = a.joint
  contacts : b.cc = a.cc
  tasks : b.ts = a.ts

/-- Same kinematic state and tasks except for the centre of mass position, the joint table and the contact switches. -/
def SameMeasured {V M L J C T Q : Type*} (a b : KinState V M L J C T Q) : Prop :=
  SameKinematics a { b with comPos := a.comPos, joint := a.joint, cc := a.cc } ∧
    b.cc.map (·.data) = a.cc.map (·.data)

end Verif.Spec
