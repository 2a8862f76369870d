import Verif.Model.Handover
import Verif.Model.CopyKin

/-!
# The objects and calls of tests/test_thread.cpp

An object of class `MyRobotData` (59-74) is a `RobotData` with a command; `none` stands for undefined behaviour before.
-/

namespace Verif.Model
open Verif.Spec

variable {V M L J C T Q : Type*}

/-- tests/test_thread.cpp 59-74: the kinematic part and `torque_command_`. -/
structure CmdRobot (V M L J C T Q : Type*) where
  kin : KinState V M L J C T Q
  command : V

/-- Lines 125 and 172: `source.CopyKinematicsData(target)` as one change (how it is split up does not matter, `C79_sequential`).
The command is a member of the derived class and is not copied. -/
def copyCall (l0 : L) (c0 : C) (t0 : T) (k0 : Q) :
    Option (CmdRobot V M L J C T Q) × Option (CmdRobot V M L J C T Q) →
      Option (CmdRobot V M L J C T Q) × Option (CmdRobot V M L J C T Q)
  | (some s, some t) => match copyKinematics l0 c0 t0 k0 s.kin t.kin with
    | some (s', t') => (some { s with kin := s' }, some { t with kin := t' })
    | none => (none, none)
  | _ => (none, none)

/-- Lines 129 and 198: `target.torque_command_ = source.torque_command_`. -/
def commandCall : Option (CmdRobot V M L J C T Q) × Option (CmdRobot V M L J C T Q) →
    Option (CmdRobot V M L J C T Q) × Option (CmdRobot V M L J C T Q)
  | (some s, some t) => (some s, some { t with command := s.command })
  | _ => (none, none)

/-- tests/test_thread.cpp 109-147, 169-209.  `upd i`: `UpdateKinematics` with the `i`-th measurement (122); `ctl i`: the
control thread's calls in its `i`-th cycle (177-195). -/
def robotJob (l0 : L) (c0 : C) (t0 : T) (k0 : Q) (runs : ℕ)
    (upd : ℕ → KinState V M L J C T Q → KinState V M L J C T Q)
    (ctl : ℕ → CmdRobot V M L J C T Q → Option (CmdRobot V M L J C T Q)) : Job (Option (CmdRobot V M L J C T Q)) where
  runs := runs
  measure i r := r.map fun r => { r with kin := upd i r.kin }
  put := [copyCall l0 c0 t0 k0]
  fetch := [copyCall l0 c0 t0 k0]
  control i r := r.bind (ctl i)
  answer := [commandCall]
  accept := [commandCall]

end Verif.Model
