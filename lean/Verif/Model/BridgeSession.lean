import Verif.Model.Session

/-!
# The Python bridge on the robot's members (src/pybind/rl_wbc_bridge.cpp 107-129)

The calls of the bridge as sequences of the control calls of `Model/Session`.
-/

set_option linter.unusedSectionVars false

namespace Verif.Model
open Matrix Verif

/-- The calls of the bridge. -/
inductive BridgeCall (X : Type*) where
  | update (x : X)
  | setContact (left right : Bool)
  | setTask (i : ℕ) (f : ℕ → ℝ)
  | calcTorque

namespace Session
variable {X : Type*} {n : ℕ}

/-- src/dwbc.cpp 795-816 `CalcTaskSpace`: everything it computes is computed again by `CalcTaskControlTorque`; only whether it is
defined matters. -/
noncomputable def calcTask (E : ControlEnv X n) (s : Session X n) : Option (Session X n) :=
  match s.space with
  | none => none
  | some m =>
    match calcTaskSpace m.S s.Ainv (s.taskInputs E) with
    | none => none
    | some _ => some s

/-- src/pybind/rl_wbc_bridge.cpp 79-129: `UpdateKinematics` (C43 treats the arrays), `SetContact`, `SetTaskSpace`, `CalcTorque`
(`task_init` is false and is passed as `hqp`). -/
noncomputable def bridgeStep (E : ControlEnv X n) (s : Session X n) : BridgeCall X → Option (Session X n)
  | .update x => s.run E [.update x]
  | .setContact l r => (s.run E [.setContact [l, r], .calcContact]).bind fun s => s.calcTask E
  | .setTask i f => s.run E [.setTask i f]
  | .calcTorque => s.run E [.grav, .taskTorque false, .redistribute false]

/-- A history of bridge calls. -/
noncomputable def bridgeRun (E : ControlEnv X n) : Session X n → List (BridgeCall X) → Option (Session X n)
  | s, [] => some s
  | s, o :: os => (s.bridgeStep E o).bind fun s' => bridgeRun E s' os

end Session

end Verif.Model
