import Verif.Model.QPControl

/-!
# The torque of one control cycle, as a function of the state

`UpdateKinematics` supplies the mass matrix, its inverse, the contact Jacobian, the weights and the task Jacobians; the calls of
a cycle make a torque of them.
-/

set_option linter.unusedSectionVars false

namespace Verif.Model
open Matrix Verif

variable {ι : Type*} [Fintype ι] [DecidableEq ι] {c : ℕ}

/-- src/dwbc.cpp 480-513, 875-888: `CalcContactConstraint` and `CalcGravCompensation`; `torque_grav_`. -/
noncomputable def gravityCommand (J : Matrix (Fin c) (Fin 6 ⊕ ι) ℝ) (Ainv : Matrix (Fin 6 ⊕ ι) (Fin 6 ⊕ ι) ℝ)
    (G : Fin 6 ⊕ ι → ℝ) : Option (ι → ℝ) :=
  (contactSpace J Ainv).map fun S => gravityTorque S Ainv G

/-- src/dwbc.cpp 480-513, 875-888, 795-873: the same and `CalcTaskControlTorque(false)`; `torque_grav_ + torque_task_`. -/
noncomputable def closedCommand (J : Matrix (Fin c) (Fin 6 ⊕ ι) ℝ) (Ainv : Matrix (Fin 6 ⊕ ι) (Fin 6 ⊕ ι) ℝ)
    (G : Fin 6 ⊕ ι → ℝ) (ts : List (TaskIn ι)) : Option (ι → ℝ) :=
  match contactSpace J Ainv with
  | none => none
  | some S => (calcTaskSpace S Ainv ts).map fun rs => gravityTorque S Ainv G + taskTorque S rs

/-- src/dwbc.cpp 818-853: `torque_grav_ + torque_task_ + torque_contact_` after `CalcTaskControlTorque(true)`, the sum the callers
send to the motors (src/pybind/rl_wbc_bridge.cpp 133, tests/test_thread.cpp 195; `GetControlTorque` itself, src/dwbc.cpp
1622-1631, returns an empty vector). -/
def qpCommand {n : ℕ} (R : QPRobot n c) (solve : Solver) (ts : List (TaskReady (Fin n))) : Option (Fin n → ℝ) :=
  match calcTaskControlTorqueQP R solve ts with
  | .undefined => none
  | .ret _ τt τc => some (R.τg + τt + τc)

/-- src/dwbc.cpp 480-513, 875-888, 795-853: a whole cycle with QP task control for more than six contact rows: the return value of
`CalcTaskControlTorque(true)` and `torque_grav_`, `torque_task_`, `torque_contact_`. -/
noncomputable def qpCycle {n : ℕ} (J : Matrix (Fin c) (Fin 6 ⊕ Fin n) ℝ) (Ainv : Matrix (Fin 6 ⊕ Fin n) (Fin 6 ⊕ Fin n) ℝ)
    (G : Fin 6 ⊕ Fin n → ℝ) (cod : (W : Matrix (Fin n) (Fin n) ℝ) → CodNull W) (limit : Option (Fin n → ℝ)) (cs : List ContactLink)
    (solve : Solver) (ts : List (TaskIn (Fin n))) : Option (ℕ × (Fin n → ℝ) × (Fin n → ℝ) × (Fin n → ℝ)) :=
  match calculateContactConstraint J Ainv cod with
  | .ret _ S (some out) =>
    match calcTaskSpace S Ainv ts with
    | none => none
    | some rs =>
      let R : QPRobot n c :=
        { S := S, NwJw := out.2.2, P := gravityForce S G, τg := gravityTorque S Ainv G, limit := limit, cs := cs }
      match calcTaskControlTorqueQP R solve rs with
      | .undefined => none
      | .ret v τt τc => some (v, R.τg, τt, τc)
  | _ => none

/-- src/dwbc.cpp 480-513, 875-888, 1377-1560: `CalcContactConstraint`, `CalcGravCompensation` and
`CalcContactRedistribute(torque_input, true)` for more than six contact rows: return value and `torque_contact_`, which was `τc`. -/
noncomputable def redistributeCycle {n : ℕ} (J : Matrix (Fin c) (Fin 6 ⊕ Fin n) ℝ) (Ainv : Matrix (Fin 6 ⊕ Fin n) (Fin 6 ⊕ Fin n) ℝ)
    (G : Fin 6 ⊕ Fin n → ℝ) (cod : (W : Matrix (Fin n) (Fin n) ℝ) → CodNull W) (limit : Option (Fin n → ℝ)) (cs : List ContactLink)
    (solve : RSolver) (τin τc : Fin n → ℝ) : Option (ℕ × (Fin n → ℝ)) :=
  match calculateContactConstraint J Ainv cod with
  | .ret _ S (some out) =>
    redistribute { S := S, NwJw := out.2.2, P := gravityForce S G, τg := gravityTorque S Ainv G, limit := limit, cs := cs } solve τin τc
  | _ => none

end Verif.Model
