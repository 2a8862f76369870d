import Verif.Model.ClosedForm
import Verif.Model.QPControl

/-!
# Repeated contact redistribution (src/dwbc.cpp 1372-1375, 1377-1618)

`CalcContactRedistribute(hqp, init)` passes `torque_grav_ + torque_task_ + torque_contact_` and writes `torque_contact_`.
-/

set_option linter.unusedSectionVars false

namespace Verif.Model
open Matrix Verif

variable {ι : Type*} [Fintype ι] [DecidableEq ι]

/-- src/dwbc.cpp 1372-1375 with 1570-1611: `torque_contact_` after one call without QP, `contact_dof_ == 12`; `base` is
`torque_grav_ + torque_task_`. -/
noncomputable def closedFormCall (S : ContactSpace 12 ι) (f : CodNull S.W) (P : Fin 12 → ℝ) (s : Fin 4 → Bool) (pos : List Vec3)
    (com : Vec3) (yaw : ℝ) (base τc : ι → ℝ) : Option (ι → ℝ) :=
  closedFormTorque S f P s pos com yaw (base + τc)

/-- `torque_contact_` after `k` calls without QP. -/
noncomputable def closedFormCalls (S : ContactSpace 12 ι) (f : CodNull S.W) (P : Fin 12 → ℝ) (s : Fin 4 → Bool)
    (pos : List Vec3) (com : Vec3) (yaw : ℝ) (base : ι → ℝ) : ℕ → (ι → ℝ) → Option (ι → ℝ)
  | 0, τc => some τc
  | k + 1, τc => (closedFormCall S f P s pos com yaw base τc).bind (closedFormCalls S f P s pos com yaw base k)

variable {n c : ℕ}

/-- src/dwbc.cpp 1372-1375 with 1395-1560: return value and `torque_contact_` after one call with QP. -/
def redistributeCall (R : QPRobot n c) (solve : RSolver) (base τc : Fin n → ℝ) : Option (ℕ × (Fin n → ℝ)) :=
  redistribute R solve (base + τc) τc

/-- `torque_contact_` after `k` calls with QP that all succeed; `none` if one does not. -/
def redistributeCalls (R : QPRobot n c) (solve : RSolver) (base : Fin n → ℝ) : ℕ → (Fin n → ℝ) → Option (Fin n → ℝ)
  | 0, τc => some τc
  | k + 1, τc =>
    match redistributeCall R solve base τc with
    | some (1, τc') => redistributeCalls R solve base k τc'
    | _ => none

end Verif.Model
