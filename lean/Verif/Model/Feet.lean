import Verif.Model.Command

/-!
# Registered contacts in their order of registration

`AddContactConstraint` appends to a list; every later call walks that list from its start.
-/

set_option linter.unusedSectionVars false

namespace Verif.Model
open Matrix Verif

variable {ι : Type*}

/-- src/contact_constraint.cpp 8-60, src/dwbc.cpp 377-426: a registered contact of type 6DOF with its Jacobian. -/
structure Foot (ι : Type*) where
  link : ContactLink
  jac : Matrix (Fin 6) (Fin 6 ⊕ ι) ℝ

/-- include/dwbc.h 432-474 `SetContact`, with one flag for every registered contact. -/
def setContacts (l : List (Foot ι)) (on : Fin l.length → Bool) : List (Foot ι) :=
  (List.finRange l.length).map fun i => { l.get i with link := { (l.get i).link with contact := on i } }

/-- The contacts `SetContact` switched on, in the order of registration. -/
def standing (l : List (Foot ι)) : List (Foot ι) := l.filter (·.link.contact)

/-- src/dwbc.cpp 445-453: six rows for every contact, one below the other. -/
def stackFn {k : ℕ} (g : Fin k → Foot ι) : Matrix (Fin (6 * k)) (Fin 6 ⊕ ι) ℝ :=
  Matrix.of fun r => (g ⟨r / 6, by omega⟩).jac ⟨r % 6, by omega⟩

/-- src/dwbc.cpp 433-454 `UpdateContactConstraint`: `J_C`. -/
def stackFeet (l : List (Foot ι)) : Matrix (Fin (6 * (standing l).length)) (Fin 6 ⊕ ι) ℝ := stackFn (standing l).get

variable [Fintype ι] [DecidableEq ι]

/-- src/dwbc.cpp 433-454, 480-513, 875-888: `torque_grav_` for the contacts registered. -/
noncomputable def feetGravity (A : Matrix (Fin 6 ⊕ ι) (Fin 6 ⊕ ι) ℝ) (G : Fin 6 ⊕ ι → ℝ) (l : List (Foot ι)) : Option (ι → ℝ) :=
  gravityCommand (stackFeet l) A⁻¹ G

/-- The same with `CalcTaskControlTorque(false)` (src/dwbc.cpp 795-873): `torque_grav_ + torque_task_`. -/
noncomputable def feetClosed (A : Matrix (Fin 6 ⊕ ι) (Fin 6 ⊕ ι) ℝ) (G : Fin 6 ⊕ ι → ℝ) (ts : List (TaskIn ι)) (l : List (Foot ι)) :
    Option (ι → ℝ) :=
  closedCommand (stackFeet l) A⁻¹ G ts

/-- src/dwbc.cpp 890-896 `getContactForce`: the force at every standing contact for the torque `τ`, in the order of registration. -/
noncomputable def feetForces (A : Matrix (Fin 6 ⊕ ι) (Fin 6 ⊕ ι) ℝ) (G : Fin 6 ⊕ ι → ℝ) (τ : ι → ℝ) (l : List (Foot ι)) :
    Option (List (Foot ι × (Fin 6 → ℝ))) :=
  (contactSpace (stackFeet l) A⁻¹).map fun S =>
    List.ofFn fun i : Fin (standing l).length =>
      ((standing l).get i, fun j => contactForce S (gravityForce S G) τ ⟨6 * i + j, by omega⟩)

/-- The same as `feetClosed` with `CalcTaskControlTorque(true)` (src/dwbc.cpp 818-853). -/
noncomputable def feetQP {n : ℕ} (A : Matrix (Fin 6 ⊕ Fin n) (Fin 6 ⊕ Fin n) ℝ) (G : Fin 6 ⊕ Fin n → ℝ)
    (cod : (W : Matrix (Fin n) (Fin n) ℝ) → CodNull W) (limit : Option (Fin n → ℝ)) (solve : Solver) (ts : List (TaskIn (Fin n)))
    (l : List (Foot (Fin n))) : Option (ℕ × (Fin n → ℝ) × (Fin n → ℝ) × (Fin n → ℝ)) :=
  qpCycle (stackFeet l) A⁻¹ G cod limit (l.map Foot.link) solve ts

/-- `CalcContactRedistribute(torque_input, true)` (src/dwbc.cpp 1377-1560) for the contacts registered. -/
noncomputable def feetRedistribute {n : ℕ} (A : Matrix (Fin 6 ⊕ Fin n) (Fin 6 ⊕ Fin n) ℝ) (G : Fin 6 ⊕ Fin n → ℝ)
    (cod : (W : Matrix (Fin n) (Fin n) ℝ) → CodNull W) (limit : Option (Fin n → ℝ)) (solve : RSolver) (τin τc : Fin n → ℝ)
    (l : List (Foot (Fin n))) : Option (ℕ × (Fin n → ℝ)) :=
  redistributeCycle (stackFeet l) A⁻¹ G cod limit (l.map Foot.link) solve τin τc

end Verif.Model
