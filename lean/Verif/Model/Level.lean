import Verif.Model.TaskRows
import Verif.Model.Command

/-!
# A cycle from the registered task links to the torque
(src/dwbc.cpp 685-816 `UpdateTaskSpace` and `CalcTaskSpace`, called by `CalcTaskControlTorque`, src/dwbc.cpp 818-873)
-/

set_option linter.unusedSectionVars false

namespace Verif.Model
open Matrix Verif

variable {ι : Type*} [Fintype ι] [DecidableEq ι] {c : ℕ}

/-- `J_task_` and `f_star_` of a level as `CalculateJKT` and the torque computation read them (src/dwbc.cpp 805-816, 856-871);
`none`: `Lambda_task_ * f_star_` has sizes that do not fit. -/
def levelIn (T : RowTask (Fin 6 ⊕ ι)) : Option (TaskIn ι) :=
  if h : T.f.length = T.J.length then
    some ⟨T.J.length, Matrix.of fun i => T.J[i.val], fun i => T.f[i.val]⟩
  else none

/-- src/dwbc.cpp 795-816 `CalcTaskSpace(true)`, up to `CalcJKT`: the Jacobians and commanded accelerations of all levels. -/
noncomputable def cycleTasks (t : ℝ) (links : List (RowLink (Fin 6 ⊕ ι))) (ts : List (RowTask (Fin 6 ⊕ ι))) :
    Option (List (TaskIn ι)) :=
  match updateTaskSpace t links ts with
  | none => none
  | some (_, ts) => ts.mapM levelIn

/-- src/dwbc.cpp 818-873 with 685-816: `CalcTaskControlTorque(false)` after `CalcContactConstraint` and `CalcGravCompensation`;
`torque_grav_ + torque_task_`. -/
noncomputable def closedLinkCycle (t : ℝ) (links : List (RowLink (Fin 6 ⊕ ι))) (J : Matrix (Fin c) (Fin 6 ⊕ ι) ℝ)
    (Ainv : Matrix (Fin 6 ⊕ ι) (Fin 6 ⊕ ι) ℝ) (G : Fin 6 ⊕ ι → ℝ) (ts : List (RowTask (Fin 6 ⊕ ι))) : Option (ι → ℝ) :=
  match cycleTasks t links ts with
  | none => none
  | some ins => closedCommand J Ainv G ins

/-- src/dwbc.cpp 818-853 with 685-816: the same with `CalcTaskControlTorque(true)`, as `qpCycle`. -/
noncomputable def qpLinkCycle {n : ℕ} (t : ℝ) (links : List (RowLink (Fin 6 ⊕ Fin n))) (J : Matrix (Fin c) (Fin 6 ⊕ Fin n) ℝ)
    (Ainv : Matrix (Fin 6 ⊕ Fin n) (Fin 6 ⊕ Fin n) ℝ) (G : Fin 6 ⊕ Fin n → ℝ) (cod : (W : Matrix (Fin n) (Fin n) ℝ) → CodNull W)
    (limit : Option (Fin n → ℝ)) (cs : List ContactLink) (solve : Solver) (ts : List (RowTask (Fin 6 ⊕ Fin n))) :
    Option (ℕ × (Fin n → ℝ) × (Fin n → ℝ) × (Fin n → ℝ)) :=
  match cycleTasks t links ts with
  | none => none
  | some ins => qpCycle J Ainv G cod limit cs solve ins

end Verif.Model
