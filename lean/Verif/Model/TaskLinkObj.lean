import Verif.Model.TaskPD

/-!
# A task link and its setters (src/task.cpp 217-346, include/dwbc_task.h 49-115)

The members that the constructor leaves unwritten are `none` until a setter writes them; a result computed from such a member
is `none`.
-/

set_option linter.unusedSectionVars false

namespace Verif.Model
open Matrix Verif

/-- Arguments of `SetTaskGain`; the members start as zero (include/dwbc_task.h 85-91). -/
structure Gains where
  posP : Vec3 := 0
  posD : Vec3 := 0
  posA : Vec3 := 0
  rotP : Vec3 := 0
  rotD : Vec3 := 0
  rotA : Vec3 := 0

/-- Arguments of `SetTrajectoryQuintic` apart from the times. -/
structure PosGoal where
  posInit : Vec3
  velInit : Vec3
  posDes : Vec3
  velDes : Vec3

/-- Arguments of `SetTrajectoryRotation` apart from the times. -/
structure RotGoal where
  rotInit : Mat3
  wInit : Vec3
  rotDes : Mat3
  wDes : Vec3

/-- The members of `TaskLink` written by its setters.  `traj_pos_set`/`traj_rot_set` are `pos.isSome`/`rot.isSome`. -/
structure TaskLinkObj where
  mode : ℕ
  window : Option (ℝ × ℝ)
  pos : Option PosGoal
  rot : Option RotGoal
  gains : Gains
  limits : Option ((Fin 6 → ℝ) × (Fin 6 → ℝ))

/-- The public setters. -/
inductive TaskLinkOp where
  | quintic (t0 tf : ℝ) (g : PosGoal)
  | rotation (t0 tf : ℝ) (g : RotGoal)
  | gain (g : Gains)
  | regulate (maxP maxD : Fin 6 → ℝ)

namespace TaskLinkObj

/-- src/task.cpp 5-52, include/dwbc_task.h 49-115: construction. -/
def fresh (mode : ℕ) : TaskLinkObj := { mode := mode, window := none, pos := none, rot := none, gains := {}, limits := none }

/-- src/task.cpp 217-232, 233-247, 249-261, 341-346 -/
def step (o : TaskLinkObj) : TaskLinkOp → TaskLinkObj
  | .quintic t0 tf g => { o with window := some (t0, tf), pos := some g }
  | .rotation t0 tf g => { o with window := some (t0, tf), rot := some g }
  | .gain g => { o with gains := g }
  | .regulate maxP maxD => { o with limits := some (maxP, maxD) }

/-- A task link after a history of setter calls. -/
def run (mode : ℕ) (ops : List TaskLinkOp) : TaskLinkObj := ops.foldl step (fresh mode)

/-- The record that the feedback functions read. -/
def toPD (o : TaskLinkObj) (w : ℝ × ℝ) (p : PosGoal) (r : RotGoal) : TaskLinkPD :=
  { mode := o.mode, tStart := w.1, tEnd := w.2
    posInit := p.posInit, velInit := p.velInit, posDes := p.posDes, velDes := p.velDes
    rotInit := r.rotInit, rotDes := r.rotDes
    posP := o.gains.posP, posD := o.gains.posD, posA := o.gains.posA
    rotP := o.gains.rotP, rotD := o.gains.rotD, rotA := o.gains.rotA }

/-- src/task.cpp 268-294 `GetFstarPosPD` (the orientation members are not read). -/
noncomputable def fstarPos (o : TaskLinkObj) (t : ℝ) (p v : Vec3) : Option Vec3 :=
  match o.window, o.pos with
  | some w, some g => (o.toPD w g ⟨0, 0, 0, 0⟩).posPD t p v
  | _, _ => if o.mode ≤ 5 then none else some 0

/-- src/task.cpp 296-339 `GetFstarRotPD` (the position members are not read). -/
noncomputable def fstarRot (o : TaskLinkObj) (t : ℝ) (R : Mat3) (w : Vec3) : Option Vec3 :=
  match o.window, o.rot with
  | some win, some g => (o.toPD win ⟨0, 0, 0, 0⟩ g).rotPD t R w
  | _, _ => none

end TaskLinkObj

end Verif.Model
