import Verif.Model.TaskPD
import Verif.Model.TaskRegistry
import Verif.Model.Kinematics

/-!
# Assembling task Jacobians and desired accelerations (src/dwbc.cpp 685-793 `UpdateTaskSpace`)

Matrices with a run-time number of rows are lists of rows.  `none` is undefined behaviour (an index out of range, an Eigen
size assertion, an RBDL call with body id -1) or a result that is not finite.
-/

set_option linter.unusedSectionVars false

namespace Verif.Model
open Matrix Verif

variable {σ : Type*}

/-- What is read of a `Link`.  `pointJac` is `CalcPointJacobian6D` of the link's body (angular rows first) at the state held
in the RBDL model, `none` for the "COM" entry, whose body id is -1 (src/link.cpp 46-50).  The configuration handed over is
not used by RBDL since `update_kinematics` is `false`. -/
structure RowLink (σ : Type*) where
  isCom : Bool
  xpos : Vec3
  rotm : Mat3
  v : Vec3
  w : Vec3
  xipos : Vec3
  vi : Vec3
  /-- `com_position_l_` -/
  com : Vec3
  /-- `jac_`, `jac_com_`, linear rows first -/
  jac : Fin 6 → σ → ℝ
  jacCom : Fin 6 → σ → ℝ
  pointJac : Option (Vec3 → Fin 6 → σ → ℝ)

/-- `topRows(3).swap(bottomRows(3))` -/
def swapRows (g : Fin 6 → σ → ℝ) : Fin 6 → σ → ℝ := ![g 3, g 4, g 5, g 0, g 1, g 2]

/-- src/link.cpp 76-96 `UpdatePos`, given what RBDL returns for the link origin. -/
def RowLink.updatePos (l : RowLink σ) (x : Vec3) (R : Mat3) (w v : Vec3) : RowLink σ :=
  { l with xpos := x, rotm := R, w := w, v := v, xipos := x + R *ᵥ l.com, vi := v + crossProduct w (R *ᵥ l.com) }

/-- src/link.cpp 98-107 `UpdateJac` -/
def RowLink.updateJac (l : RowLink σ) : Option (RowLink σ) :=
  match l.pointJac with
  | none => none
  | some J => some { l with jac := swapRows (J 0), jacCom := swapRows (J l.com) }

/-- src/link.cpp 109-119 `GetPointJac` -/
def RowLink.getPointJac (l : RowLink σ) (p : Vec3) : Option (Fin 6 → σ → ℝ) := l.pointJac.map fun J => swapRows (J p)

/-- The "COM" entry as `UpdateKinematics` leaves it (src/dwbc.cpp 328-368); `R0` is the orientation of the base.
`com_position_l_` of this entry is never set and never read. -/
def comRow {ι : Type*} (s : WholeBody ι) (R0 : Mat3) : RowLink (Sys ι) :=
  { isCom := true, xpos := s.comPos, rotm := R0, v := s.v, w := s.w, xipos := s.comPos, vi := s.v, com := 0
    jac := ![s.jacLin 0, s.jacLin 1, s.jacLin 2, s.jacAng 0, s.jacAng 1, s.jacAng 2]
    jacCom := ![s.jacLin 0, s.jacLin 1, s.jacLin 2, s.jacAng 0, s.jacAng 1, s.jacAng 2]
    pointJac := none }

/-- A `TaskLink`: `task_link_mode_` is `pd.mode`. -/
structure RowTaskLink where
  pd : TaskLinkPD
  link : ℕ
  point : Vec3
  posSet : Bool
  rotSet : Bool

/-- The members of `TaskSpace` concerned.  `custom`: `task_type_ == TASK_CUSTOM`. -/
structure RowTask (σ : Type*) where
  custom : Bool
  dof : Option ℕ
  links : List RowTaskLink
  J : List (σ → ℝ)
  f : List ℝ

/-- `block(k, ...) = rows`, `segment(k, n) = entries`: asserts when out of range. -/
def writeBlock {α : Type*} (l : List α) (k : ℕ) (r : List α) : Option (List α) :=
  if k + r.length ≤ l.length then some (l.take k ++ r ++ l.drop (k + r.length)) else none

def rows6 (g : Fin 6 → σ → ℝ) : List (σ → ℝ) := [g 0, g 1, g 2, g 3, g 4, g 5]
def rowsTop (g : Fin 6 → σ → ℝ) : List (σ → ℝ) := [g 0, g 1, g 2]
def rowsBottom (g : Fin 6 → σ → ℝ) : List (σ → ℝ) := [g 3, g 4, g 5]

/-- The right-hand sides of the assignments to `J_task_` (src/dwbc.cpp 711-784). -/
def jacRows (l : RowLink σ) (k : RowTaskLink) : Option (List (σ → ℝ)) :=
  match k.pd.mode with
  | 0 => some (rows6 l.jac)
  | 1 => some (rows6 l.jacCom)
  | 2 => (l.getPointJac k.point).map rows6
  | 3 => some (rowsTop l.jac)
  | 4 => some (rowsTop l.jacCom)
  | 5 => (l.getPointJac k.point).map rowsTop
  | 6 => some (rowsBottom l.jac)
  | 7 => some (rowsBottom l.jac)
  | _ => some []

/-- The position and velocity handed to `GetFstarPosPD` (src/dwbc.cpp 715, 727, 740-742, 753, 760, 767-769).  The custom
frames rotate the point into the world for the position and not for the velocity. -/
def posArgs (l : RowLink σ) (k : RowTaskLink) : Vec3 × Vec3 :=
  match k.pd.mode with
  | 1 | 4 => (l.xipos, l.vi)
  | 2 | 5 => (l.xpos + l.rotm *ᵥ k.point, l.v + crossProduct l.w k.point)
  | _ => (l.xpos, l.v)

/-- `f_star_.segment(o, 3) = u` -/
def writeVec (f : List ℝ) (o : ℕ) (u : Option Vec3) : Option (List ℝ) :=
  match u with
  | none => none
  | some u => writeBlock f o [u 0, u 1, u 2]

/-- The position part of the desired acceleration: modes 0-5 with a trajectory. -/
noncomputable def writePos (t : ℝ) (l : RowLink σ) (k : RowTaskLink) (o : ℕ) (f : List ℝ) : Option (List ℝ) :=
  if k.posSet ∧ k.pd.mode ≤ 5 then writeVec f o (k.pd.posPD t (posArgs l k).1 (posArgs l k).2) else some f

/-- The rotation part: modes 0-2 at rows 3-5, modes 6, 7 at rows 0-2. -/
noncomputable def writeRot (t : ℝ) (l : RowLink σ) (k : RowTaskLink) (o : ℕ) (f : List ℝ) : Option (List ℝ) :=
  if k.rotSet ∧ k.pd.mode ≤ 2 then writeVec f (o + 3) (k.pd.rotPD t l.rotm l.w)
  else if k.rotSet ∧ (k.pd.mode = 6 ∨ k.pd.mode = 7) then writeVec f o (k.pd.rotPD t l.rotm l.w)
  else some f

/-- src/dwbc.cpp 702-705: the Jacobian of the link is refreshed unless it is the base or "COM". -/
def refreshLink (links : List (RowLink σ)) (k : ℕ) : Option (List (RowLink σ)) :=
  match links[k]? with
  | none => none
  | some l =>
    if !l.isCom && k != 0 then
      match l.updateJac with
      | none => none
      | some l' => some (links.set k l')
    else some links

/-- src/dwbc.cpp 700-789: the loop over the task links; `o` is `task_cum_dof`. -/
noncomputable def taskLoop (t : ℝ) (custom : Bool) :
    List RowTaskLink → ℕ → List (RowLink σ) → List (σ → ℝ) → List ℝ →
      Option (List (RowLink σ) × List (σ → ℝ) × List ℝ)
  | [], _, links, J, f => some (links, J, f)
  | k :: ks, o, links, J, f =>
    match refreshLink links k.link with
    | none => none
    | some links =>
      if custom then taskLoop t custom ks o links J f
      else
        match links[k.link]? with
        | none => none
        | some l =>
          match modeDof k.pd.mode, jacRows l k with
          | some d, some r =>
            match writeBlock J o r, (writePos t l k o f).bind (writeRot t l k o) with
            | some J, some f => taskLoop t custom ks (o + d) links J f
            | _, _ => none
          | _, _ => none

/-- src/dwbc.cpp 692-791: one task. -/
noncomputable def updateRowTask (t : ℝ) (links : List (RowLink σ)) (T : RowTask σ) :
    Option (List (RowLink σ) × RowTask σ) :=
  if T.links = [] then some (links, T)
  else
    match T.dof with
    | none => none
    | some d =>
      match taskLoop t T.custom T.links 0 links (List.replicate d 0) T.f with
      | none => none
      | some (links, J, f) => some (links, { T with J := J, f := f })

/-- The loop over the tasks. -/
noncomputable def updateRowTasks (t : ℝ) : List (RowLink σ) → List (RowTask σ) →
    Option (List (RowLink σ) × List (RowTask σ))
  | links, [] => some (links, [])
  | links, T :: Ts =>
    match updateRowTask t links T with
    | none => none
    | some (links, T) =>
      match updateRowTasks t links Ts with
      | none => none
      | some (links, Ts) => some (links, T :: Ts)

/-- src/dwbc.cpp 685-793 `UpdateTaskSpace`: the base Jacobian first. -/
noncomputable def updateTaskSpace (t : ℝ) (links : List (RowLink σ)) (ts : List (RowTask σ)) :
    Option (List (RowLink σ) × List (RowTask σ)) :=
  match links[0]? with
  | none => none
  | some l =>
    match l.updateJac with
    | none => none
    | some l => updateRowTasks t (links.set 0 l) ts

end Verif.Model
