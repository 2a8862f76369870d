import Verif.Model.LinkMod
import Verif.Model.QPControl

/-!
# Torque limits and joint count over the life of a robot object (src/dwbc.cpp 87-90, 135-142, 254-277, 2161-2162, 2350)
-/

namespace Verif.Model

variable {J : Type*}

/-- The members concerned: the model with its modifications, `is_floating_`, `model_dof_`, `torque_limit_set_`, `torque_limit_`. -/
structure LimitRobot (J : Type*) where
  r : ModRobot J
  floating : Bool
  modelDof : ℕ
  limitSet : Bool
  limit : List ℝ

/-- A call: `SetTorqueLimit`, a modification of the model, or loading a model (`floating`, the loaded model). -/
inductive LimitOp (J : Type*)
  | setLimit (v : List ℝ)
  | modify (op : ModOp)
  | load (floating : Bool) (fresh : ModRobot J)

/-- Whether a completed modification went through `InitAfterModelMod` (src/dwbc.cpp 2030, 2110, 2123, 2144; `DeleteLink` of an unknown
name and `AddLink` with an unknown joint type do not, nor does `ChangeLinkInertia`). -/
def reinits (r : ModRobot J) : ModOp → Bool
  | .delete name => (r.find name).isSome
  | .add _ _ .other _ => false
  | .add _ _ _ _ => true
  | .toFixed _ => true
  | .inertia _ _ => false

/-- One call; `none` is undefined behaviour, also a vector of negative size (src/dwbc.cpp 2162, 2346: `model_dof_` is `system_dof_ - 6`
whether the base floats or not). -/
noncomputable def LimitRobot.step (s : LimitRobot J) : LimitOp J → Option (LimitRobot J)
  | .setLimit v => some { s with limitSet := true, limit := v }
  | .modify op =>
    match s.r.step op with
    | none => none
    | some r' =>
      if reinits s.r op then
        if 6 ≤ r'.dofCount then
          some { s with r := r', modelDof := r'.dofCount - 6, limit := List.replicate (r'.dofCount - 6) 0 }
        else none
      else some { s with r := r' }
  | .load floating fresh =>
    if floating = true → 6 ≤ fresh.dofCount then
      let d := if floating then fresh.dofCount - 6 else fresh.dofCount
      some { s with r := reload s.r fresh, floating := floating, modelDof := d, limit := List.replicate d 0 }
    else none

noncomputable def LimitRobot.run (s : LimitRobot J) : List (LimitOp J) → Option (LimitRobot J)
  | [] => some s
  | op :: ops => match s.step op with
    | none => none
    | some s' => s'.run ops

/-- The limit QP control of `n = model_dof_` joints works with (src/dwbc.cpp 956-962, 1001-1015): outer `none` when a limit is set whose
size is not `n`, which only prints a message and then subtracts vectors of different sizes. -/
def LimitRobot.limitFor (s : LimitRobot J) (n : ℕ) : Option (Option (Fin n → ℝ)) :=
  if s.limitSet then
    if h : s.limit.length = n then some (some fun j => s.limit[j]) else none
  else some none

/-- A robot object before anything was loaded (src/dwbc.cpp 87-90). -/
def newRobot (J : Type*) : LimitRobot J where
  r := {
    links := [], joints := [], totalMass := 0, bodies := [], names := [], fixedParents := [], dofCount := 0, ts := [], qpTasks := 0
    cc := [] }
  floating := false
  modelDof := 0
  limitSet := false
  limit := []

end Verif.Model
