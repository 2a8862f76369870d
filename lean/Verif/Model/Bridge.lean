import Verif.Spec.Bridge
import Mathlib.Logic.Function.Basic
import Mathlib.Data.List.OfFn
import Mathlib.Algebra.Group.Pi.Basic

/-!
# Python bridge (src/pybind/rl_wbc_bridge.cpp)

The controller itself is a parameter.  The narrowing of the torque command to `float` is not modelled.
-/

namespace Verif.Model
open Verif.Spec

/-- `ptr[i]` of `request().ptr`: consecutive memory, no length check.  (`py::array_t<double>` converts the element type but
does not copy a strided array into a contiguous one.)  Reading past the end of a contiguous array is undefined: `none`. -/
def rawRead (a : NumpyArray) (i : ℕ) : Option ℝ :=
  if i < a.size ∨ a.stride ≠ 1 then some (a.mem (a.start + i)) else none

/-- `v(i) = x` for a vector of length `m`; out of range is undefined. -/
def writeAt {m : ℕ} (v : Fin m → ℝ) (i : ℕ) (x : Option ℝ) : Option (Fin m → ℝ) :=
  match x with
  | none => none
  | some x => if h : i < m then some (Function.update v ⟨i, h⟩ x) else none

/-- The loop of src/pybind/rl_wbc_bridge.cpp 95-98, from `j` on, `k` iterations left. -/
def copyJoints {m : ℕ} (p : NumpyArray) : (k j : ℕ) → (Fin m → ℝ) → Option (Fin m → ℝ)
  | 0, _, v => some v
  | k + 1, j, v => (writeAt v (j + 6) (rawRead p (j + 7))).bind (copyJoints p k (j + 1))

/-- src/pybind/rl_wbc_bridge.cpp 82-98: new contents of the member `q` (previously `q0`).  `system_dof_ = n + 6`,
`model_dof_ = n`, and `q` has `n + 7` entries. -/
def bridgeQ {n : ℕ} (q0 : Fin (n + 7) → ℝ) (p : NumpyArray) : Option (Fin (n + 7) → ℝ) :=
  (writeAt q0 0 (rawRead p 0)).bind fun v =>
  (writeAt v 1 (rawRead p 1)).bind fun v =>
  (writeAt v 2 (rawRead p 2)).bind fun v =>
  (writeAt v 3 (rawRead p 4)).bind fun v =>
  (writeAt v 4 (rawRead p 5)).bind fun v =>
  (writeAt v 5 (rawRead p 6)).bind fun v =>
  (writeAt v (n + 6) (rawRead p 3)).bind fun v =>
  copyJoints p n 0 v

/-- The three torques the controller keeps. -/
structure Torques (ι : Type) where
  grav : ι → ℝ
  task : ι → ℝ
  contact : ι → ℝ

/-- The robot as the bridge uses it: `CalcGravCompensation()`, `CalcTaskControlTorque(hqp)` and
`CalcContactRedistribute(hqp)` with default further arguments, and the other calls that change its state. -/
structure Controller (ι σ : Type) where
  torques : σ → Torques ι
  gravity : σ → σ
  task : Bool → σ → σ
  redistribute : Bool → σ → σ

/-- Members of `RlWBCBridge`. -/
structure Bridge (σ : Type) where
  robot : σ
  taskInit : Bool

/-- Calls on the bridge; `robot` stands for `UpdateKinematics`, `SetContact`, `SetTaskSpace`. -/
inductive BridgeOp (σ : Type) where
  | robot (f : σ → σ)
  | calcTorque
  | reset

/-- src/pybind/rl_wbc_bridge.cpp 123-129 (`CalcTorque`) and 141-144 (`Reset`). -/
def Bridge.step {ι σ : Type} (c : Controller ι σ) (b : Bridge σ) : BridgeOp σ → Bridge σ
  | .robot f => { b with robot := f b.robot }
  | .calcTorque =>
    let ti := false
    { robot := c.redistribute ti (c.task ti (c.gravity b.robot)), taskInit := ti }
  | .reset => { b with taskInit := true }

def Bridge.run {ι σ : Type} (c : Controller ι σ) (b : Bridge σ) (ops : List (BridgeOp σ)) : Bridge σ :=
  ops.foldl (Bridge.step c) b

/-- src/pybind/rl_wbc_bridge.cpp 131-139 `getTorqueCommand` -/
def Bridge.command {ι σ : Type} (c : Controller ι σ) (b : Bridge σ) : ι → ℝ :=
  (c.torques b.robot).grav + (c.torques b.robot).task + (c.torques b.robot).contact

end Verif.Model
