import Verif.Model.TaskRegistry
import Mathlib.Tactic.NormNum

/-!
# Making the Python bridge (src/pybind/rl_wbc_bridge.cpp 7-46, src/dwbc.cpp 102-123)

`none` is undefined behaviour or, with assertions compiled in, a failed assertion.
-/

namespace Verif.Model

/-- Eigen 3.3 `CommaInitializer` on a column vector: the vector and `m_row`. -/
structure Comma where
  vec : List ℝ
  row : ℕ

/-- `CommaInitializer::operator,(Scalar)`: with one column every value starts a new row; its bound is only asserted, and the write
behind the end is undefined. -/
def Comma.next (s : Comma) (x : ℝ) : Option Comma :=
  if s.row + 1 < s.vec.length then some ⟨s.vec.set (s.row + 1) x, s.row + 1⟩ else none

/-- `v << x, xs...;` (`operator<<`, `operator,`, and `finished` in the destructor, which asserts that the vector is full). -/
def commaInit (asserts : Bool) (v : List ℝ) (x : ℝ) (xs : List ℝ) : Option (List ℝ) :=
  if 0 < v.length then
    match xs.foldlM Comma.next ⟨v.set 0 x, 0⟩ with
    | none => none
    | some s => if asserts && s.row + 1 != s.vec.length then none else some s.vec
  else none

/-- src/pybind/rl_wbc_bridge.cpp 23-29: the values behind the first, row by row as in the source. -/
noncomputable def startValues : List ℝ :=
  [0, 0.92983, 0, 0, 0] ++
  [0, 0, -0.24, 0.6, -0.36, 0] ++
  [0, 0, -0.24, 0.6, -0.36, 0] ++
  [0, 0, 0] ++
  [0.3, 0.3, 1.5, -1.27, -1, 0, -1, 0] ++
  [0, 0] ++
  [-0.3, -0.3, -1.5, 1.27, 1, 0, 1, 0, 1]

/-- The members of `RlWBCBridge` after construction: `rd_` (contacts and stored state, tasks, torque limit), `q`,
`calculated_command_`. -/
structure BridgeObject (n : ℕ) where
  robot : Robot (n + 6)
  tasks : TaskReg
  limit : List ℝ
  q : List ℝ
  command : List ℝ

/-- `Vector3d(0.03, 0, -0.1585)` -/
noncomputable def bridgeFoot : Fin 3 → ℝ := ![0.03, 0, -0.1585]

/-- src/pybind/rl_wbc_bridge.cpp 7-46.  `LoadModelData(urdf, true, false)` (src/dwbc.cpp 102-123) gives a floating-base model with `n`
joints and the link table `links`; then `q_size = n + 7`, `qdot_size = n + 6`, `model_dof_ = n`.  `TASK_LINK_6D` is 0,
`TASK_LINK_ROTATION` is 6.  Simplified: the sizes 0.15 and 0.075 and the normal of the feet are not part of the registry (C27). -/
noncomputable def bridgeNew (asserts : Bool) (n : ℕ) (links : List (String × ℕ)) : Option (BridgeObject n) :=
  match commaInit asserts (List.replicate (n + 7) 0) 0 startValues with
  | none => none
  | some q =>
    let r := (Robot.loaded (n + 6) links (n + 7)).updateKinematics q (List.replicate (n + 6) 0) (List.replicate (n + 6) 0) true
    match r.addByNumber 6 .c6d bridgeFoot with
    | none => none
    | some r =>
      match r.addByNumber 12 .c6d bridgeFoot with
      | none => none
      | some r =>
        let t := (TaskReg.loaded (links.map Prod.fst)).addNumber 0 0 0 0
        let t := t.addNumber 1 6 15 0
        some ⟨r, t, List.replicate n 300, q, List.replicate n 0⟩

end Verif.Model
