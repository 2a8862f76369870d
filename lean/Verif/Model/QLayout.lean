import Mathlib.Data.List.Basic
import Mathlib.Algebra.BigOperators.Group.List.Basic
import Mathlib.Algebra.Order.Group.Nat

/-!
# Where the joints find their coordinates, while bodies are added and deleted (src/dwbc.cpp 1850-1869, 1911-1965)

The bookkeeping of the RBDL model that `DeleteLink` redoes by hand: `mJoints[i].q_index`, `multdof3_w_index[i]`, `dof_count`,
`q_size`, `qdot_size`, `lambda_q`, `mJointUpdateOrder`.  Of RBDL, `Model::Model()` and `Model::AddBody` are modelled for it.
-/

namespace Verif.Model

/-- `mJoints[i]` with `multdof3_w_index[i]` (the two vectors are always erased at the same place).  `kind`: `mJointType`. -/
structure QJoint where
  kind : ℕ
  dof : ℕ
  q : ℕ
  w : ℕ

/-- `JointTypeSpherical`: three velocities, four coordinates; the last is kept behind all others. -/
def spherical : ℕ := 4

def QJoint.isSph (j : QJoint) : Bool := j.kind == spherical

/-- `joints` without the root's entry at number 0 (no degree of freedom, never spherical, never deleted): body `i + 1` is
`joints[i]`. -/
structure QModel where
  joints : List QJoint
  dofCount : ℕ
  qSize : ℕ
  qdotSize : ℕ
  lambdaQ : List ℕ

/-- RBDL `Model::Model()`. -/
def QModel.empty : QModel := ⟨[], 0, 0, 0, [0]⟩

/-- RBDL `AddBody` and src/dwbc.cpp 1857-1864: the places of the fourth coordinates. -/
def assignW : ℕ → List QJoint → List QJoint
  | _, [] => []
  | k, j :: js => if j.isSph then { j with w := k } :: assignW (k + 1) js else j :: assignW k js

/-- Number of spherical joints (`multdof3_joint_counter`). -/
def sphCount (js : List QJoint) : ℕ := js.countP QJoint.isSph

/-- RBDL `AddBody` on a movable joint: coordinates behind those of the body added last. -/
def QModel.addBody (m : QModel) (kind dof : ℕ) : QModel :=
  let q := match m.joints.getLast? with
    | none => 0
    | some j => j.q + j.dof
  let js := m.joints ++ [⟨kind, dof, q, 0⟩]
  let n := m.dofCount + dof
  { joints := assignW n js
    dofCount := n
    qSize := n + sphCount js
    qdotSize := m.qdotSize + dof
    lambdaQ := m.lambdaQ ++ (List.range dof).map (q + ·) }

/-- src/dwbc.cpp 1922-1925: entries are erased at `q + i` while the vector shrinks.  `none`: `erase` at or behind the end. -/
def eraseLambda (q : ℕ) : ℕ → ℕ → List ℕ → Option (List ℕ)
  | _, 0, l => some l
  | i, n + 1, l => if q + i < l.length then eraseLambda q (i + 1) n (l.eraseIdx (q + i)) else none

/-- src/dwbc.cpp 1818-1947 `DeleteLink`, the bookkeeping of the coordinates for body `d + 1`.  The fourth coordinates are placed
before the joint is erased (1857-1864). -/
def QModel.deleteBody (m : QModel) (d : ℕ) : Option QModel :=
  match m.joints[d]? with
  | none => none
  | some j =>
    let n := m.dofCount - j.dof
    let js := assignW n m.joints
    match eraseLambda j.q 0 j.dof m.lambdaQ with
    | none => none
    | some lq =>
      some { joints := (js.map fun k => { k with q := if j.q < k.q then k.q - j.dof else k.q }).eraseIdx d
             dofCount := n
             qSize := n + sphCount m.joints
             qdotSize := m.qdotSize - j.dof
             lambdaQ := lq.map fun v => if j.q < v then v - j.dof else v }

/-- What happens to the RBDL model in `AddLink` (once for a revolute joint, six times for a 6-DoF joint, not at all for a fixed
one) and in `DeleteLink` (once for every link below, then for the link). -/
inductive QOp
  | add (kind dof : ℕ)
  | delete (d : ℕ)

def QModel.step (m : QModel) : QOp → Option QModel
  | .add kind dof => some (m.addBody kind dof)
  | .delete d => m.deleteBody d

def QModel.run (m : QModel) : List QOp → Option QModel
  | [] => some m
  | op :: ops => match m.step op with
    | none => none
    | some m' => m'.run ops

/-- src/dwbc.cpp 1952-1983: `mJointUpdateOrder`, all joints of the type of the first, then all of the type of the first of the
others, and so on.  Every round takes at least one entry, so `types.length` rounds are enough. -/
def updateOrder : ℕ → List (ℕ × ℕ) → List ℕ
  | 0, _ => []
  | _ + 1, [] => []
  | fuel + 1, e :: es =>
    ((e :: es).filter fun x => x.1 == e.1).map (·.2) ++ updateOrder fuel ((e :: es).filter fun x => !(x.1 == e.1))

/-- src/dwbc.cpp 1949-1957: the list of types, the root first (`rootKind`: type of the root's entry). -/
def QModel.order (m : QModel) (rootKind : ℕ) : List ℕ :=
  let types := (rootKind :: m.joints.map (·.kind)).zipIdx
  updateOrder types.length types

end Verif.Model
