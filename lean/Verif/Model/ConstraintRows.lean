import Mathlib.Data.Matrix.Basic
import Mathlib.Data.Real.Basic
import Mathlib.LinearAlgebra.Matrix.Notation

/-!
# Contact constraint rows (src/wbd.cpp 59-97, src/contact_constraint.cpp, src/dwbc.cpp 480-513)
-/

namespace Verif.Model
open Matrix

/-- src/wbd.cpp 59-76 `GetZMPConstMatrix`. -/
def zmpConst (lx ly : ℝ) : Matrix (Fin 4) (Fin 6) ℝ :=
  !![0, 0, -lx, 0, -1, 0;
     0, 0, -lx, 0, 1, 0;
     0, 0, -ly, -1, 0, 0;
     0, 0, -ly, 1, 0, 0]

/-- src/wbd.cpp 77-97 `GetForceConstMatrix`. -/
def forceConst (μ μz : ℝ) : Matrix (Fin 6) (Fin 6) ℝ :=
  !![1, 0, -μ, 0, 0, 0;
     -1, 0, -μ, 0, 0, 0;
     0, 1, -μ, 0, 0, 0;
     0, -1, -μ, 0, 0, 0;
     0, 0, -μz, 0, 0, 1;
     0, 0, -μz, 0, 0, -1]

/-- include/dwbc_contact_constraint.h 20-26 `CONTACT_TYPE`. -/
inductive ContactType where
  | c6d | point | link | line
  deriving DecidableEq

/-- The fields of `ContactConstraint` that the constraint matrices use
(include/dwbc_contact_constraint.h 33-66). -/
structure ContactLink where
  type : ContactType
  contact : Bool
  rotm : Matrix (Fin 3) (Fin 3) ℝ
  planeX : ℝ
  planeY : ℝ
  friction : ℝ
  frictionZ : ℝ

/-- src/contact_constraint.cpp 19-34: `contact_dof_`; `none` is an uninitialised member. -/
def ContactType.dof : ContactType → Option ℕ
  | .c6d => some 6
  | .line => some 5
  | .point => some 3
  | .link => none

/-- src/contact_constraint.cpp 19-34: `constraint_number_`; `none` is an uninitialised member. -/
def ContactType.constraints : ContactType → Option ℕ
  | .c6d => some 10
  | .line => some 10
  | .point => some 6
  | .link => none

/-- An Eigen matrix of dynamic size.  Entries outside the size are irrelevant. -/
structure DynMat where
  rows : ℕ
  cols : ℕ
  at' : ℕ → ℕ → ℝ

namespace DynMat

/-- `setZero(r, c)` -/
def zero (r c : ℕ) : DynMat := ⟨r, c, fun _ _ => 0⟩

/-- A fixed-size matrix. -/
def ofMatrix {r c : ℕ} (M : Matrix (Fin r) (Fin c) ℝ) : DynMat :=
  ⟨r, c, fun i j => if h : i < r ∧ j < c then M ⟨i, h.1⟩ ⟨j, h.2⟩ else 0⟩

/-- `M.block(i, j, B.rows(), B.cols()) = B`; `none` is an out-of-range block (assertion failure, or memory
corruption with `NDEBUG`). -/
def setBlock (M : DynMat) (i j : ℕ) (B : DynMat) : Option DynMat :=
  if i + B.rows ≤ M.rows ∧ j + B.cols ≤ M.cols then
    some { M with at' := fun r c =>
      if i ≤ r ∧ r < i + B.rows ∧ j ≤ c ∧ c < j + B.cols then B.at' (r - i) (c - j) else M.at' r c }
  else none

/-- The matrix as a typed matrix. -/
def toMatrix (M : DynMat) (r c : ℕ) : Matrix (Fin r) (Fin c) ℝ := Matrix.of fun i j => M.at' i j

end DynMat

/-- One pass of the loop filling `A_const_a` and `A_rot` (src/dwbc.cpp 492-508, the same loop as 1012-1026,
1187-1201 and 1500-1514), over the remaining contacts, at offsets `const_idx`, `contact_idx`.
`none` is undefined behaviour: block out of range, or an uninitialised size. -/
def fillRows : List ContactLink → ℕ → ℕ → DynMat → DynMat → Option (DynMat × DynMat)
  | [], _, _, Aconst, Arot => some (Aconst, Arot)
  | l :: rest, ci, fi, Aconst, Arot =>
    if l.contact then do
      let R1 ← Arot.setBlock fi fi (.ofMatrix l.rotmᵀ)
      let R2 ← R1.setBlock (fi + 3) (fi + 3) (.ofMatrix l.rotmᵀ)
      let C1 ← Aconst.setBlock ci fi (.ofMatrix (zmpConst l.planeX l.planeY))
      let C2 ← C1.setBlock (ci + 4) fi (.ofMatrix (forceConst l.friction l.frictionZ))
      let nc ← l.type.constraints
      let nd ← l.type.dof
      fillRows rest (ci + nc) (fi + nd) C2 R2
    else fillRows rest ci fi Aconst Arot

/-- The contacts with `contact == true`, in registration order. -/
def active (cs : List ContactLink) : List ContactLink := cs.filter (·.contact)

/-- `total_contact_dof` (src/dwbc.cpp 967-975): sum over active contacts. -/
def totalDof : List ContactLink → Option ℕ
  | [] => some 0
  | l :: rest => if l.contact then do let a ← l.type.dof; let b ← totalDof rest; pure (a + b) else totalDof rest

/-- `contact_constraint_size` (src/dwbc.cpp 967-975): sum over active contacts. -/
def totalConstraints : List ContactLink → Option ℕ
  | [] => some 0
  | l :: rest =>
    if l.contact then do let a ← l.type.constraints; let b ← totalConstraints rest; pure (a + b)
    else totalConstraints rest

/-- src/dwbc.cpp 967-1026: sizes, then `A_const_a` and `A_rot`. -/
def constraintMats (cs : List ContactLink) : Option (DynMat × DynMat) := do
  let c ← totalDof cs
  let n ← totalConstraints cs
  fillRows cs 0 0 (.zero n c) (.zero c c)

/-- src/dwbc.cpp 480-513 `getContactConstraintMatrix`: `-A_const_a * A_rot`, with `10 * contact_link_num_` rows.
`contact_link_num_` and `contact_dof_` are those of the active contacts (set by `SetContact`). -/
def getContactConstraintMatrix (cs : List ContactLink) : Option ((n c : ℕ) × Matrix (Fin n) (Fin c) ℝ) := do
  let c ← totalDof cs
  let n := 10 * (active cs).length
  let M ← fillRows cs 0 0 (.zero n c) (.zero c c)
  pure ⟨n, c, -(M.1.toMatrix n c * M.2.toMatrix c c)⟩

/-- src/contact_constraint.cpp 119-126 `GetContactConstMatrix`. -/
def contactConst (l : ContactLink) : Matrix (Fin 10) (Fin 6) ℝ := Matrix.of fun r c =>
  if h : r.val < 4 then zmpConst l.planeX l.planeY ⟨r, h⟩ c
  else forceConst l.friction l.frictionZ ⟨r - 4, by omega⟩ c

end Verif.Model
