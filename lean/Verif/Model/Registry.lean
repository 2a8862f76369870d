import Verif.Model.ConstraintRows
import Mathlib.Data.List.Basic

/-!
# Contact registry and stored state of a `RobotData` (src/dwbc.cpp 254-454, include/dwbc.h 432-474)

The calls are operations of a state machine.  `none` is undefined behaviour (index out of range, read of an
uninitialised member, failed Eigen assertion).
-/

set_option linter.unusedSectionVars false

namespace Verif.Model
open Matrix

/-- The part of RBDL the registry calls: `CalcPointJacobian6D` of a body at a point, at the configuration held in the RBDL
model (`none` before the first `UpdateKinematicsCustom`), angular rows first. -/
structure Rbdl (n : ℕ) where
  pointJacobian6D : Option (List ℝ) → ℕ → (Fin 3 → ℝ) → Matrix (Fin 6) (Fin n) ℝ

/-- `ContactConstraint` (include/dwbc_contact_constraint.h 33-66).  `flag` is the member `contact`: `none` is
uninitialised.  `jac` holds the rows of `j_contact`. -/
structure Contact (n : ℕ) where
  link : ℕ
  body : ℕ
  type : ContactType
  point : Fin 3 → ℝ
  flag : Option Bool
  jac : List (Fin n → ℝ)

/-- The members of `RobotData` concerned.  `links` are the names and RBDL ids of `link_` (the centre of mass entry
included).  `contactDof`, `contactNum`: `none` is uninitialised.  `jc` holds the rows of `J_C`. -/
structure Robot (n : ℕ) where
  links : List (String × ℕ)
  qSize : ℕ
  cc : List (Contact n)
  contactDof : Option ℕ
  contactNum : Option ℕ
  jc : List (Fin n → ℝ)
  q : List ℝ
  qdot : List ℝ
  qddot : List ℝ
  cache : Option (List ℝ)

namespace Robot
variable {n : ℕ}

/-- src/dwbc.cpp 125-277: after loading a model.  `contact_dof_` and `contact_link_num_` are not set there. -/
def loaded (n : ℕ) (links : List (String × ℕ)) (qSize : ℕ) : Robot n :=
  { links := links, qSize := qSize, cc := [], contactDof := none, contactNum := none, jc := []
    q := List.replicate qSize 0, qdot := List.replicate n 0, qddot := List.replicate n 0, cache := none }

/-- `strcasecmp(a, b) == 0` in the C locale. -/
def strcaseEq (a b : String) : Bool := a.toList.map Char.toLower == b.toList.map Char.toLower

/-- src/contact_constraint.cpp 9-45: the constructor; `j_contact` is 6 x qdot_size zeros and `contact` is not set. -/
def newContact (link body : ℕ) (type : ContactType) (point : Fin 3 → ℝ) : Contact n :=
  { link := link, body := body, type := type, point := point, flag := none, jac := List.replicate 6 0 }

/-- src/dwbc.cpp 377-393: duplicates are refused, then `link_[link_number]` is read without a bounds check. -/
def addByNumber (s : Robot n) (link : ℤ) (type : ContactType) (point : Fin 3 → ℝ) : Option (Robot n) :=
  if s.cc.any (fun c => (c.link : ℤ) == link) then some s
  else if link < 0 then none
  else match s.links[link.toNat]? with
    | none => none
    | some (_, body) => some { s with cc := s.cc ++ [newContact link.toNat body type point] }

/-- src/dwbc.cpp 394-427: first link whose name agrees up to case, else nothing happens. -/
def addByName (s : Robot n) (name : String) (type : ContactType) (point : Fin 3 → ℝ) : Option (Robot n) :=
  match s.links.findIdx? (fun l => strcaseEq l.1 name) with
  | none => some s
  | some k =>
    if s.cc.any (fun c => c.link == k) then some s
    else match s.links[k]? with
      | none => none
      | some (_, body) => some { s with cc := s.cc ++ [newContact k body type point] }

/-- src/dwbc.cpp 428-431 -/
def clearContacts (s : Robot n) : Robot n := { s with cc := [] }

/-- src/contact_constraint.cpp 51-77 `Update`, the Jacobian: for a 6-D contact the six rows with the linear ones moved
on top; for the line and link types nothing; for a point contact a 3-row matrix is handed to `CalcPointJacobian6D`. -/
def updateContact (W : Rbdl n) (cfg : Option (List ℝ)) (c : Contact n) : Option (Contact n) :=
  match c.type with
  | .c6d =>
    let g := W.pointJacobian6D cfg c.body c.point
    some { c with jac := [g 3, g 4, g 5, g 0, g 1, g 2] }
  | .line => some c
  | .link => some c
  | .point => none

/-- `J_C.block(k, 0, rows, system_dof_) = rows` -/
def setRows (jc : List (Fin n → ℝ)) (k : ℕ) (rows : List (Fin n → ℝ)) : Option (List (Fin n → ℝ)) :=
  if k + rows.length ≤ jc.length then some (jc.take k ++ rows ++ jc.drop (k + rows.length)) else none

/-- src/dwbc.cpp 445-453: the loop that writes the Jacobians of the active contacts one below the other. -/
def fillJc : List (Contact n) → ℕ → List (Fin n → ℝ) → Option (List (Fin n → ℝ))
  | [], _, jc => some jc
  | c :: rest, k, jc =>
    match c.flag with
    | none => none
    | some false => fillJc rest k jc
    | some true =>
      match c.type.dof with
      | none => none
      | some d =>
        if c.jac.length = d then
          match setRows jc k c.jac with
          | none => none
          | some jc' => fillJc rest (k + d) jc'
        else none

/-- src/dwbc.cpp 433-454 `UpdateContactConstraint`. -/
def updateContacts (W : Rbdl n) (s : Robot n) : Option (Robot n) :=
  match s.cc.mapM (updateContact W s.cache), s.contactDof with
  | some cc, some d =>
    let jc := if s.jc.length = d then s.jc else List.replicate d 0
    match fillJc cc 0 jc with
    | none => none
    | some jc => some { s with cc := cc, jc := jc }
  | _, _ => none

/-- include/dwbc.h 447-459: `contact_dof` is accumulated over the flags that are true. -/
def sumDof : List (Contact n) → List Bool → Option ℕ
  | c :: cs, true :: v => match c.type.dof, sumDof cs v with
    | some a, some b => some (a + b)
    | _, _ => none
  | _ :: cs, false :: v => sumDof cs v
  | _, _ => some 0

/-- include/dwbc.h 447-470: the flags given, then `false` for the remaining contacts. -/
def setFlags : List (Contact n) → List Bool → List (Contact n)
  | [], _ => []
  | c :: cs, [] => { c with flag := some false } :: setFlags cs []
  | c :: cs, b :: v => { c with flag := some b } :: setFlags cs v

/-- include/dwbc.h 432-474 `SetContact`. -/
def setContact (W : Rbdl n) (s : Robot n) (v : List Bool) : Option (Robot n) :=
  if s.cc.length < v.length then updateContacts W s
  else match sumDof s.cc v with
    | none => none
    | some d => updateContacts W { s with cc := setFlags s.cc v, contactDof := some d, contactNum := some (v.count true) }

/-- src/dwbc.cpp 279-304 `UpdateKinematics`: the three size checks and the stored state.  The rest of the function does not
change the members modelled here. -/
def updateKinematics (s : Robot n) (q qdot qddot : List ℝ) (update : Bool) : Robot n :=
  if s.qSize ≠ q.length then s
  else if n ≠ qdot.length then s
  else if n ≠ qddot.length then s
  else { s with q := q, qdot := qdot, qddot := qddot, cache := if update then some q else s.cache }

end Robot

/-- The calls a user can make. -/
inductive ContactCall where
  | addByNumber (link : ℤ) (type : ContactType) (point : Fin 3 → ℝ)
  | addByName (name : String) (type : ContactType) (point : Fin 3 → ℝ)
  | clear
  | setContact (flags : List Bool)
  | updateContacts
  | updateKinematics (q qdot qddot : List ℝ) (update : Bool)
  /-- src/dwbc.cpp 372-375: `UpdateKinematics(bool)` -/
  | refresh (update : Bool)

namespace Robot
variable {n : ℕ}

/-- One call. -/
def call (W : Rbdl n) (s : Robot n) : ContactCall → Option (Robot n)
  | .addByNumber l t p => s.addByNumber l t p
  | .addByName m t p => s.addByName m t p
  | .clear => some s.clearContacts
  | .setContact v => s.setContact W v
  | .updateContacts => s.updateContacts W
  | .updateKinematics q qd qdd u => some (s.updateKinematics q qd qdd u)
  | .refresh u => some (s.updateKinematics s.q s.qdot s.qddot u)

/-- A history of calls. -/
def calls (W : Rbdl n) (s : Robot n) : List ContactCall → Option (Robot n)
  | [] => some s
  | c :: cs => match s.call W c with
    | none => none
    | some s' => s'.calls W cs

end Robot

/-- The contacts with flag `true`, in registration order. -/
def activeContacts {n : ℕ} (cc : List (Contact n)) : List (Contact n) := cc.filter fun c => c.flag == some true

/-- The calls between two registrations. -/
def KeepsRegistry : ContactCall → Prop
  | .setContact _ | .updateContacts | .updateKinematics _ _ _ _ | .refresh _ => True
  | _ => False

end Verif.Model
