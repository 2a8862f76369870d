import Verif.Model.Registry
import Mathlib.Data.Real.Basic

/-!
# Modifying a loaded model (src/dwbc.cpp 1764-2382, 2384-2395, 2707-2731)

`none` is undefined behaviour: an index outside a vector, or RBDL aborting on a duplicate body name.  Of the RBDL model the
masses, parents, children and degrees of freedom of the movable bodies, the body name map and the parents of the fixed
bodies are kept; the numerical members erased alongside (`X_T`, `I`, `S`, ...) are indexed by the same body id.
-/

namespace Verif.Model

/-- The members of a `Link` concerned (include/dwbc_link.h 40-93). -/
structure MLink where
  name : String
  linkId : ℕ
  bodyId : ℕ
  parent : ℕ
  children : List ℕ
  mass : ℝ

/-- A movable RBDL body: `mBodies[i].mMass`, `lambda[i]`, `mu[i]`, `mJoints[i].mDoFCount`. -/
structure RbdlBody where
  mass : ℝ
  lambda : ℕ
  mu : List ℕ
  dof : ℕ

/-- A task space: `heirarchy_` and the `link_id_` of its task links. -/
structure MTask where
  level : ℕ
  links : List ℕ

/-- A contact: `link_number_`, `rbdl_body_id_`. -/
structure MContact where
  link : ℕ
  body : ℕ
deriving DecidableEq

/-- The members of `RobotData` and of its RBDL model concerned.  `links` is `link_` without the trailing "COM" entry (whose
mass is overwritten with the total mass and which has no parent or children).  `J`: joint records. -/
structure ModRobot (J : Type*) where
  links : List MLink
  joints : List J
  totalMass : ℝ
  bodies : List RbdlBody
  names : List (String × ℕ)
  fixedParents : List ℕ
  dofCount : ℕ
  ts : List MTask
  qpTasks : ℕ
  cc : List MContact

variable {J : Type*}

/-- A number greater than the deleted one goes down by one. -/
def lower (d k : ℕ) : ℕ := if d < k then k - 1 else k

/-- RBDL `fixed_body_discriminator`: half of the largest unsigned int. -/
def fixedDiscriminator : ℕ := 2147483647

/-- RBDL `GetBodyId`: the entry of the name map (`none`: the largest unsigned int). -/
def ModRobot.bodyIdOf (r : ModRobot J) (name : String) : Option ℕ := (r.names.find? fun e => e.1 == name).map (·.2)

/-- src/dwbc.cpp 1818-1998: the body is removed from the RBDL model and from the name map. -/
def eraseBody (r : ModRobot J) (name : String) : Option (ModRobot J) :=
  match r.bodyIdOf name with
  | none => none
  | some d =>
    match r.bodies[d]? with
    | none => none
    | some b =>
      some { r with
        bodies := ((r.bodies.modify b.lambda fun p => { p with mu := p.mu.erase d }).map fun p =>
          { p with lambda := lower d p.lambda, mu := p.mu.map (lower d) }).eraseIdx d
        dofCount := r.dofCount - b.dof
        fixedParents := r.fixedParents.map (lower d)
        names := (r.names.filter fun e => e.1 != name).map fun e => (e.1, lower d e.2) }

/-- src/dwbc.cpp 2209-2222: the nested loops over tasks `i` and task links `j`.  An erased task is replaced by its
successor while `j` goes on, so `ts_[i]` may lie behind the end.  Every round raises `j` or `i`. -/
def taskScan (d : ℕ) : ℕ → List MTask → ℕ → ℕ → Option ℕ → Option (List MTask × Option ℕ)
  | 0, _, _, _, _ => none
  | fuel + 1, ts, i, j, deleted =>
    match ts[i]? with
    | none => if j = 0 then some (ts, deleted) else none
    | some t =>
      match t.links[j]? with
      | none => taskScan d fuel ts (i + 1) 0 deleted
      | some k =>
        if k = d then taskScan d fuel (ts.eraseIdx i) i (j + 1) (some i) else taskScan d fuel ts i (j + 1) deleted

/-- src/dwbc.cpp 2207-2249: the tasks on the deleted link go; link numbers and levels of the others are adapted only if one
went; one QP solver is erased. -/
def deleteTasks (r : ModRobot J) (d : ℕ) : Option (ModRobot J) :=
  match taskScan d (2 * r.ts.length + (r.ts.map fun t => t.links.length).sum + 1) r.ts 0 0 none with
  | none => none
  | some (ts, none) => some { r with ts := ts }
  | some (ts, some i) =>
    if i < r.qpTasks then
      some { r with
        ts := ts.map fun t => { level := lower i t.level, links := t.links.map (lower d) }
        qpTasks := r.qpTasks - 1 }
    else none

/-- src/dwbc.cpp 2163-2268 `InitAfterModelMod(DELETE_LINK, d)`.  The contacts are left alone (the loop is commented out). -/
def initAfterDelete (r : ModRobot J) (d : ℕ) : Option (ModRobot J) :=
  match r.links[d]? with
  | none => none
  | some l =>
    if d < r.joints.length then
      deleteTasks { r with
        links := (((r.links.eraseIdx d).map fun k =>
            { k with bodyId := lower l.bodyId k.bodyId, linkId := lower d k.linkId, parent := lower d k.parent }).modify
          l.parent fun p => { p with children := p.children.erase d }).map fun k =>
            { k with children := k.children.map (lower d) }
        joints := r.joints.eraseIdx d
        totalMass := r.totalMass - l.mass } d
    else none

/-- src/dwbc.cpp 1790-2036 for a link without children. -/
def deleteOne (r : ModRobot J) (d : ℕ) : Option (ModRobot J) :=
  match r.links[d]? with
  | none => none
  | some l =>
    match eraseBody r l.name with
    | none => none
    | some r' => initAfterDelete r' d

/-- src/dwbc.cpp 1790-2036 `DeleteLink(int)`: first child deleted until none is left, then the link itself. -/
def deleteAt : ℕ → ModRobot J → ℕ → Option (ModRobot J)
  | 0, _, _ => none
  | fuel + 1, r, d =>
    match r.links[d]? with
    | none => none
    | some l =>
      match l.children with
      | [] => deleteOne r d
      | c :: _ => match deleteAt fuel r c with
        | none => none
        | some r' => deleteAt fuel r' d

/-- src/dwbc.cpp 2384-2395 `getLinkID` and the loop of 1769-1777: first link whose name agrees up to case, "COM" last. -/
def ModRobot.find (r : ModRobot J) (name : String) : Option ℕ :=
  (r.links.map (·.name) ++ ["COM"]).findIdx? fun n => Robot.strcaseEq n name

/-- src/dwbc.cpp 1764-1788 `DeleteLink(std::string)`; an unknown name changes nothing.  (No link is deleted twice, so
`links.length` nested calls are enough.) -/
def deleteLink (r : ModRobot J) (name : String) : Option (ModRobot J) :=
  match r.find name with
  | none => some r
  | some d => deleteAt r.links.length r d

/-- The joint types `AddLink` distinguishes. -/
inductive JointKind
  | fixed | revolute | sixDof | other

/-- The name map after RBDL `AddBody`, which aborts if the name is taken and ignores the empty name. -/
def addName (names : List (String × ℕ)) (name : String) (id : ℕ) : Option (List (String × ℕ)) :=
  if name = "" then some names else if names.any (fun e => e.1 == name) then none else some (names ++ [(name, id)])

/-- RBDL `AddBody` with a joint of one degree of freedom. -/
def pushBody (bodies : List RbdlBody) (parent : ℕ) (mass : ℝ) : List RbdlBody :=
  (bodies.modify parent fun p => { p with mu := p.mu ++ [bodies.length] }) ++ [{ mass := mass, lambda := parent, mu := [], dof := 1 }]

/-- RBDL `AddBody` with a six axis joint: five massless bodies in between. -/
def pushBody6 (bodies : List RbdlBody) (parent : ℕ) (mass : ℝ) : List RbdlBody :=
  let n := bodies.length
  pushBody (pushBody (pushBody (pushBody (pushBody (pushBody bodies parent 0) n 0) (n + 1) 0) (n + 2) 0) (n + 3) 0) (n + 4) mass

/-- src/dwbc.cpp 2280-2306, 2311-2325: the new link is put before "COM" and entered with its parent; no joint record, no
change of the total mass. -/
def insertLink (links : List MLink) (parent bodyId : ℕ) (name : String) (mass : ℝ) : List MLink :=
  (links.modify parent fun p => { p with children := p.children ++ [links.length] }) ++
    [{ name := name, linkId := links.length, bodyId := bodyId, parent := parent, children := [], mass := mass }]

/-- src/dwbc.cpp 2095-2150 with 2270-2325 `AddLink`. -/
noncomputable def addLinkAt (r : ModRobot J) (parent : ℕ) (name : String) (kind : JointKind) (mass : ℝ) :
    Option (ModRobot J) :=
  match r.links[parent]? with
  | none => none
  | some p =>
    match r.bodies[p.bodyId]? with
    | none => none
    | some b =>
      match kind with
      | .fixed =>
        match addName r.names name (fixedDiscriminator + r.fixedParents.length) with
        | none => none
        | some names =>
          some { r with
            bodies := r.bodies.set p.bodyId { b with mass := b.mass + mass }
            fixedParents := r.fixedParents ++ [p.bodyId]
            names := names
            links := r.links.set parent { p with mass := b.mass + mass } }
      | .revolute =>
        match addName r.names name r.bodies.length with
        | none => none
        | some names =>
          some { r with
            bodies := pushBody r.bodies p.bodyId mass, dofCount := r.dofCount + 1, names := names
            links := insertLink r.links parent r.bodies.length name mass }
      | .sixDof =>
        match addName r.names name (r.bodies.length + 5) with
        | none => none
        | some names =>
          some { r with
            bodies := pushBody6 r.bodies p.bodyId mass, dofCount := r.dofCount + 6, names := names
            links := insertLink r.links parent (r.bodies.length + 5) name mass }
      | .other => some r

/-- src/dwbc.cpp 2360-2382 `ChangeLinkToFixedJoint`: the link is copied, deleted with everything below it, and its own body
added again to its former parent. -/
noncomputable def changeToFixed (r : ModRobot J) (name : String) : Option (ModRobot J) :=
  match r.find name with
  | none => none
  | some d =>
    match r.links[d]?, r.joints[d]? with
    | some l, some _ =>
      match deleteLink r name with
      | none => none
      | some r' => addLinkAt r' l.parent l.name .fixed l.mass
    | _, _ => none

/-- src/dwbc.cpp 2707-2731 `ChangeLinkInertia`, the masses. -/
def changeInertia (r : ModRobot J) (name : String) (mass : ℝ) : Option (ModRobot J) :=
  match r.find name with
  | none => none
  | some d =>
    match r.links[d]? with
    | none => none
    | some l =>
      match r.bodies[l.bodyId]? with
      | none => none
      | some b =>
        some { r with
          links := r.links.set d { l with mass := mass }
          bodies := r.bodies.set l.bodyId { b with mass := mass } }

/-- A call that modifies the model. -/
inductive ModOp
  | delete (name : String)
  | add (parent : ℕ) (name : String) (kind : JointKind) (mass : ℝ)
  | toFixed (name : String)
  | inertia (name : String) (mass : ℝ)

noncomputable def ModRobot.step (r : ModRobot J) : ModOp → Option (ModRobot J)
  | .delete name => deleteLink r name
  | .add parent name kind mass => addLinkAt r parent name kind mass
  | .toFixed name => changeToFixed r name
  | .inertia name mass => changeInertia r name mass

/-- A history of modifications. -/
noncomputable def ModRobot.run (r : ModRobot J) : List ModOp → Option (ModRobot J)
  | [] => some r
  | op :: ops => match r.step op with
    | none => none
    | some r' => r'.run ops

/-- src/dwbc.cpp 313-318: `UpdateKinematics` writes `joint_[i]` for every link. -/
def updateJointPoses (r : ModRobot J) (pose : ℕ → J → J) : Option (ModRobot J) :=
  if r.links.length ≤ r.joints.length then
    some { r with joints := (r.joints.take r.links.length).mapIdx pose ++ r.joints.drop r.links.length }
  else none

/-- src/dwbc.cpp 125-252 `InitModelData` on an object that was used before: tasks, contacts and links are cleared, the joint
table is not, so the records of the new model (`fresh`) are appended to it. -/
def reload (r fresh : ModRobot J) : ModRobot J := { fresh with joints := r.joints ++ fresh.joints, ts := [], qpTasks := 0, cc := [] }

end Verif.Model
