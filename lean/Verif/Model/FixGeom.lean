import Verif.Model.Body
import Verif.Model.LinkMod

/-!
# Frames and bodies of a robot whose links are made fixed, deleted and added again
(src/dwbc.cpp 125-252, 313-318, 1790-2150, 2360-2382, 2425-2470; src/link.cpp 54-64)

`Model.LinkMod` has the tables and the masses; here are the joint frames and the inertias.  Every link but the base (number
0) hangs on a revolute or a sliding (prismatic) joint, the kinds a URDF has besides fixed ones, which RBDL merges.  The rotation matrix RBDL computes from a joint axis and an angle is the parameter `turn`.
-/

set_option linter.unusedSectionVars false

namespace Verif.Model
open Matrix Verif

/-- RBDL `SpatialTransform`: `E` takes coordinates of the outer frame to the inner one, `r` is the origin of the inner frame. -/
@[ext] structure XForm where
  E : Mat3
  r : Vec3

/-- RBDL `SpatialTransform::operator*`. -/
def XForm.mul (X Y : XForm) : XForm := ⟨X.E * Y.E, Y.r + Y.Eᵀ *ᵥ X.r⟩

/-- What RBDL and `link_` hold about a link: `lambda` / `parent_id_`, `X_T`, the joint axis, the body. -/
structure GLink where
  parent : ℕ
  XT : XForm
  axis : Vec3
  body : Body
  /-- `mJointType` is `JointTypePrismatic` -/
  slides : Bool

/-- `joint_type_` as loading writes it: `JOINT_FLOATING_BASE`, `JOINT_REVOLUTE`, and -1 for every other RBDL joint. -/
inductive GKind
  | base | revolute | undefined
  deriving DecidableEq

/-- `Joint` (include/dwbc_link.h 21-40).  `none`: never written. -/
structure GJoint where
  /-- `joint_rotation_`, `joint_translation_` -/
  frame : Option (Mat3 × Vec3)
  axis : Vec3
  /-- `parent_rotation_`, `parent_translation_` -/
  pose : Option (Mat3 × Vec3)
  kind : GKind

structure GRobot where
  links : List GLink
  joints : List GJoint

/-- A configuration: orientation and position of the base, angle of the joint of every link. -/
structure GCfg where
  R0 : Mat3
  x0 : Vec3
  θ : ℕ → ℝ

/-- src/dwbc.cpp 161-186, src/link.cpp 62-63: loading.  The record of the base gets no frame (line 175), that of a sliding joint
gets neither type nor frame (line 186; nor an axis, which nothing reads), and no record gets a pose. -/
def GRobot.load (links : List GLink) : GRobot :=
  { links := links
    joints := links.mapIdx fun i l =>
      { frame := if i = 0 then none else if l.slides then none else some (l.XT.Eᵀ, l.XT.r)
        axis := l.axis
        pose := none
        kind := if i = 0 then .base else if l.slides then .undefined else .revolute } }

variable (turn : Vec3 → ℝ → Mat3)

/-- RBDL `jcalc`: `X_J` of a revolute joint turns, that of a prismatic joint moves along the axis. -/
def GLink.xj (l : GLink) (θ : ℝ) : XForm := if l.slides then ⟨1, θ • l.axis⟩ else ⟨turn l.axis θ, 0⟩

/-- RBDL `X_lambda = X_J * X_T`. -/
def GLink.xlam (l : GLink) (θ : ℝ) : XForm := (l.xj turn θ).mul l.XT

/-- RBDL `X_base`: `X_lambda[i] * X_base[lambda[i]]`; `fuel ≥ i` is enough if parents come first. -/
def GRobot.xbase (r : GRobot) (c : GCfg) : ℕ → ℕ → XForm
  | 0, _ => ⟨c.R0ᵀ, c.x0⟩
  | fuel + 1, i =>
    if i = 0 then ⟨c.R0ᵀ, c.x0⟩
    else match r.links[i]? with
      | none => ⟨c.R0ᵀ, c.x0⟩
      | some l => (l.xlam turn (c.θ i)).mul (r.xbase c fuel l.parent)

/-- src/link.cpp 78-79: `rotm` and `xpos` of link `i`. -/
def GRobot.rotm (r : GRobot) (c : GCfg) (i : ℕ) : Mat3 := (r.xbase turn c r.links.length i).Eᵀ
def GRobot.xpos (r : GRobot) (c : GCfg) (i : ℕ) : Vec3 := (r.xbase turn c r.links.length i).r

/-- src/dwbc.cpp 313-318 `UpdateKinematics`: the poses of the joint records (that of the base is its orientation). -/
def GRobot.update (r : GRobot) (c : GCfg) : GRobot :=
  { r with
    joints := r.joints.mapIdx fun i j => match r.links[i]? with
      | none => j
      | some l =>
        let X := if i = 0 then ⟨c.R0ᵀ, 0⟩ else l.xlam turn (c.θ i)
        { j with pose := some (X.Eᵀ, X.r) } }

/-- src/dwbc.cpp 1790-2036 for a link without children (with children everything below goes too, see `deleteAt`). -/
def GRobot.removeLeaf (r : GRobot) (d : ℕ) : GRobot :=
  { links := (r.links.eraseIdx d).map fun l => { l with parent := lower d l.parent }
    joints := r.joints.eraseIdx d }

/-- src/dwbc.cpp 2099-2112, 2270-2279: adding a link on a fixed joint; RBDL joins the bodies (`Body::Join`, the same formula
as `Link::AddLink`) in the frame `SpatialTransform(rotmᵀ, trans)`. -/
noncomputable def GRobot.addFixed (r : GRobot) (p : ℕ) (rotm : Mat3) (trans : Vec3) (b : Body) : Option GRobot :=
  match r.links[p]? with
  | none => none
  | some l =>
    let X : XForm := ⟨rotmᵀ, trans⟩
    match addLink l.body b X.Eᵀ X.r with
    | none => none
    | some joined => some { r with links := r.links.set p { l with body := joined } }

/-- src/dwbc.cpp 2113-2125, 2280-2306: adding a link on a revolute joint; no joint record is added. -/
def GRobot.addRevolute (r : GRobot) (p : ℕ) (axis : Vec3) (rotm : Mat3) (trans : Vec3) (b : Body) : Option GRobot :=
  if p < r.links.length then
    some { r with links := r.links ++ [{ parent := p, XT := ⟨rotmᵀ, trans⟩, axis := axis, body := b, slides := false }] }
  else none

/-- src/dwbc.cpp 2360-2382 with 2085-2088 `ChangeLinkToFixedJoint` of a link without children. -/
noncomputable def GRobot.toFixed (r : GRobot) (d : ℕ) : Option GRobot :=
  match r.links[d]?, r.joints[d]? with
  | some l, some j =>
    match j.pose with
    | none => none
    | some P => (r.removeLeaf d).addFixed l.parent P.1 P.2 l.body
  | _, _ => none

/-- `DeleteLink` followed by `AddLink(joint, link)` (src/dwbc.cpp 2049-2093) with the records `joint_[d]`, `link_[d]` copied
before, for a link without children.  A record without a type makes `AddLink` print an error and do nothing (2146-2149). -/
def GRobot.readd (r : GRobot) (d : ℕ) : Option GRobot :=
  match r.links[d]?, r.joints[d]? with
  | some l, some j =>
    match j.kind, j.frame with
    | .revolute, some P => (r.removeLeaf d).addRevolute l.parent j.axis P.1 P.2 l.body
    | .undefined, _ => some (r.removeLeaf d)
    | _, _ => none
  | _, _ => none

/-- src/dwbc.cpp 2425-2470 `InitModelWithLinkJoint`: a new RBDL model from the records; the rotation is not transposed
(line 2438).  `none`: a frame that was never written, or a record without a type, for which `ToRBDLJoint` (src/link.cpp 39-46)
returns RBDL's undefined joint, which `AddBody` does not accept. -/
def rebuild : List GLink → List GJoint → Option (List GLink)
  | [], _ => some []
  | _ :: _, [] => none
  | l :: ls, j :: js => match j.frame, j.kind, rebuild ls js with
    | some P, .base, some rest => some ({ l with XT := ⟨P.1, P.2⟩, axis := j.axis } :: rest)
    | some P, .revolute, some rest => some ({ l with XT := ⟨P.1, P.2⟩, axis := j.axis, slides := false } :: rest)
    | _, _, _ => none

end Verif.Model
