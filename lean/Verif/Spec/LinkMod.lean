import Verif.Model.LinkMod

/-!
# Specification: trees of named links

A link seen without its number: its name, mass, the name of the link it hangs on and the names of its children.
-/

namespace Verif.Spec
open Verif.Model

structure NamedLink where
  name : String
  mass : ℝ
  parent : Option String
  children : List String

variable {J : Type*}

/-- The name of link number `k`. -/
def nameAt (links : List MLink) (k : ℕ) : Option String := (links[k]?).map (·.name)

/-- What the link table says, read through its own numbers.  The base (number 0) hangs on nothing. -/
def namedTree (links : List MLink) : List NamedLink :=
  links.mapIdx fun i l => { name := l.name, mass := l.mass, parent := if i = 0 then none else nameAt links l.parent
                            children := l.children.filterMap (nameAt links) }

/-- `x` is `root` or hangs on something that belongs to the subtree of `root`. -/
inductive InSubtree (t : List NamedLink) (root : String) : String → Prop
  | root : InSubtree t root root
  | step (e : NamedLink) (p : String) : e ∈ t → e.parent = some p → InSubtree t root p → InSubtree t root e.name

open Classical in
/-- The tree without the subtree of `root`. -/
noncomputable def prune (t : List NamedLink) (root : String) : List NamedLink :=
  (t.filter fun e => ¬ InSubtree t root e.name).map fun e =>
    { e with children := e.children.filter fun c => ¬ InSubtree t root c }

/-- A well formed link table: different names, every link carries its own number, parents come first, child lists are exactly
the links hanging there, and the numbers of the RBDL bodies are different. -/
structure TableOk (links : List MLink) : Prop where
  names : (links.map (·.name)).Nodup
  ids : ∀ (i : ℕ) (l : MLink), links[i]? = some l → l.linkId = i
  parent_lt : ∀ (i : ℕ) (l : MLink), links[i]? = some l → 0 < i → l.parent < i
  root : ∀ l, links[0]? = some l → l.parent = 0
  nodup : ∀ (p : ℕ) (l : MLink), links[p]? = some l → l.children.Nodup
  children : ∀ (p : ℕ) (l : MLink), links[p]? = some l →
    ∀ j, j ∈ l.children ↔ 0 < j ∧ ∃ c, links[j]? = some c ∧ c.parent = p
  bodies : (links.map (·.bodyId)).Nodup

/-- The link table and the RBDL model describe the same robot: every link's name leads to its body, which has the link's
mass and hangs on the body of the link's parent. -/
structure InSync (r : ModRobot J) : Prop where
  name : ∀ l ∈ r.links, r.bodyIdOf l.name = some l.bodyId
  body : ∀ (i : ℕ) (l : MLink), r.links[i]? = some l → ∃ b, r.bodies[l.bodyId]? = some b ∧ b.mass = l.mass ∧
    (0 < i → ∃ p, r.links[l.parent]? = some p ∧ b.lambda = p.bodyId)

/-- The sum of the link masses. -/
def massSum (links : List MLink) : ℝ := (links.map (·.mass)).sum

/-- The mass a modification puts on the robot beyond what it took off together with links. -/
noncomputable def addedMass (r : ModRobot J) : ModOp → ℝ
  | .delete _ => 0
  | .add _ _ .other _ => 0
  | .add _ _ _ mass => mass
  | .toFixed name => match r.find name with
    | some d => ((r.links[d]?).map (·.mass)).getD 0
    | none => 0
  | .inertia name mass => match r.find name with
    | some d => mass - ((r.links[d]?).map (·.mass)).getD 0
    | none => 0

/-- The same for a history. -/
noncomputable def addedMassRun (r : ModRobot J) : List ModOp → ℝ
  | [] => 0
  | op :: ops => addedMass r op + (match r.step op with | some r' => addedMassRun r' ops | none => 0)

/-- The modification adds a link on a movable joint. -/
def isMovableAdd : ModOp → Bool
  | .add _ _ .revolute _ => true
  | .add _ _ .sixDof _ => true
  | _ => false

/-- The modification does not add a movable link without a name, or one on a six axis joint. -/
def Ordinary : ModOp → Prop
  | .add _ _ .sixDof _ => False
  | .add _ name .revolute _ => name ≠ ""
  | _ => True

end Verif.Spec
