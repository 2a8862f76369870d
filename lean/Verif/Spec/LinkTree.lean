import Verif.Model.LinkTree
import Verif.Spec.Rotation
import Verif.Spec.Body

/-!
# Specification: kinematic trees
-/

namespace Verif.Spec
open Matrix Verif.Model

/-- A list of links numbered parent before child, whose child lists match the parent numbers. -/
structure TreeOk (links : List VLink) : Prop where
  parent_lt : ∀ (i : ℕ) (l : VLink), links[i]? = some l → 0 < i → l.parent < i
  nodup : ∀ (p : ℕ) (l : VLink), links[p]? = some l → l.children.Nodup
  children : ∀ (p : ℕ) (l : VLink), links[p]? = some l → ∀ j, j ∈ l.children ↔ 0 < j ∧ ∃ c, links[j]? = some c ∧ c.parent = p

/-- Link poses agree with the poses of the links relative to their parents. -/
structure PosesOk (joints : List (Mat3 × Vec3)) (links : List VLink) : Prop where
  len : links.length ≤ joints.length
  rot : ∀ l ∈ links, IsRot l.rotm
  rel : ∀ (i : ℕ) (l p : VLink) (j : Mat3 × Vec3), links[i]? = some l → 0 < i → links[l.parent]? = some p → joints[i]? = some j →
    l.rotm = p.rotm * j.1 ∧ l.xpos = p.xpos + p.rotm *ᵥ j.2

/-- Where a link is in the world: centre of mass at `x + R c`, inertia turned by `R`. -/
def placedLink (l : VLink) : Placed :=
  ⟨l.body.mass, l.xpos + l.rotm *ᵥ l.body.com, l.rotm * l.body.inertia * l.rotmᵀ⟩

/-- A model as RBDL builds it: the root body has no mass and every other body comes after its parent. -/
structure ModelOk (bodies : List RBody) : Prop where
  root : ∀ b, bodies[0]? = some b → b.mass = 0
  order : ∀ (i : ℕ) (b : RBody), bodies[i]? = some b → 0 < i → b.lambda < i

/-- Every body with mass, except the first, hangs directly on a body with mass. -/
def NoMasslessParents (bodies : List RBody) : Prop :=
  ∀ (i j : ℕ) (b c : RBody), bodies[i]? = some b → bodies[j]? = some c → b.mass ≠ 0 → c.mass ≠ 0 → j < i →
    ∃ p, bodies[b.lambda]? = some p ∧ p.mass ≠ 0

end Verif.Spec
