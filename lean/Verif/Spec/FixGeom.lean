import Verif.Model.FixGeom
import Verif.Lemmas.LinkMod
import Verif.Spec.Body

/-!
# What C71 speaks about: placed bodies and corresponding configurations
-/

set_option linter.unusedSectionVars false

namespace Verif
open Matrix Spec Model

/-- Parents come first and the rotations of the joint frames are rotations. -/
structure Spec.GOk (r : GRobot) : Prop where
  parent_lt : ∀ (i : ℕ) (l : GLink), r.links[i]? = some l → 0 < i → l.parent < i
  rot : ∀ (i : ℕ) (l : GLink), r.links[i]? = some l → l.XT.Eᵀ * l.XT.E = 1

/-- The body of link `i`, put where the configuration has the link. -/
def Model.GRobot.placed (turn : Vec3 → ℝ → Mat3) (r : GRobot) (c : GCfg) (i : ℕ) (l : GLink) : Placed :=
  { m := l.body.mass
    x := r.rotm turn c i *ᵥ l.body.com + r.xpos turn c i
    I := r.rotm turn c i * l.body.inertia * (r.rotm turn c i)ᵀ }

/-- The configuration without the joint of link `d`. -/
def Model.GCfg.without (c : GCfg) (d : ℕ) : GCfg := { c with θ := fun k => c.θ (raise d k) }

/-- The configuration with the joint of link `d` moved to place `n`. -/
def Model.GCfg.toEnd (c : GCfg) (d n : ℕ) : GCfg := { c with θ := fun k => if k = n then c.θ d else c.θ (raise d k) }

end Verif
