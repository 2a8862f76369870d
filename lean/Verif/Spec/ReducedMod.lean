import Verif.Spec.LinkMod
import Verif.Spec.ReducedIdx

/-! # Specification: modifications that change the set of links -/

namespace Verif.Spec
open Verif.Model

variable {J : Type*}

/-- The modification takes a link off the robot: the link of that name is deleted or changed to a fixed joint. -/
def Removes (r : ModRobot J) : ModOp → Prop
  | .delete name => (r.find name).isSome
  | .toFixed _ => True
  | _ => False

/-- Some modification of the history takes a link off. -/
def RemovedIn (r : ModRobot J) : List ModOp → Prop
  | [] => False
  | op :: ops => Removes r op ∨ ∃ r', r.step op = some r' ∧ RemovedIn r' ops

end Verif.Spec
