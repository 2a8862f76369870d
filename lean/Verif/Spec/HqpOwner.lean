import Verif.Model.HqpOwner

/-! # What a hierarchical solver works with (for C67) -/

namespace Verif.Spec
open Verif.Model

variable {P : Type}

/-- the solver used by level `i` of object `h` -/
def solverOf (s : HqpHeap P) (h i : ℕ) : Option ℕ := (s.objs h).bind fun ls => (ls[i]?).map (·.solver)

/-- the problem held by the solver of level `i` of object `h` -/
def problemOf (s : HqpHeap P) (h i : ℕ) : Option P := (solverOf s h i).bind s.holds

end Verif.Spec
