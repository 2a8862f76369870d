import Mathlib.Data.Finset.Basic
import Mathlib.Logic.Function.Basic

/-!
# Who owns the solvers of a hierarchy (src/dwbc_hqp.cpp 404-434, 436-481, 583-625; include/dwbc_hqp.h 9-140)

Every level of an `HQP` object has a pointer `osqp_solver_` to a solver on the heap and a flag `solver_init` that its destructor reads.
`HQP_Hierarch` and `HQP` have a destructor and no copy operations of their own: copies are memberwise, and since there is a destructor
there are no moves.  The problem held by a solver is a parameter `P`.

The heap is the set of solvers made and not deleted.  Deleting a solver that is not there or calling one that is not there is undefined
behaviour: `none`.
-/

namespace Verif.Model

/-- dwbc_hqp.h 9-108 `HQP_Hierarch`: `osqp_solver_` and `solver_init` -/
structure OwnLevel where
  solver : ℕ
  solverInit : Bool

/-- The heap and the `HQP` objects (`hqp_hs_`), by name.  Solver `i` is the `i`-th one made. -/
structure HqpHeap (P : Type) where
  made : ℕ
  live : Finset ℕ
  holds : ℕ → Option P
  objs : ℕ → Option (List OwnLevel)

/-- dwbc_hqp.cpp 409-415 `~HQP_Hierarch` -/
def destroyLevel (live : Finset ℕ) (l : OwnLevel) : Option (Finset ℕ) :=
  if l.solverInit then (if l.solver ∈ live then some (live.erase l.solver) else none) else some live

/-- destructors of the elements of a vector -/
def destroyLevels (live : Finset ℕ) (ls : List OwnLevel) : Option (Finset ℕ) := ls.foldlM destroyLevel live

/-- what a program does with `HQP` objects -/
inductive HqpOp (P : Type) where
  /-- `HQP h;` -/
  | make (h : ℕ)
  /-- `h.addHierarchy(…)`; `realloc`: the vector `hqp_hs_` has to grow into new memory -/
  | add (h : ℕ) (realloc : Bool)
  /-- `HQP k = h;` -/
  | copy (h k : ℕ)
  /-- the end of `h`'s lifetime -/
  | destroy (h : ℕ)
  /-- a solve of level `i` of `h` that hands the problem `p` to the solver (`solveOSQP(…, true)`) -/
  | solve (h i : ℕ) (p : P)

variable {P : Type}

/-- One operation.  Operations on objects or levels that do not exist, and a declaration of a name in use, are left out of the history (they
change nothing).

`add` (dwbc_hqp.cpp 425-434): a local level is initialised (a new solver, `solver_init = false`, 436-481), a copy of it is appended, in new
memory if necessary: then the other levels are copied and the old ones destroyed; finally the local level is destroyed. -/
def HqpHeap.step (s : HqpHeap P) : HqpOp P → Option (HqpHeap P)
  | .make h =>
    match s.objs h with
    | some _ => some s
    | none => some { s with objs := Function.update s.objs h (some []) }
  | .add h realloc =>
    match s.objs h with
    | none => some s
    | some ls =>
      let l : OwnLevel := { solver := s.made, solverInit := false }
      match destroyLevels (insert s.made s.live) ((if realloc then ls else []) ++ [l]) with
      | none => none
      | some live =>
        some { made := s.made + 1, live := live, holds := s.holds, objs := Function.update s.objs h (some (ls ++ [l])) }
  | .copy h k =>
    match s.objs h, s.objs k with
    | some ls, none => some { s with objs := Function.update s.objs k (some ls) }
    | _, _ => some s
  | .destroy h =>
    match s.objs h with
    | none => some s
    | some ls =>
      match destroyLevels s.live ls with
      | none => none
      | some live => some { s with live := live, objs := Function.update s.objs h none }
  | .solve h i p =>
    match s.objs h with
    | none => some s
    | some ls =>
      match ls[i]? with
      | none => some s
      | some l => if l.solver ∈ s.live then some { s with holds := Function.update s.holds l.solver (some p) } else none

/-- before the program starts -/
def HqpHeap.init : HqpHeap P := { made := 0, live := ∅, holds := fun _ => none, objs := fun _ => none }

/-- a history -/
def HqpHeap.run (ops : List (HqpOp P)) : Option (HqpHeap P) := ops.foldlM HqpHeap.step .init

end Verif.Model
