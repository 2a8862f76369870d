import Verif.Model.HQP

/-!
# One `HQP` object configured several times (src/dwbc_hqp.cpp 16-21, 425-465, 530-581; src/dwbc.cpp 4304-4453)

`ConfigureLQP` adds its levels with `addHierarchy`, which appends, and then writes the levels `0, 1, 2 + i` of the object.  On a new
object these are the levels just added; on one configured before they are older ones.  The asserts of `updateConstraintMatrix` are
part of the model: a failing assert is `none`.  (The default build type is Release, which defines `NDEBUG`.  There the matrices are stored
although their sizes do not fit the object's `ineq_const_size_`, `eq_const_size_`: a level with inequalities of another number of rows
makes the block writes of `solveSequentialSingle` leave their matrices, fewer equality rows make `normalizeConstraintMatrix` read past the
end, more equality rows are used but only the first ones normalised.  `none` covers all of these.)
-/

set_option linter.unusedSectionVars false

namespace Verif.Model
open Matrix Verif Verif.Spec

section Slots
variable {V : Type} [Fintype V] [DecidableEq V]

/-- include/dwbc_hqp.h 9-108 `HQP_Hierarch`: the sizes given at `initialize`, and what `A_, a_, B_, b_, H_` hold -/
structure Slot (V : Type) where
  ineq : ℕ
  eq : ℕ
  l : Level V

/-- dwbc_hqp.cpp 436-481 `HQP_Hierarch::initialize`: everything zero, `enable_cost_ = false` -/
def blankSlot (ineq eq : ℕ) : Slot V :=
  { ineq := ineq, eq := eq, l := { I := Fin ineq, E := Fin eq, A := 0, a := 0, B := 0, b := 0, H := none } }

/-- The level stored by `updateConstraintMatrix(A, a, B, b)`: `A, a` are taken from `la` (only if the slot has inequalities), `B, b`
from `lb`. -/
def storedLevel (ineq : ℕ) (la lb : Level V) (H : Option (Matrix V V ℝ)) : Level V :=
  if 0 < ineq then { I := la.I, E := lb.E, A := la.A, a := la.a, B := lb.B, b := lb.b, H := H }
  else { I := Fin 0, E := lb.E, A := 0, a := 0, B := lb.B, b := lb.b, H := H }

/-- dwbc_hqp.cpp 530-553 `updateConstraintMatrix` on `hqp_hs_[i]` with matrices of `ra` and `re` rows, then `updateCostMatrix` (483-493)
if a cost is given, then `normalizeConstraintMatrix` (555-581).  `none`: index out of range or a failing assert. -/
noncomputable def writeSlot (o : List (Slot V)) (i ra : ℕ) (la : Level V) (re : ℕ) (lb : Level V) (cost : Option (Matrix V V ℝ)) :
    Option (List (Slot V)) :=
  match o[i]? with
  | none => none
  | some s =>
    if (0 < s.ineq → ra = s.ineq) ∧ re = s.eq then
      some (o.set i { s with l := normalizeRows (storedLevel s.ineq la lb (cost.or s.l.H)) })
    else none

end Slots

variable {n c m : ℕ}

/-- dwbc.cpp 4407-4424: the task loop; `A, a` still hold the contact level's inequalities (`m + 2n` rows) -/
noncomputable def configureTasks (R : LqpRobot n c m) :
    List (Slot (LqpVar (Fin n) c)) → ℕ → List (Σ t : ℕ, Matrix (Fin t) (Fin 6 ⊕ Fin n) ℝ × (Fin t → ℝ)) →
      Option (List (Slot (LqpVar (Fin n) c)))
  | o, _, [] => some o
  | o, i, t :: ts =>
    match writeSlot (o ++ [blankSlot 0 t.1]) (2 + i) (m + 2 * n) (lqpContact R.conf) t.1 (lqpTask R.conf t) (some (lqpCost R.conf)) with
    | none => none
    | some o' => configureTasks R o' (i + 1) ts

/-- dwbc.cpp 4304-4430 `ConfigureLQP` on an object whose levels have this variable size -/
noncomputable def configureAt (o : List (Slot (LqpVar (Fin n) c))) (R : LqpRobot n c m) : Option (List (Slot (LqpVar (Fin n) c))) :=
  match writeSlot (o ++ [blankSlot (2 * n) 6]) 0 (2 * n) (lqpDynamics R.conf) 6 (lqpDynamics R.conf) none with
  | none => none
  | some o₁ =>
    match writeSlot (o₁ ++ [blankSlot (m + 2 * n) c]) 1 (m + 2 * n) (lqpContact R.conf) c (lqpContact R.conf) (some (lqpCost R.conf)) with
    | none => none
    | some o₂ => configureTasks R o₂ 0 R.tasks

/-- an `HQP` object for a robot with `n` joints: the contact size of its levels (the first level's; meaningless when there is none)
and the levels -/
structure HqpObj (n : ℕ) where
  c : ℕ
  slots : List (Slot (LqpVar (Fin n) c))

/-- what a call of `ConfigureLQP` sees: the robot in some contact state, with some tasks -/
structure LqpCall (n : ℕ) where
  c : ℕ
  m : ℕ
  R : LqpRobot n c m

/-- a new object -/
def HqpObj.new (n : ℕ) : HqpObj n := ⟨0, []⟩

/-- dwbc.cpp 4304-4430 `ConfigureLQP(hqp)`.  If the object has levels of another variable size, the assert `B.cols() == variable_size_` of
the first write (to level 0) fails. -/
noncomputable def HqpObj.configure (o : HqpObj n) (k : LqpCall n) : Option (HqpObj n) :=
  if o.slots = [] then (configureAt [] k.R).map (⟨k.c, ·⟩)
  else if h : o.c = k.c then (configureAt (h ▸ o.slots) k.R).map (⟨k.c, ·⟩) else none

/-- the object after a sequence of configurations -/
noncomputable def HqpObj.after (n : ℕ) (ks : List (LqpCall n)) : Option (HqpObj n) := ks.foldlM HqpObj.configure (.new n)

/-- dwbc.cpp 4432-4453 `CalcControlTorqueLQP` after the configuration with `R`: `prepare`, then levels 1, 2, … in order.  The answer in
level 0 is the one `ConfigureLQP` put there (4374-4381); its force part is zero since `initialize`, as `solveSequential` starts at level 1. -/
noncomputable def runSlots (osqp : Osqp) (N : NullSpaceFn) (R : LqpRobot n c m) :
    List (Slot (LqpVar (Fin n) c)) → List (LevelAnswer (LqpVar (Fin n) c))
  | [] => []
  | s :: ss => solveSequential osqp N { l := s.l, y := Sum.elim (-(R.Minv *ᵥ R.h)) 0, v := 0, w := 0 } (ss.map (·.l))

end Verif.Model
