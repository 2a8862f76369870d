import Verif.Model.JaccQP
import Verif.Model.QPControl
import Verif.Model.ReducedTask

/-!
# The joint-acceleration QP of the reduced model (src/dwbc.cpp 3946-4122 `CalcSingleTaskTorqueWithJACC_QP_R`)

The problem is the one of `Model/JaccQP` with `A_R`, `G_R`, `J_CR`; the blocks are written by the same statements.
-/
set_option linter.unusedSectionVars false

namespace Verif.Model
open Matrix Verif Verif.Spec

variable {κ ν : Type} [Fintype κ] [DecidableEq κ] [Fintype ν] [DecidableEq ν] {c : ℕ}

/-- The members of `TaskSpace` read and written: `J_task_` has a column for every joint of the robot, the stored answer one
value for every coordinate of the reduced system. -/
structure RJTask (κ ν : Type) (c : ℕ) where
  t : ℕ
  J : Matrix (Fin t) (RSys κ ν) ℝ
  f : Fin t → ℝ
  fqp : Option (Fin t → ℝ)
  out : Option (JAnswer (κ ⊕ Fin 6) c)

/-- src/dwbc.cpp 4017, 4025: the task rows of the QP are `J_task_ * J_R_INV_T.transpose()`. -/
def RJTask.low (D : Reduced κ ν) (T : RJTask κ ν c) : JTask (κ ⊕ Fin 6) c :=
  { t := T.t, J := T.J * D.JRinvTᵀ, f := T.f, fqp := T.fqp, out := T.out }

/-- src/dwbc.cpp 4070-4071: the torques of the contact-chain joints are bounded by 200, the last six are not
(`_torque_dof - 6`). -/
def rjBound : κ ⊕ Fin 6 → Option ℝ := Sum.elim (fun _ => some 200) (fun _ => none)

/-- src/dwbc.cpp 4031-4056: the rows `-A_const_a * A_rot`, bounded above by zero; built by the same loop as in the task QP. -/
def rjRows (cs : List ContactLink) (c : ℕ) : Option ((m : ℕ) × Matrix (Fin m) (Fin c) ℝ) :=
  (stackC cs c).map fun x => ⟨x.1, -x.2⟩

/-- The matrices of the reduced system (src/dwbc.cpp 3984, 4005-4010); the torque limits are not read (3988-3990). -/
def rjRobot (D : Reduced κ ν) (Jc : Matrix (Fin c) (RSys κ ν) ℝ) (cs : List ContactLink) : JRobot (κ ⊕ Fin 6) c :=
  { A := D.AR, G := D.GR, Jc := jCR Jc, cs := cs, limit := none }

/-- src/dwbc.cpp 4105-4121: the answer is stored in the task. -/
def RJTask.store (T : RJTask κ ν c) (x : JVar (κ ⊕ Fin 6) c T.t → ℝ) : RJTask κ ν c :=
  { T with
    fqp := some fun k => x (.inr (.inr (.inr k)))
    out := some ⟨fun i => x (.inl i), fun j => x (.inr (.inl j)), fun k => x (.inr (.inr (.inl k)))⟩ }

/-- `CalcSingleTaskTorqueWithJACC_QP_R(ts_[j], init)`: return value and new `ts_`; `none` is undefined behaviour.
`heirarchy_` of `ts_[j]` is `j`. -/
def rjaccCall (D : Reduced κ ν) (Jc : Matrix (Fin c) (RSys κ ν) ℝ) (cs : List ContactLink) (solve : JSolver)
    (ts : List (RJTask κ ν c)) (j : ℕ) : Option (Bool × List (RJTask κ ν c)) :=
  match ts[j]? with
  | none => none
  | some T =>
    match jPrevs ((ts.take j).map (RJTask.low D)), rjRows cs c with
    | some prev, some ⟨_, M⟩ =>
      match solve j _ _ (jaccQP rjBound (rjRobot D Jc cs) M prev T.t (T.J * D.JRinvTᵀ) T.f) with
      | none => some (false, ts)
      | some x => some (true, ts.set j (T.store x))
    | _, _ => none

/-- The levels `0 … k-1` solved in order (tests/sp_test/jacc_compare.cpp 281-282, dof_comparison_jacc.cpp 358); the flag says
whether all calls returned 1. -/
def rjaccPass (D : Reduced κ ν) (Jc : Matrix (Fin c) (RSys κ ν) ℝ) (cs : List ContactLink) (solve : JSolver)
    (ts : List (RJTask κ ν c)) : ℕ → Option (Bool × List (RJTask κ ν c))
  | 0 => some (true, ts)
  | k + 1 =>
    match rjaccPass D Jc cs solve ts k with
    | none => none
    | some (ok, ts') =>
      match rjaccCall D Jc cs solve ts' k with
      | none => none
      | some (ok', ts'') => some (ok && ok', ts'')

end Verif.Model
