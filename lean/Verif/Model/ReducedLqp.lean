import Verif.Model.HQP
import Verif.Model.ReducedJaccNC

/-!
# The hierarchical controller on the reduced model
(src/dwbc.cpp 4455-4502 `CalcControlTorqueLQP_R`, `CalcControlTorqueLQP_R_NC`, 4504-4632 `ConfigureLQP_R`,
4634-4760 `ConfigureLQP_R_NC`)

A `HQP` object is configured once here; `addHierarchy` appends, so a second configuration is another matter.
-/
set_option linter.unusedSectionVars false

namespace Verif.Model
open Matrix Verif Verif.Spec

variable {ν : Type} [Fintype ν] [DecidableEq ν] {k c m : ℕ}

/-- The members of `TaskSpace` read; `pos` is `link_[task_link_[0].link_id_].xpos`. -/
structure RLTask (k : ℕ) (ν : Type) where
  noncont : Bool
  t : ℕ
  J : Matrix (Fin t) (RSys (Fin k) ν) ℝ
  f : Fin t → ℝ
  pos : Vec3

/-- src/dwbc.cpp 4618-4619: a task in the reduced coordinates, `J_task_ * J_R_INV_T.transpose()` and `f_star_`. -/
def rlqpLow (D : Reduced (Fin k) ν) (T : RLTask k ν) : Σ t : ℕ, Matrix (Fin t) (RSys (Fin k) (Fin 6)) ℝ × (Fin t → ℝ) :=
  ⟨T.t, T.J * D.JRinvTᵀ, T.f⟩

/-- src/dwbc.cpp 4606-4627: the loop over `ts_`, at index `i` with `n` levels in `hqp_hs_`.  A level is appended for a task that is
not `noncont_task`, but the data are written to level `2 + i`.  `none` is an access out of range (undefined behaviour). -/
def rlqpTasks (D : Reduced (Fin k) ν) : ℕ → ℕ → List (RLTask k ν) →
    Option (List (Σ t : ℕ, Matrix (Fin t) (RSys (Fin k) (Fin 6)) ℝ × (Fin t → ℝ)))
  | _, _, [] => some []
  | i, n, T :: ts =>
    if T.noncont then rlqpTasks D (i + 1) n ts
    else if 2 + i < n + 1 then (rlqpTasks D (i + 1) (n + 1) ts).map (rlqpLow D T :: ·)
    else none

/-- src/dwbc.cpp 4552-4555: 200 on every row of the reduced model below the base, 600 on the fourth from the end, which is the third
of the six rows that stand for the joints outside the contact chains. -/
def rlqpLim : Fin k ⊕ Fin 6 → ℝ := Sum.elim (fun _ => 200) fun s => if s = 2 then 600 else 200

/-- src/dwbc.cpp 4526-4604: `A_R`, `A_R_inv`, `G_R`, `J_CR`, `getContactConstraintMatrix()`; the weight is `5/‖A_‖` with the mass
matrix of the full model (4538). -/
noncomputable def rlqpConf (A : Matrix (RSys (Fin k) ν) (RSys (Fin k) ν) ℝ) (D : Reduced (Fin k) ν)
    (Jc : Matrix (Fin c) (RSys (Fin k) ν) ℝ) (C : Matrix (Fin m) (Fin c) ℝ)
    (tasks : List (Σ t : ℕ, Matrix (Fin t) (RSys (Fin k) (Fin 6)) ℝ × (Fin t → ℝ))) : LqpConf (Fin k ⊕ Fin 6) c m :=
  { M := D.AR, Minv := D.ARinv, h := D.GR, J := jCR Jc, C := C, lim := rlqpLim, weight := 5 / frobenius A, tasks := tasks }

/-- src/dwbc.cpp 4504-4632, 4455-4477: `ConfigureLQP_R` on a new `HQP` object, then `CalcControlTorqueLQP_R`: the answers of all
levels. -/
noncomputable def calcControlTorqueLQPR (osqp : Osqp) (N : NullSpaceFn) (A : Matrix (RSys (Fin k) ν) (RSys (Fin k) ν) ℝ)
    (D : Reduced (Fin k) ν) (Jc : Matrix (Fin c) (RSys (Fin k) ν) ℝ) (C : Matrix (Fin m) (Fin c) ℝ) (ts : List (RLTask k ν)) :
    Option (List (LevelAnswer (LqpVar (Fin k ⊕ Fin 6) c))) :=
  (rlqpTasks D 0 2 ts).map fun low => lqpRun osqp N (rlqpConf A D Jc C low)

/-- src/dwbc.cpp 4645-4646: `cost_h_nc`. -/
noncomputable def ncCost (R : NCRobot ν) : Matrix ν ν ℝ := (5 / frobenius R.A) • R.A

/-- src/dwbc.cpp 4650-4673: level 0 for the joints outside the contact chains, with the acceleration `g = q_acc.tail(6)` to be
reached.  Rows are not normalised. -/
noncomputable def ncLevel0 (R : NCRobot ν) (g : Fin 6 → ℝ) : Level ν :=
  { I := ν ⊕ ν
    E := Fin 6
    A := Sum.elim (fun i => R.A i) (fun i => -R.A i)
    a := Sum.elim (fun i => -200 + R.G i) (fun i => -200 - R.G i)
    B := R.J
    b := -g
    H := some (ncCost R) }

/-- src/dwbc.cpp 4730-4756: level 1, the task `ts_[1]` with the command `f` (already shifted). -/
noncomputable def ncLevel1 (R : NCRobot ν) (J : Matrix (Fin 6) ν ℝ) (f : Fin 6 → ℝ) : Level ν :=
  { I := ν ⊕ ν
    E := Fin 6
    A := Sum.elim (fun i => Pi.single i 1) (fun i => -Pi.single i 1)
    a := fun _ => -5
    B := J
    b := -f
    H := some (ncCost R) }

/-- src/dwbc.cpp 4634-4760, 4479-4502: `ConfigureLQP_R_NC` on a new `HQP` object, then `CalcControlTorqueLQP_R_NC`; `a` is the
acceleration of the reduced system (`q_acc`).  Always `ts_[1]` is taken.  `none` is undefined behaviour: there is no `ts_[1]`, or it
has another number of rows than six (4738, 4743). -/
noncomputable def calcControlTorqueLQPRNC (osqp : Osqp) (N : NullSpaceFn) (R : NCRobot ν) (ts : List (RLTask k ν))
    (a : RSys (Fin k) (Fin 6) → ℝ) : Option (List (LevelAnswer ν)) :=
  match ts[1]? with
  | none => none
  | some T =>
    if h6 : T.t = 6 then
      let f := ncShift (T.pos - R.base) *ᵥ ((fun s => T.f (Fin.cast h6.symm s)) - fun b => a (.inl b))
      let J : Matrix (Fin 6) ν ℝ := fun s j => T.J (Fin.cast h6.symm s) (ncOf j)
      let l := ncLevel0 R fun s => a (ncOf s)
      some (solveSequential osqp N
        (solveFirst osqp l (1 : Matrix (ν ⊕ ν) (ν ⊕ ν) ℝ) (1 : Matrix (Fin 6) (Fin 6) ℝ)) [ncLevel1 R J f])
    else none

/-- The torques the two plans are turned into (tests/sp_test/jacc_compare.cpp 545-569): rows of the contact-chain joints from the
reduced plan `(a, F)`, rows of the other joints from `A_NC q + G_NC`. -/
def rlqpTorque (D : Reduced (Fin k) ν) (Jc : Matrix (Fin c) (RSys (Fin k) ν) ℝ) (R : NCRobot ν) (a : RSys (Fin k) (Fin 6) → ℝ)
    (F : Fin c → ℝ) (q : ν → ℝ) : Fin k ⊕ ν → ℝ :=
  Sum.elim (fun i => (D.AR *ᵥ a + (jCR Jc)ᵀ *ᵥ F + D.GR) (.inr (.inl i))) (R.A *ᵥ q + R.G)

end Verif.Model
