import Verif.Model.ConstraintRows
import Verif.Spec.BoxQP

/-!
# The joint-acceleration QP (src/dwbc.cpp 3772-3944 `CalcSingleTaskTorqueWithJACC_QP`)

The variable vector `[q̈, τ, F, s]` and the row blocks are indexed by sum types; the code uses running offsets
(`act_idx_`, `contact_idx_`, `task_idx_`, `prev_task_idx`).  `INFTY` bounds are modelled as absent.  The solver is a
parameter.
-/
set_option linter.unusedSectionVars false

namespace Verif.Model
open Matrix Verif Verif.Spec

variable {ι : Type} [Fintype ι] [DecidableEq ι] {c : ℕ}

/-- What the function reads from `RobotData`: `A_`, `G_`, `J_C`, `cc_`, `torque_limit_` (if `torque_limit_set_`). -/
structure JRobot (ι : Type) (c : ℕ) where
  A : Matrix (Fin 6 ⊕ ι) (Fin 6 ⊕ ι) ℝ
  G : Fin 6 ⊕ ι → ℝ
  Jc : Matrix (Fin c) (Fin 6 ⊕ ι) ℝ
  cs : List ContactLink
  limit : Option (ι → ℝ)

/-- `acc_qp_`, `torque_qp_`, `contact_qp_` (include/dwbc_task.h 167-169). -/
structure JAnswer (ι : Type) (c : ℕ) where
  acc : Fin 6 ⊕ ι → ℝ
  torque : ι → ℝ
  force : Fin c → ℝ

/-- The members of `TaskSpace` read and written: `task_dof_`, `J_task_`, `f_star_`, `f_star_qp_` (`none`: never
sized), and the stored answer. -/
structure JTask (ι : Type) (c : ℕ) where
  t : ℕ
  J : Matrix (Fin t) (Fin 6 ⊕ ι) ℝ
  f : Fin t → ℝ
  fqp : Option (Fin t → ℝ)
  out : Option (JAnswer ι c)

/-- A level above: `J_task_` and `f_star_ + f_star_qp_` (src/dwbc.cpp 3839-3846). -/
structure JPrev (ι : Type) where
  t : ℕ
  J : Matrix (Fin t) (Fin 6 ⊕ ι) ℝ
  b : Fin t → ℝ

/-- src/dwbc.cpp 3839-3846: the levels above; `none` when some `f_star_qp_` was never sized (the sum asserts). -/
def jPrevs : List (JTask ι c) → Option (List (JPrev ι))
  | [] => some []
  | T :: rest =>
    match T.fqp, jPrevs rest with
    | some q, some l => some (⟨T.t, T.J, T.f + q⟩ :: l)
    | _, _ => none

/-- The variables: acceleration, torque, contact force, slack (src/dwbc.cpp 3780-3783). -/
abbrev JVar (ι : Type) (c t : ℕ) := (Fin 6 ⊕ ι) ⊕ (ι ⊕ (Fin c ⊕ Fin t))

/-- The rows: dynamics, contacts, levels above, this level, contact inequalities (src/dwbc.cpp 3803, 3887-3899). -/
abbrev JRow (ι : Type) (c t m : ℕ) (prev : List (JPrev ι)) :=
  (Fin 6 ⊕ ι) ⊕ (Fin c ⊕ ((Σ i : Fin prev.length, Fin (prev[i]).t) ⊕ (Fin t ⊕ Fin m)))

/-- One row of the constraint matrix from its four column blocks. -/
def jCols {t : ℕ} (a : Fin 6 ⊕ ι → ℝ) (τ : ι → ℝ) (F : Fin c → ℝ) (s : Fin t → ℝ) : JVar ι c t → ℝ :=
  Sum.elim a (Sum.elim τ (Sum.elim F s))

/-- `ST_` (src/dwbc.cpp 3829-3830). -/
def jST : Matrix (Fin 6 ⊕ ι) (ι) ℝ := Matrix.of fun i j =>
  match i with
  | .inl _ => 0
  | .inr i => if i = j then 1 else 0

/-- The QP (src/dwbc.cpp 3805-3912); `M` is `getContactConstraintMatrix()`, `tb` the bounds on the torques (3911-3912: 200). -/
def jaccQP (tb : ι → Option ℝ) (R : JRobot ι c) {m : ℕ} (M : Matrix (Fin m) (Fin c) ℝ) (prev : List (JPrev ι)) (t : ℕ)
    (J : Matrix (Fin t) (Fin 6 ⊕ ι) ℝ) (f : Fin t → ℝ) : BoxQP (JVar ι c t) (JRow ι c t m prev) where
  H := Matrix.of fun a b =>
    match a, b with
    | .inl i, .inl j => R.A i j
    | .inr (.inr (.inr i)), .inr (.inr (.inr j)) => if i = j then 100 else 0
    | _, _ => 0
  g := 0
  A
    | .inl i => jCols (R.A i) (-(jST (ι := ι)) i) (R.Jcᵀ i) 0
    | .inr (.inl k) => jCols (R.Jc k) 0 0 0
    | .inr (.inr (.inl p)) => jCols ((prev[p.1]).J p.2) 0 0 0
    | .inr (.inr (.inr (.inl k))) => jCols (J k) 0 0 (-(1 : Matrix (Fin t) (Fin t) ℝ) k)
    | .inr (.inr (.inr (.inr r))) => jCols 0 0 (M r) 0
  lbA
    | .inl i => some (-R.G i)
    | .inr (.inl _) => some 0
    | .inr (.inr (.inl p)) => some ((prev[p.1]).b p.2)
    | .inr (.inr (.inr (.inl k))) => some (f k)
    | .inr (.inr (.inr (.inr _))) => none
  ubA
    | .inl i => some (-R.G i)
    | .inr (.inl _) => some 0
    | .inr (.inr (.inl p)) => some ((prev[p.1]).b p.2)
    | .inr (.inr (.inr (.inl k))) => some (f k)
    | .inr (.inr (.inr (.inr _))) => some 0
  lb
    | .inl (.inr _) => some (-10)
    | .inr (.inl j) => (tb j).map (-·)
    | _ => none
  ub
    | .inl (.inr _) => some 10
    | .inr (.inl j) => tb j
    | _ => none

/-- The contact inequalities (src/dwbc.cpp 3788-3796, 3856-3884): the block assignment asserts unless
`getContactConstraintMatrix()` has `contact_constraint_size` rows and `contact_dof_` columns.  `none` is undefined
behaviour. -/
def jContactRows (cs : List ContactLink) (c : ℕ) : Option ((m : ℕ) × Matrix (Fin m) (Fin c) ℝ) :=
  match totalConstraints cs, getContactConstraintMatrix cs, constraintMats cs with
  | some m, some ⟨m', c', M⟩, some _ => if h : m' = m ∧ c' = c then some ⟨m', h.2 ▸ M⟩ else none
  | _, _, _ => none

/-- The external solver: level number and problem to an answer, `none` on failure. -/
abbrev JSolver := ℕ → (V R : Type) → [Fintype V] → BoxQP V R → Option (V → ℝ)

/-- An answer reported as success satisfies the constraints. -/
def JSolver.Sound (solve : JSolver) : Prop :=
  ∀ (i : ℕ) (V R : Type) [Fintype V] (d : BoxQP V R) (x : V → ℝ), solve i V R d = some x → d.Feasible x

/-- An answer reported as success is an exact solution. -/
def JSolver.Exact (solve : JSolver) : Prop :=
  ∀ (i : ℕ) (V R : Type) [Fintype V] (d : BoxQP V R) (x : V → ℝ), solve i V R d = some x → d.IsSolution x

/-- src/dwbc.cpp 3926-3943: the answer is stored in the task. -/
def JTask.store (T : JTask ι c) (x : JVar ι c T.t → ℝ) : JTask ι c :=
  { T with
    fqp := some fun k => x (.inr (.inr (.inr k)))
    out := some ⟨fun i => x (.inl i), fun j => x (.inr (.inl j)), fun k => x (.inr (.inr (.inl k)))⟩ }

/-- `CalcSingleTaskTorqueWithJACC_QP(ts_[j], init)`: return value and new `ts_`; `none` is undefined behaviour.
`heirarchy_` of `ts_[j]` is `j` (as `AddTaskSpace` sets it).  `rows` are the contact inequalities, `tb` the torque bounds. -/
def jaccCallWith (tb : ι → Option ℝ) (rows : Option ((m : ℕ) × Matrix (Fin m) (Fin c) ℝ)) (R : JRobot ι c) (solve : JSolver)
    (ts : List (JTask ι c)) (j : ℕ) : Option (Bool × List (JTask ι c)) :=
  match ts[j]? with
  | none => none
  | some T =>
    match jPrevs (ts.take j), rows with
    | some prev, some ⟨_, M⟩ =>
      match solve j _ _ (jaccQP tb R M prev T.t T.J T.f) with
      | none => some (false, ts)
      | some x => some (true, ts.set j (T.store x))
    | _, _ => none

/-- src/dwbc.cpp 3772-3944: all torques are bounded by 200 (3911-3912). -/
def jaccCall (R : JRobot ι c) (solve : JSolver) (ts : List (JTask ι c)) (j : ℕ) : Option (Bool × List (JTask ι c)) :=
  jaccCallWith (fun _ => some 200) (jContactRows R.cs c) R solve ts j

/-- The levels `0 … k-1` solved in order by `call`, as in tests/sp_test/dof_comparison_jacc.cpp 295-300; the flag says whether
all calls returned 1. -/
def jaccPassWith (call : List (JTask ι c) → ℕ → Option (Bool × List (JTask ι c))) (ts : List (JTask ι c)) :
    ℕ → Option (Bool × List (JTask ι c))
  | 0 => some (true, ts)
  | k + 1 =>
    match jaccPassWith call ts k with
    | none => none
    | some (ok, ts') =>
      match call ts' k with
      | none => none
      | some (ok', ts'') => some (ok && ok', ts'')

def jaccPass (R : JRobot ι c) (solve : JSolver) (ts : List (JTask ι c)) (k : ℕ) : Option (Bool × List (JTask ι c)) :=
  jaccPassWith (jaccCall R solve) ts k

end Verif.Model
