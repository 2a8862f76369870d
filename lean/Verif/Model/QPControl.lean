import Verif.Model.Task
import Verif.Model.ConstraintRows
import Verif.Spec.QP

/-!
# Control with quadratic programmes
(src/dwbc.cpp 818-853, 941-1127, 1288-1344, 1372-1560, 4776-4940)

Joints are `Fin n`.  The QP is handed to an external solver: `solve` is a parameter of the model.
`INFTY` bounds are modelled as absent.  `torque_limit_` is assumed to have `model_dof_` entries when set
(`none` is "not set").
-/

namespace Verif.Model
open Matrix Verif Verif.Spec

section Blocks
variable {V : Type*}

/-- `A.setZero(rows, cols)`, `lbA.setZero(rows)`, `ubA.setZero(rows)`. -/
def qpZero (H : Matrix V V ℝ) (g : V → ℝ) (rows : ℕ) : QP V :=
  { H := H, g := g, rows := rows, A := fun _ _ => 0, lb := fun _ => some 0, ub := fun _ => 0 }

/-- `A.block(start, 0, m, cols) = B` -/
def qpSetA (d : QP V) (start : ℕ) {m : ℕ} (B : Matrix (Fin m) V ℝ) : QP V :=
  { d with A := fun r => if h : start ≤ r ∧ r < start + m then B ⟨r - start, by omega⟩ else d.A r }

/-- `ubA.segment(start, m) = b` -/
def qpSetUb (d : QP V) (start : ℕ) {m : ℕ} (b : Fin m → ℝ) : QP V :=
  { d with ub := fun r => if h : start ≤ r ∧ r < start + m then b ⟨r - start, by omega⟩ else d.ub r }

/-- `lbA.segment(start, m).setConstant(-INFTY)` -/
def qpNoLb (d : QP V) (start m : ℕ) : QP V :=
  { d with lb := fun r => if start ≤ r ∧ r < start + m then none else d.lb r }

end Blocks

variable {n c : ℕ}

/-- `J_C_INV_T.rightCols(model_size)` -/
def rightCols (S : ContactSpace c (Fin n)) : Matrix (Fin c) (Fin n) ℝ := S.JcInvT.submatrix id Sum.inr

/-- Torque rows, src/dwbc.cpp 995-1010 (also 1462-1471): `B x ≤ L - τ` and `-B x ≤ L + τ`, where `τ` is the
torque before the QP answer is added and `B` maps the QP variables to torque.  The column blocks of the task and
contact variables are written together. -/
def torqueRows {V : Type*} (L τ : Fin n → ℝ) (B : Matrix (Fin n) V ℝ) (d : QP V) : QP V :=
  let d := qpSetA d 0 B
  let d := qpSetUb d 0 (L - τ)
  let d := qpSetA d n (-B)
  let d := qpSetUb d n (L + τ)
  qpNoLb d 0 (2 * n)

/-- Contact rows, src/dwbc.cpp 1028-1042 (also 1516-1526, with `CM = -A_const_a * A_rot`):
`-(C Jr B) x ≤ -(C P - C Jr τ)`, where `C = A_const_a * A_rot`. -/
def contactRows {V : Type*} {m : ℕ} (off : ℕ) (C : Matrix (Fin m) (Fin c) ℝ) (Jr : Matrix (Fin c) (Fin n) ℝ)
    (P : Fin c → ℝ) (τ : Fin n → ℝ) (B : Matrix (Fin n) V ℝ) (d : QP V) : QP V :=
  let d := qpSetA d off (-(C * Jr * B))
  let d := qpNoLb d off m
  qpSetUb d off (-(C *ᵥ P - (C * Jr) *ᵥ τ))

/-- `if (torque_limit_set_) { ... }` -/
def ifLimit {V : Type*} (limit : Option (Fin n → ℝ)) (f : (Fin n → ℝ) → QP V → QP V) (d : QP V) : QP V :=
  match limit with
  | some L => f L d
  | none => d

/-- What QP control reads from `RobotData`. -/
structure QPRobot (n c : ℕ) where
  S : ContactSpace c (Fin n)
  /-- `NwJw`; meaningful only for `c > 6` -/
  NwJw : Matrix (Fin n) (Fin (c - 6)) ℝ
  /-- `P_C` -/
  P : Fin c → ℝ
  /-- `torque_grav_` -/
  τg : Fin n → ℝ
  /-- `torque_limit_` if `torque_limit_set_` -/
  limit : Option (Fin n → ℝ)
  /-- `cc_` -/
  cs : List ContactLink

/-- `A_const_a * A_rot` for the active contacts, with the number of rows; `none` when undefined, also when the
column count differs from the row count `c` of `J_C_INV_T` (src/dwbc.cpp 1001-1028). -/
def stackC (cs : List ContactLink) (c : ℕ) : Option ((m : ℕ) × Matrix (Fin m) (Fin c) ℝ) := do
  let M ← constraintMats cs
  let k ← totalDof cs
  if k = c then pure ⟨M.1.rows, M.1.toMatrix M.1.rows c * M.2.toMatrix c c⟩ else none

/-- `A_const_a * A_rot` -/
def QPRobot.C (R : QPRobot n c) : Option ((m : ℕ) × Matrix (Fin m) (Fin c) ℝ) := stackC R.cs c

/-- `2 * model_size` if torque limits are set, else `0` (src/dwbc.cpp 983-985). -/
def QPRobot.limitRows (R : QPRobot n c) : ℕ := if R.limit.isSome then 2 * n else 0

/-- QP variables to torque: `[Ntorque_task, NwJw]`. -/
def taskCols {t k : ℕ} (N : Matrix (Fin n) (Fin t) ℝ) (W : Matrix (Fin n) (Fin k) ℝ) :
    Matrix (Fin n) (Fin t ⊕ Fin k) ℝ := Matrix.of fun i s => Sum.elim (N i) (W i) s

/-- The QP of `CalcSingleTaskTorqueWithQP` (src/dwbc.cpp 941-1046). `N` is the null-space matrix of the level
above, `τprev` the torque argument. -/
def taskQP (R : QPRobot n c) {m : ℕ} (C : Matrix (Fin m) (Fin c) ℝ) (T : TaskReady (Fin n))
    (N : Matrix (Fin n) (Fin n) ℝ) (τprev : Fin n → ℝ) : QP (Fin T.t ⊕ Fin (c - 6)) :=
  let Nt := N * T.Jkt * T.Λ
  let B := taskCols Nt R.NwJw
  let τ := τprev + Nt *ᵥ T.f
  let d := qpZero (Matrix.of fun a b => if a = b ∧ a.isLeft then 1 else 0) 0 (m + R.limitRows)
  let d := ifLimit R.limit (torqueRows · τ B) d
  contactRows R.limitRows C (rightCols R.S) R.P τ B d

/-- An external solver: level number and problem to an answer, `none` on failure. -/
abbrev Solver := ℕ → (t k : ℕ) → QP (Fin t ⊕ Fin k) → Option (Fin t ⊕ Fin k → ℝ)

/-- Assumption on the solver: an answer reported as success satisfies the constraints. -/
def Solver.Sound (solve : Solver) : Prop := ∀ i t k d x, solve i t k d = some x → d.Feasible x

/-- Assumption on the solver: an answer reported as success is an exact solution. -/
def Solver.Exact (solve : Solver) : Prop := ∀ i t k d x, solve i t k d = some x → d.IsSolution x

/-- Assumption on the solver: a problem that has a solution is reported as solved. -/
def Solver.Complete (solve : Solver) : Prop := ∀ i t k d, (∃ x, d.IsSolution x) → (solve i t k d).isSome

/-- Result of a control call. -/
inductive CtrlResult (n : ℕ) where
  /-- undefined behaviour (Eigen size or range assertion) -/
  | undefined
  /-- return value, `torque_task_`, `torque_contact_` -/
  | ret (value : ℕ) (task contact : Fin n → ℝ)

/-- src/dwbc.cpp 829-852, the QP loop from level `i` on.  After the level's QP, line 851 multiplies `NwJw` with a
vector of `max(c-6,0)` entries; for `c ≤ 6` `NwJw` is the `n × n` zero matrix left by `CalcContactConstraint`
(line 470), so the product is ill-formed unless `n = 0`. -/
def qpLoop (R : QPRobot n c) (solve : Solver) :
    ℕ → Matrix (Fin n) (Fin n) ℝ → (Fin n → ℝ) → (Fin n → ℝ) → List (TaskReady (Fin n)) → CtrlResult n
  | _, _, τt, τc, [] => .ret 1 τt τc
  | i, N, τt, τc, T :: rest =>
    match R.C with
    | none => .undefined
    | some ⟨_, C⟩ =>
      match solve i T.t (c - 6) (taskQP R C T N (R.τg + τt)) with
      | none => .ret 0 τt τc
      | some x =>
        let fqp := fun a => x (Sum.inl a)
        let cqp := fun b => x (Sum.inr b)
        let τt' := τt + N *ᵥ (T.Jkt *ᵥ (T.Λ *ᵥ (T.f + fqp)))
        if c ≤ 6 ∧ n ≠ 0 then .undefined
        else qpLoop R solve (i + 1) (taskNullSpace R.S T N) τt' (R.NwJw *ᵥ cqp) rest

/-- src/dwbc.cpp 818-853 `CalcTaskControlTorque(hqp = true)`. -/
def calcTaskControlTorqueQP (R : QPRobot n c) (solve : Solver) (ts : List (TaskReady (Fin n))) : CtrlResult n :=
  qpLoop R solve 0 1 0 0 ts

/-- src/dwbc.cpp 1325-1343 `CalcTaskSpaceTorqueHQPWithThreaded`, the loop from level `i` on: every QP gets
`torque_grav_` only, failures are ignored (the answer is then zero, lines 1114-1116), and each null-space matrix
starts from the identity.  `torque_contact_` is not assigned. -/
def threadedLoop (R : QPRobot n c) (solve : Solver) :
    ℕ → Matrix (Fin n) (Fin n) ℝ → (Fin n → ℝ) → List (TaskReady (Fin n)) → Option (Fin n → ℝ)
  | _, _, τt, [] => some τt
  | i, N, τt, T :: rest =>
    match R.C with
    | none => none
    | some ⟨_, C⟩ =>
      let x := (solve i T.t (c - 6) (taskQP R C T N R.τg)).getD 0
      let τt' := τt + N *ᵥ (T.Jkt *ᵥ (T.Λ *ᵥ (T.f + fun a => x (Sum.inl a))))
      threadedLoop R solve (i + 1) (taskNullSpace R.S T 1) τt' rest

/-- src/dwbc.cpp 1288-1344: resulting `torque_task_`; `none` is undefined behaviour, in particular with no task
(`ts_[0]` at line 1311). -/
def calcThreaded (R : QPRobot n c) (solve : Solver) (ts : List (TaskReady (Fin n))) : Option (Fin n → ℝ) :=
  match ts with
  | [] => none
  | _ :: _ => threadedLoop R solve 0 1 0 ts

/-- A solver for the redistribution problem. -/
abbrev RSolver := (k : ℕ) → QP (Fin k) → Option (Fin k → ℝ)

/-- Answers reported as success satisfy the constraints. -/
def RSolver.Sound (solve : RSolver) : Prop := ∀ k d x, solve k d = some x → d.Feasible x

/-- Answers reported as success are exact solutions. -/
def RSolver.Exact (solve : RSolver) : Prop := ∀ k d x, solve k d = some x → d.IsSolution x

/-- A problem that has a solution is reported as solved. -/
def RSolver.Complete (solve : RSolver) : Prop := ∀ k d, (∃ x, d.IsSolution x) → (solve k d).isSome

/-- The QP of `CalcContactRedistribute(hqp = true)` (src/dwbc.cpp 1399-1526).  `total_constraint_size` is
`contact_link_num_ * contact_constraint_size + torque_limit_constraint_size`; the surplus rows stay zero. -/
def redistributeQP (R : QPRobot n c) {m : ℕ} (C : Matrix (Fin m) (Fin c) ℝ) (τin : Fin n → ℝ) :
    QP (Fin (c - 6)) :=
  let d := qpZero 1 0 ((active R.cs).length * m + R.limitRows)
  let d := ifLimit R.limit (torqueRows · τin R.NwJw) d
  contactRows R.limitRows C (rightCols R.S) R.P τin R.NwJw d

/-- src/dwbc.cpp 1377-1560 `CalcContactRedistribute(torque_input, hqp = true)`: return value and new
`torque_contact_`, given the old one; `none` is undefined behaviour. -/
def redistribute (R : QPRobot n c) (solve : RSolver) (τin τc : Fin n → ℝ) : Option (ℕ × (Fin n → ℝ)) :=
  if c > 6 then
    match R.C with
    | none => none
    | some ⟨_, C⟩ =>
      match solve (c - 6) (redistributeQP R C τin) with
      | some q => some (1, τc + R.NwJw *ᵥ q)
      | none => some (0, 0)
  else some (1, 0)

/-- Torque rows of `CalcContactRedistributeR` (src/dwbc.cpp 4853-4864): both blocks are written at row 0. -/
def torqueRowsR {V : Type*} (L τ : Fin n → ℝ) (B : Matrix (Fin n) V ℝ) (d : QP V) : QP V :=
  let d := qpSetA d 0 B
  let d := qpSetUb d 0 (L - τ)
  let d := qpSetA d 0 (-B)
  let d := qpSetUb d 0 (L + τ)
  qpNoLb d 0 (2 * n)

/-- `RotW * crot_matrix` applied to a stacked force (src/dwbc.cpp 4813-4838): every active 6-D contact's wrench is
rotated into the contact frame and its normal force weighted zero; for a list of six-dimensional contacts. -/
def forceWeight (k : ℕ) (rot : Fin k → Matrix (Fin 3) (Fin 3) ℝ) : Matrix (Fin (6 * k)) (Fin (6 * k)) ℝ :=
  Matrix.of fun r s =>
    if r.val / 3 = s.val / 3 ∧ r.val % 6 ≠ 2 then
      (rot ⟨r / 6, by omega⟩)ᵀ ⟨r % 3, by omega⟩ ⟨s % 3, by omega⟩
    else 0

/-- The QP of `CalcContactRedistributeR(hqp = true)` (src/dwbc.cpp 4803-4903); `Wt` is `RotW * crot_matrix`. -/
def redistributeRQP (R : QPRobot n c) {m : ℕ} (C : Matrix (Fin m) (Fin c) ℝ) (Wt : Matrix (Fin c) (Fin c) ℝ)
    (τin : Fin n → ℝ) : QP (Fin (c - 6)) :=
  let Ht := Wt * rightCols R.S * R.NwJw
  let d := qpZero (Htᵀ * Ht) ((Wt *ᵥ (rightCols R.S *ᵥ τin - R.P)) ᵥ* Ht) (m + R.limitRows)
  let d := ifLimit R.limit (torqueRowsR · τin R.NwJw) d
  contactRows R.limitRows C (rightCols R.S) R.P τin R.NwJw d

/-- src/dwbc.cpp 4776-4940 `CalcContactRedistributeR(torque_input, hqp = true)`: return value and
`torque_contact_R_`.  The torque limit is assumed to have as many entries as the reduced model has joints (otherwise
line 4857 is ill-formed). -/
def redistributeR (R : QPRobot n c) (Wt : Matrix (Fin c) (Fin c) ℝ) (solve : RSolver) (τin : Fin n → ℝ) :
    Option (ℕ × (Fin n → ℝ)) :=
  if c > 6 then
    match R.C with
    | none => none
    | some ⟨_, C⟩ =>
      match solve (c - 6) (redistributeRQP R C Wt τin) with
      | some q => some (1, R.NwJw *ᵥ q)
      | none => some (0, 0)
  else some (1, 0)

end Verif.Model
