import Verif.Model.Session
import Verif.Model.ReducedQP
import Verif.Model.ReducedClosed
import Verif.Model.TaskKind

/-!
# Order of the control calls of the reduced model (src/dwbc.cpp 2752-3445, 3758-3770)

The calls of the reduced model on the same `RobotData` object as those of the full model (`Model/Session`).  Members of both are kept.

Simplified, besides what `Model/Session` says: `none` also stands for two uses that are left out, namely the calls of the full model
that read the contact members after `ReducedCalcContactConstraint` overwrote two of them (until the next `CalcContactConstraint`), and
contact members of the reduced model after another `ReducedDynamicsCalculate`.
-/

set_option linter.unusedSectionVars false

namespace Verif.Model
open Matrix Verif

/-- src/dwbc.cpp 2755-2822: `co_dof`, `nc_dof` and the places of the joints (`Model/ReducedIdx`). -/
structure RSplit (n : ℕ) where
  k : ℕ
  nc : ℕ
  sum : k + nc = n
  vcIdx : Fin 6 ⊕ Fin k → RSys (Fin k) (Fin nc)
  ncIdx : Fin nc → RSys (Fin k) (Fin nc)

/-- joints in storage order -/
def jointEquiv {k nc n : ℕ} (h : k + nc = n) : Fin k ⊕ Fin nc ≃ Fin n := finSumFinEquiv.trans (finCongr h)

/-- system coordinates in storage order -/
def sysEquiv {k nc n : ℕ} (h : k + nc = n) : RSys (Fin k) (Fin nc) ≃ Fin 6 ⊕ Fin n := Equiv.sumCongr (Equiv.refl _) (jointEquiv h)

/-- src/dwbc.cpp 2891-2898: the base rows of `A_NC_O` at the non-contact joints (see `baseNc`). -/
def RSplit.baseRows {n : ℕ} (sp : RSplit n) (A : Matrix (Fin 6 ⊕ Fin n) (Fin 6 ⊕ Fin n) ℝ) : Matrix (Fin 3 ⊕ Fin 3) (Fin sp.nc) ℝ :=
  Matrix.of fun a j => A (.inl (six a)) (sysEquiv sp.sum (sp.ncIdx j))

/-- What the reduced model needs of the robot besides `ControlEnv`.  Lists of numbers are those of the active contacts. -/
structure ReducedEnv (X : Type*) (n : ℕ) extends ControlEnv X n where
  /-- `none`: the joint counts do not add up (C39) -/
  split : List ℕ → Option (RSplit n)
  /-- `SI_nc_b_` -/
  ncInertia : List ℕ → X → Mat6
  /-- `link_[0].rotm` -/
  baseRotm : X → Mat3
  /-- the link tables -/
  table : List ℕ → IdxTable
  taskDesc : List ℕ → ℕ → X → TaskDesc
  /-- the factorisation of `W_R` -/
  codR : (k : ℕ) → (W : Matrix (Fin k ⊕ Fin 6) (Fin k ⊕ Fin 6) ℝ) → CodNull W

/-- The members `ReducedCalcContactConstraint` writes.  `grav`: `ReducedCalcGravCompensation` was called since (before that `P_CR` is a
zero matrix of another size, line 3093). -/
structure RContactMembers (k nc : ℕ) where
  c : ℕ
  C : ReducedContact c (Fin k) (Fin nc)
  NwJw : Matrix (Fin k ⊕ Fin 6) (Fin (c - 6)) ℝ
  grav : Bool

/-- The members `ReducedDynamicsCalculate` writes; `active` are the contacts it saw. -/
structure RMembers (n : ℕ) where
  k : ℕ
  nc : ℕ
  sum : k + nc = n
  active : List ℕ
  D : Reduced (Fin k) (Fin nc)
  con : Option (RContactMembers k nc)

/-- `RobotData` with the members of the full and of the reduced model. -/
structure RSession (X : Type*) (n : ℕ) where
  s : Session X n
  /-- `J_C_INV_T` if `ReducedCalcContactConstraint` wrote it after the last `CalcContactConstraint` -/
  over : Option ((c : ℕ) × Matrix (Fin c) (Fin 6 ⊕ Fin n) ℝ)
  red : Option (RMembers n)
  /-- `torque_task_R_` with `co_dof` at that time -/
  τR : Option ((k : ℕ) × (Fin k ⊕ Fin 6 → ℝ))
  /-- classification stored in the task spaces -/
  kinds : List Kind

namespace RSession
variable {X : Type*} {n : ℕ}

/-- After loading and registering contacts and tasks. -/
def loaded (x0 : X) (cc : List ContactLink) (ts : List ℕ) (limit : Option (Fin n → ℝ)) : RSession X n :=
  ⟨.loaded x0 cc ts limit, none, none, none, ts.map fun _ => Kind.fresh⟩

/-- A call of the full model.  Only `CalcContactConstraint` writes `J_C_INV_T` again. -/
noncomputable def full (E : ReducedEnv X n) (r : RSession X n) (o : ControlCall X) : Option (RSession X n) :=
  match o, r.over with
  | .calcContact, _ => (r.s.step E.toControlEnv .calcContact).map fun s => { r with s := s, over := none }
  | .grav, some _ => none
  | .gravInto, some _ => none
  | .taskTorque _, some _ => none
  | .redistribute _, some _ => none
  | o, _ => (r.s.step E.toControlEnv o).map fun s => { r with s := s }

/-- src/dwbc.cpp 2752-3000 `ReducedDynamicsCalculate`.  Lines 2986-2987 read `contact_dof_` rows of `J_C`. -/
noncomputable def dynamics (E : ReducedEnv X n) (r : RSession X n) : Option (RSession X n) :=
  match r.s.contactDof with
  | none => none
  | some d =>
    if r.s.J.1 < d then none
    else
      match E.split (Session.activeIdx r.s.cc) with
      | none => none
      | some sp =>
        let e := sysEquiv sp.sum
        match jInc (E.ncInertia (Session.activeIdx r.s.cc) r.s.x) (E.baseRotm r.s.x) (sp.baseRows (E.mass r.s.x)) with
        | none => none
        | some J =>
          match reduce sp.vcIdx sp.ncIdx (r.s.Ainv.submatrix e e) J (r.s.G ∘ e) with
          | none => none
          | some D => some { r with red := some ⟨sp.k, sp.nc, sp.sum, Session.activeIdx r.s.cc, D, none⟩ }

/-- src/dwbc.cpp 3077-3141 `ReducedCalcContactConstraint`.  `V2_R.setZero(contact_dof_ - 6, …)` (line 3090) has a negative size with
fewer than six contact rows. -/
noncomputable def contact (E : ReducedEnv X n) (r : RSession X n) : Option (RSession X n) :=
  match r.red, r.s.contactDof with
  | some m, some d =>
    if d < 6 ∨ r.s.J.1 ≠ d then none
    else
      let e := sysEquiv m.sum
      match reducedContact m.D (r.s.J.2.submatrix id e) (r.s.Ainv.submatrix e e) with
      | none => none
      | some C =>
        let r := { r with over := some ⟨r.s.J.1, C.JcInvT.submatrix id e.symm⟩ }
        if r.s.J.1 > 6 then
          match reducedNwJw C (E.codR m.k C.W) with
          | none => none
          | some N => some { r with red := some { m with con := some ⟨r.s.J.1, C, N, false⟩ } }
        else some { r with red := some { m with con := some ⟨r.s.J.1, C, 0, false⟩ } }
  | _, _ => none

/-- src/dwbc.cpp 3144-3150 `ReducedCalcGravCompensation`.  `torque_grav_` has room for `co_dof + nc_dof` values, line 3147 writes
`co_dof + 6`.  `torque_task_` and `torque_contact_` stay. -/
noncomputable def grav (r : RSession X n) : Option (RSession X n) :=
  match r.red with
  | none => none
  | some m =>
    match m.con with
    | none => none
    | some k =>
      if m.nc < 6 then none
      else some { r with
        s := { r.s with τg := reducedGravityTorque m.D k.C ∘ (jointEquiv m.sum).symm }
        red := some { m with con := some { k with grav := true } } }

/-- src/dwbc.cpp 3165-3228: the classification at the start of task control. -/
noncomputable def newKinds (E : ReducedEnv X n) (r : RSession X n) (m : RMembers n) : List Kind :=
  classify (E.table m.active) (r.s.ts.mapIdx fun i _ => E.taskDesc m.active i r.s.x) r.kinds

/-- The tasks as task control of the reduced model reads them. -/
def taskInputs (E : ReducedEnv X n) (r : RSession X n) (m : RMembers n) (ks : List Kind) : List (RTaskIn (Fin m.k) (Fin m.nc)) :=
  (r.s.ts.zip ks).mapIdx fun i p =>
    ⟨p.1.t, (E.taskJac i r.s.x p.1.t).submatrix id (sysEquiv m.sum), p.1.f, p.2.cmm, p.2.reduced, p.2.noncont, p.2.order⟩

/-- What the quadratic programmes read. -/
def qpRobot (r : RSession X n) {k nc : ℕ} (q : RContactMembers k nc) : RQPRobot k q.c :=
  ⟨q.NwJw, r.s.limit.map fun L => ⟨n, L⟩, r.s.cc⟩

/-- src/dwbc.cpp 3152-3253, 3255-3445 `ReducedCalcTaskControlTorque(false)`: `torque_task_` and `torque_task_R_`. -/
noncomputable def plainTask {k nc c : ℕ} (D : Reduced (Fin k) (Fin nc)) (C : ReducedContact c (Fin k) (Fin nc)) (R : Mat3)
    (Ainv : Matrix (RSys (Fin k) (Fin nc)) (RSys (Fin k) (Fin nc)) ℝ) (ts : List (RTaskIn (Fin k) (Fin nc))) :
    Option ((Fin k ⊕ Fin nc → ℝ) × (Fin k ⊕ Fin 6 → ℝ)) :=
  match ts.mapM (calcJKTR D C (Ainv * C.Nc)) with
  | none => none
  | some rs =>
    match rTaskFrom D C R (Ainv * C.Nc) ((jktR C.ARinvNCR C.Winv (jBaseR R)).map Prod.snd) none 0 0 rs with
    | none => none
    | some x => some (assembleTorque D x.1 x.2, x.1)

/-- src/dwbc.cpp 3255-3445 `ReducedCalcTaskControlTorque(hqp)`.  `torque_contact_` stays. -/
noncomputable def task (E : ReducedEnv X n) (r : RSession X n) (hqp : Bool) : Option (RSession X n) :=
  match r.red with
  | none => none
  | some m =>
    match m.con with
    | none => none
    | some q =>
      let ks := newKinds E r m
      let e := sysEquiv m.sum
      if hqp then
        if q.grav then
          match reducedTaskTorqueQP m.D q.C (E.baseRotm r.s.x) (r.s.Ainv.submatrix e e) (r.qpRobot q) E.solve (taskInputs E r m ks) with
          | .undefined => none
          | .ret v τ τR => some { r with
              s := { r.s with τt := τ ∘ (jointEquiv m.sum).symm, taskRet := v }, τR := some ⟨m.k, τR⟩, kinds := ks }
        else none
      else
        match plainTask m.D q.C (E.baseRotm r.s.x) (r.s.Ainv.submatrix e e) (taskInputs E r m ks) with
        | none => none
        | some x => some { r with
            s := { r.s with τt := x.1 ∘ (jointEquiv m.sum).symm, taskRet := 1 }, τR := some ⟨m.k, x.2⟩, kinds := ks }

/-- `RotW * crot_matrix` (src/dwbc.cpp 4813-4838) for the active contacts. -/
def weightOf (cs : List ContactLink) (c : ℕ) : Option (Matrix (Fin c) (Fin c) ℝ) :=
  if h : c = 6 * (active cs).length then
    some ((forceWeight (active cs).length fun i => (active cs)[i].rotm).submatrix (Fin.cast h) (Fin.cast h))
  else none

/-- src/dwbc.cpp 3758-3770 `ReducedCalcContactRedistribute(hqp)`.  The branch is on `contact_dof_`; with at most six rows nothing is
done and 0 is returned. -/
noncomputable def redistribute (E : ReducedEnv X n) (r : RSession X n) (hqp : Bool) : Option (RSession X n) :=
  match r.s.contactDof with
  | none => none
  | some d =>
    if d > 6 then
      match r.red, r.τR with
      | some m, some t =>
        match m.con with
        | none => none
        | some q =>
          if h : q.grav = true ∧ t.1 = m.k ∧ q.c = d then
            let τR : Fin m.k ⊕ Fin 6 → ℝ := t.2 ∘ Sum.map (Fin.cast h.2.1.symm) id
            let old : Fin m.k ⊕ Fin m.nc → ℝ := r.s.τc ∘ jointEquiv m.sum
            let out := if hqp then
                (weightOf r.s.cc q.c).bind fun Wt => reducedRedistribute m.D q.C (r.qpRobot q) Wt E.rsolve τR old
              else reducedRedistributeClosed m.D q.C (E.codR m.k q.C.W) E.ties r.s.pos r.s.com r.s.yaw τR old
            match out with
            | none => none
            | some (v, τ) => some { r with s := { r.s with τc := τ ∘ (jointEquiv m.sum).symm, contactRet := v } }
          else none
      | _, _ => none
    else some { r with s := { r.s with contactRet := 0 } }

/-- src/dwbc.cpp 890-895 `getContactForce`: `J_C_INV_T` as the last contact calculation of either model left it, `P_C` as the last
gravity compensation of the full model left it. -/
def reportedForce (r : RSession X n) (τ : Fin n → ℝ) : Option ((c : ℕ) × (Fin c → ℝ)) :=
  match r.over with
  | none => r.s.reportedForce τ
  | some ⟨c, M⟩ =>
    match r.s.space with
    | none => none
    | some m =>
      match m.P with
      | none => none
      | some P => if h : c = m.c then some ⟨c, M.submatrix id Sum.inr *ᵥ τ - fun i => P (Fin.cast h i)⟩ else none

/-- The sum the user sends to the motors. -/
def command (r : RSession X n) : Fin n → ℝ := r.s.command

end RSession

/-- The calls of both models. -/
inductive RCall (X : Type*) where
  | full (o : ControlCall X)
  | dynamics
  | contact
  | grav
  | task (hqp : Bool)
  | redistribute (hqp : Bool)

namespace RSession
variable {X : Type*} {n : ℕ}

/-- One call. -/
noncomputable def step (E : ReducedEnv X n) (r : RSession X n) : RCall X → Option (RSession X n)
  | .full o => r.full E o
  | .dynamics => r.dynamics E
  | .contact => r.contact E
  | .grav => r.grav
  | .task h => r.task E h
  | .redistribute h => r.redistribute E h

/-- A history. -/
noncomputable def run (E : ReducedEnv X n) : RSession X n → List (RCall X) → Option (RSession X n)
  | r, [] => some r
  | r, o :: os => (r.step E o).bind fun r' => run E r' os

end RSession

/-- State, contacts, reduced model, contact dynamics. -/
def reducedPrep {X : Type*} (x : X) (v : List Bool) : List (RCall X) := [.full (.update x), .full (.setContact v), .dynamics, .contact]

/-- One control cycle with the reduced model as in tests/sp_test/redu_dyn_test.cpp 246-271 (there the state is given before the
commands): one command for every task, state, contacts, reduced model, contact dynamics, gravity, task torque, redistribution. -/
def reducedCycle {X : Type*} (x : X) (v : List Bool) (fs : List (ℕ → ℝ)) (hqp : Bool) : List (RCall X) :=
  fs.mapIdx (fun i f => .full (.setTask i f)) ++ (reducedPrep x v ++ [.grav, .task hqp, .redistribute hqp])

end Verif.Model
