import Verif.Model.ClosedForm
import Verif.Model.QPControl

/-!
# Order of the control calls (src/dwbc.cpp 279-375, 433-478, 818-895, 1372-1618; include/dwbc.h 432-474)

`RobotData` keeps intermediate results in members: what a call returns depends on which calls were made before it.  The calls are
operations on those members.  `none` is undefined behaviour (matrices of sizes that do not fit, index out of range, members never
written) or a result that is not finite.

Simplified: six-dimensional contacts and tasks without a trajectory, all registered before the first call (C27, C29, C53 treat
registration); `UpdateKinematics` with arguments of the right sizes (C30); `CalcTaskControlTorque` with the default
`update_task_space`; the QP solvers are functions of the problem they are given (C31 treats the solver objects).
-/

set_option linter.unusedSectionVars false

namespace Verif.Model
open Matrix Verif

/-- What does not belong to `RobotData`: the robot's mechanics (RBDL) as functions of its configuration, by number of the contact or
task, and the external solvers. -/
structure ControlEnv (X : Type*) (n : ℕ) where
  mass : X → Matrix (Fin 6 ⊕ Fin n) (Fin 6 ⊕ Fin n) ℝ
  gravity : X → Fin 6 ⊕ Fin n → ℝ
  com : X → Vec3
  yaw : X → ℝ
  contactJac : ℕ → X → Matrix (Fin 6) (Fin 6 ⊕ Fin n) ℝ
  contactRot : ℕ → X → Mat3
  contactPos : ℕ → X → Vec3
  taskJac : ℕ → X → (t : ℕ) → Matrix (Fin t) (Fin 6 ⊕ Fin n) ℝ
  solve : Solver
  rsolve : RSolver
  cod : (W : Matrix (Fin n) (Fin n) ℝ) → CodNull W
  /-- sign bits of zero denominators in `ContactRedistributetwomod` -/
  ties : Fin 4 → Bool

/-- The members written by `CalcContactConstraint`.  `P` is `P_C`: `none` for the `contact_dof_ × system_dof_` zero matrix it is set to
there (line 472), `some` for the vector `CalcGravCompensation` puts there. -/
structure ContactMembers (n : ℕ) where
  c : ℕ
  S : ContactSpace c (Fin n)
  NwJw : Matrix (Fin n) (Fin (c - 6)) ℝ
  P : Option (Fin c → ℝ)

/-- A task space: size and `f_star_`. -/
structure SessionTask where
  t : ℕ
  f : Fin t → ℝ

/-- The members of `RobotData` used by the control calls, and the last return values. -/
structure Session (X : Type*) (n : ℕ) where
  x : X
  Ainv : Matrix (Fin 6 ⊕ Fin n) (Fin 6 ⊕ Fin n) ℝ
  G : Fin 6 ⊕ Fin n → ℝ
  com : Vec3
  yaw : ℝ
  cc : List ContactLink
  pos : List Vec3
  /-- `contact_dof_`: not initialised before the first `SetContact` -/
  contactDof : Option ℕ
  /-- `J_C` -/
  J : (c : ℕ) × Matrix (Fin c) (Fin 6 ⊕ Fin n) ℝ
  /-- `none`: `CalcContactConstraint` was never called, the members are empty matrices -/
  space : Option (ContactMembers n)
  τg : Fin n → ℝ
  τt : Fin n → ℝ
  τc : Fin n → ℝ
  ts : List SessionTask
  limit : Option (Fin n → ℝ)
  /-- return value of the last `CalcTaskControlTorque` -/
  taskRet : ℕ
  /-- return value of the last `CalcContactRedistribute` -/
  contactRet : ℕ

namespace Session
variable {X : Type*} {n : ℕ}

/-- src/dwbc.cpp 260-277: after loading and registering contacts and tasks.  `x0`: whatever RBDL holds before the first update. -/
def loaded (x0 : X) (cc : List ContactLink) (ts : List ℕ) (limit : Option (Fin n → ℝ)) : Session X n :=
  { x := x0, Ainv := 0, G := 0, com := 0, yaw := 0, cc := cc, pos := cc.map fun _ => 0, contactDof := none, J := ⟨0, 0⟩,
    space := none, τg := 0, τt := 0, τc := 0, ts := ts.map fun t => ⟨t, 0⟩, limit := limit, taskRet := 0, contactRet := 0 }

/-- src/dwbc.cpp 279-375 `UpdateKinematics`. -/
noncomputable def update (E : ControlEnv X n) (s : Session X n) (x : X) : Session X n :=
  { s with x := x, Ainv := (E.mass x)⁻¹, G := E.gravity x, com := E.com x, yaw := E.yaw x }

/-- The numbers of the active contacts. -/
def activeIdx (cc : List ContactLink) : List ℕ :=
  (List.range cc.length).filter fun i => match cc[i]? with
    | some l => l.contact
    | none => false

/-- src/dwbc.cpp 445-453: the Jacobians of the active contacts one below the other (C28). -/
def stackJac (E : ControlEnv X n) (x : X) (idx : List ℕ) : Matrix (Fin (6 * idx.length)) (Fin 6 ⊕ Fin n) ℝ :=
  Matrix.of fun r => E.contactJac (idx[r.val / 6]'(by omega)) x ⟨r.val % 6, by omega⟩

/-- src/dwbc.cpp 433-454 `UpdateContactConstraint`: pose of every contact, stacked Jacobian of the active ones. -/
def updateContacts (E : ControlEnv X n) (s : Session X n) : Option (Session X n) :=
  match s.contactDof with
  | none => none
  | some _ =>
    if s.cc.all (fun l => l.type == .c6d) then
      let cc := s.cc.mapIdx fun i l => { l with rotm := E.contactRot i s.x }
      some { s with cc := cc, pos := cc.mapIdx fun i _ => E.contactPos i s.x,
                    J := ⟨6 * (activeIdx cc).length, stackJac E s.x (activeIdx cc)⟩ }
    else none

/-- include/dwbc.h 447-470: the flags given, then `false`. -/
def setFlags : List ContactLink → List Bool → List ContactLink
  | [], _ => []
  | l :: ls, [] => { l with contact := false } :: setFlags ls []
  | l :: ls, b :: v => { l with contact := b } :: setFlags ls v

/-- include/dwbc.h 432-474 `SetContact`; too many flags only print a message. -/
def setContact (E : ControlEnv X n) (s : Session X n) (v : List Bool) : Option (Session X n) :=
  if s.cc.length < v.length then updateContacts E s
  else updateContacts E { s with cc := setFlags s.cc v, contactDof := some (6 * v.count true) }

/-- src/dwbc.cpp 456-478 `CalcContactConstraint`.  `V2.setZero(contact_dof_ - 6, model_dof_)` (line 469) has a negative size with fewer
than six contact rows. -/
noncomputable def calcContact (E : ControlEnv X n) (s : Session X n) : Option (Session X n) :=
  match s.contactDof with
  | none => none
  | some d =>
    if d < 6 then none
    else match calculateContactConstraint s.J.2 s.Ainv E.cod with
      | .ret _ S (some ⟨_, _, N⟩) => some { s with space := some ⟨s.J.1, S, N, none⟩ }
      | .ret _ S none => some { s with space := some ⟨s.J.1, S, 0, none⟩ }
      | _ => none

/-- src/dwbc.cpp 875-884 `CalcGravCompensation()`. -/
noncomputable def grav (s : Session X n) : Option (Session X n) :=
  match s.space with
  | none => none
  | some m => some { s with τg := gravityTorque m.S s.Ainv s.G, τt := 0, τc := 0,
                            space := some { m with P := some (gravityForce m.S s.G) } }

/-- src/dwbc.cpp 886-889 `CalcGravCompensation(VectorXd &)`: only `P_C` is written. -/
def gravInto (s : Session X n) : Option (Session X n) :=
  match s.space with
  | none => none
  | some m => some { s with space := some { m with P := some (gravityForce m.S s.G) } }

/-- src/dwbc.cpp 662-678 `SetTaskSpace` with a command of the right size (C29 treats others). -/
def setTask (s : Session X n) (i : ℕ) (f : ℕ → ℝ) : Option (Session X n) :=
  if i < s.ts.length then some { s with ts := s.ts.modify i fun T => { T with f := fun j => f j } } else none

/-- src/dwbc.cpp 685-793 `UpdateTaskSpace`: the Jacobians. -/
def taskInputs (E : ControlEnv X n) (s : Session X n) : List (TaskIn (Fin n)) :=
  s.ts.mapIdx fun i T => ⟨T.t, E.taskJac i s.x T.t, T.f⟩

/-- What QP control reads. -/
def qpRobot (s : Session X n) (m : ContactMembers n) (P : Fin m.c → ℝ) : QPRobot n m.c :=
  ⟨m.S, m.NwJw, P, s.τg, s.limit, s.cc⟩

/-- src/dwbc.cpp 818-873 `CalcTaskControlTorque(hqp)`.  With the zero matrix in `P_C` line 1031 adds a matrix and a vector. -/
noncomputable def taskTorque (E : ControlEnv X n) (s : Session X n) (hqp : Bool) : Option (Session X n) :=
  match s.space with
  | none => none
  | some m =>
    match calcTaskSpace m.S s.Ainv (s.taskInputs E) with
    | none => none
    | some ts =>
      if hqp then
        match m.P with
        | none => if ts.isEmpty then some { s with τt := 0, τc := 0, taskRet := 1 } else none
        | some P =>
          match calcTaskControlTorqueQP (s.qpRobot m P) E.solve ts with
          | .undefined => none
          | .ret v τt τc => some { s with τt := τt, τc := τc, taskRet := v }
      else some { s with τt := Model.taskTorque m.S ts, τc := 0, taskRet := 1 }

/-- The closed form with the members as they are; sizes that do not fit are undefined. -/
noncomputable def closedForm (E : ControlEnv X n) (s : Session X n) (m : ContactMembers n) (P : Fin m.c → ℝ) : Option (Fin n → ℝ) :=
  if h : m.c = 12 then
    closedFormTorque (cast (congrArg (ContactSpace · (Fin n)) h) m.S) (E.cod _) (fun i => P (Fin.cast h.symm i)) E.ties s.pos s.com
      s.yaw (s.τg + s.τt + s.τc)
  else none

/-- src/dwbc.cpp 1372-1618 `CalcContactRedistribute(hqp)`.  With QP the branch is on the flags, without on `contact_dof_`. -/
noncomputable def redistribute (E : ControlEnv X n) (s : Session X n) (hqp : Bool) : Option (Session X n) :=
  if hqp then
    if 6 * (active s.cc).length > 6 then
      match s.space with
      | none => none
      | some m =>
        match m.P with
        | none => none
        | some P =>
          if m.c ≤ 6 then none
          else match Model.redistribute (s.qpRobot m P) E.rsolve (s.τg + s.τt + s.τc) s.τc with
            | none => none
            | some (v, τc) => some { s with τc := τc, contactRet := v }
    else some { s with τc := 0, contactRet := 1 }
  else
    match s.contactDof with
    | none => none
    | some d =>
      if d = 12 then
        match s.space with
        | none => none
        | some m =>
          match m.P with
          | none => none
          | some P =>
            match closedForm E s m P with
            | none => none
            | some τc => some { s with τc := τc, contactRet := 1 }
      else some { s with τc := 0, contactRet := 0 }

/-- src/dwbc.cpp 890-895 `getContactForce`.  `J τ - P_C` is undefined while `P_C` is a matrix. -/
def reportedForce (s : Session X n) (τ : Fin n → ℝ) : Option ((c : ℕ) × (Fin c → ℝ)) :=
  match s.space with
  | none => none
  | some m => m.P.map fun P => ⟨m.c, contactForce m.S P τ⟩

/-- The sum the user sends to the motors (`GetControlTorque` returns an empty vector; the examples add the members). -/
def command (s : Session X n) : Fin n → ℝ := s.τg + s.τt + s.τc

end Session

/-- The calls. -/
inductive ControlCall (X : Type*) where
  | update (x : X)
  | setContact (v : List Bool)
  | updateContacts
  | calcContact
  | grav
  | gravInto
  | setTask (i : ℕ) (f : ℕ → ℝ)
  | taskTorque (hqp : Bool)
  | redistribute (hqp : Bool)

namespace Session
variable {X : Type*} {n : ℕ}

/-- One call. -/
noncomputable def step (E : ControlEnv X n) (s : Session X n) : ControlCall X → Option (Session X n)
  | .update x => some (s.update E x)
  | .setContact v => s.setContact E v
  | .updateContacts => s.updateContacts E
  | .calcContact => s.calcContact E
  | .grav => s.grav
  | .gravInto => s.gravInto
  | .setTask i f => s.setTask i f
  | .taskTorque h => s.taskTorque E h
  | .redistribute h => s.redistribute E h

/-- A history. -/
noncomputable def run (E : ControlEnv X n) : Session X n → List (ControlCall X) → Option (Session X n)
  | s, [] => some s
  | s, o :: os => match s.step E o with
    | none => none
    | some s' => run E s' os

end Session

/-- One control cycle as in example/main.cpp 74, 98-105 (`hqp`: with quadratic programmes): state, contacts, contact dynamics, one
command for every task, gravity, task torque, redistribution. -/
def controlCycle {X : Type*} (x : X) (v : List Bool) (fs : List (ℕ → ℝ)) (hqp : Bool) : List (ControlCall X) :=
  [.update x, .setContact v, .calcContact] ++ fs.mapIdx (fun i f => .setTask i f) ++
    [.grav, .taskTorque hqp, .redistribute hqp]

end Verif.Model
