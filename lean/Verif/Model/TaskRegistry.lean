import Verif.Model.Registry

/-!
# Task registry (src/dwbc.cpp 76-84, 515-678, src/task.cpp 6-75)

State machine of the task registration calls.  `none` is undefined behaviour.  The calls are modelled with
`verbose = false`; with `verbose` they also read `link_[link_number]` and `taskmode_str[task_mode]`.
-/

namespace Verif.Model

/-- src/task.cpp 6-32: `t_dof_` of a task link mode (include/dwbc_task.h: 0-2 the 6-D modes, 3-7 position and rotation);
`none` is an uninitialised member. -/
def modeDof (mode : ℤ) : Option ℕ :=
  if 0 ≤ mode ∧ mode ≤ 2 then some 6 else if 3 ≤ mode ∧ mode ≤ 7 then some 3 else none

/-- `TaskLink` -/
structure TaskLinkRec where
  mode : ℤ
  link : ℤ
  point : Fin 3 → ℝ

/-- `TaskSpace`, the registration part.  `custom`: made by the constructor with a dof.  `dof` is `task_dof_` (`none` when it
was computed from an uninitialised `t_dof_`). -/
structure TaskRec where
  custom : Bool
  hier : ℤ
  dof : Option ℕ
  links : List TaskLinkRec
  fstar : Option (List ℝ)
  jtask : Option DynMat

/-- The members of `RobotData` concerned: `link_` (names), `ts_`, and the number of entries of `qp_task_`. -/
structure TaskReg where
  links : List String
  ts : List TaskRec
  qps : ℕ

namespace TaskReg

/-- src/task.cpp 41-48 -/
def customTask (hier : ℤ) (dof : ℕ) : TaskRec :=
  { custom := true, hier := hier, dof := some dof, links := [], fstar := some [], jtask := none }

/-- src/task.cpp 52-65 -/
def linkTask (mode hier link : ℤ) (point : Fin 3 → ℝ) : TaskRec :=
  { custom := false, hier := hier, dof := modeDof mode, links := [⟨mode, link, point⟩]
    fstar := (modeDof mode).map fun d => List.replicate d 0, jtask := none }

/-- src/task.cpp 67-76 `TaskSpace::AddTaskLink` -/
def addLinkTo (t : TaskRec) (mode link : ℤ) (point : Fin 3 → ℝ) : TaskRec :=
  let d := t.dof.bind fun a => (modeDof mode).map fun b => a + b
  { t with links := t.links ++ [⟨mode, link, point⟩], dof := d, fstar := d.map fun d => List.replicate d 0 }

/-- `ts_[h].AddTaskLink(...)`, no bounds check. -/
def addLinkAt (s : TaskReg) (h mode link : ℤ) (point : Fin 3 → ℝ) : Option TaskReg :=
  if h < 0 then none
  else match s.ts[h.toNat]? with
    | none => none
    | some t => some { s with ts := s.ts.set h.toNat (addLinkTo t mode link point) }

/-- The duplicate check (src/dwbc.cpp 536-546, 581-591, 608-618, 646-656). -/
def hasLink (s : TaskReg) (link : ℤ) : Bool := s.ts.any fun t => t.links.any fun l => l.link == link

/-- src/dwbc.cpp 515-520 -/
def clear (s : TaskReg) : TaskReg := { s with ts := [], qps := 0 }

/-- src/dwbc.cpp 522-530: the hierarchy argument is not used. -/
def addDof (s : TaskReg) (_hier : ℤ) (dof : ℕ) : TaskReg :=
  { s with ts := s.ts ++ [customTask s.ts.length dof], qps := s.qps + 1 }

/-- src/dwbc.cpp 531-551: the hierarchy argument is not used. -/
def addNumber (s : TaskReg) (_hier mode link : ℤ) (point : Fin 3 → ℝ) : TaskReg :=
  if s.hasLink link then s
  else { s with ts := s.ts ++ [linkTask mode s.ts.length link point], qps := s.qps + 1 }

/-- `link_` index of a name (src/dwbc.cpp 557-566, 627-636) -/
def linkIndex (s : TaskReg) (name : String) : Option ℕ := s.links.findIdx? fun m => Robot.strcaseEq m name

/-- src/dwbc.cpp 553-601 -/
def addName (s : TaskReg) (hier mode : ℤ) (name : String) (point : Fin 3 → ℝ) : Option TaskReg :=
  match s.linkIndex name with
  | none => some s
  | some k =>
    if s.hasLink k then some s
    else if (s.ts.length : ℤ) = hier then
      some { s with ts := s.ts ++ [linkTask mode hier k point], qps := s.qps + 1 }
    else if hier < (s.ts.length : ℤ) then s.addLinkAt hier mode k point
    else some s

/-- src/dwbc.cpp 603-621 -/
def addTaskLinkNumber (s : TaskReg) (hier mode link : ℤ) (point : Fin 3 → ℝ) : Option TaskReg :=
  if s.hasLink link then some s else s.addLinkAt hier mode link point

/-- src/dwbc.cpp 623-660 -/
def addTaskLinkName (s : TaskReg) (hier mode : ℤ) (name : String) (point : Fin 3 → ℝ) : Option TaskReg :=
  match s.linkIndex name with
  | none => some s
  | some k => if s.hasLink k then some s else s.addLinkAt hier mode k point

/-- src/dwbc.cpp 662-678 `SetTaskSpace`: `ts_[heirarchy].task_dof_` is read before the bounds check; a size mismatch only
prints. -/
def setTaskSpace (s : TaskReg) (hier : ℤ) (fstar : List ℝ) (J : DynMat) : Option TaskReg :=
  if hier < 0 then none
  else match s.ts[hier.toNat]? with
    | none => none
    | some t => match t.dof with
      | none => none
      | some _ => some { s with ts := s.ts.set hier.toNat { t with fstar := some fstar, jtask := some J } }

end TaskReg

/-- The calls a user can make. -/
inductive TaskCall where
  | clear
  | addDof (hier : ℤ) (dof : ℕ)
  | addNumber (hier mode link : ℤ) (point : Fin 3 → ℝ)
  | addName (hier mode : ℤ) (name : String) (point : Fin 3 → ℝ)
  | linkNumber (hier mode link : ℤ) (point : Fin 3 → ℝ)
  | linkName (hier mode : ℤ) (name : String) (point : Fin 3 → ℝ)
  | setTask (hier : ℤ) (fstar : List ℝ) (J : DynMat)

namespace TaskReg

/-- One call. -/
def call (s : TaskReg) : TaskCall → Option TaskReg
  | .clear => some s.clear
  | .addDof h d => some (s.addDof h d)
  | .addNumber h m l p => some (s.addNumber h m l p)
  | .addName h m nm p => s.addName h m nm p
  | .linkNumber h m l p => s.addTaskLinkNumber h m l p
  | .linkName h m nm p => s.addTaskLinkName h m nm p
  | .setTask h f J => s.setTaskSpace h f J

/-- A history of calls. -/
def calls (s : TaskReg) : List TaskCall → Option TaskReg
  | [] => some s
  | c :: cs => match s.call c with
    | none => none
    | some s' => s'.calls cs

/-- A model just loaded. -/
def loaded (links : List String) : TaskReg := ⟨links, [], 0⟩

end TaskReg
end Verif.Model
