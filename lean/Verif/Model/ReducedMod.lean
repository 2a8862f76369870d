import Verif.Model.LinkMod
import Verif.Model.ReducedIdx

/-!
# The joint lists of the reduced model on a robot that was modified (src/dwbc.cpp 205, 2152-2358, 2752-2822)

`Model.IdxTable` describes the tables of a freshly loaded robot.  Here the tables may have become inconsistent, so every
access is checked: `none` is an access outside a vector, a member that was never written, or a loop that does not end.
-/

set_option linter.unusedSectionVars false

namespace Verif.Model

/-- A robot object.  The joint records (`joint_`) are their `joint_id_`; `linkNum` is `link_num_`. -/
structure RedObj where
  robot : ModRobot ℕ
  linkNum : ℕ

/-- src/dwbc.cpp 125-252 `InitModelData` on a new object (`link_num_` is written in line 205, before "COM" is appended). -/
def RedObj.load (fresh : ModRobot ℕ) : RedObj := ⟨fresh, fresh.links.length⟩

/-- src/dwbc.cpp 125-252 `InitModelData` on an object that was used before: `joint_` is not cleared. -/
def RedObj.reload (o : RedObj) (fresh : ModRobot ℕ) : RedObj := ⟨Model.reload o.robot fresh, fresh.links.length⟩

/-- src/dwbc.cpp 1764-2382, 2707-2731: a history of modifications.  None of these functions writes `link_num_` or the
`joint_id_` of a joint record. -/
noncomputable def RedObj.run (o : RedObj) (ops : List ModOp) : Option RedObj :=
  (o.robot.run ops).map fun r => ⟨r, o.linkNum⟩

/-- `joint_[i].joint_id_` -/
def RedObj.jointAt (o : RedObj) (i : ℕ) : Option ℕ := o.robot.joints[i]?

/-- `link_[i].parent_id_`; that of the "COM" entry is never written (src/link.cpp 48-52, src/dwbc.cpp 226). -/
def RedObj.parentAt (o : RedObj) (i : ℕ) : Option ℕ := (o.robot.links[i]?).map (·.parent)

/-- src/dwbc.cpp 2771-2776: the links visited from link `i`, with the joint numbers read there. -/
def RedObj.chain (o : RedObj) : ℕ → ℕ → Option (List (ℕ × ℕ))
  | 0, i => if i = 0 then some [] else none
  | fuel + 1, i =>
    if i = 0 then some []
    else match o.jointAt i, o.parentAt i with
      | some j, some p => (o.chain fuel p).map ((i, j) :: ·)
      | _, _ => none

/-- src/dwbc.cpp 2765-2778: all active contacts, given by their `link_number_`. -/
def RedObj.chains (o : RedObj) : List ℕ → Option (List (ℕ × ℕ))
  | [] => some []
  | c :: cs => match o.chain o.robot.links.length c, o.chains cs with
    | some a, some b => some (a ++ b)
    | _, _ => none

/-- src/dwbc.cpp 2781-2788: `nc_link_idx_`; `link_[i].body_id_` is read, "COM" included. -/
def RedObj.others (o : RedObj) (co : List ℕ) : Option (List ℕ) :=
  let nc := (List.range o.linkNum).filter (fun i => i ∉ 0 :: co)
  if ∀ i ∈ nc, i ≤ o.robot.links.length then some nc else none

/-- src/dwbc.cpp 2800-2813: the `while` loop for one of the links `nc`; `acc` is `nc_joint_idx_`. -/
def RedObj.otherWalk (o : RedObj) (nc : List ℕ) : ℕ → ℕ → List ℕ → Option (List ℕ)
  | 0, i, acc => if i = 0 then some acc else none
  | fuel + 1, i, acc =>
    if i = 0 then some acc
    else match o.jointAt i, o.parentAt i with
      | some j, some p =>
        let acc' := if j ∈ acc then acc else acc ++ [j]
        if p ∈ nc then some acc' else o.otherWalk nc fuel p acc'
      | _, _ => none

/-- src/dwbc.cpp 2797-2814: the loop over `nc_link_idx_`. -/
def RedObj.otherWalks (o : RedObj) (nc : List ℕ) : List ℕ → List ℕ → Option (List ℕ)
  | [], acc => some acc
  | i :: is, acc => match o.otherWalk nc o.robot.links.length i acc with
    | some acc' => o.otherWalks nc is acc'
    | none => none

/-- src/dwbc.cpp 2755-2822: `vc_joint_idx_` and `nc_joint_idx_`. -/
def RedObj.split (o : RedObj) (contacts : List ℕ) : Option (List ℕ × List ℕ) :=
  match o.chains contacts with
  | none => none
  | some co =>
    match o.others (co.map (·.1)) with
    | none => none
    | some nc =>
      match o.otherWalks nc nc [] with
      | none => none
      | some js => some (List.range 6 ++ (co.map (·.2)).insertionSort (· ≤ ·), js.insertionSort (· ≤ ·))

/-- The tables as `IdxTable` reads them. -/
def RedObj.table (o : RedObj) (contacts : List ℕ) : IdxTable :=
  { parent := o.robot.links.map (·.parent), jointId := o.robot.joints, linkNum := o.linkNum, contacts := contacts }

end Verif.Model
