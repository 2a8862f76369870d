import Mathlib.Data.List.Sort
import Mathlib.Data.List.Range

/-!
# Contact-chain and non-contact joints of the reduced model (src/dwbc.cpp 2752-2822)
-/

set_option linter.unusedSectionVars false

namespace Verif.Model

/-- What `ReducedDynamicsCalculate` reads of the link and joint tables: `link_[i].parent_id_`, `joint_[i].joint_id_`
(both without the trailing "COM"), `link_num_` and the `link_number_` of every active contact. -/
structure IdxTable where
  parent : List ℕ
  jointId : List ℕ
  linkNum : ℕ
  contacts : List ℕ

/-- `link_[i].parent_id_` -/
def IdxTable.par (t : IdxTable) (i : ℕ) : ℕ := t.parent.getD i 0

/-- `joint_[i].joint_id_` -/
def IdxTable.jid (t : IdxTable) (i : ℕ) : ℕ := t.jointId.getD i 0

/-- src/dwbc.cpp 2771-2776: the links visited by the `while` loop that starts at link `i`.  A parent has a smaller number
than its child, so `fuel = parent.length` is enough. -/
def IdxTable.walk (t : IdxTable) : ℕ → ℕ → List ℕ
  | 0, _ => []
  | fuel + 1, i => if i = 0 then [] else i :: t.walk fuel (t.par i)

/-- src/dwbc.cpp 2763-2779: `co_link_idx_` without its leading 0, before sorting. -/
def IdxTable.coLinks (t : IdxTable) : List ℕ := t.contacts.flatMap (t.walk t.parent.length)

/-- src/dwbc.cpp 2774, 2790: `co_joint_idx_`.  There is no test for joints already in the list. -/
def IdxTable.coJoints (t : IdxTable) : List ℕ := (t.coLinks.map t.jid).insertionSort (· ≤ ·)

/-- src/dwbc.cpp 2781-2788: `nc_link_idx_`. -/
def IdxTable.ncLinks (t : IdxTable) : List ℕ := (List.range t.linkNum).filter (fun i => i ∉ 0 :: t.coLinks)

/-- src/dwbc.cpp 2800-2813: the `while` loop for one link; `acc` is `nc_joint_idx_`. -/
def IdxTable.ncWalk (t : IdxTable) : ℕ → ℕ → List ℕ → List ℕ
  | 0, _, acc => acc
  | fuel + 1, i, acc =>
    if i = 0 then acc
    else
      let acc' := if t.jid i ∈ acc then acc else acc ++ [t.jid i]
      if t.par i ∈ t.ncLinks then acc' else t.ncWalk fuel (t.par i) acc'

/-- src/dwbc.cpp 2797-2816: `nc_joint_idx_`. -/
def IdxTable.ncJoints (t : IdxTable) : List ℕ :=
  (t.ncLinks.foldl (fun acc i => t.ncWalk t.parent.length i acc) []).insertionSort (· ≤ ·)

/-- src/dwbc.cpp 2791-2796: `vc_joint_idx_`. -/
def IdxTable.vcJoints (t : IdxTable) : List ℕ := List.range 6 ++ t.coJoints

/-- src/dwbc.cpp 2755-2822: `vc_joint_idx_`, `nc_joint_idx_` (their sizes are `vc_dof`, `nc_dof`).  `none`: an index out of
range (a contact on a link that does not exist, `link_num_` larger than the table). -/
def IdxTable.split (t : IdxTable) : Option (List ℕ × List ℕ) :=
  if t.linkNum ≤ t.parent.length ∧ t.jointId.length = t.parent.length ∧ ∀ c ∈ t.contacts, c < t.parent.length then
    some (t.vcJoints, t.ncJoints)
  else none

/-- The tables of a loaded model: link 0 is the base, parents come first, every other link has one joint of its own, and
the joints fill the places behind the six base coordinates. -/
structure IdxTable.Loaded (t : IdxTable) : Prop where
  nonempty : 0 < t.parent.length
  joints : t.jointId.length = t.parent.length
  linkNum : t.linkNum = t.parent.length
  parent_lt : ∀ i, 0 < i → i < t.parent.length → t.par i < i
  jid_ge : ∀ i, 0 < i → i < t.parent.length → 6 ≤ t.jid i
  jid_lt : ∀ i, 0 < i → i < t.parent.length → t.jid i < t.parent.length + 5
  jid_inj : ∀ i j, 0 < i → i < t.parent.length → 0 < j → j < t.parent.length → t.jid i = t.jid j → i = j
  contacts_lt : ∀ c ∈ t.contacts, c < t.parent.length

end Verif.Model
