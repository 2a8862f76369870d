import Verif.Model.Body

/-!
# The link tree (src/dwbc.cpp 160-229, 2607-2705)
-/

set_option linter.unusedSectionVars false

namespace Verif.Model
open Matrix Verif

/-- What `InitModelData` reads of an RBDL body: `mBodies[i].mMass`, `lambda[i]`. -/
structure RBody where
  mass : ℝ
  lambda : ℕ

open Classical in
/-- src/dwbc.cpp 160-199: the RBDL ids of the bodies that become links (`link_[k].body_id_`): those with mass. -/
noncomputable def linkIds (bodies : List RBody) : List ℕ :=
  (List.range bodies.length).filter fun i => ((bodies[i]?).elim 0 RBody.mass) ≠ 0

/-- `model_.lambda[link_[k].body_id_]` -/
def lambdaOf (bodies : List RBody) (ids : List ℕ) (k : ℕ) : ℕ := ((bodies[ids.getD k 0]?).elim 0 RBody.lambda)

/-- src/dwbc.cpp 203-226: `parent_id_` of every link, by the two nested loops (the last match wins, 0 without match). -/
noncomputable def parentIds (bodies : List RBody) : List ℕ :=
  let ids := linkIds bodies
  (List.range ids.length).map fun k =>
    ((List.range ids.length).filter fun j => lambdaOf bodies ids k = ids.getD j 0).getLastD 0

/-- src/dwbc.cpp 203-226: `child_id_` of every link: link `k` is appended to every link whose body is its RBDL parent. -/
noncomputable def childIds (bodies : List RBody) : List (List ℕ) :=
  let ids := linkIds bodies
  (List.range ids.length).map fun j =>
    (List.range ids.length).filter fun k => lambdaOf bodies ids k = ids.getD j 0

/-- The members of a `Link` read by `CalcVirtualInertia`. -/
structure VLink where
  body : Body
  rotm : Mat3
  xpos : Vec3
  parent : ℕ
  children : List ℕ

/-- The links of a loaded model: numbering from `InitModelData`, mass data and pose of link `k` from `data k`. -/
noncomputable def buildLinks (bodies : List RBody) (data : ℕ → Body × Mat3 × Vec3) : List VLink :=
  (List.range (linkIds bodies).length).map fun k =>
    { body := (data k).1, rotm := (data k).2.1, xpos := (data k).2.2
      parent := (parentIds bodies).getD k 0, children := (childIds bodies).getD k [] }

/-- src/dwbc.cpp 2658-2688: one round of the `while` loop.  The last link without children is merged into its parent and
removed.  `none`: no such link (the loop never ends), an index out of range, or a division by zero mass. -/
noncomputable def mergeLeaf (joints : List (Mat3 × Vec3)) (links : List VLink) : Option (List VLink) :=
  match (List.range links.length).reverse.find? fun i => ((links[i]?).elim false fun l => l.children.isEmpty) with
  | none => none
  | some i =>
    match links[i]?, joints[i]? with
    | some li, some j =>
      match links[li.parent]? with
      | none => none
      | some p =>
        match addLink p.body li.body j.1 j.2 with
        | none => none
        | some b => some ((links.set li.parent { p with body := b, children := p.children.erase i }).eraseIdx i)
    | _, _ => none

/-- src/dwbc.cpp 2651-2689: the `while` loop.  Every round shortens the list by one, so `fuel = links.length` rounds
are enough; `none` also when the loop never ends. -/
noncomputable def collapse (joints : List (Mat3 × Vec3)) : ℕ → List VLink → Option (List VLink)
  | 0, links => if links.length = 1 then some links else none
  | fuel + 1, links =>
    if links.length = 1 then some links
    else match mergeLeaf joints links with
      | none => none
      | some l => collapse joints fuel l

/-- src/dwbc.cpp 2607-2705 `CalcVirtualInertia` on the links without the trailing "COM": `new_inertia`, `new_com`,
`new_mass`.  `none`: does not end, out-of-range index, or division by zero. -/
noncomputable def calcVirtualInertia (links : List VLink) (joints : List (Mat3 × Vec3)) : Option (Mat3 × Vec3 × ℝ) :=
  match collapse joints links.length links with
  | some (l :: _) => some (l.body.inertia, l.xpos + l.rotm *ᵥ l.body.com, l.body.mass)
  | _ => none

end Verif.Model
