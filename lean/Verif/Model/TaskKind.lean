import Mathlib.Data.Real.Basic
import Verif.Model.ReducedIdx

/-!
# Classification of the tasks for the reduced model (src/dwbc.cpp 3165-3228)
-/

set_option linter.unusedSectionVars false

namespace Verif.Model

/-- The classification stored in a task space: `cmm_task`, `reduced_task_`, `noncont_task`, `nc_heirarchy_`
(include/dwbc_task.h 126-142). -/
structure Kind where
  cmm : Bool
  reduced : Bool
  noncont : Bool
  order : ℕ
  deriving DecidableEq

/-- include/dwbc_task.h 140-142, src/task.cpp 36, 47, 56: a new task space. -/
def Kind.fresh : Kind := ⟨false, false, false, 0⟩

/-- What the classification reads of a task: the norms of `J_task_.leftCols(vc_dof)` and `J_task_.rightCols(nc_dof)` of a
custom task (`TASK_CUSTOM`), the `link_id_` of the task links otherwise. -/
inductive TaskDesc where
  | custom (left right : ℝ)
  | links (ids : List ℕ)

/-- src/dwbc.cpp 3190-3210: one task link.  The second component is the counter `nc_heirarchy_` of the call. -/
def visitLink (t : IdxTable) (s : Kind × ℕ) (i : ℕ) : Kind × ℕ :=
  if i = t.linkNum then ({ s.1 with cmm := true }, s.2)
  else if i ∈ 0 :: t.coLinks then ({ s.1 with reduced := true }, s.2)
  else ({ s.1 with noncont := true, order := s.2 }, s.2 + 1)

/-- src/dwbc.cpp 3170-3226: one task. -/
noncomputable def classifyOne (t : IdxTable) (n : ℕ) (k : Kind) : TaskDesc → Kind × ℕ
  | .custom l r =>
    let k := if l > 1e-4 then ⟨false, true, false, k.order⟩ else ⟨false, false, false, k.order⟩
    if r > 1e-4 then ({ k with noncont := true, order := n }, n + 1) else (k, n)
  | .links ids => ids.foldl (visitLink t) (k, n)

/-- src/dwbc.cpp 3168-3228: the loop over the tasks. -/
noncomputable def classifyFrom (t : IdxTable) : ℕ → List (TaskDesc × Kind) → List Kind
  | _, [] => []
  | n, (d, k) :: rest => (classifyOne t n k d).1 :: classifyFrom t (classifyOne t n k d).2 rest

/-- src/dwbc.cpp 3165-3228: one call.  `t` holds the link tables and the contacts of the last `ReducedDynamicsCalculate`. -/
noncomputable def classify (t : IdxTable) (ds : List TaskDesc) (ks : List Kind) : List Kind := classifyFrom t 0 (ds.zip ks)

/-- A history of calls. -/
noncomputable def classifyRuns (ks : List Kind) (runs : List (IdxTable × List TaskDesc)) : List Kind :=
  runs.foldl (fun ks r => classify r.1 r.2 ks) ks

end Verif.Model
