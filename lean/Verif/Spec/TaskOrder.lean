import Verif.Model.Level
import Verif.Spec.TaskRows

/-!
# Two ways of writing the same tasks
-/

set_option linter.unusedSectionVars false

namespace Verif.Spec
open Matrix Verif.Model

section
variable {σ : Type*}

/-- The level `T` has the links of `ps`, registered in that order, and commands for each of them the accelerations beside it. -/
def Registered (T : RowTask σ) (ps : List (RowTaskLink × List ℝ)) : Prop :=
  T.links = ps.map (·.1) ∧ T.f = (ps.map (·.2)).flatten ∧ T.dof = some (ps.map fun p => taskRows p.1.pd.mode).sum ∧
  T.custom = false ∧ ∀ p ∈ ps, p.2.length = taskRows p.1.pd.mode

/-- The same level, but for the order in which its links were registered. -/
def SameLevel (T T' : RowTask σ) : Prop :=
  T = T' ∨ ∃ ps ps', ps ≠ [] ∧ ps.Perm ps' ∧ Registered T ps ∧ Registered T' ps'

end

section
variable {ι : Type*} [Fintype ι] [DecidableEq ι]

/-- `T'` asks for the same as `T`, in equations that are combinations of those of `T`: other units, other axes, sums and
differences. -/
def Rewritten (T T' : TaskIn ι) : Prop :=
  ∃ X : Matrix (Fin T.t) (Fin T.t) ℝ, IsUnit X.det ∧ T' = ⟨T.t, X * T.J, X *ᵥ T.f⟩

end

end Verif.Spec
