import Mathlib.Topology.Instances.Matrix
import Mathlib.Topology.Instances.Real.Lemmas
import Verif.Model.Task

/-!
# What C78 speaks about: commands that vary continuously with the state
-/

set_option linter.unusedSectionVars false

namespace Verif.Spec
open Matrix Topology Verif.Model

/-- The result of a computation that may fail is defined at `x₀` and near it, and changes little if the state changes little. -/
def VariesContinuously {X V : Type*} [TopologicalSpace X] [TopologicalSpace V] (f : X → Option V) (x₀ : X) : Prop :=
  ∃ v₀, f x₀ = some v₀ ∧ ∀ U ∈ 𝓝 v₀, ∀ᶠ x in 𝓝 x₀, ∃ v ∈ U, f x = some v

/-- A task whose Jacobian and commanded acceleration depend on the state. -/
structure TaskFam (X ι : Type*) where
  t : ℕ
  J : X → Matrix (Fin t) (Fin 6 ⊕ ι) ℝ
  f : X → Fin t → ℝ

/-- The task in state `x`. -/
def TaskFam.at {X ι : Type*} (T : TaskFam X ι) (x : X) : TaskIn ι := ⟨T.t, T.J x, T.f x⟩

end Verif.Spec
