import Mathlib.Data.Real.Basic
import Mathlib.Data.Matrix.Mul

/-! # Effort: the size of a torque vector and the energy of an acceleration -/

namespace Verif.Spec
open Matrix

/-- Sum of the squares of the joint torques. -/
def effort {ι : Type*} [Fintype ι] (τ : ι → ℝ) : ℝ := ∑ i, τ i ^ 2

/-- Twice the energy of acceleration (Gibbs' function at rest), the quantity of Gauss' principle of least constraint. -/
def accelEnergy {κ : Type*} [Fintype κ] (A : Matrix κ κ ℝ) (qdd : κ → ℝ) : ℝ := qdd ⬝ᵥ (A *ᵥ qdd)

end Verif.Spec
