import Mathlib.Analysis.Calculus.Deriv.Basic
import Mathlib.LinearAlgebra.CrossProduct
import Mathlib.Data.Matrix.Mul
import Mathlib.Analysis.Calculus.FDeriv.Basic

/-!
# Specification: moving points and orientations
-/

namespace Verif.Spec
open Matrix

/-- At time `t` the moving orientation `R` has angular velocity `w`: every body-fixed vector `v` moves with velocity
`w × (R v)`. -/
def AngularVelocity (R : ℝ → Matrix (Fin 3) (Fin 3) ℝ) (w : Fin 3 → ℝ) (t : ℝ) : Prop :=
  ∀ (v : Fin 3 → ℝ) (i : Fin 3), HasDerivAt (fun s => (R s *ᵥ v) i) (crossProduct w (R t *ᵥ v) i) t

/-- Position `p`, velocity `v` and acceleration `a` belong to one motion at time `t`. -/
def Moves (p v a : ℝ → Fin 3 → ℝ) (t : ℝ) : Prop :=
  ∀ i, HasDerivAt (fun s => p s i) (v t i) t ∧ HasDerivAt (fun s => v s i) (a t i) t

end Verif.Spec
