import Mathlib.LinearAlgebra.Matrix.Determinant.Basic
import Mathlib.LinearAlgebra.CrossProduct
import Mathlib.Data.Real.Basic

/-!
# Specification: rotations of space
-/

namespace Verif.Spec
open Matrix

/-- `R` is a proper rotation. -/
structure IsRot (R : Matrix (Fin 3) (Fin 3) ℝ) : Prop where
  orth : Rᵀ * R = 1
  det : R.det = 1

/-- `R` is the rotation about the unit axis `a` with cosine `c` and sine `s` of the angle (Rodrigues' formula:
`R v = c v + s a × v + (1 - c) (a · v) a`). -/
def RotatesAbout (R : Matrix (Fin 3) (Fin 3) ℝ) (a : Fin 3 → ℝ) (c s : ℝ) : Prop :=
  ∀ v, R *ᵥ v = c • v + s • crossProduct a v + ((1 - c) * (a ⬝ᵥ v)) • a

end Verif.Spec
