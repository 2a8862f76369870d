import Mathlib.Data.Real.Basic
import Mathlib.Algebra.Order.Group.Abs
import Mathlib.Data.Fin.VecNotation
import Mathlib.Data.Matrix.Mul

/-!
# Specification: what a contact can carry

A contact wrench is `(fx, fy, fz, mx, my, mz)`, the action of the robot on the environment expressed in the
contact frame, `z` pointing out of the ground.  The pressing force is `-fz`.
-/

namespace Verif.Spec

/-- Force with which the robot presses on the ground. -/
def press (w : Fin 6 → ℝ) : ℝ := -w 2

/-- `p = (px, py)` in the sole plane is a centre of pressure: the moment of the wrench about `p`,
`m - p × f`, has no component in the plane. -/
def IsCoP (w : Fin 6 → ℝ) (px py : ℝ) : Prop :=
  w 3 - (py * w 2 - 0 * w 1) = 0 ∧ w 4 - (0 * w 0 - px * w 2) = 0

/-- The foot does not tip: it presses with the centre of pressure inside the sole, or carries neither vertical
force nor tipping moment. -/
def NoTip (lx ly : ℝ) (w : Fin 6 → ℝ) : Prop :=
  (0 < press w ∧ ∃ px py, IsCoP w px py ∧ |px| ≤ lx ∧ |py| ≤ ly) ∨ (w 2 = 0 ∧ w 3 = 0 ∧ w 4 = 0)

/-- The foot does not slip: friction pyramid and torsional friction. -/
def NoSlip (μ μz : ℝ) (w : Fin 6 → ℝ) : Prop :=
  |w 0| ≤ μ * press w ∧ |w 1| ≤ μ * press w ∧ |w 5| ≤ μz * press w

/-- A wrench expressed in the frame with axes `R` (columns, in world coordinates): force and moment are both
multiplied by `Rᵀ`. -/
def inFrame (R : Matrix (Fin 3) (Fin 3) ℝ) (w : Fin 6 → ℝ) : Fin 6 → ℝ :=
  let f := Matrix.mulVec R.transpose ![w 0, w 1, w 2]
  let m := Matrix.mulVec R.transpose ![w 3, w 4, w 5]
  ![f 0, f 1, f 2, m 0, m 1, m 2]

/-- The `i`-th six-dimensional piece of a stacked contact force. -/
def wrenchOf {k : ℕ} (F : Fin (6 * k) → ℝ) (i : Fin k) : Fin 6 → ℝ := fun j => F ⟨6 * i + j, by omega⟩

end Verif.Spec
