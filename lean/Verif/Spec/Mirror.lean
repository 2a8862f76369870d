import Verif.Spec.Renumbered

/-!
# Specification: the mirror image of a robot

The mirror stands on the plane through the x- and z-axis: it turns sideways velocities and forces round, and with them rolling and
yawing, and keeps the others.  Joint `i` of the mirror image is the image of joint `e i` of the robot, turning the same way
(`s i = 1`) or the opposite way (`s i = -1`).
-/

namespace Verif.Spec
open Matrix

variable {ι : Type*}

/-- What the mirror does to the coordinates (linear x, y, z, angular x, y, z). -/
def mirrorSign (r : Fin 6) : ℝ := ![1, -1, 1, -1, 1, -1] r

/-- The plane mirror itself. -/
def mirror3 : Matrix (Fin 3) (Fin 3) ℝ := diagonal ![1, -1, 1]

/-- A force and moment, or a linear and angular velocity, in the mirror. -/
def mirrorWrench (w : Fin 6 → ℝ) : Fin 6 → ℝ := fun j => mirrorSign j * w j

/-- A stack of them. -/
def mirrorStack {k : ℕ} (F : Fin (6 * k) → ℝ) : Fin (6 * k) → ℝ := fun r => mirrorSign ⟨r % 6, by omega⟩ * F r

/-- The sign of a coordinate of the whole system. -/
def mirrorSigns (s : ι → ℝ) : Fin 6 ⊕ ι → ℝ := Sum.elim mirrorSign s

/-- Velocities, accelerations and forces of the whole system, in the mirror. -/
def mirrorAll (e : Equiv.Perm ι) (s : ι → ℝ) (q : Fin 6 ⊕ ι → ℝ) : Fin 6 ⊕ ι → ℝ := fun r => mirrorSigns s r * q (counted e r)

/-- The columns of a Jacobian, in the mirror. -/
def mirrorCols {κ : Type*} (e : Equiv.Perm ι) (s : ι → ℝ) (J : Matrix κ (Fin 6 ⊕ ι) ℝ) : Matrix κ (Fin 6 ⊕ ι) ℝ :=
  Matrix.of fun a r => mirrorSigns s r * J a (counted e r)

/-- The mass matrix, in the mirror. -/
def mirrorMass (e : Equiv.Perm ι) (s : ι → ℝ) (A : Matrix (Fin 6 ⊕ ι) (Fin 6 ⊕ ι) ℝ) : Matrix (Fin 6 ⊕ ι) (Fin 6 ⊕ ι) ℝ :=
  Matrix.of fun r q => mirrorSigns s r * mirrorSigns s q * A (counted e r) (counted e q)

/-- Joint torques, in the mirror. -/
abbrev mirrorTorque (e : Equiv.Perm ι) (s : ι → ℝ) (τ : ι → ℝ) : ι → ℝ := recount e s τ

end Verif.Spec
