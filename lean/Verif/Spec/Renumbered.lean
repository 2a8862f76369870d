import Verif.Spec.Dynamics

/-!
# Specification: one robot with its joints counted otherwise

The same robot described twice: joint `i` of the second description is joint `e i` of the first, and its axis points the same way
(`s i = 1`) or the opposite way (`s i = -1`).
-/

namespace Verif.Spec
open Matrix

variable {ι : Type*}

/-- The coordinate of the first description that a coordinate of the second one is, base coordinates being the same. -/
def counted (e : Equiv.Perm ι) : Fin 6 ⊕ ι → Fin 6 ⊕ ι := Sum.map id e

/-- Its sign. -/
def signed (s : ι → ℝ) : Fin 6 ⊕ ι → ℝ := Sum.elim (fun _ => 1) s

/-- `s` only turns axes round. -/
def Signs (s : ι → ℝ) : Prop := ∀ i, s i = 1 ∨ s i = -1

/-- Joint torques (or joint velocities) in the second description. -/
def recount (e : Equiv.Perm ι) (s : ι → ℝ) (τ : ι → ℝ) : ι → ℝ := fun i => s i * τ (e i)

/-- Torque limits in the second description. -/
def recountLimit (e : Equiv.Perm ι) (L : ι → ℝ) : ι → ℝ := fun i => L (e i)

/-- Velocities, accelerations and forces of the whole system in the second description. -/
def recountAll (e : Equiv.Perm ι) (s : ι → ℝ) (q : Fin 6 ⊕ ι → ℝ) : Fin 6 ⊕ ι → ℝ := fun r => signed s r * q (counted e r)

/-- The columns of a Jacobian in the second description. -/
def recountCols {κ : Type*} (e : Equiv.Perm ι) (s : ι → ℝ) (J : Matrix κ (Fin 6 ⊕ ι) ℝ) : Matrix κ (Fin 6 ⊕ ι) ℝ :=
  Matrix.of fun a r => signed s r * J a (counted e r)

/-- The mass matrix in the second description. -/
def recountMass (e : Equiv.Perm ι) (s : ι → ℝ) (A : Matrix (Fin 6 ⊕ ι) (Fin 6 ⊕ ι) ℝ) : Matrix (Fin 6 ⊕ ι) (Fin 6 ⊕ ι) ℝ :=
  Matrix.of fun r q => signed s r * signed s q * A (counted e r) (counted e q)

/-! ### other units for the joint coordinates -/

/-- A Jacobian, if joint `i` is measured in a unit `u i` times as large. -/
def scaleCols {κ : Type*} (u : ι → ℝ) (J : Matrix κ (Fin 6 ⊕ ι) ℝ) : Matrix κ (Fin 6 ⊕ ι) ℝ :=
  Matrix.of fun a r => Sum.elim (fun _ => 1) u r * J a r

/-- The mass matrix in those units. -/
def scaleMass (u : ι → ℝ) (A : Matrix (Fin 6 ⊕ ι) (Fin 6 ⊕ ι) ℝ) : Matrix (Fin 6 ⊕ ι) (Fin 6 ⊕ ι) ℝ :=
  Matrix.of fun r q => Sum.elim (fun _ => 1) u r * Sum.elim (fun _ => 1) u q * A r q

/-- The weights in those units. -/
def scaleAll (u : ι → ℝ) (G : Fin 6 ⊕ ι → ℝ) : Fin 6 ⊕ ι → ℝ := fun r => Sum.elim (fun _ => 1) u r * G r

/-- Joint torques in those units. -/
def scaleTorque (u : ι → ℝ) (τ : ι → ℝ) : ι → ℝ := fun i => u i * τ i

end Verif.Spec
