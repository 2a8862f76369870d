import Mathlib.Data.Matrix.Block
import Mathlib.Data.Real.Basic
import Mathlib.LinearAlgebra.Matrix.ToLin

/-!
# Specification: rigid-body dynamics with contacts

Independent of the model.  Index type `Fin 6 ⊕ ι`: six floating-base coordinates, then the joints.
-/

namespace Verif.Spec
open Matrix

/-- Symmetric positive definite. -/
structure IsSPD {n : Type*} [Fintype n] (A : Matrix n n ℝ) : Prop where
  symm : Aᵀ = A
  pos : ∀ x : n → ℝ, x ≠ 0 → 0 < x ⬝ᵥ (A *ᵥ x)

/-- Joint torques as a generalised force: nothing acts directly on the floating base. -/
def actuate {ι : Type*} (τ : ι → ℝ) : Fin 6 ⊕ ι → ℝ := Sum.elim 0 τ

variable {ι κ τ : Type*} [Fintype ι] [Fintype κ]

/-- Equation of motion of the robot at rest (velocity terms zero), `F` being the force the robot exerts
on the environment: `A q̈ + Jᵀ F + G = Sᵀ τ`. -/
def Dynamics (A : Matrix (Fin 6 ⊕ ι) (Fin 6 ⊕ ι) ℝ) (J : Matrix κ (Fin 6 ⊕ ι) ℝ)
    (G : Fin 6 ⊕ ι → ℝ) (torque : ι → ℝ) (qdd : Fin 6 ⊕ ι → ℝ) (F : κ → ℝ) : Prop :=
  A *ᵥ qdd + Jᵀ *ᵥ F + G = actuate torque

/-- No contact point accelerates. -/
def ContactsFixed (J : Matrix κ (Fin 6 ⊕ ι) ℝ) (qdd : Fin 6 ⊕ ι → ℝ) : Prop := J *ᵥ qdd = 0

/-- `(qdd, F)` is a motion of the robot in contact under joint torques `torque`. -/
def Motion (A : Matrix (Fin 6 ⊕ ι) (Fin 6 ⊕ ι) ℝ) (J : Matrix κ (Fin 6 ⊕ ι) ℝ)
    (G : Fin 6 ⊕ ι → ℝ) (torque : ι → ℝ) (qdd : Fin 6 ⊕ ι → ℝ) (F : κ → ℝ) : Prop :=
  Dynamics A J G torque qdd F ∧ ContactsFixed J qdd

/-- The contact rows are independent: no nonzero contact force is invisible to the robot. -/
def IndependentRows (J : Matrix κ (Fin 6 ⊕ ι) ℝ) : Prop :=
  ∀ F : κ → ℝ, Jᵀ *ᵥ F = 0 → F = 0

/-- The contacts determine the base: if joints do not move and contacts do not move, the base does not
move. -/
def BaseDetermined (J : Matrix κ (Fin 6 ⊕ ι) ℝ) : Prop :=
  ∀ v : Fin 6 → ℝ, J *ᵥ (Sum.elim v 0) = 0 → v = 0

/-- The base columns of the last six contact rows. -/
def lastSixBase {c : ℕ} (hc : 6 < c) (J : Matrix (Fin c) (Fin 6 ⊕ ι) ℝ) : Matrix (Fin 6) (Fin 6) ℝ :=
  J.submatrix (fun i => ⟨c - 6 + i, by omega⟩) Sum.inl

end Verif.Spec
