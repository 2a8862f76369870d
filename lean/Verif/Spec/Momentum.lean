import Verif.Spec.Body
import Mathlib.LinearAlgebra.CrossProduct
import Mathlib.Data.Real.Basic

/-!
# Specification: momentum and energy of a system of rigid links
-/

namespace Verif.Spec
open Matrix

/-- A link at one instant, in world coordinates: mass, inertia tensor about its centre of mass, position of its centre
of mass, and the Jacobians giving the velocity of the centre of mass and the angular velocity from the generalised
velocity. -/
structure MovingLink (σ : Type*) where
  m : ℝ
  I : Matrix (Fin 3) (Fin 3) ℝ
  x : Fin 3 → ℝ
  Jv : Matrix (Fin 3) σ ℝ
  Jw : Matrix (Fin 3) σ ℝ

variable {σ : Type*} [Fintype σ]

/-- Total linear momentum. -/
def linearMomentum (L : List (MovingLink σ)) (qd : σ → ℝ) : Fin 3 → ℝ := (L.map fun l => l.m • (l.Jv *ᵥ qd)).sum

/-- Total angular momentum about the point `c`: spin plus orbital. -/
def angularMomentum (c : Fin 3 → ℝ) (L : List (MovingLink σ)) (qd : σ → ℝ) : Fin 3 → ℝ :=
  (L.map fun l => l.I *ᵥ (l.Jw *ᵥ qd) + l.m • crossProduct (l.x - c) (l.Jv *ᵥ qd)).sum

def mass (L : List (MovingLink σ)) : ℝ := (L.map fun l => l.m).sum

/-- `c` is the centre of mass. -/
def IsCOM (L : List (MovingLink σ)) (c : Fin 3 → ℝ) : Prop := mass L • c = (L.map fun l => l.m • l.x).sum

/-- The mass matrix: `½ q̇ᵀ A q̇` is the kinetic energy `Σ ½ m |v|² + ½ wᵀ I w`. -/
def massMatrix (L : List (MovingLink σ)) : Matrix σ σ ℝ := (L.map fun l => l.m • (l.Jvᵀ * l.Jv) + l.Jwᵀ * l.I * l.Jw).sum

/-- Generalised force of gravity `g` on all links. -/
def gravityForce (g : Fin 3 → ℝ) (L : List (MovingLink σ)) : σ → ℝ := (L.map fun l => l.Jvᵀ *ᵥ (l.m • g)).sum

/-- Inertia tensor of all links, frozen, about `c`. -/
def compositeInertia (c : Fin 3 → ℝ) (L : List (MovingLink σ)) : Matrix (Fin 3) (Fin 3) ℝ :=
  (L.map fun l => l.I + l.m • pointInertia (l.x - c)).sum

/-- Generalised velocity in which only the base moves: linear velocity `v` in world coordinates, angular velocity `ω` in
base coordinates. -/
def baseVelocity {ι : Type*} (v ω : Fin 3 → ℝ) : (Fin 3 ⊕ Fin 3) ⊕ ι → ℝ := Sum.elim (Sum.elim v ω) 0

/-- The first six coordinates move the whole robot as one rigid body about the base at `x0` with orientation `R0`. -/
structure FloatingBase {ι : Type*} [Fintype ι] (x0 : Fin 3 → ℝ) (R0 : Matrix (Fin 3) (Fin 3) ℝ)
    (l : MovingLink ((Fin 3 ⊕ Fin 3) ⊕ ι)) : Prop where
  lin : ∀ v ω, l.Jv *ᵥ baseVelocity v ω = v + crossProduct (R0 *ᵥ ω) (l.x - x0)
  ang : ∀ v ω, l.Jw *ᵥ baseVelocity v ω = R0 *ᵥ ω

end Verif.Spec
