import Mathlib.Data.Real.Basic
import Mathlib.Data.Matrix.Mul
import Mathlib.LinearAlgebra.Matrix.Notation

/-!
# Specification: rigid bodies as sets of mass points
-/

namespace Verif.Spec
open Matrix

/-- A mass point. -/
structure Particle where
  m : ℝ
  x : Fin 3 → ℝ

/-- Inertia tensor of a unit mass at `r` about the origin: `|r|² 1 - r rᵀ`. -/
def pointInertia (r : Fin 3 → ℝ) : Matrix (Fin 3) (Fin 3) ℝ := (r ⬝ᵥ r) • (1 : Matrix (Fin 3) (Fin 3) ℝ) - vecMulVec r r

def totalMass (P : List Particle) : ℝ := (P.map fun p => p.m).sum

/-- First moment of mass. -/
def firstMoment (P : List Particle) : Fin 3 → ℝ := (P.map fun p => p.m • p.x).sum

/-- Inertia tensor about the point `c`. -/
def inertiaAbout (c : Fin 3 → ℝ) (P : List Particle) : Matrix (Fin 3) (Fin 3) ℝ :=
  (P.map fun p => p.m • pointInertia (p.x - c)).sum

/-- Mass, centre of mass and inertia tensor about the centre of mass are those of the mass points `P`. -/
structure Describes (m : ℝ) (c : Fin 3 → ℝ) (I : Matrix (Fin 3) (Fin 3) ℝ) (P : List Particle) : Prop where
  mass : m = totalMass P
  com : m • c = firstMoment P
  inertia : I = inertiaAbout c P

/-- The mass point moved by the rigid motion `x ↦ R x + t`. -/
def Particle.move (R : Matrix (Fin 3) (Fin 3) ℝ) (t : Fin 3 → ℝ) (p : Particle) : Particle := ⟨p.m, R *ᵥ p.x + t⟩

/-- A rigid body placed in the world: mass, position of its centre of mass, inertia tensor about its centre of mass. -/
structure Placed where
  m : ℝ
  x : Fin 3 → ℝ
  I : Matrix (Fin 3) (Fin 3) ℝ

/-- Mass `M`, centre of mass `c` and inertia `I` about the centre of mass are those of the set `L` of placed bodies:
masses add, `c` is the mass-weighted mean, inertias about `c` add (parallel axis theorem). -/
structure IsUnion (L : List Placed) (M : ℝ) (c : Fin 3 → ℝ) (I : Matrix (Fin 3) (Fin 3) ℝ) : Prop where
  mass : M = (L.map fun l => l.m).sum
  com : M • c = (L.map fun l => l.m • l.x).sum
  inertia : I = (L.map fun l => l.I + l.m • pointInertia (l.x - c)).sum

end Verif.Spec
