import Verif.Spec.Rotation
import Mathlib.Analysis.Convex.Hull

/-!
# Specification: the support polygon

Soles are rectangles.  A robot that stands on level ground stands on the convex hull of its soles.
-/

namespace Verif.Spec
open Matrix

/-- The sole lies flat on level ground: it is turned about the vertical only. -/
def Flat (R : Matrix (Fin 3) (Fin 3) ℝ) : Prop := IsRot R ∧ R *ᵥ ![0, 0, 1] = ![0, 0, 1]

/-- The points of a rectangular sole with centre `p`, directions `R` and half sizes `lx`, `ly`. -/
def sole (p : Fin 3 → ℝ) (R : Matrix (Fin 3) (Fin 3) ℝ) (lx ly : ℝ) : Set (Fin 3 → ℝ) :=
  {x | ∃ a b : ℝ, |a| ≤ lx ∧ |b| ≤ ly ∧ x = p + R *ᵥ ![a, b, 0]}

/-- The support polygon: the convex hull of all soles. -/
def supportPolygon {k : ℕ} (p : Fin k → Fin 3 → ℝ) (R : Fin k → Matrix (Fin 3) (Fin 3) ℝ) (lx ly : Fin k → ℝ) : Set (Fin 3 → ℝ) :=
  convexHull ℝ (⋃ i, sole (p i) (R i) (lx i) (ly i))

end Verif.Spec
