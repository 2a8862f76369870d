import Verif.Spec.Supply

/-!
# Specification: standing on any terrain
-/

namespace Verif.Spec
open Matrix

variable {k : ℕ}

/-- Where the centre of mass may be for a robot on these feet to stand still: where the feet can carry a weight without tipping or slipping. -/
def supportRegion (p : Fin k → Fin 3 → ℝ) (R : Fin k → Matrix (Fin 3) (Fin 3) ℝ) (lx ly μ μz : Fin k → ℝ) : Set (Fin 3 → ℝ) :=
  {c | CanSupply p R lx ly μ μz c ![0, 0, -1] 0}

/-- The upward direction, as a sole with directions `R` sees it. -/
def upIn (R : Matrix (Fin 3) (Fin 3) ℝ) : Fin 3 → ℝ := Rᵀ *ᵥ ![0, 0, 1]

/-- Every foot alone could carry a weight at every point of its sole without slipping. -/
def Footing (R : Fin k → Matrix (Fin 3) (Fin 3) ℝ) (lx ly μ μz : Fin k → ℝ) : Prop :=
  ∀ i, 0 ≤ upIn (R i) 2 ∧ |upIn (R i) 0| ≤ μ i * upIn (R i) 2 ∧ |upIn (R i) 1| ≤ μ i * upIn (R i) 2 ∧
    lx i * |upIn (R i) 1| + ly i * |upIn (R i) 0| ≤ μz i * upIn (R i) 2

/-- All soles lie in one plane, level or inclined: `Q` turns the horizontal into it. -/
def InPlane (Q : Matrix (Fin 3) (Fin 3) ℝ) (p : Fin k → Fin 3 → ℝ) (R : Fin k → Matrix (Fin 3) (Fin 3) ℝ) : Prop :=
  IsRot Q ∧ (∀ i, Flat (Qᵀ * R i)) ∧ ∃ z, ∀ i, (Qᵀ *ᵥ p i) 2 = z

end Verif.Spec
