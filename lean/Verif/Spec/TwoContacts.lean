import Verif.Spec.Wrench
import Mathlib.LinearAlgebra.CrossProduct

/-!
# Specification: two contacts acting on one body
-/

namespace Verif.Spec
open Matrix

/-- Force part of a wrench. -/
def fpart (w : Fin 6 → ℝ) : Fin 3 → ℝ := ![w 0, w 1, w 2]

/-- Moment part of a wrench. -/
def mpart (w : Fin 6 → ℝ) : Fin 3 → ℝ := ![w 3, w 4, w 5]

/-- Two wrenches applied at `p₁`, `p₂` have the same resultant (about the origin) as two others. -/
def SameResultant (p₁ p₂ : Fin 3 → ℝ) (w₁ w₂ v₁ v₂ : Fin 6 → ℝ) : Prop :=
  fpart w₁ + fpart w₂ = fpart v₁ + fpart v₂ ∧
  mpart w₁ + mpart w₂ + crossProduct p₁ (fpart w₁) + crossProduct p₂ (fpart w₂)
    = mpart v₁ + mpart v₂ + crossProduct p₁ (fpart v₁) + crossProduct p₂ (fpart v₂)

/-- The two wrenches in a stacked pair. -/
def wrench1 (F : Fin 12 → ℝ) : Fin 6 → ℝ := ![F 0, F 1, F 2, F 3, F 4, F 5]
def wrench2 (F : Fin 12 → ℝ) : Fin 6 → ℝ := ![F 6, F 7, F 8, F 9, F 10, F 11]

/-- The rows of `J` are the linear and angular velocities of two points `p₁`, `p₂` that move rigidly with the base when
only the base moves: its velocity coordinates `w` stand for a twist `(v, ω)` about some point `o`, one for one. -/
def RigidBase {ι : Type*} [Fintype ι] (J : Matrix (Fin 12) (Fin 6 ⊕ ι) ℝ) (p₁ p₂ : Fin 3 → ℝ) : Prop :=
  ∃ (o : Fin 3 → ℝ) (T : (Fin 6 → ℝ) → (Fin 6 → ℝ)), Function.Bijective T ∧ ∀ w,
    let V := J *ᵥ Sum.elim w 0
    fpart (wrench1 V) = fpart (T w) + crossProduct (mpart (T w)) (p₁ - o) ∧ mpart (wrench1 V) = mpart (T w) ∧
    fpart (wrench2 V) = fpart (T w) + crossProduct (mpart (T w)) (p₂ - o) ∧ mpart (wrench2 V) = mpart (T w)

end Verif.Spec
