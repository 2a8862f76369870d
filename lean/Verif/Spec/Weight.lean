import Verif.Spec.Momentum
import Verif.Spec.TwoContacts
import Mathlib.Logic.Equiv.Fin.Basic

/-!
# Specification: a robot on the ground

The coordinates of `Spec.Momentum` are base translation, base rotation, joints; those of `Spec.Dynamics` are six base coordinates, then the joints.
-/

namespace Verif.Spec
open Matrix

/-- The two ways of counting the coordinates. -/
def sysIdx {ι : Type*} : (Fin 3 ⊕ Fin 3) ⊕ ι ≃ Fin 6 ⊕ ι := Equiv.sumCongr finSumFinEquiv (Equiv.refl ι)

/-- A point `p` of the robot is carried along when only the base moves.  The first three rows of `J` give the velocity of the point, the last three
the angular velocity of its link. -/
def RidesOnBase {ι : Type*} [Fintype ι] (x0 : Fin 3 → ℝ) (R0 : Matrix (Fin 3) (Fin 3) ℝ) (p : Fin 3 → ℝ) (J : Matrix (Fin 6) (Fin 6 ⊕ ι) ℝ) : Prop :=
  ∀ v ω, fpart (J *ᵥ (baseVelocity v ω ∘ sysIdx.symm)) = v + crossProduct (R0 *ᵥ ω) (p - x0) ∧
    mpart (J *ᵥ (baseVelocity v ω ∘ sysIdx.symm)) = R0 *ᵥ ω

end Verif.Spec
