import Verif.Spec.Stance
import Verif.Spec.TwoContacts
import Mathlib.LinearAlgebra.CrossProduct

/-!
# Specification: what feet can supply
-/

namespace Verif.Spec
open Matrix

/-- Feet at `p` with directions `R` can together press on the ground with the force `f` and the moment `m` about the point `c`, so that none tips or
slips. -/
def CanSupply {k : ℕ} (p : Fin k → Fin 3 → ℝ) (R : Fin k → Matrix (Fin 3) (Fin 3) ℝ) (lx ly μ μz : Fin k → ℝ) (c f m : Fin 3 → ℝ) : Prop :=
  ∃ w : Fin k → Fin 6 → ℝ, (∀ i, NoTip (lx i) (ly i) (inFrame (R i) (w i)) ∧ NoSlip (μ i) (μz i) (inFrame (R i) (w i))) ∧
    ∑ i, fpart (w i) = f ∧ ∑ i, (mpart (w i) + crossProduct (p i - c) (fpart (w i))) = m

/-- Every foot alone would have grip enough for the force `f` at every point of its sole. -/
def Grips {k : ℕ} (R : Fin k → Matrix (Fin 3) (Fin 3) ℝ) (lx ly μ μz : Fin k → ℝ) (f : Fin 3 → ℝ) : Prop :=
  ∀ i, |((R i)ᵀ *ᵥ f) 0| ≤ μ i * -f 2 ∧ |((R i)ᵀ *ᵥ f) 1| ≤ μ i * -f 2 ∧
    lx i * |((R i)ᵀ *ᵥ f) 1| + ly i * |((R i)ᵀ *ᵥ f) 0| ≤ μz i * -f 2

end Verif.Spec
