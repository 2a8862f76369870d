import Verif.Spec.Dynamics
import Verif.Spec.Effort

/-! # Motions corrected task by task -/

namespace Verif.Spec
open Matrix

variable {ι : Type*} [Fintype ι] [DecidableEq ι] {c : ℕ}

/-- `q` keeps the contacts, accelerates a task with rows `JT` by `f`, and of all such motions differs least from `p` (in the energy of
the difference of accelerations); it is the only one. -/
def NearestWith (A : Matrix (Fin 6 ⊕ ι) (Fin 6 ⊕ ι) ℝ) (J : Matrix (Fin c) (Fin 6 ⊕ ι) ℝ) {t : ℕ} (JT : Matrix (Fin t) (Fin 6 ⊕ ι) ℝ)
    (f : Fin t → ℝ) (p q : Fin 6 ⊕ ι → ℝ) : Prop :=
  ContactsFixed J q ∧ JT *ᵥ q = f ∧ ∀ q', ContactsFixed J q' → JT *ᵥ q' = f →
    accelEnergy A (q - p) ≤ accelEnergy A (q' - p) ∧ (accelEnergy A (q' - p) ≤ accelEnergy A (q - p) → q' = q)

/-- The robot at rest, corrected for the last task of the list, then for the last but one, and so on to the first. -/
inductive Swept (A : Matrix (Fin 6 ⊕ ι) (Fin 6 ⊕ ι) ℝ) (J : Matrix (Fin c) (Fin 6 ⊕ ι) ℝ) :
    List ((t : ℕ) × Matrix (Fin t) (Fin 6 ⊕ ι) ℝ × (Fin t → ℝ)) → (Fin 6 ⊕ ι → ℝ) → Prop
  | rest : Swept A J [] 0
  | task {t : ℕ} {JT : Matrix (Fin t) (Fin 6 ⊕ ι) ℝ} {f : Fin t → ℝ} {lower} {p q : Fin 6 ⊕ ι → ℝ} :
      Swept A J lower p → NearestWith A J JT f p q → Swept A J (⟨t, JT, f⟩ :: lower) q

end Verif.Spec
