import Verif.Lemmas.ContactRank

/-!
# A concrete robot used to show that hypotheses are satisfiable

Twelve contact rows (two 6-D contacts), six joints, unit inertia: the first foot is rigidly attached to the
base, the second is connected to it by six joints.
-/

namespace Verif.Ex
open Matrix Verif Verif.Spec Verif.Model

/-- contact Jacobian `[1 0; 1 1]` -/
def J : Matrix (Fin 12) (Fin 6 ⊕ Fin 6) ℝ := Matrix.of fun i s =>
  match s with
  | Sum.inl j => if i.val % 6 = j.val then 1 else 0
  | Sum.inr j => if i.val = j.val + 6 then 1 else 0

/-- unit mass matrix -/
def A : Matrix (Fin 6 ⊕ Fin 6) (Fin 6 ⊕ Fin 6) ℝ := 1

theorem hA : IsSPD A := isSPD_one

theorem J_ind : IndependentRows J := by
  intro F h
  have hr : ∀ j : Fin 6, (Jᵀ *ᵥ F) (Sum.inr j) = 0 := fun j => by rw [h]; rfl
  have hl : ∀ j : Fin 6, (Jᵀ *ᵥ F) (Sum.inl j) = 0 := fun j => by rw [h]; rfl
  have r0 := hr 0; have r1 := hr 1; have r2 := hr 2; have r3 := hr 3; have r4 := hr 4; have r5 := hr 5
  have l0 := hl 0; have l1 := hl 1; have l2 := hl 2; have l3 := hl 3; have l4 := hl 4; have l5 := hl 5
  simp [J, mulVec, dotProduct, Fin.sum_univ_succ] at r0 r1 r2 r3 r4 r5 l0 l1 l2 l3 l4 l5
  ext i
  fin_cases i <;> simp_all

theorem J_base : BaseDetermined J := by
  intro v h
  have hl : ∀ j : Fin 12, (J *ᵥ (Sum.elim v 0)) j = 0 := fun j => by rw [h]; rfl
  have r0 := hl 0; have r1 := hl 1; have r2 := hl 2; have r3 := hl 3; have r4 := hl 4; have r5 := hl 5
  simp [J, mulVec, dotProduct, Fin.sum_univ_succ] at r0 r1 r2 r3 r4 r5
  ext i
  fin_cases i <;> simp_all

end Verif.Ex
