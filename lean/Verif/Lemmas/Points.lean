import Verif.Lemmas.ContactRank

/-!
# A robot standing on one 6-D foot and two point contacts (registered in that order)

Six joints move the two point contacts, the foot is attached to the base; unit inertia.
-/

namespace Verif.Points
open Matrix Verif Verif.Spec Verif.Model

/-- Base columns of the Jacobian of a point at `p`: `[1, -p×]`. -/
def pointRow (p : Fin 3 → ℝ) (i : Fin 3) (j : Fin 6) : ℝ :=
  (![![1, 0, 0, 0, p 2, -p 1], ![0, 1, 0, -p 2, 0, p 0], ![0, 0, 1, p 1, -p 0, 0]] : Fin 3 → Fin 6 → ℝ) i j

/-- Base columns of two point contacts. -/
def twoPoints (p q : Fin 3 → ℝ) : Matrix (Fin 6) (Fin 6) ℝ := Matrix.of fun i j =>
  if h : i.val < 3 then pointRow p ⟨i, h⟩ j else pointRow q ⟨i - 3, by omega⟩ j

/-- contact Jacobian `[1 0; B 1]` -/
def J (p q : Fin 3 → ℝ) : Matrix (Fin 12) (Fin 6 ⊕ Fin 6) ℝ := Matrix.of fun i s =>
  match s with
  | Sum.inl j => if h : i.val < 6 then (if i.val = j.val then 1 else 0) else twoPoints p q ⟨i - 6, by omega⟩ j
  | Sum.inr j => if i.val = j.val + 6 then 1 else 0

def A : Matrix (Fin 6 ⊕ Fin 6) (Fin 6 ⊕ Fin 6) ℝ := 1

theorem hA : IsSPD A := isSPD_one

/-- Rotation about the line through both points moves neither: the block is singular. -/
theorem twoPoints_singular (p q : Fin 3 → ℝ) : ¬ IsUnit (twoPoints p q).det := by
  intro hu
  by_cases hpq : p = q
  · apply hu.ne_zero
    apply Matrix.det_zero_of_row_eq (i := 0) (j := 3) (by decide)
    ext j
    simp [twoPoints, hpq]
  · apply hpq
    have hz : twoPoints p q *ᵥ ![q 1 * p 2 - q 2 * p 1, q 2 * p 0 - q 0 * p 2, q 0 * p 1 - q 1 * p 0,
        p 0 - q 0, p 1 - q 1, p 2 - q 2] = 0 := by
      ext i
      fin_cases i <;> simp [twoPoints, pointRow, mulVec, dotProduct, Fin.sum_univ_succ] <;> ring
    have h0 := mulVec_eq_zero_of_isUnit hu hz
    ext i
    have h3 := congrFun h0 3; have h4 := congrFun h0 4; have h5 := congrFun h0 5
    simp at h3 h4 h5
    fin_cases i
    · simpa [sub_eq_zero] using h3
    · simpa [sub_eq_zero] using h4
    · simpa [sub_eq_zero] using h5

theorem J_ind (p q : Fin 3 → ℝ) : IndependentRows (J p q) := by
  intro F h
  have hr : ∀ j : Fin 6, ((J p q)ᵀ *ᵥ F) (Sum.inr j) = 0 := fun j => by rw [h]; rfl
  have hl : ∀ j : Fin 6, ((J p q)ᵀ *ᵥ F) (Sum.inl j) = 0 := fun j => by rw [h]; rfl
  have r0 := hr 0; have r1 := hr 1; have r2 := hr 2; have r3 := hr 3; have r4 := hr 4; have r5 := hr 5
  have l0 := hl 0; have l1 := hl 1; have l2 := hl 2; have l3 := hl 3; have l4 := hl 4; have l5 := hl 5
  simp [J, mulVec, dotProduct, Fin.sum_univ_succ] at r0 r1 r2 r3 r4 r5 l0 l1 l2 l3 l4 l5
  ext i
  fin_cases i <;> simp_all

theorem J_base (p q : Fin 3 → ℝ) : BaseDetermined (J p q) := by
  intro v h
  have hl : ∀ j : Fin 12, (J p q *ᵥ (Sum.elim v 0)) j = 0 := fun j => by rw [h]; rfl
  have r0 := hl 0; have r1 := hl 1; have r2 := hl 2; have r3 := hl 3; have r4 := hl 4; have r5 := hl 5
  simp [J, mulVec, dotProduct, Fin.sum_univ_succ] at r0 r1 r2 r3 r4 r5
  ext i
  fin_cases i <;> simp_all

theorem last (p q : Fin 3 → ℝ) : lastSixBase (by norm_num) (J p q) = twoPoints p q := by
  ext i j
  have : ¬ (12 - 6 + i.val < 6) := by omega
  simp [lastSixBase, J]

end Verif.Points
