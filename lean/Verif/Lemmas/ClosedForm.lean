import Verif.Model.ClosedForm
import Verif.Lemmas.ContactRank
import Verif.Lemmas.Rotation
import Verif.Spec.TwoContacts
import Mathlib.Tactic.FinCases
import Mathlib.Tactic.LinearCombination

set_option linter.unusedSectionVars false

namespace Verif
open Matrix Verif.Spec Verif.Model

variable {ι : Type*} [Fintype ι] [DecidableEq ι]

/-- Zero resultant of two wrenches at `p₁`, `p₂`. -/
def ZeroResultant (p₁ p₂ : Fin 3 → ℝ) (F : Fin 12 → ℝ) : Prop :=
  fpart (wrench1 F) + fpart (wrench2 F) = 0 ∧
  mpart (wrench1 F) + mpart (wrench2 F) + crossProduct p₁ (fpart (wrench1 F))
    + crossProduct p₂ (fpart (wrench2 F)) = 0

theorem zeroResultant_iff (p₁ p₂ : Fin 3 → ℝ) (F : Fin 12 → ℝ) : ZeroResultant p₁ p₂ F ↔
    F 0 + F 6 = 0 ∧ F 1 + F 7 = 0 ∧ F 2 + F 8 = 0 ∧
    F 3 + F 9 + (p₁ 1 * F 2 - p₁ 2 * F 1) + (p₂ 1 * F 8 - p₂ 2 * F 7) = 0 ∧
    F 4 + F 10 + (p₁ 2 * F 0 - p₁ 0 * F 2) + (p₂ 2 * F 6 - p₂ 0 * F 8) = 0 ∧
    F 5 + F 11 + (p₁ 0 * F 1 - p₁ 1 * F 0) + (p₂ 0 * F 7 - p₂ 1 * F 6) = 0 := by
  unfold ZeroResultant
  constructor
  · rintro ⟨h1, h2⟩
    have a0 := congrFun h1 0; have a1 := congrFun h1 1; have a2 := congrFun h1 2
    have b0 := congrFun h2 0; have b1 := congrFun h2 1; have b2 := congrFun h2 2
    simp [fpart, mpart, wrench1, wrench2, cross_apply] at a0 a1 a2 b0 b1 b2
    exact ⟨a0, a1, a2, b0, b1, b2⟩
  · rintro ⟨a0, a1, a2, b0, b1, b2⟩
    constructor
    · ext i; fin_cases i <;> simp [fpart, wrench1, wrench2, a0, a1, a2]
    · ext i; fin_cases i <;> simp [fpart, mpart, wrench1, wrench2, cross_apply, b0, b1, b2]

theorem sameResultant_iff (p₁ p₂ : Fin 3 → ℝ) (F F' : Fin 12 → ℝ) :
    SameResultant p₁ p₂ (wrench1 F) (wrench2 F) (wrench1 F') (wrench2 F') ↔ ZeroResultant p₁ p₂ (F - F') := by
  rw [zeroResultant_iff]
  unfold SameResultant
  constructor
  · rintro ⟨h1, h2⟩
    have a0 := congrFun h1 0; have a1 := congrFun h1 1; have a2 := congrFun h1 2
    have b0 := congrFun h2 0; have b1 := congrFun h2 1; have b2 := congrFun h2 2
    simp [fpart, mpart, wrench1, wrench2, cross_apply] at a0 a1 a2 b0 b1 b2
    simp only [Pi.sub_apply]
    refine ⟨?_, ?_, ?_, ?_, ?_, ?_⟩ <;> linarith
  · rintro ⟨a0, a1, a2, b0, b1, b2⟩
    simp only [Pi.sub_apply] at a0 a1 a2 b0 b1 b2
    constructor
    · ext i; fin_cases i <;> simp [fpart, wrench1, wrench2] <;> linarith
    · ext i; fin_cases i <;> simp [fpart, mpart, wrench1, wrench2, cross_apply] <;> linarith

/-- Two pairs with zero resultant that agree on the second wrench agree on the first. -/
theorem zeroResultant_unique {p₁ p₂ : Fin 3 → ℝ} {D D' : Fin 12 → ℝ} (h : ZeroResultant p₁ p₂ D)
    (h' : ZeroResultant p₁ p₂ D') (h2 : wrench2 D = wrench2 D') : D = D' := by
  rw [zeroResultant_iff] at h h'
  obtain ⟨a0, a1, a2, b0, b1, b2⟩ := h
  obtain ⟨c0, c1, c2, d0, d1, d2⟩ := h'
  have e6 := congrFun h2 0; have e7 := congrFun h2 1; have e8 := congrFun h2 2
  have e9 := congrFun h2 3; have e10 := congrFun h2 4; have e11 := congrFun h2 5
  simp [wrench2] at e6 e7 e8 e9 e10 e11
  have g0 : D 0 = D' 0 := by linarith
  have g1 : D 1 = D' 1 := by linarith
  have g2 : D 2 = D' 2 := by linarith
  simp only [g0, g1, g2, e6, e7, e8] at b0 b1 b2
  ext i
  fin_cases i <;> simp <;> linarith

/-- Moving both points by the same amount does not change a zero resultant. -/
theorem zeroResultant_shift {p₁ p₂ c : Fin 3 → ℝ} {D : Fin 12 → ℝ} :
    ZeroResultant (p₁ - c) (p₂ - c) D ↔ ZeroResultant p₁ p₂ D := by
  rw [zeroResultant_iff, zeroResultant_iff]
  simp only [Pi.sub_apply]
  constructor
  · rintro ⟨a0, a1, a2, b0, b1, b2⟩
    refine ⟨a0, a1, a2, ?_, ?_, ?_⟩
    · linear_combination b0 + c 1 * a2 - c 2 * a1
    · linear_combination b1 + c 2 * a0 - c 0 * a2
    · linear_combination b2 + c 0 * a1 - c 1 * a0
  · rintro ⟨a0, a1, a2, b0, b1, b2⟩
    refine ⟨a0, a1, a2, ?_, ?_, ?_⟩
    · linear_combination b0 - c 1 * a2 + c 2 * a1
    · linear_combination b1 - c 2 * a0 + c 0 * a2
    · linear_combination b2 - c 0 * a1 + c 1 * a0

/-- A yaw rotation carries zero resultants over. -/
theorem zeroResultant_rotate {p₁ p₂ : Fin 3 → ℝ} {D : Fin 12 → ℝ} (y : ℝ)
    (h : ZeroResultant (rotateWithZ y *ᵥ p₁) (rotateWithZ y *ᵥ p₂) D) :
    ZeroResultant p₁ p₂ (rotate12 (rotateWithZ y)ᵀ D) := by
  rw [zeroResultant_iff] at h ⊢
  have hcs := Real.sin_sq_add_cos_sq y
  simp only [rotate12, rotateWithZ, mulVec, dotProduct, Fin.sum_univ_three, transpose_apply, Matrix.of_apply,
    cons_val_zero, cons_val_one, cons_val] at h ⊢
  simp only [neg_mul, zero_mul, mul_zero, add_zero, zero_add, one_mul, mul_neg] at h ⊢
  obtain ⟨a0, a1, a2, b0, b1, b2⟩ := h
  set C := Real.cos y
  set S := Real.sin y
  refine ⟨?_, ?_, ?_, ?_, ?_, ?_⟩
  · linear_combination C * a0 + S * a1
  · linear_combination -S * a0 + C * a1
  · linear_combination a2
  · linear_combination C * b0 + S * b1 - (p₁ 1 * D 2 + p₂ 1 * D 8) * hcs
  · linear_combination -S * b0 + C * b1 + (p₁ 0 * D 2 + p₂ 0 * D 8) * hcs
  · linear_combination b2

theorem rotate12_inv (y : ℝ) (F : Fin 12 → ℝ) : rotate12 (rotateWithZ y)ᵀ (rotate12 (rotateWithZ y) F) = F := by
  have hcs := Real.sin_sq_add_cos_sq y
  ext i
  fin_cases i <;>
    simp [rotate12, rotateWithZ, mulVec, dotProduct, Fin.sum_univ_three] <;> grind

theorem rotate12_sub (R : Mat3) (F G : Fin 12 → ℝ) : rotate12 R (F - G) = rotate12 R F - rotate12 R G := by
  ext i
  fin_cases i <;> simp [rotate12, mulVec, dotProduct, Fin.sum_univ_three] <;> ring

/-- A contact force that the base does not feel has zero resultant. -/
theorem zeroResultant_of_base {J : Matrix (Fin 12) (Fin 6 ⊕ ι) ℝ} {p₁ p₂ : Fin 3 → ℝ} (hJ : RigidBase J p₁ p₂)
    {D : Fin 12 → ℝ} (h : ∀ i, (Jᵀ *ᵥ D) (Sum.inl i) = 0) : ZeroResultant p₁ p₂ D := by
  obtain ⟨o, T, hT, hV⟩ := hJ
  rw [← zeroResultant_shift (c := o)]
  have hw : ∀ w : Fin 6 → ℝ, (J *ᵥ Sum.elim w 0) ⬝ᵥ D = 0 := by
    intro w
    rw [dotProduct_comm, dotProduct_mulVec, ← mulVec_transpose, dotProduct, Fintype.sum_sum_type]
    simp [h]
  have ht : ∀ t : Fin 6 → ℝ,
      (t 0 + (t 4 * (p₁ 2 - o 2) - t 5 * (p₁ 1 - o 1))) * D 0 + (t 1 + (t 5 * (p₁ 0 - o 0) - t 3 * (p₁ 2 - o 2))) * D 1
      + (t 2 + (t 3 * (p₁ 1 - o 1) - t 4 * (p₁ 0 - o 0))) * D 2 + t 3 * D 3 + t 4 * D 4 + t 5 * D 5
      + (t 0 + (t 4 * (p₂ 2 - o 2) - t 5 * (p₂ 1 - o 1))) * D 6 + (t 1 + (t 5 * (p₂ 0 - o 0) - t 3 * (p₂ 2 - o 2))) * D 7
      + (t 2 + (t 3 * (p₂ 1 - o 1) - t 4 * (p₂ 0 - o 0))) * D 8 + t 3 * D 9 + t 4 * D 10 + t 5 * D 11 = 0 := by
    intro t
    obtain ⟨w, rfl⟩ := hT.2 t
    obtain ⟨h1, h2, h3, h4⟩ := hV w
    have hd := hw w
    generalize J *ᵥ Sum.elim w 0 = V at h1 h2 h3 h4 hd
    generalize T w = t at h1 h2 h3 h4
    have x0 := congrFun h1 0; have x1 := congrFun h1 1; have x2 := congrFun h1 2
    have x3 := congrFun h2 0; have x4 := congrFun h2 1; have x5 := congrFun h2 2
    have x6 := congrFun h3 0; have x7 := congrFun h3 1; have x8 := congrFun h3 2
    have x9 := congrFun h4 0; have x10 := congrFun h4 1; have x11 := congrFun h4 2
    simp [fpart, mpart, wrench1, wrench2, cross_apply] at x0 x1 x2 x3 x4 x5 x6 x7 x8 x9 x10 x11
    have hs : V ⬝ᵥ D = V 0 * D 0 + V 1 * D 1 + V 2 * D 2 + V 3 * D 3 + V 4 * D 4 + V 5 * D 5 + V 6 * D 6 + V 7 * D 7
        + V 8 * D 8 + V 9 * D 9 + V 10 * D 10 + V 11 * D 11 := by
      simp [dotProduct, Fin.sum_univ_succ]; ring
    rw [hs, x0, x1, x2, x3, x4, x5, x6, x7, x8, x9, x10, x11] at hd
    exact hd
  rw [zeroResultant_iff]
  simp only [Pi.sub_apply]
  refine ⟨?_, ?_, ?_, ?_, ?_, ?_⟩
  · have := ht (Pi.single 0 1); simp at this; linarith
  · have := ht (Pi.single 1 1); simp at this; linarith
  · have := ht (Pi.single 2 1); simp at this; linarith
  · have := ht (Pi.single 3 1); simp at this; linarith
  · have := ht (Pi.single 4 1); simp at this; linarith
  · have := ht (Pi.single 5 1); simp at this; linarith

section
variable {A : Matrix (Fin 6 ⊕ ι) (Fin 6 ⊕ ι) ℝ} {J : Matrix (Fin 12) (Fin 6 ⊕ ι) ℝ} {S : ContactSpace 12 ι}

/-- A torque in the range of `V2ᵀ` is balanced by a contact force. -/
theorem V2_balanced (hA : IsSPD A) (hS : contactSpace J A⁻¹ = some S) (f : CodNull S.W) (z : Fin f.k → ℝ) :
    Jᵀ *ᵥ (S.JcInvT.submatrix id Sum.inr *ᵥ (f.V2ᵀ *ᵥ z)) = actuate (f.V2ᵀ *ᵥ z) := by
  have h0 : S.Nc *ᵥ (actuate (f.V2ᵀ *ᵥ z)) = 0 := by
    rw [← cs_A_P hA hS, actuate_eq, mulVec_mulVec, mulVec_mulVec, Matrix.mul_assoc, Matrix.mul_assoc,
      ← Matrix.mul_assoc S.AinvNc, P_V2T hA hS f]
    simp
  rw [cs_Nc hS, sub_mulVec, one_mulVec, sub_eq_zero] at h0
  conv_rhs => rw [h0]
  rw [actuate_eq, mulVec_mulVec, mulVec_mulVec, mulVec_mulVec, mulVec_mulVec, ← mul_selT, Matrix.mul_assoc]
  simp only [Matrix.mul_assoc]

/-- With two rigid contacts the matrix inverted by the closed form is invertible. -/
theorem closedForm_isUnit (hA : IsSPD A) (hS : contactSpace J A⁻¹ = some S) (f : CodNull S.W) {p₁ p₂ : Fin 3 → ℝ}
    (hJ : RigidBase J p₁ p₂) (h : 6 = f.k) :
    IsUnit ((bottomRight S * f.V2ᵀ).submatrix id (Fin.cast h)).det := by
  refine mulVec_injective_det fun x hx => ?_
  set z : Fin f.k → ℝ := x ∘ Fin.cast h.symm with hz
  set D : Fin 12 → ℝ := S.JcInvT.submatrix id Sum.inr *ᵥ (f.V2ᵀ *ᵥ z) with hD
  have hb := V2_balanced hA hS f z
  rw [← hD] at hb
  have hz0 := zeroResultant_of_base hJ (D := D) (fun i => by rw [hb]; rfl)
  have hx' : (bottomRight S * f.V2ᵀ) *ᵥ z = 0 := by
    rw [← hx]
    funext i
    simp only [mulVec, dotProduct, submatrix_apply, id]
    exact (Equiv.sum_comp (finCongr h) fun j => (bottomRight S * f.V2ᵀ) i j * z j).symm
  have hbot : ∀ i : Fin 6, D ⟨6 + i, by omega⟩ = 0 := by
    intro i
    rw [← mulVec_mulVec] at hx'
    exact congrFun hx' i
  have hw : wrench2 D = wrench2 0 := by
    have b0 := hbot 0; have b1 := hbot 1; have b2 := hbot 2; have b3 := hbot 3; have b4 := hbot 4; have b5 := hbot 5
    ext i
    fin_cases i
    · exact b0
    · exact b1
    · exact b2
    · exact b3
    · exact b4
    · exact b5
  have hD0 : D = 0 := zeroResultant_unique hz0 (by rw [zeroResultant_iff]; simp) hw
  rw [hD0, mulVec_zero] at hb
  have hv : f.V2ᵀ *ᵥ z = 0 := by
    funext i
    have := congrFun hb (Sum.inr i)
    exact this.symm
  have := V2T_injective f hv
  funext i
  have := congrFun this (Fin.cast h i)
  simpa [hz] using this

end

end Verif
