import Verif.Spec.Dynamics
import Verif.Model.Pinv

set_option linter.unusedSectionVars false

namespace Verif
open Matrix Verif.Spec

variable {m n k : Type*} [Fintype m] [Fintype n] [Fintype k]
  [DecidableEq m] [DecidableEq n] [DecidableEq k]

theorem mulVec_injective_det {A : Matrix n n ℝ} (h : ∀ x, A *ᵥ x = 0 → x = 0) : IsUnit A.det := by
  by_contra hc
  rw [isUnit_iff_ne_zero, not_not] at hc
  obtain ⟨v, hv, hv0⟩ := Matrix.exists_mulVec_eq_zero_iff.mpr hc
  exact hv (h v hv0)

theorem mulVec_eq_zero_of_isUnit {A : Matrix n n ℝ} (h : IsUnit A.det) {x : n → ℝ}
    (hx : A *ᵥ x = 0) : x = 0 := by
  have : A⁻¹ *ᵥ (A *ᵥ x) = 0 := by rw [hx, mulVec_zero]
  rwa [mulVec_mulVec, nonsing_inv_mul _ h, one_mulVec] at this

theorem Spec.IsSPD.isUnit {A : Matrix n n ℝ} (h : IsSPD A) : IsUnit A.det := by
  apply mulVec_injective_det
  intro x hx
  by_contra hne
  have := h.pos x hne
  rw [hx, dotProduct_zero] at this
  exact lt_irrefl _ this

theorem Spec.IsSPD.mul_inv {A : Matrix n n ℝ} (h : IsSPD A) : A * A⁻¹ = 1 := mul_nonsing_inv _ h.isUnit
theorem Spec.IsSPD.inv_mul {A : Matrix n n ℝ} (h : IsSPD A) : A⁻¹ * A = 1 := nonsing_inv_mul _ h.isUnit

theorem Spec.IsSPD.inv_symm {A : Matrix n n ℝ} (h : IsSPD A) : (A⁻¹)ᵀ = A⁻¹ := by
  rw [transpose_nonsing_inv, h.symm]

theorem Spec.IsSPD.inv {A : Matrix n n ℝ} (h : IsSPD A) : IsSPD A⁻¹ := by
  refine ⟨h.inv_symm, fun x hx => ?_⟩
  have hy : A⁻¹ *ᵥ x ≠ 0 := by
    intro h0
    apply hx
    have : A *ᵥ (A⁻¹ *ᵥ x) = 0 := by rw [h0, mulVec_zero]
    rwa [mulVec_mulVec, h.mul_inv, one_mulVec] at this
  have := h.pos _ hy
  rw [mulVec_mulVec, h.mul_inv, one_mulVec, dotProduct_comm] at this
  exact this

/-- A positive definite sandwich vanishes only if the outer factor does (vectors). -/
theorem Spec.IsSPD.vec_zero {A : Matrix n n ℝ} (h : IsSPD A) {x : n → ℝ} (hx : x ⬝ᵥ (A *ᵥ x) = 0) :
    x = 0 := by
  by_contra hne
  exact absurd hx (h.pos x hne).ne'

theorem dot_transpose_mulVec (A : Matrix m n ℝ) (x : n → ℝ) (y : m → ℝ) :
    y ⬝ᵥ (A *ᵥ x) = (Aᵀ *ᵥ y) ⬝ᵥ x := by
  rw [dotProduct_mulVec, mulVec_transpose]

/-- A positive definite sandwich vanishes only if the outer factor does (matrices). -/
theorem Spec.IsSPD.sandwich_zero {A : Matrix n n ℝ} (h : IsSPD A) {X : Matrix m n ℝ}
    (hX : X * A * Xᵀ = 0) : X = 0 := by
  have : ∀ y : m → ℝ, Xᵀ *ᵥ y = 0 := by
    intro y
    apply h.vec_zero
    have e : y ⬝ᵥ ((X * A * Xᵀ) *ᵥ y) = 0 := by rw [hX]; simp
    rw [← mulVec_mulVec, ← mulVec_mulVec, dot_transpose_mulVec X] at e
    exact e
  have hT : Xᵀ = 0 := by
    apply Matrix.ext_of_mulVec_single
    intro i; rw [this]; ext j; simp [Matrix.col]
  have h2 := congrArg transpose hT
  simpa using h2

/-- `J B Jᵀ` is positive definite when `B` is and `Jᵀ` is injective. -/
theorem Spec.IsSPD.conj {B : Matrix n n ℝ} (h : IsSPD B) {J : Matrix m n ℝ}
    (hJ : ∀ y : m → ℝ, Jᵀ *ᵥ y = 0 → y = 0) : IsSPD (J * B * Jᵀ) := by
  refine ⟨by simp [transpose_mul, h.symm, Matrix.mul_assoc], fun y hy => ?_⟩
  have := h.pos (Jᵀ *ᵥ y) (fun h0 => hy (hJ y h0))
  rwa [← mulVec_mulVec, ← mulVec_mulVec, dot_transpose_mulVec J]

theorem Spec.IsSPD.conj_isUnit_iff {B : Matrix n n ℝ} (h : IsSPD B) {J : Matrix m n ℝ} :
    IsUnit (J * B * Jᵀ).det ↔ ∀ y : m → ℝ, Jᵀ *ᵥ y = 0 → y = 0 := by
  constructor
  · intro hu y hy
    apply mulVec_eq_zero_of_isUnit hu
    rw [← mulVec_mulVec, hy, mulVec_zero]
  · intro hJ; exact (h.conj hJ).isUnit

theorem isSPD_one : IsSPD (1 : Matrix n n ℝ) := by
  refine ⟨transpose_one, fun x hx => ?_⟩
  rw [one_mulVec]
  have h0 : 0 ≤ x ⬝ᵥ x := by
    simp only [dotProduct]
    exact Finset.sum_nonneg fun i _ => mul_self_nonneg _
  rcases h0.lt_or_eq with h | h
  · exact h
  · exact absurd (dotProduct_self_eq_zero.mp h.symm) hx

theorem isSPD_diagonal {d : n → ℝ} (hd : ∀ i, 0 < d i) : IsSPD (diagonal d) := by
  refine ⟨diagonal_transpose d, fun x hx => ?_⟩
  obtain ⟨i, hi⟩ := Function.ne_iff.mp hx
  have : x ⬝ᵥ (diagonal d *ᵥ x) = ∑ j, d j * (x j * x j) := by
    simp only [dotProduct, mulVec_diagonal]
    exact Finset.sum_congr rfl fun j _ => by ring
  rw [this]
  apply Finset.sum_pos'
  · exact fun j _ => mul_nonneg (hd j).le (mul_self_nonneg _)
  · exact ⟨i, Finset.mem_univ _, mul_pos (hd i) (mul_self_pos.mpr hi)⟩

end Verif
