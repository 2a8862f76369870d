import Verif.Lemmas.TurnedQP
import Verif.Lemmas.ClosedForm
import Mathlib.Logic.Equiv.Fin.Basic
import Mathlib.Algebra.BigOperators.Fin

set_option linter.unusedSectionVars false

namespace Verif
open Matrix Verif.Spec Verif.Model

/-- One entry of a turned stack. -/
theorem turnRows_mulVec (Q : Matrix (Fin 3) (Fin 3) ℝ) {c : ℕ} (h3 : 3 ∣ c) (f : Fin c → ℝ) (r : Fin c) :
    (turnRows Q c *ᵥ f) r = ∑ k : Fin 3, Q ⟨r % 3, Nat.mod_lt _ (by norm_num)⟩ k * f ⟨3 * (r / 3) + k, by omega⟩ := by
  obtain ⟨m, rfl⟩ := h3
  have hr : r.val / 3 < m := by omega
  let e : Fin m × Fin 3 ≃ Fin (3 * m) := finProdFinEquiv.trans (finCongr (Nat.mul_comm m 3))
  have he : ∀ p : Fin m × Fin 3, (e p).val = p.2 + 3 * p.1 := fun p => rfl
  simp only [mulVec, dotProduct, turnRows, Matrix.of_apply]
  rw [← e.sum_comp, Fintype.sum_prod_type, Finset.sum_eq_single ⟨r.val / 3, hr⟩]
  · refine Finset.sum_congr rfl fun k _ => ?_
    have h1 : (e (⟨r.val / 3, hr⟩, k)).val = k + 3 * (r.val / 3) := he _
    rw [if_pos (by rw [h1]; omega)]
    congr 2
    · apply Fin.ext; simp only [h1]; omega
    · apply Fin.ext; simp only [h1]; omega
  · intro i _ hi
    refine Finset.sum_eq_zero fun k _ => ?_
    have h1 : (e (i, k)).val = k + 3 * i := he _
    rw [if_neg, zero_mul]
    intro hc
    apply hi
    apply Fin.ext
    rw [h1] at hc
    simp only
    omega
  · intro h; exact absurd (Finset.mem_univ _) h

theorem turnRows_comp (P Q : Matrix (Fin 3) (Fin 3) ℝ) {c : ℕ} (h3 : 3 ∣ c) (f : Fin c → ℝ) :
    turnRows P c *ᵥ (turnRows Q c *ᵥ f) = turnRows (P * Q) c *ᵥ f := by
  ext r
  rw [turnRows_mulVec _ h3, turnRows_mulVec _ h3]
  have e : ∀ k : Fin 3, (turnRows Q c *ᵥ f) ⟨3 * (r.val / 3) + k, by omega⟩
      = ∑ l : Fin 3, Q k l * f ⟨3 * (r.val / 3) + l, by omega⟩ := by
    intro k
    rw [turnRows_mulVec _ h3]
    have h1 : (3 * (r.val / 3) + k.val) % 3 = k.val := by omega
    have h2 : 3 * ((3 * (r.val / 3) + k.val) / 3) = 3 * (r.val / 3) := by omega
    refine Finset.sum_congr rfl fun l _ => ?_
    congr 2
    · exact Fin.ext h1
    · apply Fin.ext; simp only; omega
  simp only [e, Matrix.mul_apply, Finset.mul_sum, Finset.sum_mul]
  rw [Finset.sum_comm]
  exact Finset.sum_congr rfl fun l _ => Finset.sum_congr rfl fun k _ => by ring

theorem turnRows_transpose (Q : Matrix (Fin 3) (Fin 3) ℝ) (c : ℕ) : (turnRows Q c)ᵀ = turnRows Qᵀ c := by
  ext r s
  simp only [turnRows, transpose_apply, Matrix.of_apply, eq_comm]

theorem turnRows_one (c : ℕ) : turnRows 1 c = 1 := by
  ext r s
  simp only [turnRows, Matrix.of_apply, Matrix.one_apply, Fin.mk.injEq]
  by_cases h : r = s
  · subst h; simp
  · have : r.val ≠ s.val := fun e => h (Fin.ext e)
    rw [if_neg h]
    split_ifs with h1 h2
    · omega
    · rfl
    · rfl

theorem turnRows_mul (P Q : Matrix (Fin 3) (Fin 3) ℝ) {c : ℕ} (h3 : 3 ∣ c) : turnRows P c * turnRows Q c = turnRows (P * Q) c := by
  apply Matrix.ext_of_mulVec_single
  intro i
  rw [← mulVec_mulVec, turnRows_comp _ _ h3]

theorem turnRows_orth {Q : Matrix (Fin 3) (Fin 3) ℝ} (hQ : Qᵀ * Q = 1) {c : ℕ} (h3 : 3 ∣ c) : (turnRows Q c)ᵀ * turnRows Q c = 1 := by
  rw [turnRows_transpose, turnRows_mul _ _ h3, hQ, turnRows_one]

theorem turnBase_blocks (Q : Matrix (Fin 3) (Fin 3) ℝ) :
    turnBase Q = (fromBlocks Qᵀ 0 0 1).submatrix (finSumFinEquiv (m := 3) (n := 3)).symm (finSumFinEquiv (m := 3) (n := 3)).symm := by
  ext r s
  obtain ⟨r, rfl⟩ := (finSumFinEquiv (m := 3) (n := 3)).surjective r
  obtain ⟨s, rfl⟩ := (finSumFinEquiv (m := 3) (n := 3)).surjective s
  rw [submatrix_apply, Equiv.symm_apply_apply, Equiv.symm_apply_apply]
  have hl : ∀ a : Fin 3, ((finSumFinEquiv (m := 3) (n := 3)) (Sum.inl a)).val = a.val := fun a => rfl
  have hr : ∀ a : Fin 3, ((finSumFinEquiv (m := 3) (n := 3)) (Sum.inr a)).val = 3 + a.val := fun a => rfl
  unfold turnBase
  rw [Matrix.of_apply]
  rcases r with r | r <;> rcases s with s | s
  · exact dif_pos ⟨r.isLt, s.isLt⟩
  · rw [dif_neg (by rw [hr]; omega), if_neg (fun h => by have := congrArg Fin.val h; rw [hl, hr] at this; omega)]
    rfl
  · rw [dif_neg (by rw [hr]; omega), if_neg (fun h => by have := congrArg Fin.val h; rw [hl, hr] at this; omega)]
    rfl
  · rw [dif_neg (by rw [hr]; omega)]
    simp [Matrix.one_apply]

theorem turnBase_mul (P Q : Matrix (Fin 3) (Fin 3) ℝ) : turnBase P * turnBase Q = turnBase (Q * P) := by
  rw [turnBase_blocks, turnBase_blocks, turnBase_blocks, submatrix_mul_equiv, fromBlocks_multiply]
  simp

theorem turnBase_one : turnBase 1 = 1 := by
  rw [turnBase_blocks, transpose_one, fromBlocks_one, submatrix_one_equiv]

theorem turnBase_inv {Q : Matrix (Fin 3) (Fin 3) ℝ} (hQ : Qᵀ * Q = 1) : turnBase Q * turnBase Qᵀ = 1 := by
  rw [turnBase_mul, hQ, turnBase_one]

end Verif
