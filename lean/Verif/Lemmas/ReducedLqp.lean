import Verif.Model.ReducedLqp
import Verif.Lemmas.HQPExists
import Verif.Lemmas.ReducedJaccNC
import Verif.Props.Lqp

/-!
# Lemmas on the hierarchical controller of the reduced model
-/
set_option linter.unusedSectionVars false

namespace Verif.Props
open Matrix Verif Verif.Spec Verif.Model

section Levels
variable {V : Type} [Fintype V] [DecidableEq V]

theorem zero_of_quadratic {b c : ℝ} (h : ∀ t : ℝ, 0 ≤ t * b + t ^ 2 * c) : b = 0 := by
  by_contra hb
  have hc : 0 ≤ c := by nlinarith [h 1, h (-1)]
  have h1 := h (-b / (c + 1))
  have hp : 0 < c + 1 := by linarith
  have : -b / (c + 1) * b + (-b / (c + 1)) ^ 2 * c = -(b ^ 2) / (c + 1) ^ 2 := by
    field_simp
    ring
  rw [this] at h1
  have h2 : 0 < b ^ 2 / (c + 1) ^ 2 := by positivity
  have h3 : -(b ^ 2) / (c + 1) ^ 2 = -(b ^ 2 / (c + 1) ^ 2) := by ring
  linarith

/-- The problem posed by `solvefirst` with unit weights has an exact solution. -/
theorem firstQP_exists {l : Level V} [DecidableEq l.I] [DecidableEq l.E] (hH : ∀ H ∈ l.H, CostOk H) :
    ∃ x, (firstQP l 1 1).IsSolution x := by
  obtain ⟨L, hL⟩ : ∃ L : Matrix V V ℝ, ∀ x, (l.H.elim 0 fun H => x ⬝ᵥ (H *ᵥ x)) = (L *ᵥ x) ⬝ᵥ (L *ᵥ x) := by
    cases hl : l.H with
    | none => exact ⟨0, fun x => by simp⟩
    | some H => exact (hH H (by simp [hl])).factor
  let G : Matrix (l.E ⊕ (V ⊕ l.I)) (V ⊕ l.I) ℝ :=
    Matrix.of (Sum.elim (fun e => Sum.elim (l.B e) 0)
      (Sum.elim (fun v => Sum.elim (L v) 0) (fun r => Sum.elim 0 (Pi.single r 1))))
  let c : l.E ⊕ (V ⊕ l.I) → ℝ := Sum.elim l.b 0
  have hfin : Finite (firstQP l 1 1).R := inferInstanceAs (Finite l.I)
  have hG : ∀ x, G *ᵥ x + c = Sum.elim (l.residual (x ∘ Sum.inl)) (Sum.elim (L *ᵥ (x ∘ Sum.inl)) (x ∘ Sum.inr)) := by
    intro x
    have ex : x = Sum.elim (x ∘ Sum.inl) (x ∘ Sum.inr) := (Sum.elim_comp_inl_inr x).symm
    funext r
    rcases r with e | v | r
    · show Sum.elim (l.B e) 0 ⬝ᵥ x + l.b e = _
      rw [ex, sumElim_dotProduct_sumElim]
      simp [Spec.Level.residual, mulVec]
    · show Sum.elim (L v) 0 ⬝ᵥ x + 0 = _
      rw [ex, sumElim_dotProduct_sumElim]
      simp [mulVec]
    · show Sum.elim 0 (Pi.single r 1) ⬝ᵥ x + 0 = _
      rw [ex, sumElim_dotProduct_sumElim]
      simp
  have hcost : ∀ x, (firstQP l 1 1).cost x = (1 / 2) * ((G *ᵥ x + c) ⬝ᵥ (G *ᵥ x + c)) - (1 / 2) * (l.b ⬝ᵥ l.b) := by
    intro x
    have := firstQP_costW l 1 1 x
    simp only [one_mulVec] at this
    rw [this, hG, sumElim_dotProduct_sumElim, sumElim_dotProduct_sumElim, eqPartW, hL]
    have hv : (x ∘ Sum.inr) ⬝ᵥ (x ∘ Sum.inr) = ∑ r, x (Sum.inr r) ^ 2 := by simp [dotProduct, sq]
    rw [hv, one_mulVec]
    ring
  obtain ⟨x, hx, hmin⟩ := exists_least_squares (firstQP l 1 1).row (firstQP l 1 1).ub G c
    ⟨Sum.elim 0 fun r => max (l.value 0 r) 0, by
      refine (firstQP_feasible_iff l 1 1 _).mpr fun r => ?_
      simp only [one_mulVec, Sum.elim_comp_inl, Sum.elim_inr]
      exact le_max_left _ _⟩
  refine ⟨x, hx, fun z hz => ?_⟩
  rw [hcost, hcost]
  have := hmin z hz
  linarith

/-- First-order condition at a minimiser of a level's objective that violates no inequality. -/
theorem objective_stationary {l : Level V} {H : Matrix V V ℝ} (hl : l.H = some H) (hH : Hᵀ = H) {y : V → ℝ}
    (hy : ∀ y', l.objective y ≤ l.objective y') (hv : ∀ i, l.value y i ≤ 0) : l.Bᵀ *ᵥ l.residual y + H *ᵥ y = 0 := by
  have main : ∀ e : V → ℝ, (l.Bᵀ *ᵥ l.residual y + H *ᵥ y) ⬝ᵥ e = 0 := by
    intro e
    set cc : ℝ := (1 / 2) * ((l.B *ᵥ e) ⬝ᵥ (l.B *ᵥ e)) + (1 / 2) * (∑ r, ((l.A *ᵥ e) r) ^ 2) + (1 / 2) * (e ⬝ᵥ (H *ᵥ e)) with hcc
    refine zero_of_quadratic (c := cc) fun t => ?_
    have h := hy (y + t • e)
    have e1 : l.residual (y + t • e) = l.residual y + t • (l.B *ᵥ e) := by
      simp only [Spec.Level.residual, mulVec_add, mulVec_smul]; abel
    have e2 : ∀ r, l.value (y + t • e) r = l.value y r + t * (l.A *ᵥ e) r := fun r => by
      simp only [Spec.Level.value, mulVec_add, mulVec_smul, Pi.add_apply, Pi.smul_apply, smul_eq_mul]; ring
    have e3 : ∀ r, (max (l.value (y + t • e) r) 0) ^ 2 ≤ t ^ 2 * ((l.A *ᵥ e) r) ^ 2 := fun r => by
      rw [e2]
      rcases le_total (l.value y r + t * (l.A *ᵥ e) r) 0 with h0 | h0
      · rw [max_eq_right h0]; nlinarith [sq_nonneg (t * (l.A *ᵥ e) r)]
      · rw [max_eq_left h0]; nlinarith [hv r]
    have e4 : (∑ r, (max (l.value y r) 0) ^ 2) = 0 := Finset.sum_eq_zero fun r _ => by rw [max_eq_right (hv r)]; ring
    have e5 : (∑ r, (max (l.value (y + t • e) r) 0) ^ 2) ≤ t ^ 2 * ∑ r, ((l.A *ᵥ e) r) ^ 2 := by
      rw [Finset.mul_sum]; exact Finset.sum_le_sum fun r _ => e3 r
    have s1 : l.residual (y + t • e) ⬝ᵥ l.residual (y + t • e) = l.residual y ⬝ᵥ l.residual y
        + 2 * t * ((l.Bᵀ *ᵥ l.residual y) ⬝ᵥ e) + t ^ 2 * ((l.B *ᵥ e) ⬝ᵥ (l.B *ᵥ e)) := by
      have : (l.Bᵀ *ᵥ l.residual y) ⬝ᵥ e = l.residual y ⬝ᵥ (l.B *ᵥ e) := by
        rw [mulVec_transpose, ← dotProduct_mulVec]
      rw [e1, this]
      simp only [add_dotProduct, dotProduct_add, smul_dotProduct, dotProduct_smul, smul_eq_mul]
      rw [dotProduct_comm (l.B *ᵥ e) (l.residual y)]
      ring
    have s2 : (y + t • e) ⬝ᵥ (H *ᵥ (y + t • e)) = y ⬝ᵥ (H *ᵥ y) + 2 * t * ((H *ᵥ y) ⬝ᵥ e) + t ^ 2 * (e ⬝ᵥ (H *ᵥ e)) := by
      have hsym : y ⬝ᵥ (H *ᵥ e) = (H *ᵥ y) ⬝ᵥ e := by
        rw [dotProduct_mulVec, ← mulVec_transpose, hH]
      simp only [mulVec_add, mulVec_smul, add_dotProduct, dotProduct_add, smul_dotProduct, dotProduct_smul, smul_eq_mul]
      rw [hsym, dotProduct_comm e (H *ᵥ y)]
      ring
    simp only [Spec.Level.objective, hl, Option.elim_some] at h
    rw [s1, s2, e4] at h
    rw [add_dotProduct, hcc]
    nlinarith [h, e5]
  have := main (l.Bᵀ *ᵥ l.residual y + H *ᵥ y)
  exact dotProduct_self_eq_zero.mp this

end Levels

end Verif.Props
