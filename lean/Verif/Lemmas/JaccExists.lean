import Verif.Lemmas.JaccStack
import Verif.Lemmas.HQPExists
import Verif.Lemmas.QPLeast
import Verif.Lemmas.Spd

/-! # The joint-acceleration QP has an exact solution as soon as it has a feasible point -/
set_option linter.unusedSectionVars false

namespace Verif
open Matrix Verif.Spec Verif.Model

theorem box_exists_ls {V M Row : Type} [Fintype V] [DecidableEq V] [Fintype M] [Finite Row] {d : BoxQP V Row} (G : Matrix M V ℝ)
    (hcost : ∀ x, d.cost x = (1 / 2) * ((G *ᵥ x) ⬝ᵥ (G *ᵥ x))) {x₀ : V → ℝ} (h0 : d.Feasible x₀) : ∃ x, d.IsSolution x := by
  let row : (Row ⊕ V) × Bool → V → ℝ := fun r => match r with
    | (.inl r, true) => if (d.ubA r).isSome then d.A r else 0
    | (.inl r, false) => if (d.lbA r).isSome then -d.A r else 0
    | (.inr v, true) => if (d.ub v).isSome then Pi.single v 1 else 0
    | (.inr v, false) => if (d.lb v).isSome then -Pi.single v 1 else 0
  let ub : (Row ⊕ V) × Bool → ℝ := fun r => match r with
    | (.inl r, true) => (d.ubA r).getD 0
    | (.inl r, false) => -(d.lbA r).getD 0
    | (.inr v, true) => (d.ub v).getD 0
    | (.inr v, false) => -(d.lb v).getD 0
  have hiff : ∀ x, (∀ r, row r ⬝ᵥ x ≤ ub r) ↔ d.Feasible x := by
    intro x
    constructor
    · intro h
      refine ⟨fun r => ⟨fun b hb => ?_, fun b hb => ?_⟩, fun v => ⟨fun b hb => ?_, fun b hb => ?_⟩⟩
      · have := h (.inl r, false)
        rw [Option.mem_def] at hb
        simpa [row, ub, hb] using this
      · have := h (.inl r, true)
        rw [Option.mem_def] at hb
        simpa [row, ub, hb] using this
      · have := h (.inr v, false)
        rw [Option.mem_def] at hb
        simpa [row, ub, hb] using this
      · have := h (.inr v, true)
        rw [Option.mem_def] at hb
        simpa [row, ub, hb] using this
    · rintro ⟨h1, h2⟩ ⟨r | v, _ | _⟩
      · rcases hl : d.lbA r with _ | a
        · simp [row, ub, hl]
        · simpa [row, ub, hl] using (h1 r).1 a (by simp [hl])
      · rcases hl : d.ubA r with _ | a
        · simp [row, ub, hl]
        · simpa [row, ub, hl] using (h1 r).2 a (by simp [hl])
      · rcases hl : d.lb v with _ | a
        · simp [row, ub, hl]
        · simpa [row, ub, hl] using (h2 v).1 a (by simp [hl])
      · rcases hl : d.ub v with _ | a
        · simp [row, ub, hl]
        · simpa [row, ub, hl] using (h2 v).2 a (by simp [hl])
  obtain ⟨x, hx, hmin⟩ := exists_least_squares row ub G 0 ⟨x₀, (hiff x₀).mpr h0⟩
  refine ⟨x, (hiff x).mp hx, fun y hy => ?_⟩
  have := hmin y ((hiff y).mpr hy)
  rw [add_zero, add_zero] at this
  rw [hcost, hcost]
  linarith

variable {ι : Type} [Fintype ι] [DecidableEq ι] {c : ℕ} {tb : ι → Option ℝ}

theorem jaccQP_exists {R : JRobot ι c} (hA : IsSPD R.A) {m : ℕ} (M : Matrix (Fin m) (Fin c) ℝ) (prev : List (JPrev ι)) (t : ℕ)
    (J : Matrix (Fin t) (Fin 6 ⊕ ι) ℝ) (f : Fin t → ℝ) (h : ∃ x, (jaccQP tb R M prev t J f).Feasible x) :
    ∃ x, (jaccQP tb R M prev t J f).IsSolution x := by
  obtain ⟨x₀, h0⟩ := h
  have hc : CostOk R.A := ⟨hA.symm, fun x => by
    by_cases hx : x = 0
    · rw [hx]; simp
    · exact (hA.pos _ hx).le⟩
  obtain ⟨L, hL⟩ := hc.factor
  let G : Matrix ((Fin 6 ⊕ ι) ⊕ Fin t) (JVar ι c t) ℝ :=
    Matrix.of (Sum.elim (fun a => jCols (L a) 0 0 0) (fun k => jCols 0 0 0 (Pi.single k 10)))
  have hG : ∀ x, G *ᵥ x = Sum.elim (L *ᵥ fun i => x (.inl i)) (fun k => 10 * x (.inr (.inr (.inr k)))) := by
    intro x
    funext r
    rcases r with a | k
    · show jCols (L a) 0 0 0 ⬝ᵥ x = _
      rw [jCols_dot]; simp [mulVec]
    · show jCols 0 0 0 (Pi.single k 10) ⬝ᵥ x = _
      rw [jCols_dot]; simp
  refine box_exists_ls G (fun x => ?_) h0
  rw [jaccQP_cost, hG, sumElim_dotProduct_sumElim, hL]
  have : (fun k => 10 * x (.inr (.inr (.inr k)))) ⬝ᵥ (fun k => 10 * x (.inr (.inr (.inr k)))) =
      100 * ((fun k : Fin t => x (.inr (.inr (.inr k)))) ⬝ᵥ (fun k => x (.inr (.inr (.inr k))))) := by
    simp only [dotProduct, Finset.mul_sum]
    exact Finset.sum_congr rfl fun k _ => by ring
  rw [this]
  ring

end Verif
