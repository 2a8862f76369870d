import Verif.Lemmas.QPControl
import Verif.Lemmas.PolyImage

/-! # Existence of solutions of a least-squares problem; the objective of the reduced redistribution -/

namespace Verif
open Matrix Verif.Spec Verif.Model

theorem exists_solution_ls {V M : Type} [Fintype V] [Fintype M] {d : QP V} (G : Matrix M V ℝ) (b : M → ℝ) (κ : ℝ)
    (hcost : ∀ x, d.cost x = (1 / 2) * ((G *ᵥ x + b) ⬝ᵥ (G *ᵥ x + b)) + κ) {x₀ : V → ℝ} (h0 : d.Feasible x₀) :
    ∃ x, d.IsSolution x := by
  let row : Fin d.rows × Bool → V → ℝ := fun r =>
    if r.2 then d.A r.1 else if (d.lb r.1).isSome then -d.A r.1 else 0
  let ub : Fin d.rows × Bool → ℝ := fun r => if r.2 then d.ub r.1 else -(d.lb r.1).getD 0
  have hiff : ∀ x, (∀ r, row r ⬝ᵥ x ≤ ub r) ↔ d.Feasible x := by
    intro x
    constructor
    · intro h r hr
      refine ⟨fun a ha => ?_, by simpa [row, ub] using h (⟨r, hr⟩, true)⟩
      have := h (⟨r, hr⟩, false)
      rw [Option.mem_def] at ha
      simp [row, ub, ha] at this
      exact this
    · rintro h ⟨r, b⟩
      rcases b with _ | _
      · rcases hl : d.lb r with _ | a
        · simp [row, ub, hl]
        · simpa [row, ub, hl] using (h r r.isLt).1 a (by simp [hl])
      · simpa [row, ub] using (h r r.isLt).2
  obtain ⟨x, hx, hmin⟩ := exists_least_squares row ub G b ⟨x₀, (hiff x₀).mpr h0⟩
  refine ⟨x, (hiff x).mp hx, fun y hy => ?_⟩
  have := hmin y ((hiff y).mpr hy)
  rw [hcost, hcost]
  linarith

variable {n c : ℕ}

/-- the objective is half the square of the weighted contact force, up to a constant -/
theorem redistributeRQP_cost (R : QPRobot n c) {m : ℕ} (C : Matrix (Fin m) (Fin c) ℝ) (Wt : Matrix (Fin c) (Fin c) ℝ)
    (τin : Fin n → ℝ) (q : Fin (c - 6) → ℝ) :
    (redistributeRQP R C Wt τin).cost q =
      (1 / 2) * ((Wt *ᵥ contactForce R.S R.P (τin + R.NwJw *ᵥ q)) ⬝ᵥ (Wt *ᵥ contactForce R.S R.P (τin + R.NwJw *ᵥ q)))
        - (1 / 2) * ((Wt *ᵥ contactForce R.S R.P τin) ⬝ᵥ (Wt *ᵥ contactForce R.S R.P τin)) := by
  have hH : (redistributeRQP R C Wt τin).H = (Wt * rightCols R.S * R.NwJw)ᵀ * (Wt * rightCols R.S * R.NwJw) := by
    unfold redistributeRQP; rcases R.limit with _ | L <;> rfl
  have hg : (redistributeRQP R C Wt τin).g = (Wt *ᵥ (rightCols R.S *ᵥ τin - R.P)) ᵥ* (Wt * rightCols R.S * R.NwJw) := by
    unfold redistributeRQP; rcases R.limit with _ | L <;> rfl
  have hF : Wt *ᵥ contactForce R.S R.P (τin + R.NwJw *ᵥ q)
      = (Wt * rightCols R.S * R.NwJw) *ᵥ q + Wt *ᵥ contactForce R.S R.P τin := by
    unfold contactForce
    rw [mulVec_add, mulVec_mulVec, add_sub_right_comm, mulVec_add, mulVec_mulVec, add_comm, Matrix.mul_assoc]
    rfl
  rw [QP.cost, hH, hg, hF]
  have e0 : Wt *ᵥ (rightCols R.S *ᵥ τin - R.P) = Wt *ᵥ contactForce R.S R.P τin := rfl
  rw [e0]
  generalize Wt * rightCols R.S * R.NwJw = H
  generalize Wt *ᵥ contactForce R.S R.P τin = b
  rw [← mulVec_mulVec, dotProduct_mulVec, vecMul_transpose, ← dotProduct_mulVec, add_dotProduct, dotProduct_add, dotProduct_add,
    dotProduct_comm b (H *ᵥ q)]
  ring

theorem redistributeRQP_exists (R : QPRobot n c) {m : ℕ} (C : Matrix (Fin m) (Fin c) ℝ) (Wt : Matrix (Fin c) (Fin c) ℝ)
    (τin : Fin n → ℝ) {q : Fin (c - 6) → ℝ} (h0 : (redistributeRQP R C Wt τin).Feasible q) :
    ∃ x, (redistributeRQP R C Wt τin).IsSolution x := by
  refine exists_solution_ls (Wt * rightCols R.S * R.NwJw) (Wt *ᵥ contactForce R.S R.P τin)
    (-((1 / 2) * ((Wt *ᵥ contactForce R.S R.P τin) ⬝ᵥ (Wt *ᵥ contactForce R.S R.P τin)))) (fun x => ?_) h0
  rw [redistributeRQP_cost]
  have hF : Wt *ᵥ contactForce R.S R.P (τin + R.NwJw *ᵥ x)
      = (Wt * rightCols R.S * R.NwJw) *ᵥ x + Wt *ᵥ contactForce R.S R.P τin := by
    unfold contactForce
    rw [mulVec_add, mulVec_mulVec, add_sub_right_comm, mulVec_add, mulVec_mulVec, add_comm, Matrix.mul_assoc]
    rfl
  rw [hF]
  ring

end Verif
