import Verif.Props.Levels

/-!
# C93: the direction of the first task's command with a solver that is exact up to a tolerance
-/

set_option linter.unusedSectionVars false

namespace Verif.Props
open Matrix Verif Verif.Spec Verif.Model

variable {n c : ℕ} {A : Matrix (Fin 6 ⊕ Fin n) (Fin 6 ⊕ Fin n) ℝ} {J : Matrix (Fin c) (Fin 6 ⊕ Fin n) ℝ} {G : Fin 6 ⊕ Fin n → ℝ} {R : QPRobot n c}

/-- **C93 (tolerance, direction).**  If the robot could stand still and the solver's answers cost at most `δ` too much, the acceleration `g` commanded in place
of the first task's command `f` hardly points away from it: half its square is at most `δ` above its product with `f`.  So a command of zero is answered with an
acceleration of square at most `2δ`, and `g` never points away from `f` by more than `δ`. -/
theorem C93_within_direction {ε δ : ℝ} (hA : IsSPD A) (hS : contactSpace J A⁻¹ = some R.S) (hP : R.P = Model.gravityForce R.S G)
    (h6 : ∀ l ∈ R.cs, l.type = .c6d) (hp : ∀ l ∈ R.cs, 0 < l.planeX ∧ 0 < l.planeY) (hc : c = 6 * (active R.cs).length)
    (hc6 : 6 < c) (cod : (W : Matrix (Fin n) (Fin n) ℝ) → CodNull W) {v k : ℕ} {V2 : Matrix (Fin k) (Fin n) ℝ}
    (hR : calculateContactConstraint J A⁻¹ cod = .ret v R.S (some ⟨k, V2, R.NwJw⟩))
    {solve : Solver} (hs : SolverWithin ε δ solve) {ν : Fin n → ℝ} (hν : MovesNothing A J G ν)
    (hstand : SafeTorque A J G R.limit R.cs hc (R.τg + ν)) (T : TaskReady (Fin n)) (q : TaskRecord n)
    (below : List (TaskReady (Fin n) × TaskRecord n)) {τt τc : Fin n → ℝ} {rs : List (TaskRecord n)}
    (h : taskControlQPRec R solve ((T, q) :: below) = (.ret 1 τt τc, rs)) :
    ∃ r a, rs[0]? = some r ∧ r.fqp = ⟨T.t, a⟩ ∧ (T.f + a) ⬝ᵥ (T.f + a) ≤ 2 * ((T.f + a) ⬝ᵥ T.f) + 2 * δ ∧ -δ ≤ (T.f + a) ⬝ᵥ T.f ∧
      (T.f = 0 → a ⬝ᵥ a ≤ 2 * δ) := by
  obtain ⟨r, a, e1, e2, hle⟩ := C93_within hA hS hP h6 hp hc hc6 cod hR hs hν hstand T q below h
  have h0 := dot_self_nonneg' (T.f + a)
  have h1 : (T.f + a) ⬝ᵥ (T.f + a) ≤ 2 * ((T.f + a) ⬝ᵥ T.f) + 2 * δ := by
    simp only [add_dotProduct, dotProduct_add]
    rw [dotProduct_comm T.f a]
    linarith
  refine ⟨r, a, e1, e2, h1, by linarith, fun hf => ?_⟩
  rw [hf, dotProduct_zero, zero_add] at hle
  exact hle

/-- The hypotheses of `C93_within_direction` are met by the biped with an arm whose motor is too weak for the command. -/
example (cod : (W : Matrix (Fin 7) (Fin 7) ℝ) → CodNull W) : ∃ S k V2 N T τt τc rs,
    calculateContactConstraint Reach.J Reach.A⁻¹ cod = .ret 1 S (some ⟨k, V2, N⟩) ∧ contactSpace Reach.J Reach.A⁻¹ = some S ∧
    SolverWithin 0 0 Stand.solver ∧ MovesNothing Reach.A Reach.J Reach.G 0 ∧
    SafeTorque Reach.A Reach.J Reach.G (Reach.robot S N).limit (Reach.robot S N).cs Stand.dof ((Reach.robot S N).τg + 0) ∧
    taskControlQPRec (Reach.robot S N) Stand.solver ((T, TaskRecord.fresh 7) :: [(T, TaskRecord.fresh 7)]) = (.ret 1 τt τc, rs) ∧ T.f ≠ 0 := by
  obtain ⟨S, k, V2, N, T, τt, τc, rs, h1, h2, -, h3, h4, h5, h6, h7⟩ := C92_levels_met cod
  exact ⟨S, k, V2, N, T, τt, τc, rs, h1, h2, h3, h4, h5, h6, h7⟩

end Verif.Props
