import Verif.Props.MovingMet
import Verif.Props.Lqp

/-!
# C83: the hierarchical QP controller while the robot moves

It is given the velocity forces (`B_`), not the drift of the contacts and tasks.
-/

set_option linter.unusedSectionVars false

namespace Verif.Props
open Matrix Verif Verif.Spec Verif.Model

namespace Lqp

variable {n c m : ℕ}

/-- **C83 (hierarchical QP).**  The torque planned at any level, applied to the moving robot: acceleration and force fall short
of the plan by the response to the drift of the contacts alone. -/
theorem C83_lqp (osqp : Osqp) (hs : OsqpSound osqp) (N : NullSpaceFn) (hN : N.Correct) (R : LqpRobot n c m)
    {L : List (DrivenLink (Fin 6 ⊕ Fin n))} {g : Fin 3 → ℝ} {γ : (Fin 6 ⊕ Fin n → ℝ) → Fin c → ℝ} {qd : Fin 6 ⊕ Fin n → ℝ}
    (hM : R.M = massMatrix (links L)) (hi : R.M * R.Minv = 1) (hh : R.h = inverseDynamics L g qd 0) (hA : IsSPD R.M)
    (hJ : IndependentRows R.J) {r : LevelAnswer (LqpVar (Fin n) c)} (hr : r ∈ calcControlTorqueLQP osqp N R) :
    ∃ δ φ, R.M *ᵥ δ + R.Jᵀ *ᵥ φ = 0 ∧ R.J *ᵥ δ = γ qd + R.J *ᵥ qddOf r.y ∧
      (γ qd = 0 → R.J *ᵥ qddOf r.y = 0 → δ = 0 ∧ φ = 0) ∧
      ∀ qdd F, MovingMotion L g R.J γ qd (fun i => demand R.conf r.y (Sum.inr i)) qdd F ↔
        qdd = qddOf r.y - δ ∧ F = forceOf r.y - φ := by
  have hS : ∃ S, contactSpace R.J R.M⁻¹ = some S :=
    ⟨_, contactSpace_eq_some.mpr ⟨(hA.inv.conj_isUnit_iff).mpr hJ, rfl⟩⟩
  obtain ⟨S, hS⟩ := hS
  have hresp := response hA hS 0 (γ qd + R.J *ᵥ qddOf r.y)
  obtain ⟨h1, h2⟩ := (hresp _ _).mpr ⟨rfl, rfl⟩
  have hd := ((C34_dynamics_and_torque_bound osqp hs N hN R hi).2 r hr).1
  have hact : actuate (fun i => demand R.conf r.y (Sum.inr i)) = demand R.conf r.y := by
    ext i
    rcases i with i | i
    · exact (hd i).symm
    · rfl
  refine ⟨_, _, h1, h2, fun e1 e2 => ?_, fun qdd F => ?_⟩
  · rw [e1, e2, add_zero, mulVec_zero, mulVec_zero, mulVec_zero, mulVec_zero, add_zero, sub_zero]
    exact ⟨rfl, rfl⟩
  · have key := hresp (qddOf r.y - qdd) (forceOf r.y - F)
    have e3 : ∀ a b : Fin 6 ⊕ Fin n → ℝ, ∀ x, a = x - b ↔ x - a = b := fun a b x =>
      ⟨fun h => by rw [h]; abel, fun h => by rw [← h]; abel⟩
    have e4 : ∀ a b : Fin c → ℝ, ∀ x, a = x - b ↔ x - a = b := fun a b x =>
      ⟨fun h => by rw [h]; abel, fun h => by rw [← h]; abel⟩
    rw [e3, e4, ← key]
    unfold MovingMotion
    rw [hact, inverseDynamics_eq, ← hM]
    have hb : R.h = velocityForce L qd - Spec.gravityForce g (links L) := by
      rw [hh, inverseDynamics_eq, mulVec_zero, zero_add]
    have hdm : demand R.conf r.y = R.M *ᵥ qddOf r.y + R.h + R.Jᵀ *ᵥ forceOf r.y := rfl
    rw [hdm, hb, mulVec_sub, mulVec_sub, mulVec_sub]
    constructor
    · rintro ⟨h3, h4⟩
      constructor
      · have := congrArg (fun v => R.M *ᵥ qddOf r.y + (velocityForce L qd - Spec.gravityForce g (links L)) + R.Jᵀ *ᵥ forceOf r.y - v) h3
        simp only [sub_self] at this
        rw [← this]; abel
      · rw [show γ qd = -(R.J *ᵥ qdd) from (neg_eq_of_add_eq_zero_right h4).symm]; abel
    · rintro ⟨h3, h4⟩
      constructor
      · rw [← sub_eq_zero, ← neg_eq_zero, ← h3]; abel
      · have := congrArg (fun v => R.J *ᵥ qddOf r.y - v) h4
        simp only [sub_sub_cancel] at this
        rw [this]; abel

open Whirl in
/-- The turning crane satisfies the hypotheses of `C83_lqp`, with an admissible answer of every level. -/
example (ω : ℝ) (C : Matrix (Fin m) (Fin 6) ℝ) :
    ∃ R : LqpRobot 3 6 m, R.M = massMatrix (links [body (Fin 3), crane]) ∧ R.M * R.Minv = 1 ∧ R.C = C ∧
      R.h = inverseDynamics [body (Fin 3), crane] grav (turning ω) 0 ∧ IsSPD R.M ∧ IndependentRows R.J ∧
      OsqpSound chooseFeasible ∧ projNull.Correct ∧ ∃ r, r ∈ calcControlTorqueLQP chooseFeasible projNull R := by
  refine ⟨⟨massMatrix (links [body (Fin 3), crane]), (massMatrix (links [body (Fin 3), crane]))⁻¹,
    inverseDynamics [body (Fin 3), crane] grav (turning ω) 0, foot (Fin 3), C, []⟩, rfl, crane_spd.mul_inv, rfl, rfl, crane_spd,
    Held.J_ind, chooseFeasible_sound, projNull_correct, ?_⟩
  have := (C34_dynamics_and_torque_bound chooseFeasible chooseFeasible_sound projNull projNull_correct
    (R := ⟨massMatrix (links [body (Fin 3), crane]), (massMatrix (links [body (Fin 3), crane]))⁻¹,
      inverseDynamics [body (Fin 3), crane] grav (turning ω) 0, foot (Fin 3), C, []⟩) crane_spd.mul_inv).1
  exact List.exists_mem_of_length_pos (by rw [this]; omega)

end Lqp

end Verif.Props
