import Verif.Props.Turned
import Verif.Props.TurnedContact
import Verif.Props.TurnedKin
import Verif.Props.ContinuityQP

/-!
# C80: concrete robots that meet the hypotheses
-/

set_option linter.unusedSectionVars false

namespace Verif.Props
open Matrix Verif Verif.Spec Verif.Model

namespace TurnedReach

/-- the biped with an arm of C60, turned by `θ` -/
noncomputable def A (θ : ℝ) : Matrix (Fin 6 ⊕ Fin 7) (Fin 6 ⊕ Fin 7) ℝ :=
  (baseChange (turnBase (rotateWithZ θ)))ᵀ * Reach.A * baseChange (turnBase (rotateWithZ θ))

noncomputable def J (θ : ℝ) : Matrix (Fin 12) (Fin 6 ⊕ Fin 7) ℝ :=
  turnRows (rotateWithZ θ) 12 * Reach.J * baseChange (turnBase (rotateWithZ θ))

noncomputable def G (θ : ℝ) : Fin 6 ⊕ Fin 7 → ℝ := (baseChange (turnBase (rotateWithZ θ)))ᵀ *ᵥ Reach.G

theorem seen (θ : ℝ) :
    SeenAs (turnBase (rotateWithZ θ)) (turnRows (rotateWithZ θ) 12) Reach.A Reach.J Reach.G (A θ) (J θ) (G θ) := ⟨rfl, rfl, rfl⟩

theorem tasks (θ : ℝ) : SeenTasks (turnBase (rotateWithZ θ)) [Reach.T] [seenTask (turnBase (rotateWithZ θ)) Reach.T 1] :=
  List.Forall₂.cons ⟨1, by rw [transpose_one, Matrix.one_mul], rfl⟩ List.Forall₂.nil

end TurnedReach

/-- The hypotheses of `C80_motion`, `C80_gravity`, `C80_contact_force`, `C80_closed_command`, `C80_qp_cycle_partial` and
`C80_redistribute_qp` are met by a biped with an arm, whatever it faces, and its cycle succeeds. -/
theorem C80_hypotheses_met (θ : ℝ) (cod : (W : Matrix (Fin 7) (Fin 7) ℝ) → CodNull W) :
    turnBase (rotateWithZ θ) * turnBase (rotateWithZ θ)ᵀ = 1 ∧ (turnRows (rotateWithZ θ) 12)ᵀ * turnRows (rotateWithZ θ) 12 = 1 ∧
    Stand.solver.Exact ∧ Stand.solver.Complete ∧ Stand.rsolver.Exact ∧ Stand.rsolver.Complete ∧
    (∃ τ, closedCommand Reach.J Reach.A⁻¹ Reach.G [Reach.T] = some τ ∧
      closedCommand (TurnedReach.J θ) (TurnedReach.A θ)⁻¹ (TurnedReach.G θ) [seenTask (turnBase (rotateWithZ θ)) Reach.T 1] = some τ) ∧
    ∃ τg τt τc τc', qpCycle Reach.J Reach.A⁻¹ Reach.G cod (some fun _ => 1 / 2) Stand.cs Stand.solver [Reach.T] = some (1, τg, τt, τc) ∧
      qpCycle (TurnedReach.J θ) (TurnedReach.A θ)⁻¹ (TurnedReach.G θ) cod (some fun _ => 1 / 2)
        (Stand.cs.map (turnContact (rotateWithZ θ))) Stand.solver [seenTask (turnBase (rotateWithZ θ)) Reach.T 1] = some (1, τg, τt, τc') ∧
      redistributeCycle (TurnedReach.J θ) (TurnedReach.A θ)⁻¹ (TurnedReach.G θ) cod (some fun _ => 1 / 2)
        (Stand.cs.map (turnContact (rotateWithZ θ))) Stand.rsolver (τg + τt + τc) τc = some (1, τc) := by
  have hQ := rotZ_orth θ
  have hU := turnBase_inv hQ
  have hR := turnRows_orth hQ (show 3 ∣ 12 by norm_num)
  obtain ⟨S, k, V2, N, T, τt, τc, hc, hT, hq, hr, -⟩ := C60_hypotheses_met cod []
  have hS : contactSpace Reach.J Reach.A⁻¹ = some S := ccc_space hc
  have hts : calcTaskSpace S Reach.A⁻¹ [Reach.T] = some [T] := by
    simp [calcTaskSpace, hT]
  refine ⟨hU, hR, Stand.solver_exact, Stand.solver_complete, Stand.rsolver_exact, Stand.rsolver_complete, ?_, ?_⟩
  · have e : ∃ τ, closedCommand Reach.J Reach.A⁻¹ Reach.G [Reach.T] = some τ := by
      rw [closedCommand, hS]; simp only; rw [hts]; exact ⟨_, rfl⟩
    obtain ⟨τ, e⟩ := e
    exact ⟨τ, e, (C80_closed_command hU hR (TurnedReach.seen θ) (TurnedReach.tasks θ)).trans e⟩
  · have e1 : qpCycle Reach.J Reach.A⁻¹ Reach.G cod (some fun _ => 1 / 2) Stand.cs Stand.solver [Reach.T]
        = some (1, gravityTorque S Reach.A⁻¹ Reach.G, τt, τc) := by
      unfold qpCycle
      rw [hc]
      simp only
      rw [hts]
      simp only
      have := hq
      unfold Reach.robot at this
      rw [this]
    have e2 := C80_qp_cycle_partial hU hQ Stand.six Stand.dof (TurnedReach.seen θ) cod (some fun _ => 1 / 2) Stand.solver_exact
      Stand.solver_complete Stand.solver_exact Stand.solver_complete (TurnedReach.tasks θ)
    rw [SameCycle, e1, Option.map_some] at e2
    obtain ⟨⟨v, τg', τt', τc'⟩, e3, e4⟩ := Option.map_eq_some_iff.mp e2
    simp only [Prod.mk.injEq] at e4
    obtain ⟨rfl, rfl, rfl⟩ := e4
    refine ⟨_, _, τc, τc', e1, e3, ?_⟩
    rw [C80_redistribute_qp hU hQ Stand.six Stand.dof (TurnedReach.seen θ) cod (some fun _ => 1 / 2) Stand.rsolver_exact
      Stand.rsolver_complete Stand.rsolver_exact Stand.rsolver_complete]
    unfold redistributeCycle
    rw [hc]
    exact hr

/-- `C80_kinematics`: a free body, turned and moved. -/
example (θ : ℝ) (d : Vec3) (qd : Sys (Fin 0) → ℝ) :
    ∃ s s', updateKinematics true (massMatrix [freeBody]) 0 1 (mass [freeBody]) (turnSys (rotateWithZ θ) *ᵥ qd) = some s ∧
      updateKinematics true (massMatrix ([freeBody].map (carryLink (rotateWithZ θ) d))) (rotateWithZ θ *ᵥ 0 + d) (rotateWithZ θ * 1)
        (mass ([freeBody].map (carryLink (rotateWithZ θ) d))) qd = some s' ∧ s'.comPos = rotateWithZ θ *ᵥ s.comPos + d := by
  obtain ⟨s, s', h1, h2, -, -, h3, -⟩ := C80_kinematics (ι := Fin 0) (L := [freeBody]) (x0 := 0) (R0 := 1) IsRot.one (by simp)
    (by simp [freeBody]) (by simp only [List.mem_singleton, forall_eq]; exact PosDef.one)
    (by simp only [List.mem_singleton, forall_eq]; exact freeBody_floating) θ d qd
  exact ⟨s, s', h1, h2, h3⟩

/-- `C80_position_command`, `C80_orientation_command_partial`: a task with gains 400 and 40 on a link that is to turn by a quarter about
`z`. -/
example : ∃ k : TaskLinkPD, k.posP = (fun _ => 400) ∧ k.posD = (fun _ => 40) ∧ k.rotP = (fun _ => 400) ∧ k.rotD = (fun _ => 40) ∧
    IsRot k.rotInit ∧ IsRot k.rotDes ∧ (1 + (k.rotDes * k.rotInitᵀ).trace) / 4 < slerpOne ^ 2 ∧
    (k.rotDes * k.rotInitᵀ).trace ≠ -1 := by
  have ht : (rotateWithZ (Real.pi / 2) * (1 : Mat3)ᵀ).trace = 1 := by
    rw [transpose_one, Matrix.mul_one]; simp [trace, Fin.sum_univ_three, rotateWithZ]
  refine ⟨⟨0, 0, 1, 0, 0, ![1, 0, 0], 0, 1, rotateWithZ (Real.pi / 2), fun _ => 400, fun _ => 40, fun _ => 1, fun _ => 400, fun _ => 40,
    fun _ => 1⟩, rfl, rfl, rfl, rfl, IsRot.one, (C18_axis_rotations _ 0).2.2.1, ?_, ?_⟩
  · change (1 + (rotateWithZ (Real.pi / 2) * (1 : Mat3)ᵀ).trace) / 4 < slerpOne ^ 2
    rw [ht]; norm_num [slerpOne]
  · change (rotateWithZ (Real.pi / 2) * (1 : Mat3)ᵀ).trace ≠ -1
    rw [ht]; norm_num

/-- `C80_zmp`: a foot loaded 1 m ahead of its middle, seen with any heading and anywhere. -/
example (θ : ℝ) (d : Vec3) : getZMP ([⟨true, 0⟩].map (carryContact (rotateWithZ θ) d))
    (turnRows (rotateWithZ θ) 6 *ᵥ (![0, 0, -1, 0, 1, 0] : Fin 6 → ℝ)) = .zmp (rotateWithZ θ *ᵥ ![1, 0, 0] + d) := by
  rw [C80_zmp (by norm_num) θ d _ _ ⟨_, List.mem_singleton.mpr rfl, rfl⟩]
  have e : getZMP [⟨true, 0⟩] (![0, 0, -1, 0, 1, 0] : Fin 6 → ℝ) = .zmp ![1, 0, 0] := by
    have e1 : totalFz (![0, 0, -1, 0, 1, 0] : Fin 6 → ℝ) 0 [⟨true, 0⟩] = some (-1) := by
      simp [totalFz, vecAt]
    have e2 : zmpSum (![0, 0, -1, 0, 1, 0] : Fin 6 → ℝ) (-1) 0 [⟨true, 0⟩] = some ![1, 0, 0] := by
      have : contactZmp 0 0 1 (-1) = ![1, 0, 0] := by
        rw [contactZmp, if_neg (by norm_num)]; simp
      simp [zmpSum, vecAt, this]
    rw [getZMP, e1]
    simp only [e2]
    rw [if_neg (by norm_num)]
  rw [e]
  rfl

end Verif.Props
