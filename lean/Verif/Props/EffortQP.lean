import Verif.Props.Effort

/-! # C86: QP control may spend torque for nothing; cases that meet the hypotheses -/

set_option linter.unusedSectionVars false

namespace Verif.Props
open Matrix Verif Verif.Spec Verif.Model

/-- The first contact torque coordinate `1/10`, everything else zero. -/
noncomputable def pushing {t k : ℕ} : Fin t ⊕ Fin k → ℝ := Sum.elim (fun _ => 0) fun b => if b.val = 0 then 1 / 10 else 0

/-- A solver that prefers `pushing` among exact solutions. -/
noncomputable def pushingSolver : Solver := by
  classical
  exact fun _ _ _ d => if d.IsSolution pushing then some pushing else if h : ∃ x, d.IsSolution x then some h.choose else none

theorem pushingSolver_exact : pushingSolver.Exact := by
  intro i t k d x h
  unfold pushingSolver at h
  split_ifs at h with h0 h1
  · cases h; exact h0
  · cases h; exact h1.choose_spec

theorem pushingSolver_complete : pushingSolver.Complete := by
  intro i t k d h
  unfold pushingSolver
  split_ifs <;> rfl

/-- C86 (QP control; false for the torque).  The QP does not weigh the torque that presses the feet against each other.  The standing
biped of `Stand`, which needs no torque at all, gets a torque of `1/10` from an exact solver that answers every solvable problem,
although the command without it is as safe and gives the same motion. -/
theorem C86_qp_torque_wrong (cod : (W : Matrix (Fin 6) (Fin 6) ℝ) → CodNull W) :
    ∃ S k V2 N, calculateContactConstraint Ex.J Ex.A⁻¹ cod = .ret 1 S (some ⟨k, V2, N⟩) ∧
      gravityTorque S Ex.A⁻¹ (Stand.G 0) = 0 ∧ pushingSolver.Exact ∧ pushingSolver.Complete ∧
      Motion Ex.A Ex.J (Stand.G 0) 0 0 Stand.F ∧ ContactsHold Stand.cs (Stand.F ∘ Fin.cast Stand.dof.symm) ∧
      ∀ T : TaskReady (Fin 6), T.f = 0 → ∃ τc, calcTaskControlTorqueQP (Stand.robot S N 0 fun _ => 1) pushingSolver [T] = .ret 1 0 τc ∧
        effort τc = 1 / 100 ∧ ∀ qdd F, Motion Ex.A Ex.J (Stand.G 0) (0 + τc) qdd F → qdd = 0 := by
  obtain ⟨S, k, V2, N, -, hR, hS, -⟩ := C10_hypotheses_met cod
  have hg : gravityTorque S Ex.A⁻¹ (Stand.G 0) = 0 := by
    have : Stand.G 0 = -(Ex.Jᵀ *ᵥ Stand.F) := by
      unfold Stand.G
      rw [show actuate (0 : Fin 6 → ℝ) = 0 by ext r; rcases r with r | r <;> rfl, zero_sub]
    rw [gravityTorque, this, mulVec_neg, mulVec_mulVec (Stand.F) S.Nc, cs_Nc_JT hS, zero_mulVec, neg_zero, mulVec_zero, mulVec_zero]
  refine ⟨S, k, V2, N, hR, hg, pushingSolver_exact, pushingSolver_complete, Stand.motion 0, Stand.hold, fun T hf => ?_⟩
  set q : Fin 6 → ℝ := fun b => if b.val = 0 then 1 / 10 else 0 with hq
  obtain ⟨i1, i2, i3⟩ := Stand.internal cod hR hS 0 q
  refine ⟨N *ᵥ q, ?_, ?_, fun qdd F hM => ?_⟩
  · obtain ⟨C, e, h'⟩ := stackC_holds Stand.six Stand.plane Stand.dof
    have h0 : (taskQP (Stand.robot S N 0 fun _ => 1) C T 1 (0 + 0)).Feasible pushing := by
      rw [taskQP_feasible, hf]
      have z1 : (fun a : Fin T.t => (pushing (k := 12 - 6) (Sum.inl a) : ℝ)) = 0 := rfl
      have z2 : (fun b : Fin (12 - 6) => (pushing (t := T.t) (Sum.inr b) : ℝ)) = q := rfl
      rw [z1, z2]
      simp only [add_zero, mulVec_zero]
      refine ⟨?_, (h' _).mpr ?_⟩
      · intro L hL j
        obtain rfl := Option.some.inj hL
        change |((0 : Fin 6 → ℝ) + N *ᵥ q) j| ≤ 1
        rw [i3, hq]
        simp only [Pi.zero_apply]
        split_ifs <;> norm_num [abs_le]
      · change ContactsHold Stand.cs (contactForce S (gravityForce S (Stand.G 0)) (0 + N *ᵥ q) ∘ _)
        refine Stand.hold_of fun i => ?_
        fin_cases i
        · have a := fun j : Fin 6 => i1 j
          refine ⟨(a 3).trans ?_, (a 4).trans ?_, (a 5).trans ?_, (a 2).trans ?_, ?_, ?_⟩
          · simp [Stand.F, hq]
          · simp [Stand.F, hq]
          · simp [Stand.F, hq]
          · simp [Stand.F, hq]
          · refine (congrArg abs (a 0)).le.trans ?_
            simp [Stand.F, hq]; norm_num [abs_le]
          · refine (congrArg abs (a 1)).le.trans ?_
            simp [Stand.F, hq]; norm_num
        · have a := fun j : Fin 6 => i2 j
          refine ⟨(a 3).trans ?_, (a 4).trans ?_, (a 5).trans ?_, (a 2).trans ?_, ?_, ?_⟩
          · simp [Stand.F, hq]
          · simp [Stand.F, hq]
          · simp [Stand.F, hq]
          · simp [Stand.F, hq]
          · refine (congrArg abs (a 0)).le.trans ?_
            simp [Stand.F, hq]; norm_num [abs_le]
          · refine (congrArg abs (a 1)).le.trans ?_
            simp [Stand.F, hq]; norm_num
    have hsol : (taskQP (Stand.robot S N 0 fun _ => 1) C T 1 (0 + 0)).IsSolution pushing := by
      refine ⟨h0, fun y _ => ?_⟩
      rw [taskQP_cost, taskQP_cost]
      have : 0 ≤ ∑ a, y (Sum.inl a) * y (Sum.inl a) := Finset.sum_nonneg fun a _ => mul_self_nonneg _
      simpa [pushing] using this
    unfold calcTaskControlTorqueQP
    rw [qpLoop, show (Stand.robot S N 0 fun _ => 1).C = stackC Stand.cs 12 from rfl, e]
    have : pushingSolver 0 T.t (12 - 6) (taskQP (Stand.robot S N 0 fun _ => 1) C T 1 ((Stand.robot S N 0 fun _ => 1).τg + 0)) = some pushing := by
      unfold pushingSolver
      exact if_pos hsol
    simp only [this]
    rw [if_neg (by norm_num), qpLoop, hf]
    have z1 : (fun a : Fin T.t => (pushing (k := 12 - 6) (Sum.inl a) : ℝ)) = 0 := rfl
    have z2 : (fun b : Fin (12 - 6) => (pushing (t := T.t) (Sum.inr b) : ℝ)) = q := rfl
    rw [z1, z2]
    simp only [add_zero, mulVec_zero]
    rfl
  · have : ∀ i, (N *ᵥ q) i = -q i := fun i => by have := i3 i; simpa using this
    have h2 : effort (N *ᵥ q) = ∑ i, q i ^ 2 := Finset.sum_congr rfl fun i _ => by rw [this, neg_sq]
    rw [h2, hq]
    simp [Fin.sum_univ_succ]
    norm_num
  · exact (C04_internal_force Ex.hA (by norm_num) cod hR (Stand.G 0) 0 q (Stand.motion 0) hM).1

/-! ### cases that meet the hypotheses -/

/-- The arm of the biped `Reach` commanded to accelerate: the hypotheses of `C86_torque_least`, `C86_energy_least` and
`C86_one_task_least`; another motion with the same task acceleration moves the other joints too, with the feet in place. -/
example (cod : (W : Matrix (Fin 7) (Fin 7) ℝ) → CodNull W) :
    ∃ S R qdd F, contactSpace Reach.J Reach.A⁻¹ = some S ∧ calculateJKT S Reach.A⁻¹ Reach.T = some R ∧
      calcTaskSpace S Reach.A⁻¹ [Reach.T] = some [R] ∧ IsSPD Reach.A ∧ BaseDetermined Reach.J ∧
      Motion Reach.A Reach.J Reach.G (gravityTorque S Reach.A⁻¹ Reach.G + taskTorque S [R]) qdd F ∧
      ∃ q', ContactsFixed Reach.J q' ∧ Reach.T.J *ᵥ q' = Reach.T.f := by
  obtain ⟨S, k, V2, N, T, τt, τc, hR, hT, -⟩ := C60_hypotheses_met cod []
  have hS := ccc_space_of hR
  obtain ⟨q, hm⟩ := (C01_contact_force_exact Reach.hA hS Reach.G (gravityTorque S Reach.A⁻¹ Reach.G + taskTorque S [T])).1
  refine ⟨S, T, q, _, hS, hT, ?_, Reach.hA, Reach.J_base, hm, Sum.elim (fun _ => 0) (fun j => if j = 6 then 1 else 0), ?_, ?_⟩
  · unfold calcTaskSpace; rw [List.mapM_cons, hT]; rfl
  · ext i
    fin_cases i <;> simp [Reach.J, mulVec, dotProduct]
  · ext i
    simp [Reach.T, mulVec, dotProduct]
    exact Pi.single_eq_same (M := fun _ : Fin 6 ⊕ Fin 7 => ℝ) (Sum.inr 6) 1

/-- A cycle with QP control on two feet (`C86_qp_energy_least`). -/
example (cod : (W : Matrix (Fin 7) (Fin 7) ℝ) → CodNull W) :
    ∃ τg τt τc qdd F, qpCycle Reach.J Reach.A⁻¹ Reach.G cod (some fun _ => 1 / 2) Stand.cs Stand.solver [Reach.T] = some (1, τg, τt, τc) ∧
      Motion Reach.A Reach.J Reach.G (τg + τt + τc) qdd F := by
  obtain ⟨S, k, V2, N, T, τt, τc, hR, hT, hl, -⟩ := C60_hypotheses_met cod []
  have hS := ccc_space_of hR
  obtain ⟨q, hm⟩ := (C01_contact_force_exact Reach.hA hS Reach.G (gravityTorque S Reach.A⁻¹ Reach.G + τt + τc)).1
  refine ⟨_, τt, τc, q, _, ?_, hm⟩
  have ht : calcTaskSpace S Reach.A⁻¹ [Reach.T] = some [T] := by unfold calcTaskSpace; rw [List.mapM_cons, hT]; rfl
  unfold qpCycle
  rw [hR]
  simp only
  rw [ht]
  unfold Reach.robot at hl
  simp only
  rw [hl]

end Verif.Props
