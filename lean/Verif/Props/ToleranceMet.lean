import Verif.Props.Tolerance

/-! # C88: a tolerance that makes a lower level fail; cases that meet the hypotheses -/

set_option linter.unusedSectionVars false

namespace Verif.Props
open Matrix Verif Verif.Spec Verif.Model

/-- Best point within the tolerance. -/
def Loosest {V : Type*} [Fintype V] (ε : ℝ) (d : QP V) (x : V → ℝ) : Prop :=
  d.FeasibleWithin ε x ∧ ∀ y, d.FeasibleWithin ε y → d.cost x ≤ d.cost y

/-- A solver that uses its tolerance at the first level. -/
noncomputable def looseSolver (ε : ℝ) : Solver := by
  classical
  exact fun i _ _ d => if h : i = 0 ∧ ∃ x, Loosest ε d x then some h.2.choose else
    if h : ∃ x, d.IsSolution x then some h.choose else none

theorem looseSolver_within {ε : ℝ} (hε : 0 ≤ ε) : SolverWithin ε 0 (looseSolver ε) := by
  intro i t k d x h
  unfold looseSolver at h
  split_ifs at h with h0 h1
  · cases h
    obtain ⟨a, b⟩ := h0.2.choose_spec
    exact ⟨a, fun y hy => by rw [add_zero]; exact b y (feasibleWithin_of hε hy)⟩
  · cases h
    obtain ⟨a, b⟩ := h1.choose_spec
    exact ⟨feasibleWithin_of hε a, fun y hy => by rw [add_zero]; exact b y hy⟩

theorem looseSolver_complete (ε : ℝ) : (looseSolver ε).Complete := by
  intro i t k d h
  unfold looseSolver
  split_ifs <;> rfl

/-- The arm of `Reach` is moved by its own torque alone. -/
theorem reach_arm {τ : Fin 7 → ℝ} {qdd : Fin 6 ⊕ Fin 7 → ℝ} {F : Fin 12 → ℝ} (h : Motion Reach.A Reach.J Reach.G τ qdd F) :
    qdd (Sum.inr 6) = τ 6 := by
  have := congrFun h.1 (Sum.inr 6)
  have z : ∀ F : Fin 12 → ℝ, (Reach.Jᵀ *ᵥ F) (Sum.inr 6) = 0 := by
    intro F
    simp only [Reach.J, mulVec, dotProduct, transpose_apply, of_apply]
    refine Finset.sum_eq_zero fun i _ => ?_
    rw [if_neg (by have := i.isLt; change ¬ i.val = 12; omega), zero_mul]
  rw [Reach.A, Reach.G] at this
  simpa [z, actuate] using this

/-- With both feet in place only the arm can move. -/
theorem reach_fixed {q : Fin 6 ⊕ Fin 7 → ℝ} (h : ContactsFixed Reach.J q) : q = Pi.single (Sum.inr 6) (q (Sum.inr 6)) := by
  have hl : ∀ j : Fin 12, (Reach.J *ᵥ q) j = 0 := fun j => by rw [h]; rfl
  have r0 := hl 0; have r1 := hl 1; have r2 := hl 2; have r3 := hl 3; have r4 := hl 4; have r5 := hl 5
  have r6 := hl 6; have r7 := hl 7; have r8 := hl 8; have r9 := hl 9; have r10 := hl 10; have r11 := hl 11
  simp [Reach.J, mulVec, dotProduct, Fin.sum_univ_succ] at r0 r1 r2 r3 r4 r5 r6 r7 r8 r9 r10 r11
  ext s
  rcases s with s | s <;> fin_cases s <;> simp_all

/-- A torque on the arm joint accelerates the arm and leaves the feet as they stand. -/
theorem reach_motion (a : ℝ) : Motion Reach.A Reach.J Reach.G (Pi.single 6 a) (Pi.single (Sum.inr 6) a) Stand.F := by
  constructor
  · unfold Dynamics Reach.G Reach.A
    rw [one_mulVec]
    ext s
    rcases s with s | s
    · simp [actuate]
    · simp only [Pi.add_apply, Pi.neg_apply, actuate, Sum.elim_inr]
      by_cases hs : s = 6
      · subst hs; simp
      · rw [Pi.single_eq_of_ne hs, Pi.single_eq_of_ne (by simpa using hs)]; ring
  · unfold ContactsFixed
    ext j
    simp [Reach.J]
    omega

theorem reach_task {Tin : TaskIn (Fin 7)} (h : Tin = Reach.T) :
    ∃ o : Fin Tin.t, (∀ a, a = o) ∧ (∀ a, Tin.f a = 1) ∧ ∀ q, (Tin.J *ᵥ q) o = q (Sum.inr 6) := by
  subst h
  refine ⟨(0 : Fin 1), fun a => Subsingleton.elim (α := Fin 1) _ _, fun _ => rfl, fun q => ?_⟩
  change (Pi.single (Sum.inr 6) 1 : Fin 6 ⊕ Fin 7 → ℝ) ⬝ᵥ q = _
  simp

/-- What is needed of `Reach` and its task: the torques, in terms of the arm joint. -/
theorem reach_data (cod : (W : Matrix (Fin 7) (Fin 7) ℝ) → CodNull W) :
    ∃ S k V2 N T, ∃ o : Fin T.t, calculateContactConstraint Reach.J Reach.A⁻¹ cod = .ret 1 S (some ⟨k, V2, N⟩) ∧
      contactSpace Reach.J Reach.A⁻¹ = some S ∧
      calculateJKT S Reach.A⁻¹ Reach.T = some T ∧ gravityTorque S Reach.A⁻¹ Reach.G = 0 ∧
      (∀ a, a = o) ∧ (∀ a, T.f a = 1) ∧
      (∀ z, (N *ᵥ z) 6 = 0) ∧ (∀ b, (T.Jkt *ᵥ (T.Λ *ᵥ b)) 6 = b o) ∧
      (∀ b, (taskNullSpace S T 1 *ᵥ (T.Jkt *ᵥ (T.Λ *ᵥ b))) 6 = 0) ∧
      (∀ b, ∃ z, T.Jkt *ᵥ (T.Λ *ᵥ b) + N *ᵥ z = Pi.single 6 (b o)) := by
  obtain ⟨S, k, V2, N, T, τt, τc, hR, hT, -⟩ := C60_hypotheses_met cod []
  have hS : contactSpace Reach.J Reach.A⁻¹ = some S := by
    obtain ⟨S', hS'⟩ := Option.isSome_iff_exists.mp ((C02_finite_iff_independent Reach.hA).mpr Reach.J_ind)
    have := hR
    unfold calculateContactConstraint at this
    rw [hS'] at this
    simp only [gt_iff_lt] at this
    rw [if_pos (by norm_num)] at this
    split_ifs at this
    split at this
    · cases this
    · simp only [ContactResult.ret.injEq] at this
      rw [hS', this.2.1]
  have hg : gravityTorque S Reach.A⁻¹ Reach.G = 0 := by
    rw [gravityTorque, Reach.G, mulVec_neg, mulVec_mulVec (Stand.F) S.Nc, cs_Nc_JT hS, zero_mulVec, neg_zero, mulVec_zero, mulVec_zero]
  have e : T.toTaskIn = Reach.T := by rw [((jkt_eq_some hS).mp hT).2]
  obtain ⟨o, ho, hf, hTJ⟩ := reach_task e
  have hT' : calculateJKT S Reach.A⁻¹ T.toTaskIn = some T := by rw [e]; exact hT
  -- a stack on the arm
  have hstack : ∀ (b : Fin T.t → ℝ) (rs : List (TaskReady (Fin 7))), (taskTorque S (withCommand T b :: rs)) 6 = b o := by
    intro b rs
    have hb := jkt_withCommand hT' b
    obtain ⟨q, hm⟩ := (C01_contact_force_exact Reach.hA hS Reach.G
      (gravityTorque S Reach.A⁻¹ Reach.G + taskTorque S (withCommand T b :: rs))).1
    have h1 : T.J *ᵥ q = b := C07_top_priority_partial Reach.hA hS Reach.J_base hb rs hm
    rw [hg, zero_add] at hm
    rw [← reach_arm hm, ← h1, hTJ]
  have hone : ∀ b, (T.Jkt *ᵥ (T.Λ *ᵥ b)) 6 = b o := fun b => by
    rw [← hstack b [], taskTorque_one]
  refine ⟨S, k, V2, N, T, o, hR, hS, hT, hg, ho, hf, ?_, hone, ?_, ?_⟩
  · intro z
    obtain ⟨q', hm'⟩ := (C01_contact_force_exact Reach.hA hS Reach.G (0 + N *ᵥ z)).1
    have := (C04_internal_force Reach.hA (by norm_num) cod hR Reach.G 0 z Reach.motion hm').1
    have h2 := reach_arm hm'
    rw [this, zero_add] at h2
    exact h2.symm
  · intro b
    have h2 := hstack 0 [withCommand T b]
    have e2 : taskTorque S [withCommand T 0, withCommand T b]
        = 0 + 1 *ᵥ (T.Jkt *ᵥ (T.Λ *ᵥ 0)) + taskNullSpace S T 1 *ᵥ (T.Jkt *ᵥ (T.Λ *ᵥ b)) := rfl
    rw [e2, mulVec_zero, mulVec_zero, mulVec_zero, add_zero, zero_add] at h2
    exact h2
  · intro b
    obtain ⟨q, hm⟩ := (C01_contact_force_exact Reach.hA hS Reach.G (T.Jkt *ᵥ (T.Λ *ᵥ b))).1
    have hq : q = Pi.single (Sum.inr 6) (b o) := by
      rw [reach_fixed hm.2, reach_arm hm, hone]
    rw [hq] at hm
    have hm2 := reach_motion (b o)
    have e1 : (Pi.single 6 (b o) : Fin 7 → ℝ) = T.Jkt *ᵥ (T.Λ *ᵥ b) + ((Pi.single 6 (b o) : Fin 7 → ℝ) - T.Jkt *ᵥ (T.Λ *ᵥ b)) := by abel
    rw [e1] at hm2
    have := C04_every_internal_force Reach.hA (by norm_num) cod hR Reach.G _ _ hm hm2
    exact ⟨_, by rw [← this]; abel⟩

/-- **C88 (wrong).**  However small the tolerance, it can make task control fail.  The arm of `Reach` is commanded to accelerate with
twice the torque it has, as first and again as second task.  The answer to the first level exceeds the limit by `ε`; no answer to the second
level can undo that, so a solver that tests the second problem exactly reports it unsolvable, although its answers keep all constraints
up to `ε`, are optimal, and every solvable problem is answered.  With exact answers the same call succeeds. -/
theorem C88_lower_level_fails (cod : (W : Matrix (Fin 7) (Fin 7) ℝ) → CodNull W) {ε : ℝ} (h0 : 0 < ε) (h1 : ε ≤ 1 / 2) :
    ∃ S k V2 N T, calculateContactConstraint Reach.J Reach.A⁻¹ cod = .ret 1 S (some ⟨k, V2, N⟩) ∧
      calculateJKT S Reach.A⁻¹ Reach.T = some T ∧ SolverWithin ε 0 (looseSolver ε) ∧ (looseSolver ε).Complete ∧
      (∃ τt τc, calcTaskControlTorqueQP (Reach.robot S N) (looseSolver ε) [T, T] = .ret 0 τt τc) ∧
      ∃ τt τc, calcTaskControlTorqueQP (Reach.robot S N) Stand.solver [T, T] = .ret 1 τt τc := by
  obtain ⟨S, k, V2, N, T, o, hR, hS, hT, hg, ho, hf, hN, hK, hK2, hz⟩ := reach_data cod
  refine ⟨S, k, V2, N, T, hR, hT, looseSolver_within h0.le, looseSolver_complete ε, ?_, ?_⟩
  · obtain ⟨C, e, h'⟩ := stackC_within Stand.cs Stand.six Stand.dof
    have hC : (Reach.robot S N).C = some ⟨_, C⟩ := e
    have hg' : (Reach.robot S N).τg = 0 := hg
    set d := taskQP (Reach.robot S N) C T 1 ((Reach.robot S N).τg + 0) with hd
    have hin : ∀ x, d.FeasibleWithin ε x ↔ _ := fun x => taskQP_within h0.le (Reach.robot S N) C T 1 _ x
    -- the torque of the arm at the first level
    have hle : ∀ x, d.FeasibleWithin ε x → x (Sum.inl o) ≤ ε - 1 / 2 := by
      intro x hx
      have h2 : _ ≤ (1 / 2 : ℝ) + ε := ((hin x).mp hx).1 _ rfl 6
      have h3 := (le_abs_self _).trans h2
      rw [hg', one_mulVec, add_zero, zero_add, Pi.add_apply, hK, Pi.add_apply, hf] at h3
      have h4 := hN fun b => x (Sum.inr b)
      have h5 : (1 + x (Sum.inl o)) + ((Reach.robot S N).NwJw *ᵥ fun b => x (Sum.inr b)) 6 ≤ 1 / 2 + ε := h3
      rw [show ((Reach.robot S N).NwJw *ᵥ fun b => x (Sum.inr b)) 6 = 0 from h4] at h5
      linarith
    have hsum : ∀ w : Fin T.t → ℝ, ∑ a, w a * w a = w o * w o := fun w => by
      have : (Finset.univ : Finset (Fin T.t)) = {o} := by ext a; simp [ho a]
      rw [this, Finset.sum_singleton]
    obtain ⟨z, hz'⟩ := hz fun _ => 1 / 2 + ε
    have hy : d.FeasibleWithin ε (Sum.elim (fun _ => ε - 1 / 2) z) := by
      rw [hin, hg', one_mulVec, add_zero, zero_add]
      have e2 : T.Jkt *ᵥ (T.Λ *ᵥ (T.f + fun a : Fin T.t => (Sum.elim (fun _ => ε - 1 / 2) z (Sum.inl a) : ℝ)))
          + (Reach.robot S N).NwJw *ᵥ (fun b => (Sum.elim (fun _ : Fin T.t => ε - 1 / 2) z (Sum.inr b) : ℝ)) = Pi.single 6 (1 / 2 + ε) := by
        rw [← hz']
        have : (T.f + fun a : Fin T.t => (Sum.elim (fun _ => ε - 1 / 2) z (Sum.inl a) : ℝ)) = fun _ => 1 / 2 + ε := by
          ext a; simp only [Pi.add_apply, Sum.elim_inl, hf]; ring
        rw [this]
        rfl
      rw [e2]
      constructor
      · intro L hL j
        obtain rfl := Option.some.inj hL
        by_cases hj : j = 6
        · subst hj
          rw [Pi.single_eq_same, abs_of_pos (by linarith)]
        · rw [Pi.single_eq_of_ne hj, abs_zero]; linarith
      · change ∀ r, -ε ≤ (C *ᵥ contactForce S (gravityForce S Reach.G) (Pi.single 6 (1 / 2 + ε))) r
        rw [← (C01_contact_force_exact Reach.hA hS _ _).2.1 _ _ (reach_motion (1 / 2 + ε))]
        have h3 := (h' 0 Stand.F).mpr ((near_zero Stand.plane _).mpr Stand.hold)
        exact fun r => (neg_nonpos.mpr h0.le).trans ((neg_zero.symm.le).trans (h3 r))
    have hex : ∃ x, Loosest ε d x := by
      refine ⟨_, hy, fun y hy' => ?_⟩
      rw [hd, taskQP_cost, taskQP_cost, hsum fun a => (Sum.elim (fun _ : Fin T.t => ε - 1 / 2) z (Sum.inl a) : ℝ), hsum fun a => y (Sum.inl a)]
      have := hle y hy'
      simp only [Sum.elim_inl]
      nlinarith
    have hfirst : looseSolver ε 0 T.t (12 - 6) d = some hex.choose := by
      unfold looseSolver
      exact dif_pos ⟨rfl, hex⟩
    obtain ⟨hx1, hx2⟩ := hex.choose_spec
    generalize hex.choose = x at hfirst hx1 hx2
    -- the answer uses the tolerance
    have hxe : x (Sum.inl o) = ε - 1 / 2 := by
      have h2 := hle x hx1
      have h3 := hx2 _ hy
      rw [hd, taskQP_cost, taskQP_cost, hsum fun a => (Sum.elim (fun _ : Fin T.t => ε - 1 / 2) z (Sum.inl a) : ℝ), hsum fun a => x (Sum.inl a)] at h3
      simp only [Sum.elim_inl] at h3
      nlinarith
    unfold calcTaskControlTorqueQP
    rw [qpLoop, hC]
    simp only
    rw [hfirst]
    simp only
    rw [if_neg (by norm_num), qpLoop, hC]
    simp only
    have hno : looseSolver ε (0 + 1) T.t (12 - 6) (taskQP (Reach.robot S N) C T (taskNullSpace (Reach.robot S N).S T 1)
        ((Reach.robot S N).τg + (0 + 1 *ᵥ (T.Jkt *ᵥ (T.Λ *ᵥ (T.f + fun a => x (Sum.inl a))))))) = none := by
      unfold looseSolver
      rw [dif_neg (by simp)]
      refine dif_neg ?_
      rintro ⟨y, hy1, -⟩
      have h2 : _ ≤ (1 / 2 : ℝ) := ((taskQP_feasible (Reach.robot S N) C T _ _ y).mp hy1).1 _ rfl 6
      have h3 := (le_abs_self _).trans h2
      rw [hg', zero_add, zero_add, one_mulVec, Pi.add_apply, Pi.add_apply, hK, Pi.add_apply, hf, hxe] at h3
      have h4 : (taskNullSpace (Reach.robot S N).S T 1 *ᵥ (T.Jkt *ᵥ (T.Λ *ᵥ (T.f + fun a => y (Sum.inl a))))) 6 = 0 := hK2 _
      have h5 : ((Reach.robot S N).NwJw *ᵥ fun b => y (Sum.inr b)) 6 = 0 := hN _
      rw [h4, h5] at h3
      linarith
    rw [hno]
    exact ⟨_, _, rfl⟩
  · obtain ⟨S', k', V2', N', T', τt, τc, hR', hT', h, -⟩ := C60_hypotheses_met cod [T]
    rw [hR] at hR'
    simp only [ContactResult.ret.injEq, Option.some.injEq, Sigma.mk.injEq, true_and] at hR'
    obtain ⟨rfl, rfl, hN'⟩ := hR'
    have := (Prod.mk.inj (eq_of_heq hN')).2
    subst this
    rw [hT] at hT'
    obtain rfl := Option.some.inj hT'
    exact ⟨τt, τc, h⟩

/-- The first part met: the call with one task succeeds and the tolerance is used up. -/
example (cod : (W : Matrix (Fin 7) (Fin 7) ℝ) → CodNull W) {ε : ℝ} (h0 : 0 ≤ ε) :
    ∃ S k V2 N T τt τc, calculateContactConstraint Reach.J Reach.A⁻¹ cod = .ret 1 S (some ⟨k, V2, N⟩) ∧
      contactSpace Reach.J Reach.A⁻¹ = some S ∧ calculateJKT S Reach.A⁻¹ T.toTaskIn = some T ∧
      SolverWithin ε 0 Stand.solver ∧
      calcTaskControlTorqueQP (Reach.robot S N) Stand.solver [T] = .ret 1 τt τc ∧
      MovesNothing Reach.A Reach.J Reach.G 0 ∧
      RSolverWithin ε 0 Stand.rsolver ∧
      redistribute (Reach.robot S N) Stand.rsolver ((Reach.robot S N).τg + τt + τc) τc = some (1, τc) := by
  obtain ⟨S, k, V2, N, T, τt, τc, hR, hT, h, hr, -⟩ := C60_hypotheses_met cod []
  obtain ⟨S', k', V2', N', T', o, hR', hS, -⟩ := reach_data cod
  rw [hR] at hR'
  simp only [ContactResult.ret.injEq, true_and] at hR'
  obtain ⟨rfl, -⟩ := hR'
  refine ⟨S, k, V2, N, T, τt, τc, hR, hS, ?_, fun i t k d x hx => ?_, h, ?_, fun k d x hx => ?_, hr⟩
  · have e : T.toTaskIn = Reach.T := by rw [((jkt_eq_some hS).mp hT).2]
    rw [e]; exact hT
  · obtain ⟨a, b⟩ := Stand.solver_exact i t k d x hx
    exact ⟨feasibleWithin_of h0 a, fun y hy => by rw [add_zero]; exact b y hy⟩
  · exact (movesNothing_iff Reach.hA (by norm_num) cod hS hR 0).mpr ⟨0, (mulVec_zero _).symm⟩
  · obtain ⟨a, b⟩ := Stand.rsolver_exact k d x hx
    exact ⟨feasibleWithin_of h0 a, fun y hy => by rw [add_zero]; exact b y hy⟩

/-- A solver with the tolerances `ε` and `δ` that applies them in deciding solvability too. -/
noncomputable def evenSolver (ε δ : ℝ) : Solver := by
  classical
  exact fun _ _ _ d => if h : ∃ x, d.SolvedWithin ε δ x then some h.choose else none

/-- The hypotheses of `C88_never_fails` met: such a solver exists, and `Reach` can stand. -/
theorem C88_never_fails_met (cod : (W : Matrix (Fin 7) (Fin 7) ℝ) → CodNull W) (ε δ : ℝ) :
    SolverWithin ε δ (evenSolver ε δ) ∧ AnswersWithin ε δ (evenSolver ε δ) ∧
    ∃ S k V2 N, calculateContactConstraint Reach.J Reach.A⁻¹ cod = .ret 1 S (some ⟨k, V2, N⟩) ∧
      contactSpace Reach.J Reach.A⁻¹ = some S ∧ MovesNothing Reach.A Reach.J Reach.G 0 ∧
      SafeTorque Reach.A Reach.J Reach.G (Reach.robot S N).limit (Reach.robot S N).cs Stand.dof ((Reach.robot S N).τg + 0) := by
  refine ⟨fun i t k d x hx => ?_, fun i t k d h => ?_, ?_⟩
  · unfold evenSolver at hx
    split_ifs at hx with h0
    cases hx
    exact h0.choose_spec
  · unfold evenSolver
    rw [dif_pos h]
    rfl
  · obtain ⟨S, k, V2, N, T, o, hR, hS, hT, hg, -⟩ := reach_data cod
    refine ⟨S, k, V2, N, hR, hS, (movesNothing_iff Reach.hA (by norm_num) cod hS hR 0).mpr ⟨0, (mulVec_zero _).symm⟩, ?_⟩
    have e : (Reach.robot S N).τg + 0 = Pi.single 6 0 := by
      rw [add_zero, Pi.single_zero]; exact hg
    rw [e]
    refine ⟨fun L hL j => ?_, fun qdd F hM => ?_⟩
    · obtain rfl := Option.some.inj hL
      rw [Pi.single_zero]
      change |(0 : ℝ)| ≤ 1 / 2
      rw [abs_zero]; norm_num
    · rw [(C01_contact_force_exact Reach.hA hS Reach.G _).2.1 _ _ hM,
        ← (C01_contact_force_exact Reach.hA hS Reach.G _).2.1 _ _ (reach_motion 0)]
      exact Stand.hold

end Verif.Props
