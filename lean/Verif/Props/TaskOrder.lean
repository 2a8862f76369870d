import Verif.Lemmas.TaskOrder
import Verif.Props.Order

/-!
# C82: what a level of tasks commands does not depend on how it is written down
-/

set_option linter.unusedSectionVars false

namespace Verif.Props
open Matrix Verif Verif.Spec Verif.Model

/-! ### The order in which the links of a level were registered -/

/-- C82 (rows).  Levels whose links were registered in another order get the same rows of the Jacobian with the same commanded
accelerations, in another order; the links are left in the same state, and so are the levels, up to that order: the statement can be
applied again in the next cycle.  Where one update is undefined, so is the other. -/
theorem C82_rows {σ : Type*} (t : ℝ) {ts ts' : List (RowTask σ)} (h : List.Forall₂ SameLevel ts ts') (links : List (RowLink σ)) :
    (updateTaskSpace t links ts = none ∧ updateTaskSpace t links ts' = none) ∨
    ∃ links' us us', updateTaskSpace t links ts = some (links', us) ∧ updateTaskSpace t links ts' = some (links', us') ∧
      List.Forall₂ (fun U U' => (U.J.zip U.f).Perm (U'.J.zip U'.f) ∧ U.J.length = U'.J.length ∧ U.f.length = U'.f.length) us us' ∧
      List.Forall₂ SameLevel us us' := by
  rcases updateTaskSpace_same t h links with h | ⟨links', us, us', e1, e2, e3, e4⟩
  · exact Or.inl h
  · refine Or.inr ⟨links', us, us', e1, e2, e3.imp fun U U' hU => ?_, e4⟩
    rcases hU with rfl | ⟨h1, h2, hp⟩
    · exact ⟨List.Perm.refl _, rfl, rfl⟩
    · have := hp.length_eq
      simp only [List.length_zip] at this
      exact ⟨hp, by omega, by omega⟩

section
variable {ι : Type*} [Fintype ι] [DecidableEq ι] {c : ℕ} {A : Matrix (Fin 6 ⊕ ι) (Fin 6 ⊕ ι) ℝ} {J : Matrix (Fin c) (Fin 6 ⊕ ι) ℝ}
  {G : Fin 6 ⊕ ι → ℝ}

theorem seenAs_self (A : Matrix (Fin 6 ⊕ ι) (Fin 6 ⊕ ι) ℝ) (J : Matrix (Fin c) (Fin 6 ⊕ ι) ℝ) (G : Fin 6 ⊕ ι → ℝ) :
    SeenAs 1 (1 : Matrix (Fin c) (Fin c) ℝ) A J G A J G := by
  refine ⟨?_, ?_, ?_⟩
  · rw [baseChange_one, transpose_one, Matrix.one_mul, Matrix.mul_one]
  · rw [baseChange_one, Matrix.mul_one, Matrix.one_mul]
  · rw [baseChange_one, transpose_one, one_mulVec]

/-- C82 (task control without QP).  The order in which the links of the levels were registered does not change the torque, for every
robot, contact state and set of tasks. -/
theorem C82_closed (t : ℝ) (links : List (RowLink (Fin 6 ⊕ ι))) {ts ts' : List (RowTask (Fin 6 ⊕ ι))}
    (h : List.Forall₂ SameLevel ts ts') : closedLinkCycle t links J A⁻¹ G ts' = closedLinkCycle t links J A⁻¹ G ts := by
  unfold closedLinkCycle
  rcases cycleTasks_same t h links with ⟨e1, e2⟩ | ⟨X, X', e1, e2, e3⟩
  · rw [e1, e2]
  · rw [e1, e2]
    exact C80_closed_command (Matrix.one_mul 1) (by simp) (seenAs_self A J G) e3

end

section
variable {n c : ℕ} {A : Matrix (Fin 6 ⊕ Fin n) (Fin 6 ⊕ Fin n) ℝ} {J : Matrix (Fin c) (Fin 6 ⊕ Fin n) ℝ} {G : Fin 6 ⊕ Fin n → ℝ}

/-- Tasks whose rows are mixed by orthogonal matrices. -/
theorem qpCycle_tasks (cod : (W : Matrix (Fin n) (Fin n) ℝ) → CodNull W) (limit : Option (Fin n → ℝ)) (cs : List ContactLink)
    {solve solve' : Solver} (he : solve.Exact) (hcomp : solve.Complete) (he' : solve'.Exact) (hcomp' : solve'.Complete)
    {ts ts' : List (TaskIn (Fin n))} (ht : SeenTasks 1 ts ts') :
    SameCycle (qpCycle J A⁻¹ G cod limit cs solve' ts') (qpCycle J A⁻¹ G cod limit cs solve ts) := by
  have hU : (1 : Matrix (Fin 6) (Fin 6) ℝ) * 1 = 1 := Matrix.one_mul 1
  have h := seenAs_self A J G
  unfold SameCycle qpCycle
  rcases hr : calculateContactConstraint J A⁻¹ cod with _ | _ | ⟨v, S, o⟩
  · rfl
  · rfl
  rcases o with _ | ⟨k, V2, N⟩
  · rfl
  simp only
  have hS := ccc_space hr
  have hSS : seenSpace 1 1 1 S = S := by
    have := contactSpace_seen hU (by simp) h
    rw [hS, Option.map_some, Option.some.injEq] at this
    exact this.symm
  have hts := calcTaskSpace_seen (S := S) hU h ht
  rw [hSS] at hts
  rcases hts with ⟨e, e'⟩ | ⟨ys, ys', e, e', hy⟩
  · rw [e, e']
  rw [e, e']
  simp only
  have hs : SeenRobot 1 1 (1 : Matrix (Fin c) (Fin c) ℝ)
      { S := S, NwJw := N, P := gravityForce S G, τg := gravityTorque S A⁻¹ G, limit := limit, cs := cs }
      { S := S, NwJw := N, P := gravityForce S G, τg := gravityTorque S A⁻¹ G, limit := limit, cs := cs } := by
    refine ⟨hSS.symm, fun δ => Iff.rfl, (one_mulVec _).symm, rfl, rfl, ?_⟩
    rcases hC : QPRobot.C
      { S := S, NwJw := N, P := gravityForce S G, τg := gravityTorque S A⁻¹ G, limit := limit, cs := cs } with _ | ⟨m, C⟩
    · exact Or.inl ⟨rfl, rfl⟩
    · refine Or.inr ⟨m, m, C, C, rfl, rfl, fun F => ?_⟩
      rw [one_mulVec]
  have hl := qpLoop_seen hU hs he hcomp he' hcomp' hy 0 1 0 0 0
  unfold calcTaskControlTorqueQP
  revert hl
  rcases qpLoop _ solve 0 1 0 0 ys with _ | ⟨v1, τ1, τc1⟩ <;> rcases qpLoop _ solve' 0 1 0 0 ys' with _ | ⟨v2, τ2, τc2⟩
  · intro _; rfl
  · intro hl; exact hl.elim
  · intro hl; exact hl.elim
  · rintro ⟨rfl, rfl⟩
    rfl

/-- C82 (task control with QP).  The order in which the links of the levels were registered changes neither the return value, nor the
gravity torque, nor the task torque, with exact solvers that answer every solvable problem. -/
theorem C82_qp_partial (t : ℝ) (links : List (RowLink (Fin 6 ⊕ Fin n))) (cod : (W : Matrix (Fin n) (Fin n) ℝ) → CodNull W)
    (limit : Option (Fin n → ℝ)) (cs : List ContactLink) {solve solve' : Solver} (he : solve.Exact) (hcomp : solve.Complete)
    (he' : solve'.Exact) (hcomp' : solve'.Complete) {ts ts' : List (RowTask (Fin 6 ⊕ Fin n))} (h : List.Forall₂ SameLevel ts ts') :
    SameCycle (qpLinkCycle t links J A⁻¹ G cod limit cs solve' ts') (qpLinkCycle t links J A⁻¹ G cod limit cs solve ts) := by
  unfold qpLinkCycle
  rcases cycleTasks_same t h links with ⟨e1, e2⟩ | ⟨X, X', e1, e2, e3⟩
  · rw [e1, e2]; rfl
  · rw [e1, e2]
    exact qpCycle_tasks cod limit cs he hcomp he' hcomp' e3

end

/-! ### Units and axes: task control without QP -/

section
variable {ι : Type*} [Fintype ι] [DecidableEq ι] {c : ℕ} {A : Matrix (Fin 6 ⊕ ι) (Fin 6 ⊕ ι) ℝ} {J : Matrix (Fin c) (Fin 6 ⊕ ι) ℝ}
  {G : Fin 6 ⊕ ι → ℝ} {S : ContactSpace c ι}

/-- The rewritten task, made ready, maps accelerations to torques in the same way. -/
def RewrittenReady (Y Y' : TaskReady ι) : Prop :=
  ∃ (ht : Y.t = Y'.t) (X : Matrix (Fin Y'.t) (Fin Y.t) ℝ) (Z : Matrix (Fin Y.t) (Fin Y'.t) ℝ), Z * X = 1 ∧ Y'.J = X * Y.J ∧ Y'.f = X *ᵥ Y.f ∧
    Km Y' = Km Y * Z

theorem jkt_rewritten (hA : IsSPD A) (hS : contactSpace J A⁻¹ = some S) (hB : BaseDetermined J) {T T' : TaskIn ι} (h : Rewritten T T') :
    (calculateJKT S A⁻¹ T = none ∧ calculateJKT S A⁻¹ T' = none) ∨
    ∃ Y Y', calculateJKT S A⁻¹ T = some Y ∧ calculateJKT S A⁻¹ T' = some Y' ∧ RewrittenReady Y Y' := by
  obtain ⟨X, hX, rfl⟩ := h
  have hL : (X * T.J) * S.AinvNc * (X * T.J)ᵀ = X * (T.J * S.AinvNc * T.Jᵀ) * Xᵀ := by
    simp only [transpose_mul, Matrix.mul_assoc]
  have hdet : IsUnit ((X * T.J) * S.AinvNc * (X * T.J)ᵀ).det ↔ IsUnit (T.J * S.AinvNc * T.Jᵀ).det := by
    rw [hL, det_mul, det_mul, det_transpose, IsUnit.mul_iff, IsUnit.mul_iff]
    exact ⟨fun h => h.1.2, fun h => ⟨⟨hX, h⟩, hX⟩⟩
  by_cases hu : IsUnit (T.J * S.AinvNc * T.Jᵀ).det
  · right
    have hu' := hdet.mpr hu
    have e1 := (jkt_eq_some (T := T) hS).mpr ⟨hu, rfl⟩
    have e2 := (jkt_eq_some (T := ⟨T.t, X * T.J, X *ᵥ T.f⟩) hS).mpr ⟨hu', rfl⟩
    refine ⟨_, _, e1, e2, rfl, X, X⁻¹, nonsing_inv_mul _ hX, rfl, rfl, ?_⟩
    rw [(Km_eq hA hS hB e1).1, (Km_eq hA hS hB e2).1]
    simp only
    rw [hL, Matrix.mul_inv_rev, Matrix.mul_inv_rev]
    have hT : (Tm S (X * T.J))ᵀ = (Tm S T.J)ᵀ * Xᵀ := by
      unfold Tm; simp only [transpose_mul, Matrix.mul_assoc]
    have hX' : Xᵀ * Xᵀ⁻¹ = 1 := mul_nonsing_inv _ (by rw [det_transpose]; exact hX)
    rw [hT]
    calc S.Winv * ((Tm S T.J)ᵀ * Xᵀ) * (Xᵀ⁻¹ * ((T.J * S.AinvNc * T.Jᵀ)⁻¹ * X⁻¹))
        = S.Winv * (Tm S T.J)ᵀ * (Xᵀ * Xᵀ⁻¹) * (T.J * S.AinvNc * T.Jᵀ)⁻¹ * X⁻¹ := by simp only [Matrix.mul_assoc]
      _ = _ := by rw [hX', Matrix.mul_one]
  · left
    constructor
    · rw [Option.eq_none_iff_forall_ne_some]
      intro Y hY
      exact hu ((jkt_eq_some hS).mp hY).1
    · rw [Option.eq_none_iff_forall_ne_some]
      intro Y hY
      exact hu (hdet.mp ((jkt_eq_some hS).mp hY).1)

theorem taskTorqueFrom_rewritten {ys ys' : List (TaskReady ι)} (h : List.Forall₂ RewrittenReady ys ys') :
    ∀ (N : Matrix ι ι ℝ) (τ : ι → ℝ), taskTorqueFrom S N τ ys' = taskTorqueFrom S N τ ys := by
  induction h with
  | nil => intro N τ; rfl
  | @cons Y Y' l l' hY _ ih =>
    intro N τ
    obtain ⟨-, X, Z, hZ, hJ, hf, hK⟩ := hY
    simp only [taskTorqueFrom]
    rw [ih]
    have e1 : taskNullSpace S Y' N = taskNullSpace S Y N := by
      rw [null_eq, null_eq, hK, hJ]
      have : Km Y * Z * Tm S (X * Y.J) = Km Y * Tm S Y.J := by
        unfold Tm
        calc Km Y * Z * (X * Y.J * S.AinvNc * (Sel ι)ᵀ) = Km Y * (Z * X) * (Y.J * S.AinvNc * (Sel ι)ᵀ) := by
              simp only [Matrix.mul_assoc]
          _ = _ := by rw [hZ, Matrix.mul_one]
      rw [this]
    have e2 : Y'.Jkt *ᵥ (Y'.Λ *ᵥ Y'.f) = Y.Jkt *ᵥ (Y.Λ *ᵥ Y.f) := by
      rw [mulVec_mulVec, mulVec_mulVec]
      change Km Y' *ᵥ Y'.f = Km Y *ᵥ Y.f
      rw [hK, hf, mulVec_mulVec, Matrix.mul_assoc, hZ, Matrix.mul_one]
    rw [e1, e2]

/-- C82 (units and axes, task control without QP).  A robot whose contacts determine the base gets the same torque when the equations
of a level are replaced by invertible combinations of them: other units, other axes, sums and differences. -/
theorem C82_units (hA : IsSPD A) (hB : BaseDetermined J) {ts ts' : List (TaskIn ι)} (h : List.Forall₂ Rewritten ts ts') :
    closedCommand J A⁻¹ G ts' = closedCommand J A⁻¹ G ts := by
  unfold closedCommand
  rcases hS : contactSpace J A⁻¹ with _ | S
  · rfl
  simp only
  have key : (calcTaskSpace S A⁻¹ ts = none ∧ calcTaskSpace S A⁻¹ ts' = none) ∨
      ∃ ys ys', calcTaskSpace S A⁻¹ ts = some ys ∧ calcTaskSpace S A⁻¹ ts' = some ys' ∧ List.Forall₂ RewrittenReady ys ys' := by
    unfold calcTaskSpace
    induction h with
    | nil => exact Or.inr ⟨[], [], rfl, rfl, List.Forall₂.nil⟩
    | @cons T T' l l' hT _ ih =>
      rw [List.mapM_cons, List.mapM_cons]
      rcases jkt_rewritten hA hS hB hT with ⟨e1, e2⟩ | ⟨Y, Y', e1, e2, e3⟩
      · left; rw [e1, e2]; exact ⟨rfl, rfl⟩
      · rw [e1, e2]
        rcases ih with ⟨d1, d2⟩ | ⟨ys, ys', d1, d2, d3⟩
        · left; rw [d1, d2]; exact ⟨rfl, rfl⟩
        · right; rw [d1, d2]
          exact ⟨Y :: ys, Y' :: ys', rfl, rfl, List.Forall₂.cons e3 d3⟩
  rcases key with ⟨e1, e2⟩ | ⟨ys, ys', e1, e2, e3⟩
  · rw [e1, e2]
  · rw [e1, e2, Option.map_some, Option.map_some]
    unfold taskTorque
    rw [taskTorqueFrom_rewritten e3]

end

end Verif.Props
