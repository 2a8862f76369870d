import Verif.Lemmas.Task
import Verif.Props.Contact
import Verif.Lemmas.Arm

/-!
# C06, C07: task space control without QP
-/
set_option linter.unusedSectionVars false

namespace Verif.Props
open Matrix Verif Verif.Spec Verif.Model

section
variable {ι : Type*} [Fintype ι] [DecidableEq ι] {c : ℕ}
variable {A : Matrix (Fin 6 ⊕ ι) (Fin 6 ⊕ ι) ℝ} {J : Matrix (Fin c) (Fin 6 ⊕ ι) ℝ}
  {S : ContactSpace c ι}

/-- C06.  One task: with gravity torque plus task torque the task acceleration is the commanded one. -/
theorem C06_task_achieved (hA : IsSPD A) (hS : contactSpace J A⁻¹ = some S) (hB : BaseDetermined J)
    {T : TaskIn ι} {R : TaskReady ι} (hR : calculateJKT S A⁻¹ T = some R)
    {G : Fin 6 ⊕ ι → ℝ} {qdd : Fin 6 ⊕ ι → ℝ} {F : Fin c → ℝ}
    (h : Motion A J G (gravityTorque S A⁻¹ G + taskTorque S [R]) qdd F) :
    T.J *ᵥ qdd = T.f ∧ J *ᵥ qdd = 0 := by
  refine ⟨?_, h.2⟩
  have hT : R.toTaskIn = T := by rw [((jkt_eq_some hS).mp hR).2]
  have := task_accel hA hS hB h R.J
  rw [taskTorque_cons, taskTorque_nil, mulVec_zero, add_zero, mulVec_mulVec,
    task_right_inverse hA hS hB hR, one_mulVec] at this
  subst hT; exact this

/-- C06 (finiteness).  The task computation is finite exactly when no nonzero task force is absorbed by the
contacts. -/
theorem C06_finite_iff (hA : IsSPD A) (hS : contactSpace J A⁻¹ = some S) (T : TaskIn ι) :
    (calculateJKT S A⁻¹ T).isSome ↔
      ∀ y : Fin T.t → ℝ, (∃ F, Jᵀ *ᵥ F = T.Jᵀ *ᵥ y) → y = 0 := by
  have h1 : (calculateJKT S A⁻¹ T).isSome ↔ IsUnit (T.J * S.AinvNc * T.Jᵀ).det := by
    rw [Option.isSome_iff_exists]
    constructor
    · rintro ⟨R, hR⟩; exact ((jkt_eq_some hS).mp hR).1
    · intro h; exact ⟨_, (jkt_eq_some hS).mpr ⟨h, rfl⟩⟩
  have hP := (C02_projector hA hS).2.2.2.2.2.2.1
  rw [h1]
  constructor
  · intro hu y hy
    apply mulVec_eq_zero_of_isUnit hu
    rw [← mulVec_mulVec, ← mulVec_mulVec, (hP _).mpr hy, mulVec_zero]
  · intro h
    apply mulVec_injective_det
    intro y hy
    apply h
    rw [← hP]
    apply hA.vec_zero
    have e : T.Jᵀ *ᵥ y ⬝ᵥ (S.AinvNc *ᵥ (T.Jᵀ *ᵥ y)) = 0 := by
      rw [← dot_transpose_mulVec, mulVec_mulVec, mulVec_mulVec, hy, dotProduct_zero]
    rw [← cs_PAP hA hS, Matrix.mul_assoc, ← mulVec_mulVec, dot_transpose_mulVec, cs_P_symm hA hS,
      ← mulVec_mulVec] at e
    exact e

/-- C07 (top level, every depth).  The highest-priority task gets exactly its commanded acceleration, whatever
tasks, however many, are stacked below it. -/
theorem C07_top_priority_partial (hA : IsSPD A) (hS : contactSpace J A⁻¹ = some S) (hB : BaseDetermined J)
    {T : TaskIn ι} {R : TaskReady ι} (hR : calculateJKT S A⁻¹ T = some R) (lower : List (TaskReady ι))
    {G : Fin 6 ⊕ ι → ℝ} {qdd : Fin 6 ⊕ ι → ℝ} {F : Fin c → ℝ}
    (h : Motion A J G (gravityTorque S A⁻¹ G + taskTorque S (R :: lower)) qdd F) :
    T.J *ᵥ qdd = T.f := by
  have hT : R.toTaskIn = T := by rw [((jkt_eq_some hS).mp hR).2]
  have := task_accel hA hS hB h R.J
  have hK := task_right_inverse hA hS hB hR
  rw [taskTorque_cons, mulVec_add, mulVec_mulVec, mulVec_mulVec, hK, one_mulVec, Matrix.mul_sub,
    ← Matrix.mul_assoc, hK] at this
  simp only [Matrix.mul_one, Matrix.one_mul, sub_self, zero_mulVec, add_zero] at this
  subst hT; exact this

/-- The full claim C07 for one robot: adding a task below a stack changes no acceleration of the stack. -/
def PriorityPreserved (A : Matrix (Fin 6 ⊕ ι) (Fin 6 ⊕ ι) ℝ) (J : Matrix (Fin c) (Fin 6 ⊕ ι) ℝ) : Prop :=
  ∀ (S : ContactSpace c ι) (ts : List (TaskIn ι)) (t : TaskIn ι) (rs : List (TaskReady ι)) (r : TaskReady ι)
    (G qdd qdd' : Fin 6 ⊕ ι → ℝ) (F F' : Fin c → ℝ),
    contactSpace J A⁻¹ = some S → calcTaskSpace S A⁻¹ ts = some rs → calculateJKT S A⁻¹ t = some r →
    Motion A J G (gravityTorque S A⁻¹ G + taskTorque S rs) qdd F →
    Motion A J G (gravityTorque S A⁻¹ G + taskTorque S (rs ++ [r])) qdd' F' →
    ∀ T ∈ ts, T.J *ᵥ qdd' = T.J *ᵥ qdd

/-- C07 (decoupled stacks, every depth).  If no task's torque accelerates a lower task of the stack, then every
task of the stack gets exactly its commanded acceleration. -/
theorem C07_decoupled_partial (hA : IsSPD A) (hS : contactSpace J A⁻¹ = some S) (hB : BaseDetermined J)
    {ts : List (TaskIn ι)} {rs : List (TaskReady ι)} (hts : calcTaskSpace S A⁻¹ ts = some rs)
    (hdec : rs.Pairwise fun hi lo =>
      ∀ x, lo.J *ᵥ (S.AinvNc *ᵥ actuate (hi.Jkt *ᵥ (hi.Λ *ᵥ x))) = 0)
    {G : Fin 6 ⊕ ι → ℝ} {qdd : Fin 6 ⊕ ι → ℝ} {F : Fin c → ℝ}
    (h : Motion A J G (gravityTorque S A⁻¹ G + taskTorque S rs) qdd F) :
    ∀ T ∈ ts, T.J *ᵥ qdd = T.f := by
  have hTK : ∀ hi lo : TaskReady ι, (∀ x, lo.J *ᵥ (S.AinvNc *ᵥ actuate (hi.Jkt *ᵥ (hi.Λ *ᵥ x))) = 0) →
      Tm S lo.J * Km hi = 0 := by
    intro hi lo hx
    apply Matrix.ext_of_mulVec_single
    intro i
    rw [← mulVec_mulVec, Km, ← mulVec_mulVec, Tm, ← mulVec_mulVec, ← mulVec_mulVec, ← actuate_eq, hx]
    ext j; simp [Matrix.col]
  -- every ready task comes from a task
  have hmem : ∀ (ts : List (TaskIn ι)) (rs : List (TaskReady ι)), calcTaskSpace S A⁻¹ ts = some rs →
      ts = rs.map (·.toTaskIn) ∧ ∀ R ∈ rs, ∃ T, calculateJKT S A⁻¹ T = some R := by
    intro ts
    induction ts with
    | nil => intro rs h; simp [calcTaskSpace] at h; subst h; simp
    | cons T ts ih =>
      intro rs h
      simp only [calcTaskSpace, List.mapM_cons, Option.pure_def, Option.bind_eq_bind,
        Option.bind_eq_some_iff, Option.some.injEq] at h
      obtain ⟨R, hR, rs', hrs, rfl⟩ := h
      obtain ⟨h1, h2⟩ := ih rs' hrs
      refine ⟨?_, ?_⟩
      · rw [List.map_cons, ← h1, ((jkt_eq_some hS).mp hR).2]
      · intro R' hR'
        rcases List.mem_cons.mp hR' with rfl | h'
        · exact ⟨T, hR⟩
        · exact h2 _ h'
  obtain ⟨h1, h2⟩ := hmem ts rs hts
  -- accelerations of the stack
  have main : ∀ rs : List (TaskReady ι),
      (rs.Pairwise fun hi lo => Tm S lo.J * Km hi = 0) → (∀ R ∈ rs, Tm S R.J * Km R = 1) →
      ∀ R ∈ rs, Tm S R.J *ᵥ taskTorque S rs = R.f := by
    intro rs
    induction rs with
    | nil => intro _ _ R hR; simp at hR
    | cons R0 rest ih =>
      intro hp hk R hR
      rw [List.pairwise_cons] at hp
      rw [taskTorque_cons, mulVec_add, mulVec_mulVec, mulVec_mulVec, Matrix.mul_sub, Matrix.mul_one,
        ← Matrix.mul_assoc]
      rcases List.mem_cons.mp hR with rfl | hR'
      · rw [hk R (List.mem_cons_self ..)]; simp
      · rw [hp.1 R hR']
        simp only [zero_mulVec, Matrix.zero_mul, sub_zero, zero_add]
        exact ih hp.2 (fun R hR => hk R (List.mem_cons_of_mem _ hR)) R hR'
  intro T hT
  rw [h1, List.mem_map] at hT
  obtain ⟨R, hR, rfl⟩ := hT
  rw [task_accel hA hS hB h]
  refine main rs (hdec.imp (fun h => hTK _ _ h)) ?_ R hR
  intro R' hR'
  obtain ⟨T, hT⟩ := h2 R' hR'
  exact task_right_inverse hA hS hB hT

end

/-! ### C07 is false at three levels -/

/-- C07 (negation).  On a robot with two joints whose base is held by a 6-D contact, adding a third-level task
changes the acceleration of the second-level task. -/
theorem C07_priority_violated : ¬ PriorityPreserved (ι := Fin 2) (c := 6) Arm.A Arm.J := by
  intro hcl
  have hS := Arm.hS
  obtain ⟨r0, h0⟩ := Arm.ready_some ![1, 0] 0 (by simp [dotProduct])
  obtain ⟨r1, h1⟩ := Arm.ready_some ![1, 1] 0 (by simp [dotProduct])
  obtain ⟨r2, h2⟩ := Arm.ready_some ![0, 1] 1 (by simp [dotProduct])
  have w : ∀ a b : Fin 2 → ℝ, a ⬝ᵥ b = a 0 * b 0 + a 1 * b 1 := fun a b => by simp [dotProduct]
  have t0 : taskTorque Arm.S [r0, r1] = 0 := by
    rw [Arm.stack_cons _ _ (by simp [dotProduct]) h0, Arm.stack_cons _ _ (by simp [dotProduct]) h1, taskTorque_nil]
    simp
  have t1 : taskTorque Arm.S [r0, r1, r2] = ![0, 1 / 2] := by
    rw [Arm.stack_cons _ _ (by simp [dotProduct]) h0, Arm.stack_cons _ _ (by simp [dotProduct]) h1,
      Arm.stack_cons _ _ (by simp [dotProduct]) h2, taskTorque_nil]
    ext i
    fin_cases i <;> simp [w] <;> norm_num
  obtain ⟨q, hq⟩ := (C01_contact_force_exact Arm.hA hS 0
    (gravityTorque Arm.S Arm.A⁻¹ 0 + taskTorque Arm.S [r0, r1])).1
  obtain ⟨q', hq'⟩ := (C01_contact_force_exact Arm.hA hS 0
    (gravityTorque Arm.S Arm.A⁻¹ 0 + taskTorque Arm.S ([r0, r1] ++ [r2]))).1
  have := hcl Arm.S [Arm.task ![1, 0] 0, Arm.task ![1, 1] 0] (Arm.task ![0, 1] 1) [r0, r1] r2 0 q q' _ _ hS
    (by simp [calcTaskSpace, h0, h1]) h2 hq hq' (Arm.task ![1, 1] 0) (by simp)
  rw [task_accel Arm.hA hS Arm.J_base hq, task_accel Arm.hA hS Arm.J_base hq'] at this
  change Tm Arm.S (Arm.rowJ ![1, 1]) *ᵥ taskTorque Arm.S [r0, r1, r2]
    = Tm Arm.S (Arm.rowJ ![1, 1]) *ᵥ taskTorque Arm.S [r0, r1] at this
  rw [t0, t1, Arm.Tm_row, mulVec_zero] at this
  have e := congrFun this 0
  simp [mulVec, w] at e

/-! ### The hypotheses are met -/

/-- The arm meets the hypotheses of C06/C07: base determined, finite contact space, a finite two-task stack,
and a motion under the resulting torque. -/
example : ∃ (R0 R1 : TaskReady (Fin 2)) (q : Fin 6 ⊕ Fin 2 → ℝ) (F : Fin 6 → ℝ) (G : Fin 6 ⊕ Fin 2 → ℝ),
    IsSPD Arm.A ∧ contactSpace Arm.J Arm.A⁻¹ = some Arm.S ∧ BaseDetermined Arm.J ∧
    calculateJKT Arm.S Arm.A⁻¹ (Arm.task ![1, 0] 3) = some R0 ∧
    calcTaskSpace Arm.S Arm.A⁻¹ [Arm.task ![1, 0] 3, Arm.task ![1, 1] 5] = some [R0, R1] ∧
    G ≠ 0 ∧ Motion Arm.A Arm.J G (gravityTorque Arm.S Arm.A⁻¹ G + taskTorque Arm.S [R0, R1]) q F := by
  obtain ⟨r0, h0⟩ := Arm.ready_some ![1, 0] 3 (by simp [dotProduct])
  obtain ⟨r1, h1⟩ := Arm.ready_some ![1, 1] 5 (by simp [dotProduct])
  obtain ⟨q, hq⟩ := (C01_contact_force_exact Arm.hA Arm.hS 1
    (gravityTorque Arm.S Arm.A⁻¹ 1 + taskTorque Arm.S [r0, r1])).1
  exact ⟨r0, r1, q, _, 1, Arm.hA, Arm.hS, Arm.J_base, h0, by simp [calcTaskSpace, h0, h1], one_ne_zero, hq⟩

/-- Two tasks on different joints of the arm meet the decoupling hypothesis of `C07_decoupled_partial`. -/
example : ∃ (R0 R1 : TaskReady (Fin 2)),
    calcTaskSpace Arm.S Arm.A⁻¹ [Arm.task ![1, 0] 3, Arm.task ![0, 1] 5] = some [R0, R1] ∧
    ∀ x, R1.J *ᵥ (Arm.S.AinvNc *ᵥ actuate (R0.Jkt *ᵥ (R0.Λ *ᵥ x))) = 0 := by
  obtain ⟨r0, h0⟩ := Arm.ready_some ![1, 0] 3 (by simp [dotProduct])
  obtain ⟨r1, h1⟩ := Arm.ready_some ![0, 1] 5 (by simp [dotProduct])
  refine ⟨r0, r1, by simp [calcTaskSpace, h0, h1], fun x => ?_⟩
  have hK := Arm.Km_task _ _ h0 x
  have hJ : r1.toTaskIn = Arm.task ![0, 1] 5 := by rw [((jkt_eq_some Arm.hS).mp h1).2]
  obtain ⟨T, Λ, Jkt⟩ := r1
  simp only at hJ
  subst hJ
  change Arm.rowJ ![0, 1] *ᵥ _ = 0
  rw [mulVec_mulVec, Arm.rowJ_P]
  obtain ⟨k, hk⟩ := hK
  rw [hk]
  ext i
  simp [Arm.rowJ, actuate, mulVec, dotProduct]

end Verif.Props
