import Verif.Props.Effort
import Verif.Spec.Sweep

/-!
# C07: what a stack of tasks does exactly

The full claim is false (`C07_priority_violated`).  This file says what the control without QP does instead: it starts at the lowest
task and corrects the motion as little as possible for each task above, so that the correction for a task can undo what those below
had reached.
-/

set_option linter.unusedSectionVars false

namespace Verif.Props
open Matrix Verif Verif.Spec Verif.Model

variable {ι : Type*} [Fintype ι] [DecidableEq ι] {c : ℕ}
variable {A : Matrix (Fin 6 ⊕ ι) (Fin 6 ⊕ ι) ℝ} {J : Matrix (Fin c) (Fin 6 ⊕ ι) ℝ} {S : ContactSpace c ι}

/-- A task as the specification sees it. -/
def taskGoal (T : TaskIn ι) : (t : ℕ) × Matrix (Fin t) (Fin 6 ⊕ ι) ℝ × (Fin t → ℝ) := ⟨T.t, T.J, T.f⟩

theorem stack_accel (hA : IsSPD A) (hS : contactSpace J A⁻¹ = some S) (hB : BaseDetermined J) {G qdd : Fin 6 ⊕ ι → ℝ} {F : Fin c → ℝ}
    {τ : ι → ℝ} (h : Motion A J G (gravityTorque S A⁻¹ G + τ) qdd F) : qdd = S.AinvNc *ᵥ ((Sel ι)ᵀ *ᵥ τ) := by
  have := ((motion_iff hA hS G _ _ _).mp h).1
  rw [this, actuate_eq, mulVec_add, ← actuate_eq, add_sub_right_comm, mulVec_add, mulVec_sub, P_gravity hA hS hB, sub_self, zero_add]

/-- A task put on top of a stack corrects its motion by the least change. -/
theorem stack_nearest (hA : IsSPD A) (hS : contactSpace J A⁻¹ = some S) (hB : BaseDetermined J) {T : TaskIn ι} {R : TaskReady ι}
    (hR : calculateJKT S A⁻¹ T = some R) (lower : List (TaskReady ι)) {G p q : Fin 6 ⊕ ι → ℝ} {F F' : Fin c → ℝ}
    (hp : Motion A J G (gravityTorque S A⁻¹ G + taskTorque S lower) p F')
    (hq : Motion A J G (gravityTorque S A⁻¹ G + taskTorque S (R :: lower)) q F) : NearestWith A J T.J T.f p q := by
  have ht := C07_top_priority_partial hA hS hB hR lower hq
  refine ⟨hq.2, ht, fun q' hc' ht' => ?_⟩
  have hv : J *ᵥ (q' - q) = 0 := by rw [mulVec_sub, hc', hq.2, sub_self]
  have hT := ready_rows hR
  have hRv : R.J *ᵥ (q' - q) = 0 := by subst hT; rw [mulVec_sub, ht', ht, sub_self]
  obtain ⟨x, hx⟩ : ∃ x, q - p = S.AinvNc *ᵥ ((Sel ι)ᵀ *ᵥ (Km R *ᵥ x)) := by
    refine ⟨R.f - Tm S R.J *ᵥ taskTorque S lower, ?_⟩
    rw [stack_accel hA hS hB hq, stack_accel hA hS hB hp, taskTorque_cons, ← mulVec_sub, ← mulVec_sub, Matrix.sub_mulVec, one_mulVec,
      ← mulVec_mulVec, mulVec_sub (Km R)]
    congr 2
    abel
  have hz : (q - p) ⬝ᵥ (A *ᵥ (q' - q)) = 0 := by
    rw [hx, dot_mulVec_left, dot_mulVec_left, transpose_transpose, cs_P_symm hA hS, P_A_mulVec hA hS hv, Km_orth hA hS hB hR _ hv hRv]
  have hz' : (q' - q) ⬝ᵥ (A *ᵥ (q - p)) = 0 := by
    rw [dotProduct_comm, dot_mulVec_left, hA.symm, hz]
  have e : accelEnergy A (q' - p) = accelEnergy A (q - p) + accelEnergy A (q' - q) := by
    have : q' - p = (q - p) + (q' - q) := by abel
    rw [accelEnergy, this, mulVec_add, add_dotProduct, dotProduct_add, dotProduct_add, hz, hz', accelEnergy, accelEnergy]
    ring
  have h2 : q' - p - (q - p) = q' - q := by abel
  rw [← h2] at e
  obtain ⟨a, b⟩ := accelEnergy_least hA e
  exact ⟨a, fun hle => sub_left_inj.mp (b hle)⟩

/-- **C07 (exact description).**  For every stack of tasks of any height, the motion under gravity compensation and task torque is the
rest corrected by the least change for the lowest task, then for the next, up to the highest. -/
theorem C07_sweep_partial (hA : IsSPD A) (hS : contactSpace J A⁻¹ = some S) (hB : BaseDetermined J) {ts : List (TaskIn ι)}
    {rs : List (TaskReady ι)} (hts : calcTaskSpace S A⁻¹ ts = some rs) {G qdd : Fin 6 ⊕ ι → ℝ} {F : Fin c → ℝ}
    (h : Motion A J G (gravityTorque S A⁻¹ G + taskTorque S rs) qdd F) : Swept A J (ts.map taskGoal) qdd := by
  unfold calcTaskSpace at hts
  induction ts generalizing rs qdd F with
  | nil =>
    simp only [List.mapM_nil, Option.pure_def, Option.some.injEq] at hts
    subst hts
    rw [stack_accel hA hS hB h, taskTorque_nil, mulVec_zero, mulVec_zero]
    exact .rest
  | cons T ts ih =>
    simp only [List.mapM_cons, Option.pure_def, Option.bind_eq_bind, Option.bind_eq_some_iff, Option.some.injEq] at hts
    obtain ⟨R, hR, rs', hrs', rfl⟩ := hts
    obtain ⟨p, hp⟩ := (C01_contact_force_exact hA hS G (gravityTorque S A⁻¹ G + taskTorque S rs')).1
    exact .task (ih hrs' hp) (stack_nearest hA hS hB hR rs' hp h)

/-- The description determines the motion. -/
theorem swept_unique {ts : List ((t : ℕ) × Matrix (Fin t) (Fin 6 ⊕ ι) ℝ × (Fin t → ℝ))} {q q' : Fin 6 ⊕ ι → ℝ}
    (h : Swept A J ts q) (h' : Swept A J ts q') : q = q' := by
  induction h generalizing q' with
  | rest => cases h'; rfl
  | task hl hn ih =>
    cases h' with
    | task hl' hn' =>
      obtain rfl := ih hl'
      exact ((hn'.2.2 _ hn.1 hn.2.1).2 (hn.2.2 _ hn'.1 hn'.2.1).1)

/-- A least correction brings the motion nearer to every motion that fulfils the task. -/
theorem nearest_closer (hA : IsSPD A) {t : ℕ} {JT : Matrix (Fin t) (Fin 6 ⊕ ι) ℝ} {f : Fin t → ℝ} {p q q' : Fin 6 ⊕ ι → ℝ}
    (h : NearestWith A J JT f p q) (hc : ContactsFixed J q') (ht : JT *ᵥ q' = f) :
    accelEnergy A (q' - q) ≤ accelEnergy A (q' - p) := by
  -- along the line from `q` through `q'` the distance from `p` is least at `q`
  have key : ∀ s : ℝ, 0 ≤ s * (2 * ((q - p) ⬝ᵥ (A *ᵥ (q' - q)))) + s ^ 2 * accelEnergy A (q' - q) := by
    intro s
    have h1 := (h.2.2 (q + s • (q' - q)) (by
      unfold ContactsFixed at *
      rw [mulVec_add, mulVec_smul, mulVec_sub, hc, h.1]; simp) (by
      rw [mulVec_add, mulVec_smul, mulVec_sub, ht, h.2.1]; simp)).1
    have e1 : q + s • (q' - q) - p = (q - p) + s • (q' - q) := by abel
    have e2 : (q' - q) ⬝ᵥ (A *ᵥ (q - p)) = (q - p) ⬝ᵥ (A *ᵥ (q' - q)) := by
      rw [dotProduct_comm, dot_mulVec_left, hA.symm]
    rw [e1] at h1
    unfold accelEnergy at *
    rw [mulVec_add, add_dotProduct, dotProduct_add, dotProduct_add, mulVec_smul, dotProduct_smul, smul_dotProduct, smul_dotProduct,
      dotProduct_smul, e2] at h1
    simp only [smul_eq_mul] at h1
    linarith
  have hz : (q - p) ⬝ᵥ (A *ᵥ (q' - q)) = 0 := by
    set b := (q - p) ⬝ᵥ (A *ᵥ (q' - q))
    set a := accelEnergy A (q' - q)
    by_contra hb
    have ha : 0 ≤ a := by
      have h1 := key 1
      have h2 := key (-1)
      linarith
    have h1 := key (-b / (a + 1))
    have h2 : (-b / (a + 1)) * (2 * b) + (-b / (a + 1)) ^ 2 * a = -(b ^ 2 * (a + 2)) / (a + 1) ^ 2 := by
      field_simp
      ring
    rw [h2] at h1
    have : 0 < b ^ 2 * (a + 2) / (a + 1) ^ 2 := by positivity
    rw [neg_div] at h1
    linarith
  have e2 : (q' - q) ⬝ᵥ (A *ᵥ (q - p)) = (q - p) ⬝ᵥ (A *ᵥ (q' - q)) := by
    rw [dotProduct_comm, dot_mulVec_left, hA.symm]
  have e : accelEnergy A (q' - p) = accelEnergy A (q - p) + accelEnergy A (q' - q) := by
    have : q' - p = (q - p) + (q' - q) := by abel
    rw [accelEnergy, this, mulVec_add, add_dotProduct, dotProduct_add, dotProduct_add, e2, hz, accelEnergy, accelEnergy]
    ring
  have h0 : 0 ≤ accelEnergy A (q - p) := by
    by_cases hz : q - p = 0
    · rw [hz]; simp [accelEnergy]
    · exact (hA.pos _ hz).le
  linarith

/-- **C07 (never worse than rest).**  Whatever the conflicts between levels: if the commands can be met together, by a motion that keeps
the contacts, then the motion of the stack is at least as near to every such motion as the robot at rest is. -/
theorem C07_closer_partial (hA : IsSPD A) (hS : contactSpace J A⁻¹ = some S) (hB : BaseDetermined J) {ts : List (TaskIn ι)}
    {rs : List (TaskReady ι)} (hts : calcTaskSpace S A⁻¹ ts = some rs) {G qdd q' : Fin 6 ⊕ ι → ℝ} {F : Fin c → ℝ}
    (h : Motion A J G (gravityTorque S A⁻¹ G + taskTorque S rs) qdd F) (hc : ContactsFixed J q') (hq' : ∀ T ∈ ts, T.J *ᵥ q' = T.f) :
    accelEnergy A (q' - qdd) ≤ accelEnergy A q' := by
  have hs := C07_sweep_partial hA hS hB hts h
  have hall : ∀ g ∈ ts.map taskGoal, g.2.1 *ᵥ q' = g.2.2 := by
    intro g hg
    obtain ⟨T, hT, rfl⟩ := List.mem_map.mp hg
    exact hq' T hT
  clear hts h hq' hB hS
  generalize ts.map taskGoal = gs at hs hall
  clear ts
  induction hs with
  | rest => rw [sub_zero]
  | task hl hn ih =>
    exact (nearest_closer hA hn hc (hall _ List.mem_cons_self)).trans (ih fun g hg => hall g (List.mem_cons_of_mem _ hg))

/-- **C07 (a task below need not be given up).**  A task put on top of a stack changes nothing exactly when the stack's motion fulfils it
already. -/
theorem C07_compatible_partial (hA : IsSPD A) (hS : contactSpace J A⁻¹ = some S) (hB : BaseDetermined J) {T : TaskIn ι} {R : TaskReady ι}
    (hR : calculateJKT S A⁻¹ T = some R) (lower : List (TaskReady ι)) {G p q : Fin 6 ⊕ ι → ℝ} {F F' : Fin c → ℝ}
    (hp : Motion A J G (gravityTorque S A⁻¹ G + taskTorque S lower) p F')
    (hq : Motion A J G (gravityTorque S A⁻¹ G + taskTorque S (R :: lower)) q F) : q = p ↔ T.J *ᵥ p = T.f := by
  have hn := stack_nearest hA hS hB hR lower hp hq
  constructor
  · rintro rfl; exact hn.2.1
  · intro h
    refine ((hn.2.2 p hp.2 h).2 ?_).symm
    rw [sub_self]
    have : accelEnergy A (0 : Fin 6 ⊕ ι → ℝ) = 0 := by simp [accelEnergy]
    rw [this]
    by_cases hz : q - p = 0
    · rw [hz, this]
    · exact (hA.pos _ hz).le

/-- Hypotheses met: the three tasks of `C07_priority_violated`. -/
example : ∃ (ts : List (TaskIn (Fin 2))) (rs : List (TaskReady (Fin 2))), ts.length = 3 ∧ calcTaskSpace Arm.S Arm.A⁻¹ ts = some rs ∧
    ∃ qdd F, Motion Arm.A Arm.J 0 (gravityTorque Arm.S Arm.A⁻¹ 0 + taskTorque Arm.S rs) qdd F := by
  obtain ⟨r0, h0⟩ := Arm.ready_some ![1, 0] 0 (by simp [dotProduct])
  obtain ⟨r1, h1⟩ := Arm.ready_some ![1, 1] 0 (by simp [dotProduct])
  obtain ⟨r2, h2⟩ := Arm.ready_some ![0, 1] 1 (by simp [dotProduct])
  refine ⟨[Arm.task ![1, 0] 0, Arm.task ![1, 1] 0, Arm.task ![0, 1] 1], [r0, r1, r2], rfl, ?_, ?_⟩
  · unfold calcTaskSpace
    rw [List.mapM_cons, h0, List.mapM_cons, h1, List.mapM_cons, h2]
    rfl
  · obtain ⟨q, hq⟩ := (C01_contact_force_exact Arm.hA Arm.hS 0 (gravityTorque Arm.S Arm.A⁻¹ 0 + taskTorque Arm.S [r0, r1, r2])).1
    exact ⟨q, _, hq⟩

end Verif.Props
