import Verif.Props.QPControl
import Verif.Props.Task

/-!
# C60: when QP task control fails, and what it leaves behind
-/

set_option linter.unusedSectionVars false

namespace Verif.Props
open Matrix Verif Verif.Spec Verif.Model

section General
variable {n c : ℕ} {A : Matrix (Fin 6 ⊕ Fin n) (Fin 6 ⊕ Fin n) ℝ} {J : Matrix (Fin c) (Fin 6 ⊕ Fin n) ℝ}
  {G : Fin 6 ⊕ Fin n → ℝ} {R : QPRobot n c}

/-- A joint torque within the limits under which no contact tips or slips. -/
def SafeTorque (A : Matrix (Fin 6 ⊕ Fin n) (Fin 6 ⊕ Fin n) ℝ) (J : Matrix (Fin c) (Fin 6 ⊕ Fin n) ℝ) (G : Fin 6 ⊕ Fin n → ℝ)
    (limit : Option (Fin n → ℝ)) (cs : List ContactLink) (hc : c = 6 * (active cs).length) (τ : Fin n → ℝ) : Prop :=
  (∀ L, limit = some L → WithinLimit L τ) ∧ ∀ qdd F, Motion A J G τ qdd F → ContactsHold cs (F ∘ Fin.cast hc.symm)

/-- A joint torque that moves nothing: added to any torque it leaves the motion as it was. -/
def MovesNothing (A : Matrix (Fin 6 ⊕ Fin n) (Fin 6 ⊕ Fin n) ℝ) (J : Matrix (Fin c) (Fin 6 ⊕ Fin n) ℝ) (G : Fin 6 ⊕ Fin n → ℝ)
    (δ : Fin n → ℝ) : Prop :=
  ∀ τ qdd qdd' F F', Motion A J G τ qdd F → Motion A J G (τ + δ) qdd' F' → qdd' = qdd

/-- The same task with another commanded acceleration. -/
def withCommand (T : TaskReady (Fin n)) (a : Fin T.t → ℝ) : TaskReady (Fin n) := { T with f := a }

theorem safe_iff (hA : IsSPD A) (hS : contactSpace J A⁻¹ = some R.S) (hP : R.P = gravityForce R.S G)
    (hc : c = 6 * (active R.cs).length) {m : ℕ} {C : Matrix (Fin m) (Fin c) ℝ}
    (h' : ∀ F : Fin c → ℝ, (∀ r, 0 ≤ (C *ᵥ F) r) ↔ ContactsHold R.cs (F ∘ Fin.cast hc.symm)) (τ : Fin n → ℝ) :
    SafeTorque A J G R.limit R.cs hc τ ↔
      (∀ L, R.limit = some L → ∀ j, |τ j| ≤ L j) ∧ ∀ r, 0 ≤ (C *ᵥ contactForce R.S R.P τ) r := by
  refine and_congr Iff.rfl ?_
  rw [h']
  constructor
  · intro h
    obtain ⟨qdd, hM⟩ := (C01_contact_force_exact hA hS G τ).1
    rw [hP]
    exact h _ _ hM
  · intro h qdd F hM
    rw [(C01_contact_force_exact hA hS G _).2.1 _ _ hM, ← hP]
    exact h

/-- torques that move nothing are those of the redistribution matrix -/
theorem movesNothing_iff (hA : IsSPD A) (hc6 : 6 < c) (cod : (W : Matrix (Fin n) (Fin n) ℝ) → CodNull W)
    {S : ContactSpace c (Fin n)} {v k : ℕ} {V2 : Matrix (Fin k) (Fin n) ℝ} {N : Matrix (Fin n) (Fin (c - 6)) ℝ}
    (hS : contactSpace J A⁻¹ = some S) (hR : calculateContactConstraint J A⁻¹ cod = .ret v S (some ⟨k, V2, N⟩)) (δ : Fin n → ℝ) :
    MovesNothing A J G δ ↔ ∃ x, δ = N *ᵥ x := by
  constructor
  · intro h
    obtain ⟨qdd, hM⟩ := (C01_contact_force_exact hA hS G 0).1
    obtain ⟨qdd', hM'⟩ := (C01_contact_force_exact hA hS G (0 + δ)).1
    obtain rfl := h _ _ _ _ _ hM hM'
    exact ⟨_, C04_every_internal_force hA hc6 cod hR G 0 δ hM hM'⟩
  · rintro ⟨x, rfl⟩ τ qdd qdd' F F' hM hM'
    exact (C04_internal_force hA hc6 cod hR G τ x hM hM').1

/-- a level's QP with a feasible point has a solution -/
theorem taskQP_exists (R : QPRobot n c) {m : ℕ} (C : Matrix (Fin m) (Fin c) ℝ) (T : TaskReady (Fin n))
    (N : Matrix (Fin n) (Fin n) ℝ) (τprev : Fin n → ℝ) {x₀ : Fin T.t ⊕ Fin (c - 6) → ℝ}
    (h0 : (taskQP R C T N τprev).Feasible x₀) : ∃ x, (taskQP R C T N τprev).IsSolution x := by
  refine exists_solution_ls (M := Fin T.t) (Matrix.of fun a s => if s = Sum.inl a then (1 : ℝ) else 0) 0 0 (fun x => ?_) h0
  have e : (Matrix.of fun (a : Fin T.t) (s : Fin T.t ⊕ Fin (c - 6)) => if s = Sum.inl a then (1 : ℝ) else 0) *ᵥ x
      = fun a => x (Sum.inl a) := by
    ext a
    simp [mulVec, dotProduct, Fintype.sum_sum_type]
  rw [taskQP_cost, e]
  simp [dotProduct]

theorem taskTorque_one (S : ContactSpace c (Fin n)) (T : TaskReady (Fin n)) (a : Fin T.t → ℝ) :
    taskTorque S [withCommand T a] = T.Jkt *ᵥ (T.Λ *ᵥ a) := by
  show 0 + 1 *ᵥ (T.Jkt *ᵥ (T.Λ *ᵥ a)) = _
  rw [zero_add, one_mulVec]

theorem jkt_withCommand {S : ContactSpace c (Fin n)} {B : Matrix (Fin 6 ⊕ Fin n) (Fin 6 ⊕ Fin n) ℝ} {T : TaskReady (Fin n)}
    (h : calculateJKT S B T.toTaskIn = some T) (a : Fin T.t → ℝ) :
    calculateJKT S B (withCommand T a).toTaskIn = some (withCommand T a) := by
  obtain ⟨X, hX, hX'⟩ := Option.map_eq_some_iff.mp h
  refine Option.map_eq_some_iff.mpr ⟨X, hX, ?_⟩
  rcases T with ⟨⟨t, Jt, f⟩, Λ, K⟩
  simp only [withCommand, TaskReady.mk.injEq, heq_eq_eq, true_and] at hX' ⊢
  exact hX'

/-- from a safe torque on, no level fails -/
theorem qpLoop_go (hc6 : 6 < c) {m : ℕ} {C : Matrix (Fin m) (Fin c) ℝ} (hC : R.C = some ⟨m, C⟩)
    {solve : Solver} (hs : solve.Sound) (hcomp : solve.Complete) (ts : List (TaskReady (Fin n))) (i : ℕ)
    (N : Matrix (Fin n) (Fin n) ℝ) (τt τc : Fin n → ℝ) (z : Fin (c - 6) → ℝ)
    (h : (∀ L, R.limit = some L → ∀ j, |(R.τg + τt + R.NwJw *ᵥ z) j| ≤ L j) ∧
      ∀ r, 0 ≤ (C *ᵥ contactForce R.S R.P (R.τg + τt + R.NwJw *ᵥ z)) r) :
    ∃ τt' τc', qpLoop R solve i N τt τc ts = .ret 1 τt' τc' := by
  induction ts generalizing i N τt τc z with
  | nil => exact ⟨τt, τc, rfl⟩
  | cons T ts ih =>
    have hf : (taskQP R C T N (R.τg + τt)).Feasible (Sum.elim (-T.f) z) := by
      rw [taskQP_feasible]
      have e : (T.f + fun a => Sum.elim (-T.f) z (Sum.inl a)) = 0 := by ext a; simp
      rw [e, mulVec_zero, mulVec_zero, mulVec_zero, add_zero]
      exact h
    obtain ⟨x, hx⟩ := Option.isSome_iff_exists.mp (hcomp i _ _ _ (taskQP_exists R C T N _ hf))
    have hx' := (taskQP_feasible R C T N _ x).mp (hs _ _ _ _ _ hx)
    rw [qpLoop, hC]
    simp only [hx]
    rw [if_neg (by omega)]
    refine ih _ _ _ _ (fun b => x (Sum.inr b)) ?_
    rw [← add_assoc]
    exact hx'

/-- the torque of a run is the plain torque of a stack with other commands -/
theorem qpLoop_commands {solve : Solver} (ts : List (TaskReady (Fin n))) (i : ℕ) (N : Matrix (Fin n) (Fin n) ℝ)
    (τ0 τ1 : Fin n → ℝ) {v : ℕ} {τt τc : Fin n → ℝ} (h : qpLoop R solve i N τ0 τ1 ts = .ret v τt τc) :
    ∃ rs, τt = taskTorqueFrom R.S N τ0 rs := by
  induction ts generalizing i N τ0 τ1 with
  | nil =>
    simp only [qpLoop, CtrlResult.ret.injEq] at h
    exact ⟨[], h.2.1.symm⟩
  | cons T ts ih =>
    simp only [qpLoop] at h
    split at h
    · cases h
    split at h
    · simp only [CtrlResult.ret.injEq] at h
      exact ⟨[], h.2.1.symm⟩
    · rename_i x hx
      split_ifs at h
      obtain ⟨rs, hrs⟩ := ih _ _ _ _ h
      exact ⟨withCommand T (T.f + fun a => x (Sum.inl a)) :: rs, hrs⟩

/-- C60 (failure of a lower level).  When QP task control reports failure, task and contact torque are exactly those of a successful
call with the tasks above the failing one. -/
theorem C60_failure_keeps {solve : Solver} {ts : List (TaskReady (Fin n))} {τt τc : Fin n → ℝ}
    (h : calcTaskControlTorqueQP R solve ts = .ret 0 τt τc) :
    ∃ i < ts.length, calcTaskControlTorqueQP R solve (ts.take i) = .ret 1 τt τc := by
  have key : ∀ (ts : List (TaskReady (Fin n))) i N τ0 τ1, qpLoop R solve i N τ0 τ1 ts = .ret 0 τt τc →
      ∃ j < ts.length, qpLoop R solve i N τ0 τ1 (ts.take j) = .ret 1 τt τc := by
    intro ts
    induction ts with
    | nil => intro i N τ0 τ1 h; simp [qpLoop] at h
    | cons T ts ih =>
      intro i N τ0 τ1 h
      simp only [qpLoop] at h
      split at h
      · cases h
      rename_i m C hC
      split at h
      · simp only [CtrlResult.ret.injEq, true_and] at h
        obtain ⟨rfl, rfl⟩ := h
        exact ⟨0, by simp, rfl⟩
      · rename_i x hx
        split_ifs at h with h6
        obtain ⟨j, hj, e⟩ := ih _ _ _ _ h
        refine ⟨j + 1, by simpa using hj, ?_⟩
        rw [List.take_succ_cons, qpLoop, hC]
        simp only [hx]
        rw [if_neg h6]
        exact e
  exact key ts 0 1 0 0 h

/-- C60 (what is left is safe).  After a failure either no torque has been added to gravity compensation, or the torque that has been
added is safe. -/
theorem C60_failure_safe (hA : IsSPD A) (hS : contactSpace J A⁻¹ = some R.S) (hP : R.P = gravityForce R.S G)
    (h6 : ∀ l ∈ R.cs, l.type = .c6d) (hp : ∀ l ∈ R.cs, 0 < l.planeX ∧ 0 < l.planeY) (hc : c = 6 * (active R.cs).length)
    {solve : Solver} (hs : solve.Sound) {ts : List (TaskReady (Fin n))} {τt τc : Fin n → ℝ}
    (h : calcTaskControlTorqueQP R solve ts = .ret 0 τt τc) :
    (τt = 0 ∧ τc = 0) ∨ SafeTorque A J G R.limit R.cs hc (R.τg + τt + τc) := by
  obtain ⟨i, hi, e⟩ := C60_failure_keeps h
  rcases Nat.eq_zero_or_pos i with rfl | hi0
  · left
    simp only [List.take_zero, calcTaskControlTorqueQP, qpLoop, CtrlResult.ret.injEq, true_and] at e
    exact ⟨e.1.symm, e.2.symm⟩
  · right
    have hne : ts.take i ≠ [] := by
      intro h0
      have := congrArg List.length h0
      rw [List.length_take] at this
      simp only [List.length_nil] at this
      omega
    exact ⟨fun L hL => C08_torque_limit R hs hne hL e, fun qdd F hM => C09_contacts_hold hA R hS hP h6 hp hc hs hne e hM⟩

/-- C60 (exact condition).  More than six contact rows, a solver that finds a solution whenever there is one: task control fails
exactly when for the first task there is no acceleration, commanded together with a torque that moves nothing, that gives a safe
torque.  The commands and the number of the tasks below do not matter. -/
theorem C60_fails_iff (hA : IsSPD A) (hS : contactSpace J A⁻¹ = some R.S) (hP : R.P = gravityForce R.S G)
    (h6 : ∀ l ∈ R.cs, l.type = .c6d) (hp : ∀ l ∈ R.cs, 0 < l.planeX ∧ 0 < l.planeY) (hc : c = 6 * (active R.cs).length)
    (hc6 : 6 < c) (cod : (W : Matrix (Fin n) (Fin n) ℝ) → CodNull W) {v k : ℕ} {V2 : Matrix (Fin k) (Fin n) ℝ}
    (hR : calculateContactConstraint J A⁻¹ cod = .ret v R.S (some ⟨k, V2, R.NwJw⟩))
    {solve : Solver} (hs : solve.Sound) (hcomp : solve.Complete) (T : TaskReady (Fin n)) (lower : List (TaskReady (Fin n))) :
    (∃ τt τc, calcTaskControlTorqueQP R solve (T :: lower) = .ret 0 τt τc) ↔
      ¬ ∃ a δ, MovesNothing A J G δ ∧ SafeTorque A J G R.limit R.cs hc (R.τg + taskTorque R.S [withCommand T a] + δ) := by
  obtain ⟨C, e, h'⟩ := stackC_holds h6 hp hc
  have hC : R.C = some ⟨_, C⟩ := e
  have ht : ∀ a, taskTorque R.S [withCommand T a] = T.Jkt *ᵥ (T.Λ *ᵥ a) := by
    intro a
    rw [taskTorque_one]
  have hfe : (∃ x, (taskQP R C T 1 (R.τg + 0)).Feasible x) ↔
      ∃ a δ, MovesNothing A J G δ ∧ SafeTorque A J G R.limit R.cs hc (R.τg + taskTorque R.S [withCommand T a] + δ) := by
    simp only [movesNothing_iff hA hc6 cod hS hR, safe_iff hA hS hP hc h', ht]
    constructor
    · rintro ⟨x, hx⟩
      rw [taskQP_feasible, one_mulVec, add_zero] at hx
      exact ⟨_, _, ⟨_, rfl⟩, hx⟩
    · rintro ⟨a, _, ⟨z, rfl⟩, hx⟩
      refine ⟨Sum.elim (a - T.f) z, ?_⟩
      rw [taskQP_feasible, one_mulVec, add_zero]
      have ea : (T.f + fun b => Sum.elim (a - T.f) z (Sum.inl b)) = a := by ext b; simp
      rw [ea]
      exact hx
  rw [← hfe]
  constructor
  · rintro ⟨τt, τc, h⟩ ⟨x₀, hx₀⟩
    obtain ⟨x, hx⟩ := Option.isSome_iff_exists.mp (hcomp 0 _ _ _ (taskQP_exists R C T 1 _ hx₀))
    have hx' := (taskQP_feasible R C T 1 _ x).mp (hs _ _ _ _ _ hx)
    rw [calcTaskControlTorqueQP, qpLoop, hC] at h
    simp only [hx] at h
    rw [if_neg (by omega)] at h
    rw [add_zero] at hx'
    obtain ⟨t1, t2, h2⟩ := qpLoop_go hc6 hC hs hcomp lower (0 + 1) (taskNullSpace R.S T 1)
      (0 + 1 *ᵥ (T.Jkt *ᵥ (T.Λ *ᵥ (T.f + fun a => x (Sum.inl a))))) (R.NwJw *ᵥ fun b => x (Sum.inr b)) (fun b => x (Sum.inr b))
      (by rw [zero_add]; exact hx')
    rw [h2] at h
    simp at h
  · intro hno
    rw [calcTaskControlTorqueQP, qpLoop, hC]
    rcases hx : solve 0 T.t (c - 6) (taskQP R C T 1 (R.τg + 0)) with _ | x
    · exact ⟨0, 0, by simp only [hx]⟩
    · exact absurd ⟨x, hs _ _ _ _ _ hx⟩ hno

/-- C60 (a robot that can stand).  If gravity compensation together with some torque that moves nothing is safe, task control
succeeds for every list of tasks. -/
theorem C60_never_fails (hA : IsSPD A) (hS : contactSpace J A⁻¹ = some R.S) (hP : R.P = gravityForce R.S G)
    (h6 : ∀ l ∈ R.cs, l.type = .c6d) (hp : ∀ l ∈ R.cs, 0 < l.planeX ∧ 0 < l.planeY) (hc : c = 6 * (active R.cs).length)
    (hc6 : 6 < c) (cod : (W : Matrix (Fin n) (Fin n) ℝ) → CodNull W) {v k : ℕ} {V2 : Matrix (Fin k) (Fin n) ℝ}
    (hR : calculateContactConstraint J A⁻¹ cod = .ret v R.S (some ⟨k, V2, R.NwJw⟩))
    {solve : Solver} (hs : solve.Sound) (hcomp : solve.Complete) {δ : Fin n → ℝ} (hδ : MovesNothing A J G δ)
    (hsafe : SafeTorque A J G R.limit R.cs hc (R.τg + δ)) (ts : List (TaskReady (Fin n))) :
    ∃ τt τc, calcTaskControlTorqueQP R solve ts = .ret 1 τt τc := by
  obtain ⟨C, e, h'⟩ := stackC_holds h6 hp hc
  have hC : R.C = some ⟨_, C⟩ := e
  obtain ⟨z, rfl⟩ := (movesNothing_iff hA hc6 cod hS hR δ).mp hδ
  refine qpLoop_go hc6 hC hs hcomp ts 0 1 0 0 z ?_
  rw [add_zero]
  exact (safe_iff hA hS hP hc h' _).mp hsafe

/-- C60 (best first task).  With exact answers the acceleration the first task reaches is, in every motion, at least as near to the
commanded one as any acceleration that could be commanded safely. -/
theorem C60_first_task_best (hA : IsSPD A) (hS : contactSpace J A⁻¹ = some R.S) (hB : BaseDetermined J)
    (hP : R.P = gravityForce R.S G) (hg : R.τg = gravityTorque R.S A⁻¹ G)
    (h6 : ∀ l ∈ R.cs, l.type = .c6d) (hp : ∀ l ∈ R.cs, 0 < l.planeX ∧ 0 < l.planeY) (hc : c = 6 * (active R.cs).length)
    (hc6 : 6 < c) (cod : (W : Matrix (Fin n) (Fin n) ℝ) → CodNull W) {v k : ℕ} {V2 : Matrix (Fin k) (Fin n) ℝ}
    (hR : calculateContactConstraint J A⁻¹ cod = .ret v R.S (some ⟨k, V2, R.NwJw⟩))
    {solve : Solver} (hs : solve.Exact) {T : TaskReady (Fin n)} (hT : calculateJKT R.S A⁻¹ T.toTaskIn = some T)
    {lower : List (TaskReady (Fin n))} {τt τc : Fin n → ℝ}
    (h : calcTaskControlTorqueQP R solve (T :: lower) = .ret 1 τt τc) {qdd : Fin 6 ⊕ Fin n → ℝ} {F : Fin c → ℝ}
    (hM : Motion A J G (R.τg + τt + τc) qdd F) {a : Fin T.t → ℝ} {δ : Fin n → ℝ} (hδ : MovesNothing A J G δ)
    (hsafe : SafeTorque A J G R.limit R.cs hc (R.τg + taskTorque R.S [withCommand T a] + δ)) :
    ∑ i, ((T.J *ᵥ qdd) i - T.f i) ^ 2 ≤ ∑ i, (a i - T.f i) ^ 2 := by
  obtain ⟨C, e, h'⟩ := stackC_holds h6 hp hc
  have hC : R.C = some ⟨_, C⟩ := e
  have hint : ∀ (ts : List (TaskReady (Fin n))) i N τ0 τ1, (∃ z, τ1 = R.NwJw *ᵥ z) → qpLoop R solve i N τ0 τ1 ts = .ret 1 τt τc →
      ∃ z, τc = R.NwJw *ᵥ z := by
    intro ts
    induction ts with
    | nil =>
      intro i N τ0 τ1 hz h
      simp only [qpLoop, CtrlResult.ret.injEq, true_and] at h
      obtain ⟨-, rfl⟩ := h
      exact hz
    | cons T ts ih =>
      intro i N τ0 τ1 hz h
      simp only [qpLoop, hC] at h
      split at h
      · simp at h
      · split_ifs at h
        exact ih _ _ _ _ ⟨_, rfl⟩ h
  obtain ⟨z, rfl⟩ := hint _ _ _ _ _ ⟨0, (mulVec_zero _).symm⟩ h
  rw [calcTaskControlTorqueQP, qpLoop, hC] at h
  simp only at h
  rcases hx : solve 0 T.t (c - 6) (taskQP R C T 1 (R.τg + 0)) with _ | x
  · rw [hx] at h; simp at h
  rw [hx] at h
  simp only at h
  rw [if_neg (by omega)] at h
  obtain ⟨rs, hrs⟩ := qpLoop_commands _ _ _ _ _ h
  -- the motion without the contact torque
  obtain ⟨qdd', hM'⟩ := (C01_contact_force_exact hA hS G (R.τg + τt)).1
  obtain rfl := (C04_internal_force hA hc6 cod hR G (R.τg + τt) z hM' hM).1
  have hT' := jkt_withCommand hT (T.f + fun a => x (Sum.inl a))
  have hstack : τt = taskTorque R.S (withCommand T (T.f + fun a => x (Sum.inl a)) :: rs) := hrs
  rw [hg, hstack] at hM'
  have hacc : T.J *ᵥ qdd = T.f + fun a => x (Sum.inl a) := C07_top_priority_partial hA hS hB hT' rs hM'
  -- the other safe command
  obtain ⟨z', rfl⟩ := (movesNothing_iff hA hc6 cod hS hR δ).mp hδ
  have hfeas : (taskQP R C T 1 (R.τg + 0)).Feasible (Sum.elim (a - T.f) z') := by
    rw [taskQP_feasible, one_mulVec, add_zero]
    have ea : (T.f + fun b => Sum.elim (a - T.f) z' (Sum.inl b)) = a := by ext b; simp
    rw [ea]
    have := (safe_iff hA hS hP hc h' _).mp hsafe
    rw [taskTorque_one] at this
    exact this
  have hle := (hs _ _ _ _ _ hx).2 _ hfeas
  rw [taskQP_cost, taskQP_cost] at hle
  have e1 : ∀ i, ((T.J *ᵥ qdd) i - T.f i) ^ 2 = x (Sum.inl i) * x (Sum.inl i) := by
    intro i
    rw [hacc]
    simp only [Pi.add_apply]
    ring
  have e2 : ∀ i, (a i - T.f i) ^ 2 = Sum.elim (a - T.f) z' (Sum.inl i) * Sum.elim (a - T.f) z' (Sum.inl i) := by
    intro i
    simp only [Sum.elim_inl, Pi.sub_apply]
    ring
  simp only [e1, e2]
  linarith

/-- C60 (then redistribution).  After a successful call with at least one task, redistribution with an exact solver succeeds and
changes nothing. -/
theorem C60_redistribution_after (hA : IsSPD A) (hS : contactSpace J A⁻¹ = some R.S) (hP : R.P = gravityForce R.S G)
    (h6 : ∀ l ∈ R.cs, l.type = .c6d) (hp : ∀ l ∈ R.cs, 0 < l.planeX ∧ 0 < l.planeY) (hc : c = 6 * (active R.cs).length)
    (hc6 : 6 < c) {solve : Solver} (hs : solve.Sound) {rsolve : RSolver} (hr : rsolve.Exact) (hrc : rsolve.Complete)
    {ts : List (TaskReady (Fin n))} (hne : ts ≠ []) {τt τc : Fin n → ℝ}
    (h : calcTaskControlTorqueQP R solve ts = .ret 1 τt τc) :
    redistribute R rsolve (R.τg + τt + τc) τc = some (1, τc) := by
  obtain ⟨C, e, h'⟩ := stackC_holds h6 hp hc
  have hC : R.C = some ⟨_, C⟩ := e
  have hl : ∀ L, R.limit = some L → WithinLimit L (R.τg + τt + τc) := fun L hL => C08_torque_limit R hs hne hL h
  have hh : ∀ qdd F, Motion A J G (R.τg + τt + τc) qdd F → ContactsHold R.cs (F ∘ Fin.cast hc.symm) :=
    fun qdd F hM => C09_contacts_hold hA R hS hP h6 hp hc hs hne h hM
  obtain ⟨qdd, hM⟩ := (C01_contact_force_exact hA hS G (R.τg + τt + τc)).1
  have hz : (redistributeQP R C (R.τg + τt + τc)).Feasible 0 := by
    rw [redistributeQP_feasible R C _ (by omega), mulVec_zero, add_zero]
    exact (safe_iff hA hS hP hc h' _).mp ⟨hl, hh⟩
  have hsol : ∃ x, (redistributeQP R C (R.τg + τt + τc)).IsSolution x := by
    refine ⟨0, hz, fun y _ => ?_⟩
    have hH : (redistributeQP R C (R.τg + τt + τc)).H = 1 := by
      unfold redistributeQP; rcases R.limit with _ | L <;> rfl
    have hg : (redistributeQP R C (R.τg + τt + τc)).g = 0 := by
      unfold redistributeQP; rcases R.limit with _ | L <;> rfl
    rw [QP.cost, QP.cost, hH, hg]
    simp only [one_mulVec, zero_dotProduct, add_zero, mulVec_zero]
    have : 0 ≤ y ⬝ᵥ y := Finset.sum_nonneg fun a _ => mul_self_nonneg _
    linarith
  obtain ⟨x, hx⟩ := Option.isSome_iff_exists.mp (hrc _ _ hsol)
  have hcall : redistribute R rsolve (R.τg + τt + τc) τc = some (1, τc + R.NwJw *ᵥ x) := by
    simp only [redistribute, gt_iff_lt, hc6, if_true, hC, hx]
  have := C10_unchanged hA R hS hP h6 hp hc hc6 hr hl hM (hh _ _ hM) hcall
  rw [hcall, this]

end General

/-! ### The hypotheses are met -/

/-- the biped of `Stand` with motors that give no torque cannot stand: task control fails whatever the task -/
theorem stand_without_torque (cod : (W : Matrix (Fin 6) (Fin 6) ℝ) → CodNull W) {S : ContactSpace 12 (Fin 6)} {v k : ℕ}
    {V2 : Matrix (Fin k) (Fin 6) ℝ} {N : Matrix (Fin 6) (Fin (12 - 6)) ℝ} (hS : contactSpace Ex.J Ex.A⁻¹ = some S)
    (hR : calculateContactConstraint Ex.J Ex.A⁻¹ cod = .ret v S (some ⟨k, V2, N⟩)) {solve : Solver} (hs : solve.Sound)
    (hcomp : solve.Complete) (T : TaskReady (Fin 6)) (lower : List (TaskReady (Fin 6))) :
    ∃ τt τc, calcTaskControlTorqueQP (Stand.robot S N Stand.τ₀ 0) solve (T :: lower) = .ret 0 τt τc := by
  obtain ⟨τt, τc, h⟩ := (C60_fails_iff Ex.hA (R := Stand.robot S N Stand.τ₀ 0) hS (G := Stand.G Stand.τ₀) rfl Stand.six Stand.plane
    Stand.dof (by norm_num) cod hR hs hcomp T lower).mpr (by
      rintro ⟨a, δ, -, hl, hh⟩
      change ∀ L, some (0 : Fin 6 → ℝ) = some L → WithinLimit L (Stand.τ₀ + taskTorque S [withCommand T a] + δ) at hl
      change ∀ qdd F, Motion Ex.A Ex.J (Stand.G Stand.τ₀) (Stand.τ₀ + taskTorque S [withCommand T a] + δ) qdd F →
        ContactsHold Stand.cs (F ∘ Fin.cast Stand.dof.symm) at hh
      generalize Stand.τ₀ + taskTorque S [withCommand T a] + δ = τ at hl hh
      have h0 : τ = 0 := by
        ext j
        have := hl 0 rfl j
        simpa using this
      subst h0
      obtain ⟨qdd, hM⟩ := (C01_contact_force_exact Ex.hA hS (Stand.G Stand.τ₀) 0).1
      have hH := hh _ _ hM
      generalize contactForce S (gravityForce S (Stand.G Stand.τ₀)) 0 = F at hM hH
      have hq : ∀ i, (Ex.J *ᵥ qdd) i = 0 := fun i => by rw [hM.2]; rfl
      have hq' : ∀ j : Fin 6, qdd (Sum.inr j) = 0 := by
        have q0 := hq 0; have q1 := hq 1; have q2 := hq 2; have q3 := hq 3; have q4 := hq 4; have q5 := hq 5
        have q6 := hq 6; have q7 := hq 7; have q8 := hq 8; have q9 := hq 9; have q10 := hq 10; have q11 := hq 11
        simp [Ex.J, mulVec, dotProduct, Fin.sum_univ_succ] at q0 q1 q2 q3 q4 q5 q6 q7 q8 q9 q10 q11
        intro j
        fin_cases j <;> simp_all
      have hd : ∀ j : Fin 6, (Ex.A *ᵥ qdd + Ex.Jᵀ *ᵥ F + Stand.G Stand.τ₀) (Sum.inr j) = actuate (0 : Fin 6 → ℝ) (Sum.inr j) :=
        fun j => by rw [hM.1]
      have d0 := hd 0
      have d2 := hd 2
      simp [Ex.A, Stand.G, actuate, hq', Ex.J, mulVec, dotProduct, Fin.sum_univ_succ, Stand.F, Stand.τ₀] at d0 d2
      have := (hH ⟨1, by have := Stand.dof; omega⟩).2.1
      have hl : (active Stand.cs)[(⟨1, by have := Stand.dof; omega⟩ : Fin (active Stand.cs).length)] = exContact true := by
        simp only [Stand.cs_active]; rfl
      rw [hl, show (exContact true).rotm = 1 from rfl, Stand.inFrame_one, press] at this
      have w0 : wrenchOf (F ∘ Fin.cast Stand.dof.symm) ⟨1, by have := Stand.dof; omega⟩ 0 = F 6 := rfl
      have w2 : wrenchOf (F ∘ Fin.cast Stand.dof.symm) ⟨1, by have := Stand.dof; omega⟩ 2 = F 8 := rfl
      rw [w0, w2, show (exContact true).friction = 2 / 10 from rfl] at this
      have f6 : F 6 = -(6 / 10) := by linarith
      have f8 : F 8 = 0 := by linarith
      rw [f6, f8] at this
      norm_num [abs_of_neg] at this)
  exact ⟨τt, τc, h⟩

example (cod : (W : Matrix (Fin 6) (Fin 6) ℝ) → CodNull W) (T : TaskReady (Fin 6)) (lower : List (TaskReady (Fin 6))) :
    ∃ S k V2 N τt τc, calculateContactConstraint Ex.J Ex.A⁻¹ cod = .ret 1 S (some ⟨k, V2, N⟩) ∧
      calcTaskControlTorqueQP (Stand.robot S N Stand.τ₀ 0) Stand.solver (T :: lower) = .ret 0 τt τc := by
  obtain ⟨S, k, V2, N, -, hR, hS, -⟩ := C10_hypotheses_met cod
  obtain ⟨τt, τc, h⟩ := stand_without_torque cod hS hR Stand.solver_sound Stand.solver_complete T lower
  exact ⟨S, k, V2, N, τt, τc, hR, h⟩

namespace Reach

/-- the biped with one more joint, that moves an arm -/
def J : Matrix (Fin 12) (Fin 6 ⊕ Fin 7) ℝ := Matrix.of fun i s =>
  match s with
  | Sum.inl j => if i.val % 6 = j.val then 1 else 0
  | Sum.inr j => if i.val = j.val + 6 then 1 else 0

/-- unit mass matrix -/
def A : Matrix (Fin 6 ⊕ Fin 7) (Fin 6 ⊕ Fin 7) ℝ := 1

theorem hA : IsSPD A := isSPD_one

theorem J_ind : IndependentRows J := by
  intro F h
  have hr : ∀ j : Fin 7, (Jᵀ *ᵥ F) (Sum.inr j) = 0 := fun j => by rw [h]; rfl
  have hl : ∀ j : Fin 6, (Jᵀ *ᵥ F) (Sum.inl j) = 0 := fun j => by rw [h]; rfl
  have r0 := hr 0; have r1 := hr 1; have r2 := hr 2; have r3 := hr 3; have r4 := hr 4; have r5 := hr 5
  have l0 := hl 0; have l1 := hl 1; have l2 := hl 2; have l3 := hl 3; have l4 := hl 4; have l5 := hl 5
  simp [J, mulVec, dotProduct, Fin.sum_univ_succ] at r0 r1 r2 r3 r4 r5 l0 l1 l2 l3 l4 l5
  ext i
  fin_cases i <;> simp_all

theorem J_base : BaseDetermined J := by
  intro v h
  have hl : ∀ j : Fin 12, (J *ᵥ (Sum.elim v 0)) j = 0 := fun j => by rw [h]; rfl
  have r0 := hl 0; have r1 := hl 1; have r2 := hl 2; have r3 := hl 3; have r4 := hl 4; have r5 := hl 5
  simp [J, mulVec, dotProduct, Fin.sum_univ_succ] at r0 r1 r2 r3 r4 r5
  ext i
  fin_cases i <;> simp_all

/-- gravity presses both feet to the floor and needs no torque -/
def G : Fin 6 ⊕ Fin 7 → ℝ := -(Jᵀ *ᵥ Stand.F)

theorem motion : Motion A J G 0 0 Stand.F := by
  constructor
  · unfold Dynamics G; simp [actuate]
  · unfold ContactsFixed; simp

/-- accelerate the arm joint by 1 -/
def T : TaskIn (Fin 7) := { t := 1, J := Matrix.of fun _ => Pi.single (Sum.inr 6) 1, f := fun _ => 1 }

/-- every joint gives at most half the torque this needs -/
noncomputable def robot (S : ContactSpace 12 (Fin 7)) (N : Matrix (Fin 7) (Fin 6) ℝ) : QPRobot 7 12 :=
  { S := S, NwJw := N, P := gravityForce S G, τg := gravityTorque S A⁻¹ G, limit := some fun _ => 1 / 2, cs := Stand.cs }

end Reach

/-- the hypotheses of `C60_never_fails`, `C60_first_task_best` and `C60_redistribution_after` are met by a biped with an arm -/
theorem C60_hypotheses_met (cod : (W : Matrix (Fin 7) (Fin 7) ℝ) → CodNull W) (lower : List (TaskReady (Fin 7))) :
    ∃ S k V2 N T τt τc, calculateContactConstraint Reach.J Reach.A⁻¹ cod = .ret 1 S (some ⟨k, V2, N⟩) ∧
      calculateJKT S Reach.A⁻¹ Reach.T = some T ∧
      calcTaskControlTorqueQP (Reach.robot S N) Stand.solver (T :: lower) = .ret 1 τt τc ∧
      redistribute (Reach.robot S N) Stand.rsolver ((Reach.robot S N).τg + τt + τc) τc = some (1, τc) ∧
      ∀ qdd F, Motion Reach.A Reach.J Reach.G ((Reach.robot S N).τg + τt + τc) qdd F →
        ∑ i, ((T.J *ᵥ qdd) i - T.f i) ^ 2 ≤ ∑ i, (0 - T.f i) ^ 2 := by
  obtain ⟨S, ⟨k, V2, N⟩, hR⟩ := (C05_outcome Reach.hA Reach.J_ind (by norm_num) cod).1.mpr
    ⟨Reach.J_base, by
      have : lastSixBase (by norm_num) Reach.J = 1 := by
        ext i j; fin_cases i <;> fin_cases j <;> simp [lastSixBase, Reach.J]
      rw [this]; simp⟩
  have hS : contactSpace Reach.J Reach.A⁻¹ = some S := by
    obtain ⟨S', hS'⟩ := Option.isSome_iff_exists.mp ((C02_finite_iff_independent Reach.hA).mpr Reach.J_ind)
    have := hR
    unfold calculateContactConstraint at this
    rw [hS'] at this
    simp only [gt_iff_lt] at this
    rw [if_pos (by norm_num)] at this
    split_ifs at this
    split at this
    · cases this
    · simp only [ContactResult.ret.injEq] at this
      rw [hS', this.2.1]
  obtain ⟨T, hT⟩ := Option.isSome_iff_exists.mp ((C06_finite_iff Reach.hA hS Reach.T).mpr (by
    rintro y ⟨F, hF⟩
    have := congrFun hF (Sum.inr 6)
    ext i
    simp [Reach.T, Reach.J, mulVec, dotProduct, Fin.sum_univ_succ] at this
    fin_cases i
    exact (Fin.sum_univ_one (fun i => y i)).symm.trans this.symm))
  have hT' : calculateJKT S Reach.A⁻¹ T.toTaskIn = some T := by
    have e : T.toTaskIn = Reach.T := by rw [((jkt_eq_some hS).mp hT).2]
    rw [e]; exact hT
  have hg : gravityTorque S Reach.A⁻¹ Reach.G = 0 := by
    rw [gravityTorque, Reach.G, mulVec_neg, mulVec_mulVec (Stand.F) S.Nc, cs_Nc_JT hS, zero_mulVec, neg_zero, mulVec_zero, mulVec_zero]
  have h0 : MovesNothing Reach.A Reach.J Reach.G 0 :=
    (movesNothing_iff Reach.hA (by norm_num) cod hS hR 0).mpr ⟨0, (mulVec_zero _).symm⟩
  have hsafe : SafeTorque Reach.A Reach.J Reach.G (Reach.robot S N).limit (Reach.robot S N).cs Stand.dof 0 := by
    constructor
    · intro L hL j
      obtain rfl := Option.some.inj hL
      norm_num
    · intro qdd F hM
      rw [(C01_contact_force_exact Reach.hA hS _ _).2.1 _ _ hM, ← (C01_contact_force_exact Reach.hA hS _ _).2.1 _ _ Reach.motion]
      exact Stand.hold
  have hsafe' : SafeTorque Reach.A Reach.J Reach.G (Reach.robot S N).limit (Reach.robot S N).cs Stand.dof
      ((Reach.robot S N).τg + 0) := by
    rw [show (Reach.robot S N).τg = 0 from hg, add_zero]; exact hsafe
  have hsafe'' : SafeTorque Reach.A Reach.J Reach.G (Reach.robot S N).limit (Reach.robot S N).cs Stand.dof
      ((Reach.robot S N).τg + taskTorque (Reach.robot S N).S [withCommand T 0] + 0) := by
    rw [taskTorque_one, mulVec_zero, mulVec_zero, add_zero]; exact hsafe'
  obtain ⟨τt, τc, h⟩ := C60_never_fails Reach.hA (R := Reach.robot S N) hS rfl Stand.six Stand.plane Stand.dof (by norm_num) cod hR
    Stand.solver_sound Stand.solver_complete h0 hsafe' (T :: lower)
  refine ⟨S, k, V2, N, T, τt, τc, hR, hT, h, ?_, fun qdd F hM => ?_⟩
  · exact C60_redistribution_after Reach.hA hS rfl Stand.six Stand.plane Stand.dof (by norm_num) Stand.solver_sound Stand.rsolver_exact
      Stand.rsolver_complete (List.cons_ne_nil _ _) h
  · exact C60_first_task_best (R := Reach.robot S N) Reach.hA hS Reach.J_base rfl rfl Stand.six Stand.plane Stand.dof (by norm_num)
      cod hR Stand.solver_exact hT' h hM h0 hsafe''

end Verif.Props
