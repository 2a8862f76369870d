import Verif.Model.TaskRecord
import Verif.Props.QPFail
import Verif.Props.Effort
import Verif.Props.ContinuityQP

/-!
# C92: what task control records with each task
-/

set_option linter.unusedSectionVars false

namespace Verif.Props
open Matrix Verif Verif.Spec Verif.Model

variable {n c : ℕ}

/-- The task with its command changed as recorded (and unchanged, if the record is for another number of rows). -/
noncomputable def followed (T : TaskReady (Fin n)) (r : TaskRecord n) : TaskReady (Fin n) :=
  if h : T.t = r.fqp.1 then withCommand T (T.f + r.fqp.2 ∘ Fin.cast h) else T

/-- The record says that the task was solved, and gives the torque for the command as it was changed. -/
def Solved (k : ℕ) (T : TaskReady (Fin n)) (r : TaskRecord n) : Prop :=
  r.err = 0 ∧ r.cqp.1 = k ∧ ∃ a, r.fqp = ⟨T.t, a⟩ ∧ r.torque = T.Jkt *ᵥ (T.Λ *ᵥ (T.f + a))

theorem followed_of {T : TaskReady (Fin n)} {r : TaskRecord n} {a : Fin T.t → ℝ} (h : r.fqp = ⟨T.t, a⟩) :
    followed T r = withCommand T (T.f + a) := by
  rcases r with ⟨⟨t, b⟩, q, e, τ⟩
  obtain ⟨rfl, h2⟩ := Sigma.mk.inj_iff.mp h
  obtain rfl := eq_of_heq h2
  exact dif_pos rfl

theorem loop_fst (R : QPRobot n c) (solve : Solver) (l : List (TaskReady (Fin n) × TaskRecord n)) (i : ℕ) (N : Matrix (Fin n) (Fin n) ℝ)
    (τt τc : Fin n → ℝ) : (qpLoopRec R solve i N τt τc l).1 = qpLoop R solve i N τt τc (l.map Prod.fst) := by
  induction l generalizing i N τt τc with
  | nil => rfl
  | cons p l ih =>
    obtain ⟨T, r⟩ := p
    simp only [qpLoopRec, List.map_cons, qpLoop]
    rcases R.C with _ | ⟨m, C⟩
    · rfl
    simp only
    rcases solve i T.t (c - 6) (taskQP R C T N (R.τg + τt)) with _ | x
    · rfl
    simp only
    split_ifs
    · rfl
    · exact ih _ _ _ _

theorem loop_length (R : QPRobot n c) (solve : Solver) (l : List (TaskReady (Fin n) × TaskRecord n)) (i : ℕ)
    (N : Matrix (Fin n) (Fin n) ℝ) (τt τc : Fin n → ℝ) : (qpLoopRec R solve i N τt τc l).2.length = l.length := by
  induction l generalizing i N τt τc with
  | nil => rfl
  | cons p l ih =>
    obtain ⟨T, r⟩ := p
    simp only [qpLoopRec]
    rcases R.C with _ | ⟨m, C⟩
    · simp
    simp only
    rcases solve i T.t (c - 6) (taskQP R C T N (R.τg + τt)) with _ | x
    · simp
    simp only
    split_ifs
    · simp
    · simp [ih]

theorem loop_success (R : QPRobot n c) (solve : Solver) (l : List (TaskReady (Fin n) × TaskRecord n)) (i : ℕ)
    (N : Matrix (Fin n) (Fin n) ℝ) (τ0 τ1 : Fin n → ℝ) {τt τc : Fin n → ℝ} {rs : List (TaskRecord n)}
    (h : qpLoopRec R solve i N τ0 τ1 l = (.ret 1 τt τc, rs)) :
    List.Forall₂ (fun p r => Solved (c - 6) p.1 r) l rs ∧ τt = taskTorqueFrom R.S N τ0 (List.zipWith followed (l.map Prod.fst) rs) ∧
      ∀ r ∈ rs.getLast?, ∃ z, r.cqp = ⟨c - 6, z⟩ ∧ τc = R.NwJw *ᵥ z := by
  induction l generalizing i N τ0 τ1 rs with
  | nil =>
    simp only [qpLoopRec, Prod.mk.injEq, CtrlResult.ret.injEq, true_and] at h
    obtain ⟨⟨rfl, rfl⟩, rfl⟩ := h
    exact ⟨.nil, rfl, by simp⟩
  | cons p l ih =>
    obtain ⟨T, r⟩ := p
    simp only [qpLoopRec] at h
    split at h
    · simp at h
    rename_i m C hC
    split at h
    · simp at h
    rename_i x hx
    split_ifs at h with h6
    · simp at h
    rw [Prod.mk.injEq] at h
    obtain ⟨h1, rfl⟩ := h
    obtain ⟨f, e, hl⟩ := ih _ _ _ _ (Prod.ext h1 rfl)
    refine ⟨.cons ⟨rfl, rfl, _, rfl, rfl⟩ f, ?_, ?_⟩
    · rw [List.map_cons, List.zipWith_cons_cons, followed_of (a := fun a => x (Sum.inl a)) rfl, taskTorqueFrom, e]
      rfl
    · intro r' hr
      rcases l with _ | ⟨p, l⟩
      · simp only [qpLoopRec, List.getLast?_singleton, Option.mem_def, Option.some.injEq] at hr h1
        subst hr
        rw [CtrlResult.ret.injEq] at h1
        exact ⟨_, rfl, h1.2.2.symm⟩
      · refine hl r' ?_
        have hne : (qpLoopRec R solve (i + 1) (taskNullSpace R.S T N) (τ0 + N *ᵥ (T.Jkt *ᵥ (T.Λ *ᵥ (T.f + fun a => x (Sum.inl a)))))
            (R.NwJw *ᵥ fun b => x (Sum.inr b)) (p :: l)).2 ≠ [] := by
          intro h0
          have := congrArg List.length h0
          rw [loop_length] at this
          simp at this
        rw [List.getLast?_cons, List.getLast?_eq_some_getLast hne] at hr
        rw [List.getLast?_eq_some_getLast hne]
        simpa using hr

theorem loop_failure (R : QPRobot n c) (solve : Solver) (l : List (TaskReady (Fin n) × TaskRecord n)) (i : ℕ)
    (N : Matrix (Fin n) (Fin n) ℝ) (τ0 τ1 : Fin n → ℝ) {τt τc : Fin n → ℝ} {rs : List (TaskRecord n)} {v : ℕ}
    (h : qpLoopRec R solve i N τ0 τ1 l = (.ret v τt τc, rs)) (hv : v ≠ 1) :
    v = 0 ∧ ∃ above T r below rs', l = above ++ (T, r) :: below ∧ rs = rs' ++ r.failed T.t (c - 6) :: below.map Prod.snd ∧
      List.Forall₂ (fun p r => Solved (c - 6) p.1 r) above rs' ∧
      τt = taskTorqueFrom R.S N τ0 (List.zipWith followed (above.map Prod.fst) rs') := by
  induction l generalizing i N τ0 τ1 rs with
  | nil =>
    simp only [qpLoopRec, Prod.mk.injEq, CtrlResult.ret.injEq] at h
    exact absurd h.1.1.symm hv
  | cons p l ih =>
    obtain ⟨T, r⟩ := p
    simp only [qpLoopRec] at h
    split at h
    · simp at h
    rename_i m C hC
    split at h
    · simp only [Prod.mk.injEq, CtrlResult.ret.injEq] at h
      obtain ⟨⟨rfl, rfl, rfl⟩, rfl⟩ := h
      exact ⟨rfl, [], T, r, l, [], rfl, rfl, .nil, rfl⟩
    rename_i x hx
    split_ifs at h with h6
    · simp at h
    rw [Prod.mk.injEq] at h
    obtain ⟨h1, rfl⟩ := h
    obtain ⟨h0, above, T', r', below, rs', e1, e2, f, e3⟩ := ih _ _ _ _ (Prod.ext h1 rfl)
    refine ⟨h0, (T, r) :: above, T', r', below,
      { r.solved T.t (c - 6) x with torque := T.Jkt *ᵥ (T.Λ *ᵥ (T.f + fun a => x (Sum.inl a))) } :: rs', ?_, ?_,
      .cons ⟨rfl, rfl, _, rfl, rfl⟩ f, ?_⟩
    · rw [e1]; rfl
    · rw [List.cons_append]
      exact congrArg _ e2
    · rw [List.map_cons, List.zipWith_cons_cons, followed_of (a := fun a => x (Sum.inl a)) rfl, taskTorqueFrom, e3]
      rfl

/-- C92.  The return value and the torques do not depend on what is recorded: they are those of the function without records. -/
theorem C92_result (R : QPRobot n c) (solve : Solver) (l : List (TaskReady (Fin n) × TaskRecord n)) :
    (taskControlQPRec R solve l).1 = calcTaskControlTorqueQP R solve (l.map Prod.fst) := loop_fst R solve l 0 1 0 0

/-- C92 (success).  Whatever was recorded before, after a successful call every task has error flag 0 and its torque is recorded for the
command changed as recorded; the task torque is that of the stack without QP with the commands changed as recorded, and the contact
torque belongs to the contact part recorded with the last task. -/
theorem C92_success (R : QPRobot n c) (solve : Solver) (l : List (TaskReady (Fin n) × TaskRecord n)) {τt τc : Fin n → ℝ}
    {rs : List (TaskRecord n)} (h : taskControlQPRec R solve l = (.ret 1 τt τc, rs)) :
    List.Forall₂ (fun p r => Solved (c - 6) p.1 r) l rs ∧ τt = taskTorque R.S (List.zipWith followed (l.map Prod.fst) rs) ∧
      ∀ r ∈ rs.getLast?, ∃ z, r.cqp = ⟨c - 6, z⟩ ∧ τc = R.NwJw *ᵥ z := loop_success R solve l 0 1 0 0 h

/-- C92 (failure).  After a call that fails, the tasks above the failing one are recorded as solved, the failing one with error flag 1, no
change of its command and no contact part (but with the torque of an earlier call), and the tasks below keep their records of earlier
calls. -/
theorem C92_failure_partial (R : QPRobot n c) (solve : Solver) (l : List (TaskReady (Fin n) × TaskRecord n)) {τt τc : Fin n → ℝ}
    {rs : List (TaskRecord n)} (h : taskControlQPRec R solve l = (.ret 0 τt τc, rs)) :
    ∃ above T r below rs', l = above ++ (T, r) :: below ∧
      rs = rs' ++ ⟨⟨T.t, 0⟩, ⟨c - 6, 0⟩, 1, r.torque⟩ :: below.map Prod.snd ∧
      List.Forall₂ (fun p r => Solved (c - 6) p.1 r) above rs' ∧
      τt = taskTorque R.S (List.zipWith followed (above.map Prod.fst) rs') :=
  (loop_failure R solve l 0 1 0 0 h (by norm_num)).2

theorem solved_flag {l : List (TaskReady (Fin n) × TaskRecord n)} {rs : List (TaskRecord n)} {k : ℕ}
    (h : List.Forall₂ (fun p r => Solved k p.1 r) l rs) : ∀ r ∈ rs, r.err = 0 := by
  induction h with
  | nil => simp
  | cons h _ ih =>
    intro r hr
    rcases List.mem_cons.mp hr with rfl | hr
    · exact h.1
    · exact ih r hr

/-- C92 (error flags).  The call returns 1 exactly when no task has its error flag set; otherwise the first task with the flag set is the
one that failed: the call with the tasks above it succeeds with the same torques. -/
theorem C92_flags (R : QPRobot n c) (solve : Solver) (l : List (TaskReady (Fin n) × TaskRecord n)) {v : ℕ} {τt τc : Fin n → ℝ}
    {rs : List (TaskRecord n)} (h : taskControlQPRec R solve l = (.ret v τt τc, rs)) :
    (v = 1 ↔ ∀ r ∈ rs, r.err = 0) ∧
      ∀ i, rs.findIdx? (fun r => r.err ≠ 0) = some i →
        calcTaskControlTorqueQP R solve ((l.take i).map Prod.fst) = .ret 1 τt τc ∧
        ∀ j ≤ l.length, i < j → calcTaskControlTorqueQP R solve ((l.take j).map Prod.fst) = .ret 0 τt τc := by
  by_cases hv : v = 1
  · subst hv
    have h0 := solved_flag (C92_success R solve l h).1
    refine ⟨⟨fun _ => h0, fun _ => rfl⟩, fun i hi => ?_⟩
    exfalso
    obtain ⟨hlt, hp, -⟩ := List.findIdx?_eq_some_iff_getElem.mp hi
    have := h0 _ (List.getElem_mem hlt)
    simp [this] at hp
  · obtain ⟨h0, above, T, r, below, rs', e1, e2, f, -⟩ := loop_failure R solve l 0 1 0 0 h hv
    subst h0
    have hfl := solved_flag f
    have hlen := f.length_eq
    refine ⟨⟨fun h => absurd h hv, fun hall => ?_⟩, fun i hi => ?_⟩
    · have := hall (r.failed T.t (c - 6)) (by rw [e2]; simp)
      simp [TaskRecord.failed] at this
    · have hi' : i = above.length := by
        rw [e2, List.findIdx?_append, List.findIdx?_eq_none_iff.mpr (by simpa using hfl)] at hi
        simp [TaskRecord.failed, List.findIdx?_cons] at hi
        omega
      subst hi'
      have key : ∀ (l above : List (TaskReady (Fin n) × TaskRecord n)) (i : ℕ) (N : Matrix (Fin n) (Fin n) ℝ) (τ0 τ1 : Fin n → ℝ)
          (below : List (TaskReady (Fin n) × TaskRecord n)) (T : TaskReady (Fin n)) (r : TaskRecord n) (rs rs' : List (TaskRecord n)),
          l = above ++ (T, r) :: below → qpLoopRec R solve i N τ0 τ1 l = (.ret 0 τt τc, rs) →
          rs = rs' ++ r.failed T.t (c - 6) :: below.map Prod.snd → rs'.length = above.length → (∀ r ∈ rs', r.err = 0) →
          qpLoop R solve i N τ0 τ1 (above.map Prod.fst) = .ret 1 τt τc ∧
          ∀ j ≤ l.length, above.length < j → qpLoop R solve i N τ0 τ1 ((l.take j).map Prod.fst) = .ret 0 τt τc := by
        intro l
        induction l with
        | nil => intro above i N τ0 τ1 below T r rs rs' e; simp at e
        | cons p l ih =>
          intro above i N τ0 τ1 below T r rs rs' e hq hrs hl h0
          obtain ⟨T1, r1⟩ := p
          simp only [qpLoopRec] at hq
          split at hq
          · simp at hq
          rename_i m C hC
          split at hq
          · rename_i hx
            simp only [Prod.mk.injEq, CtrlResult.ret.injEq, true_and] at hq
            obtain ⟨⟨rfl, rfl⟩, rfl⟩ := hq
            rcases above with _ | ⟨q, above⟩
            · refine ⟨rfl, fun j _ hj => ?_⟩
              obtain ⟨j, rfl⟩ : ∃ j', j = j' + 1 := ⟨j - 1, by simp at hj; omega⟩
              simp only [List.take_succ_cons, List.map_cons, qpLoop]
              rw [hC]
              simp only [hx]
            · rcases rs' with _ | ⟨r', rs'⟩
              · simp at hl
              · have := h0 r' (by simp)
                rw [List.cons_append, List.cons.injEq] at hrs
                rw [← hrs.1] at this
                simp [TaskRecord.failed] at this
          rename_i x hx
          split_ifs at hq with h6
          · simp at hq
          rw [Prod.mk.injEq] at hq
          obtain ⟨h1, rfl⟩ := hq
          rcases above with _ | ⟨q, above⟩
          · rcases rs' with _ | ⟨r', rs'⟩
            · rw [List.nil_append, List.cons.injEq] at hrs
              have := congrArg TaskRecord.err hrs.1
              simp [TaskRecord.failed, TaskRecord.solved] at this
            · simp at hl
          · rcases rs' with _ | ⟨r', rs'⟩
            · simp at hl
            rw [List.cons_append, List.cons.injEq] at e hrs
            obtain ⟨rfl, e⟩ := e
            obtain ⟨k1, k2⟩ := ih above _ _ _ _ below T r _ rs' e (Prod.ext h1 rfl) hrs.2 (by simpa using hl)
              fun r hr => h0 r (by simp [hr])
            constructor
            · simp only [List.map_cons, qpLoop]
              rw [hC]
              simp only [hx]
              rw [if_neg h6]
              exact k1
            · intro j hj hj'
              obtain ⟨j, rfl⟩ : ∃ j', j = j' + 1 := ⟨j - 1, by simp at hj'; omega⟩
              simp only [List.take_succ_cons, List.map_cons, qpLoop]
              rw [hC]
              simp only [hx]
              rw [if_neg h6]
              exact k2 j (by simpa using hj) (by simpa using hj')
      obtain ⟨k1, k2⟩ := key l above 0 1 0 0 below T r rs rs' e1 h e2 hlen.symm hfl
      refine ⟨?_, fun j hj hij => k2 j hj hij⟩
      rw [e1, List.take_left]
      exact k1

/-- C92 (no QP).  Task control without QP records the torque of each level and leaves error flags, changes of commands and contact parts
as they are. -/
theorem C92_plain_partial (S : ContactSpace c (Fin n)) (l : List (TaskReady (Fin n) × TaskRecord n)) :
    (taskControlRec S l).1 = taskTorque S (l.map Prod.fst) ∧
    List.Forall₂ (fun p r => r.torque = p.1.Jkt *ᵥ (p.1.Λ *ᵥ p.1.f) ∧ r.err = p.2.err ∧ r.fqp = p.2.fqp ∧ r.cqp = p.2.cqp) l
      (taskControlRec S l).2 := by
  refine ⟨rfl, ?_⟩
  simp only [taskControlRec, List.forall₂_map_right_iff]
  exact List.forall₂_same.mpr fun p _ => ⟨rfl, rfl, rfl, rfl⟩

/-- A limit that no torque respects. -/
theorem no_answer (R : QPRobot n c) {solve : Solver} (hs : solve.Sound) {L : Fin n → ℝ} (hL : R.limit = some L) {j : Fin n} (hj : L j < 0)
    {m : ℕ} (C : Matrix (Fin m) (Fin c) ℝ) (i : ℕ) (T : TaskReady (Fin n)) (N : Matrix (Fin n) (Fin n) ℝ) (τ : Fin n → ℝ) :
    solve i T.t (c - 6) (taskQP R C T N τ) = none := by
  rcases hx : solve i T.t (c - 6) (taskQP R C T N τ) with _ | x
  · rfl
  have := ((taskQP_feasible R C T N τ x).mp (hs _ _ _ _ _ hx)).1 L hL j
  have := abs_nonneg ((τ + N *ᵥ (T.Jkt *ᵥ (T.Λ *ᵥ (T.f + fun a => x (Sum.inl a)))) + R.NwJw *ᵥ fun b => x (Sum.inr b)) j)
  linarith

/-- C92, disagreement.  For every sound solver, robot and task: a call with QP that fails, then one without QP that succeeds.  The error
flag of the task is still set. -/
theorem C92_flag_stale (R : QPRobot n c) {m : ℕ} {C : Matrix (Fin m) (Fin c) ℝ} (hC : R.C = some ⟨m, C⟩) {solve : Solver}
    (hs : solve.Sound) {L : Fin n → ℝ} (hL : R.limit = some L) {j : Fin n} (hj : L j < 0) (T : TaskReady (Fin n)) :
    ∃ r r', taskControlQPRec R solve [(T, TaskRecord.fresh n)] = (.ret 0 0 0, [r]) ∧
      taskControlRec R.S [(T, r)] = (taskTorque R.S [T], [r']) ∧ r'.err = 1 := by
  refine ⟨(TaskRecord.fresh n).failed T.t (c - 6), _, ?_, rfl, rfl⟩
  simp only [taskControlQPRec, qpLoopRec]
  rw [hC]
  simp only [no_answer R hs hL hj, List.map_nil]

/-- C92 (one task).  What `CalcSingleTaskTorqueWithQP` returns and records does not depend on what was recorded before, except for the
torque, which it leaves alone.  With success the torque for the changed command and the contact part keeps to the torque limits and the
contact conditions. -/
theorem C92_single {A : Matrix (Fin 6 ⊕ Fin n) (Fin 6 ⊕ Fin n) ℝ} {J : Matrix (Fin c) (Fin 6 ⊕ Fin n) ℝ} {G : Fin 6 ⊕ Fin n → ℝ}
    (hA : IsSPD A) (R : QPRobot n c) (hS : contactSpace J A⁻¹ = some R.S) (hP : R.P = gravityForce R.S G)
    (h6 : ∀ l ∈ R.cs, l.type = .c6d) (hp : ∀ l ∈ R.cs, 0 < l.planeX ∧ 0 < l.planeY) (hc : c = 6 * (active R.cs).length)
    {solve : Solver} (hs : solve.Sound) (i : ℕ) (T : TaskReady (Fin n)) (N : Matrix (Fin n) (Fin n) ℝ) (τprev : Fin n → ℝ)
    (r : TaskRecord n) :
    ∃ v r', singleTask R solve i T N τprev r = some (v, r') ∧ r'.torque = r.torque ∧
      (∀ r1, singleTask R solve i T N τprev r1 = some (v, { r' with torque := r1.torque })) ∧
      ((v = 1 ∧ r'.err = 0 ∧ ∃ a z, r'.fqp = ⟨T.t, a⟩ ∧ r'.cqp = ⟨c - 6, z⟩ ∧
          SafeTorque A J G R.limit R.cs hc (τprev + N *ᵥ (T.Jkt *ᵥ (T.Λ *ᵥ (T.f + a))) + R.NwJw *ᵥ z)) ∨
        (v = 0 ∧ r'.err = 1 ∧ r'.fqp = ⟨T.t, 0⟩ ∧ r'.cqp = ⟨c - 6, 0⟩)) := by
  obtain ⟨C, e, h'⟩ := stackC_holds h6 hp hc
  have hC : R.C = some ⟨_, C⟩ := e
  rcases hx : solve i T.t (c - 6) (taskQP R C T N τprev) with _ | x
  · have key : ∀ r, singleTask R solve i T N τprev r = some (0, r.failed T.t (c - 6)) := by
      intro r
      unfold singleTask
      rw [hC]
      simp only [hx]
    exact ⟨0, _, key r, rfl, fun r1 => key r1, Or.inr ⟨rfl, rfl, rfl, rfl⟩⟩
  · have key : ∀ r, singleTask R solve i T N τprev r = some (1, r.solved T.t (c - 6) x) := by
      intro r
      unfold singleTask
      rw [hC]
      simp only [hx]
    refine ⟨1, _, key r, rfl, fun r1 => key r1, Or.inl ⟨rfl, rfl, _, _, rfl, rfl, ?_⟩⟩
    rw [safe_iff hA hS hP hc h']
    exact (taskQP_feasible R C T N τprev x).mp (hs _ _ _ _ _ hx)

/-- C92 (one task, least change).  With an exact solver the recorded change of the command is the least among all changes that, with some
contact part, keep to the limits and the contact conditions. -/
theorem C92_single_least {A : Matrix (Fin 6 ⊕ Fin n) (Fin 6 ⊕ Fin n) ℝ} {J : Matrix (Fin c) (Fin 6 ⊕ Fin n) ℝ} {G : Fin 6 ⊕ Fin n → ℝ}
    (hA : IsSPD A) (R : QPRobot n c) (hS : contactSpace J A⁻¹ = some R.S) (hP : R.P = gravityForce R.S G)
    (h6 : ∀ l ∈ R.cs, l.type = .c6d) (hp : ∀ l ∈ R.cs, 0 < l.planeX ∧ 0 < l.planeY) (hc : c = 6 * (active R.cs).length)
    {solve : Solver} (hs : solve.Exact) {i : ℕ} {T : TaskReady (Fin n)} {N : Matrix (Fin n) (Fin n) ℝ} {τprev : Fin n → ℝ}
    {r r' : TaskRecord n} (h : singleTask R solve i T N τprev r = some (1, r')) :
    ∃ a, r'.fqp = ⟨T.t, a⟩ ∧ ∀ b z, SafeTorque A J G R.limit R.cs hc (τprev + N *ᵥ (T.Jkt *ᵥ (T.Λ *ᵥ (T.f + b))) + R.NwJw *ᵥ z) →
      a ⬝ᵥ a ≤ b ⬝ᵥ b := by
  obtain ⟨C, e, h'⟩ := stackC_holds h6 hp hc
  have hC : R.C = some ⟨_, C⟩ := e
  unfold singleTask at h
  rw [hC] at h
  simp only at h
  rcases hx : solve i T.t (c - 6) (taskQP R C T N τprev) with _ | x
  · rw [hx] at h
    simp at h
  rw [hx] at h
  simp only [Option.some.injEq, Prod.mk.injEq, true_and] at h
  subst h
  refine ⟨_, rfl, fun b z hb => ?_⟩
  rw [safe_iff hA hS hP hc h'] at hb
  have := (hs _ _ _ _ _ hx).2 (Sum.elim b z) ((taskQP_feasible R C T N τprev _).mpr hb)
  rw [taskQP_cost, taskQP_cost] at this
  simp only [Sum.elim_inl] at this
  simp only [dotProduct]
  linarith

/-- C92 (the second function for one task).  It returns the same and records the same with success; after a failure it leaves the
contact part of an earlier call in the record. -/
theorem C92_single2 (R : QPRobot n c) (solve : Solver) (i : ℕ) (T : TaskReady (Fin n)) (N : Matrix (Fin n) (Fin n) ℝ) (τprev : Fin n → ℝ)
    (r : TaskRecord n) :
    singleTask2 R solve i T N τprev r =
      (singleTask R solve i T N τprev r).map fun q => if q.1 = 1 then q else (q.1, { q.2 with cqp := r.cqp }) := by
  unfold singleTask singleTask2
  rcases R.C with _ | ⟨m, C⟩
  · rfl
  simp only
  rcases solve i T.t (c - 6) (taskQP R C T N τprev) with _ | x <;> rfl

/-- C92, disagreement.  With more than six contact rows, a failure of the second function on a new task leaves a contact part without
entries, where `NwJw` expects `c - 6` of them; after two feet and a failure on one foot it leaves six entries where there are none. -/
theorem C92_single2_size (R : QPRobot n c) {m : ℕ} {C : Matrix (Fin m) (Fin c) ℝ} (hC : R.C = some ⟨m, C⟩) {solve : Solver}
    (hs : solve.Sound) {L : Fin n → ℝ} (hL : R.limit = some L) {j : Fin n} (hj : L j < 0) (i : ℕ) (T : TaskReady (Fin n))
    (N : Matrix (Fin n) (Fin n) ℝ) (τprev : Fin n → ℝ) (r : TaskRecord n) :
    ∃ r', singleTask2 R solve i T N τprev r = some (0, r') ∧ r'.cqp = r.cqp ∧
      (6 < c → r = TaskRecord.fresh n → r'.cqp.1 ≠ c - 6) ∧ (c = 6 → r.cqp.1 = 6 → r'.cqp.1 ≠ c - 6) := by
  refine ⟨r.failed2 T.t, ?_, rfl, ?_, ?_⟩
  · unfold singleTask2
    rw [hC]
    simp only [no_answer R hs hL hj]
  · rintro h rfl
    simp only [TaskRecord.failed2, TaskRecord.fresh]
    omega
  · rintro rfl h
    simp only [TaskRecord.failed2, h]
    norm_num

/-- C92 (what the first task attains).  After a successful call with more than six contact rows the first task accelerates, in every
motion under the torque, as commanded with the recorded change. -/
theorem C92_attained {A : Matrix (Fin 6 ⊕ Fin n) (Fin 6 ⊕ Fin n) ℝ} {J : Matrix (Fin c) (Fin 6 ⊕ Fin n) ℝ} {G : Fin 6 ⊕ Fin n → ℝ}
    (hA : IsSPD A) (R : QPRobot n c) (hS : contactSpace J A⁻¹ = some R.S) (hB : BaseDetermined J) (hg : R.τg = gravityTorque R.S A⁻¹ G)
    (hc6 : 6 < c) (cod : (W : Matrix (Fin n) (Fin n) ℝ) → CodNull W) {v k : ℕ} {V2 : Matrix (Fin k) (Fin n) ℝ}
    (hR : calculateContactConstraint J A⁻¹ cod = .ret v R.S (some ⟨k, V2, R.NwJw⟩)) (solve : Solver) {T : TaskReady (Fin n)}
    (hT : calculateJKT R.S A⁻¹ T.toTaskIn = some T) {r : TaskRecord n} {l : List (TaskReady (Fin n) × TaskRecord n)}
    {τt τc : Fin n → ℝ} {rs : List (TaskRecord n)} (h : taskControlQPRec R solve ((T, r) :: l) = (.ret 1 τt τc, rs)) :
    ∃ r' rest a, rs = r' :: rest ∧ r'.fqp = ⟨T.t, a⟩ ∧
      ∀ qdd F, Motion A J G (R.τg + τt + τc) qdd F → T.J *ᵥ qdd = T.f + a := by
  obtain ⟨f, e, hl⟩ := C92_success R solve _ h
  rcases f with _ | ⟨⟨-, -, a, ha, -⟩, f⟩
  rename_i r' rest
  refine ⟨r', rest, a, rfl, ha, fun qdd F hM => ?_⟩
  obtain ⟨z, -, rfl⟩ := hl _ (List.getLast?_eq_some_getLast (by simp))
  obtain ⟨qdd', hM'⟩ := (C01_contact_force_exact hA hS G (R.τg + τt)).1
  obtain rfl := (C04_internal_force hA hc6 cod hR G (R.τg + τt) z hM' hM).1
  have hT' := jkt_withCommand hT (T.f + a)
  rw [List.map_cons, List.zipWith_cons_cons, followed_of ha] at e
  rw [hg, e] at hM'
  exact C07_top_priority_partial hA hS hB hT' _ hM'

/-- C92, disagreement, and the hypotheses above met.  A biped with an arm of limited torque: with QP the call succeeds and the recorded
change of the command is not zero, and the arm accelerates as recorded.  The next call, without QP, drives the arm as commanded, while
the record still says that the command was changed. -/
theorem C92_change_stale (cod : (W : Matrix (Fin 7) (Fin 7) ℝ) → CodNull W) :
    ∃ S k V2 N T τt τc r r' a, calculateContactConstraint Reach.J Reach.A⁻¹ cod = .ret 1 S (some ⟨k, V2, N⟩) ∧
      calculateJKT S Reach.A⁻¹ Reach.T = some T ∧
      taskControlQPRec (Reach.robot S N) Stand.solver [(T, TaskRecord.fresh 7)] = (.ret 1 τt τc, [r]) ∧
      r.fqp = ⟨T.t, a⟩ ∧ a ≠ 0 ∧
      (∀ qdd F, Motion Reach.A Reach.J Reach.G ((Reach.robot S N).τg + τt + τc) qdd F → T.J *ᵥ qdd = T.f + a) ∧
      taskControlRec S [(T, r)] = (taskTorque S [T], [r']) ∧ r'.fqp = ⟨T.t, a⟩ ∧
      ∀ qdd F, Motion Reach.A Reach.J Reach.G ((Reach.robot S N).τg + taskTorque S [T]) qdd F → T.J *ᵥ qdd = T.f := by
  obtain ⟨S, k, V2, N, T, τt, τc, hR, hT, h, -⟩ := C60_hypotheses_met cod []
  have hS : contactSpace Reach.J Reach.A⁻¹ = some S := ccc_space hR
  have hT' : calculateJKT S Reach.A⁻¹ T.toTaskIn = some T := (ready_rows hT) ▸ hT
  rcases hq : taskControlQPRec (Reach.robot S N) Stand.solver [(T, TaskRecord.fresh 7)] with ⟨res, rs⟩
  have hres : res = .ret 1 τt τc := by
    have := C92_result (Reach.robot S N) Stand.solver [(T, TaskRecord.fresh 7)]
    rw [hq] at this
    exact this.trans h
  subst hres
  obtain ⟨r, rest, a, rfl, ha, hacc⟩ := C92_attained Reach.hA (Reach.robot S N) hS Reach.J_base rfl (by norm_num) cod hR Stand.solver hT' hq
  obtain rfl : rest = [] := by
    have := (C92_success _ _ _ hq).1.length_eq
    simpa using this.symm
  refine ⟨S, k, V2, N, T, τt, τc, r, _, a, hR, hT, hq, ha, ?_, hacc, rfl, ha, ?_⟩
  · rintro rfl
    obtain ⟨qdd, hM⟩ := (C01_contact_force_exact Reach.hA hS Reach.G ((Reach.robot S N).τg + τt + τc)).1
    have h1 := hacc _ _ hM
    have hlim := C08_torque_limit (Reach.robot S N) Stand.solver_sound (by simp) rfl h 6
    have hd := congrFun hM.1 (Sum.inr 6)
    have hrow : ∀ x, T.toTaskIn = x → x.J *ᵥ qdd = x.f + 0 := by rintro _ rfl; exact h1
    have h2 := hrow _ (ready_rows hT)
    have h3 := congrFun h2 (0 : Fin 1)
    have h4 : (Reach.T.J *ᵥ qdd) (0 : Fin 1) = qdd (Sum.inr 6) := by
      simp [Reach.T, mulVec, dotProduct, Fintype.sum_sum_type, Pi.single_apply]
    rw [h4] at h3
    have hz : ∀ F : Fin 12 → ℝ, (Reach.Jᵀ *ᵥ F) (Sum.inr 6) = 0 := by
      intro F
      simp only [mulVec, dotProduct, transpose_apply, Reach.J, of_apply]
      refine Finset.sum_eq_zero fun i _ => ?_
      rw [if_neg (by have := i.isLt; simp; omega), zero_mul]
    rw [Pi.add_apply, Pi.add_apply, hz, Reach.A, one_mulVec, h3, Reach.G, Pi.neg_apply, hz] at hd
    simp only [actuate, Sum.elim_inr] at hd
    rw [← hd] at hlim
    have e0 : ((fun _ : Fin 1 => (1 : ℝ)) + 0) 0 = 1 := by simp
    rw [show ((Reach.T.f + 0) (0 : Fin 1) : ℝ) = 1 from e0] at hlim
    norm_num at hlim
  · intro qdd F hM
    exact C07_top_priority_partial Reach.hA hS Reach.J_base hT' [] hM

/-- The hypotheses of `C92_flag_stale` and `C92_single2_size` are met by the biped with an arm and a negative torque limit. -/
example (S : ContactSpace 12 (Fin 7)) (N : Matrix (Fin 7) (Fin 6) ℝ) :
    ∃ (R : QPRobot 7 12) (m : ℕ) (C : Matrix (Fin m) (Fin 12) ℝ) (L : Fin 7 → ℝ), R.S = S ∧ R.C = some ⟨m, C⟩ ∧ R.limit = some L ∧
      L 0 < 0 := by
  obtain ⟨C, e, -⟩ := stackC_holds (c := 12) (cs := Stand.cs) Stand.six Stand.plane Stand.dof
  exact ⟨{ Reach.robot S N with limit := some fun _ => -1 }, _, C, fun _ => -1, rfl, e, rfl, by norm_num⟩

end Verif.Props
