import Verif.Props.Moderate
import Verif.Props.Tolerance
import Verif.Props.ToleranceReduced
import Verif.Props.ReducedRecord

/-!
# C92, C88: every level of QP task control changes its command as little as it can
-/

set_option linter.unusedSectionVars false

namespace Verif.Props
open Matrix Verif Verif.Spec Verif.Model

variable {n c : ℕ}

theorem loop_best (R : QPRobot n c) {m : ℕ} {C : Matrix (Fin m) (Fin c) ℝ} (hC : R.C = some ⟨m, C⟩) {δ : ℝ} {solve : Solver}
    (hs : ∀ i t k d x, solve i t k d = some x → ∀ y, d.Feasible y → d.cost x ≤ d.cost y + δ) (T : TaskReady (Fin n)) (q : TaskRecord n)
    (above below : List (TaskReady (Fin n) × TaskRecord n)) (i : ℕ) (N : Matrix (Fin n) (Fin n) ℝ) (τ0 τ1 : Fin n → ℝ)
    {τt τc : Fin n → ℝ} {rs : List (TaskRecord n)}
    (h : qpLoopRec R solve i N τ0 τ1 (above ++ (T, q) :: below) = (.ret 1 τt τc, rs)) :
    ∃ r a, rs[above.length]? = some r ∧ r.fqp = ⟨T.t, a⟩ ∧ ∀ g z,
      OkT R C (R.τg + taskTorqueFrom R.S N τ0 (List.zipWith followed (above.map Prod.fst) rs ++ [withCommand T g]) + R.NwJw *ᵥ z) →
        a ⬝ᵥ a ≤ (g - T.f) ⬝ᵥ (g - T.f) + 2 * δ := by
  induction above generalizing i N τ0 τ1 rs with
  | nil =>
    simp only [List.nil_append, qpLoopRec, hC] at h
    split at h
    · simp at h
    rename_i x hx
    split_ifs at h with h6
    · simp at h
    rw [Prod.mk.injEq] at h
    obtain ⟨-, rfl⟩ := h
    refine ⟨_, fun j => x (Sum.inl j), rfl, rfl, fun g z hok => ?_⟩
    have e : T.f + (fun b => Sum.elim (g - T.f) z (Sum.inl b)) = g := by ext b; simp
    have hle := hs _ _ _ _ _ hx (Sum.elim (g - T.f) z) (by
      rw [taskQP_feasible, e]
      simpa [OkT, taskTorqueFrom, withCommand, add_assoc] using hok)
    rw [taskQP_cost, taskQP_cost] at hle
    simp only [Sum.elim_inl] at hle
    simp only [dotProduct]
    linarith
  | cons p above ih =>
    obtain ⟨U, u⟩ := p
    simp only [List.cons_append, qpLoopRec, hC] at h
    split at h
    · simp at h
    rename_i x hx
    split_ifs at h with h6
    · simp at h
    rw [Prod.mk.injEq] at h
    obtain ⟨h1, rfl⟩ := h
    obtain ⟨r, a, e1, e2, e⟩ := ih _ _ _ _ (Prod.ext h1 rfl)
    refine ⟨r, a, e1, e2, fun g z hok => e g z ?_⟩
    rw [List.map_cons, List.zipWith_cons_cons, followed_of (a := fun a => x (Sum.inl a)) rfl, List.cons_append, taskTorqueFrom] at hok
    exact hok

section
variable {A : Matrix (Fin 6 ⊕ Fin n) (Fin 6 ⊕ Fin n) ℝ} {J : Matrix (Fin c) (Fin 6 ⊕ Fin n) ℝ} {G : Fin 6 ⊕ Fin n → ℝ} {R : QPRobot n c}

/-- **C88 (every level).**  If the solver's answers cost at most `δ` too much, every task of a successful call is changed by hardly more than it
has to be: with the tasks above it commanded as they were, the square of the change is at most `2δ` above that of any other command for
which the robot would be safe. -/
theorem C88_levels {ε δ : ℝ} (hA : IsSPD A) (hS : contactSpace J A⁻¹ = some R.S) (hP : R.P = Model.gravityForce R.S G)
    (h6 : ∀ l ∈ R.cs, l.type = .c6d) (hp : ∀ l ∈ R.cs, 0 < l.planeX ∧ 0 < l.planeY) (hc : c = 6 * (active R.cs).length)
    (hc6 : 6 < c) (cod : (W : Matrix (Fin n) (Fin n) ℝ) → CodNull W) {v k : ℕ} {V2 : Matrix (Fin k) (Fin n) ℝ}
    (hR : calculateContactConstraint J A⁻¹ cod = .ret v R.S (some ⟨k, V2, R.NwJw⟩))
    {solve : Solver} (hs : SolverWithin ε δ solve) (T : TaskReady (Fin n)) (q : TaskRecord n)
    (above below : List (TaskReady (Fin n) × TaskRecord n)) {τt τc : Fin n → ℝ} {rs : List (TaskRecord n)}
    (h : taskControlQPRec R solve (above ++ (T, q) :: below) = (.ret 1 τt τc, rs)) :
    ∃ r a, rs[above.length]? = some r ∧ r.fqp = ⟨T.t, a⟩ ∧ ∀ g ν, MovesNothing A J G ν →
      SafeTorque A J G R.limit R.cs hc
        (R.τg + taskTorque R.S (List.zipWith followed (above.map Prod.fst) rs ++ [withCommand T g]) + ν) →
        a ⬝ᵥ a ≤ (g - T.f) ⬝ᵥ (g - T.f) + 2 * δ := by
  obtain ⟨C, e, h'⟩ := stackC_holds h6 hp hc
  obtain ⟨r, a, e1, e2, hb⟩ := loop_best R (show R.C = some ⟨_, C⟩ from e) (fun i t k d x hx => (hs i t k d x hx).2) T q above below 0 1 0 0 h
  refine ⟨r, a, e1, e2, fun g ν hν hsafe => ?_⟩
  obtain ⟨z, rfl⟩ := (movesNothing_iff hA hc6 cod hS hR ν).mp hν
  exact hb g z ((safe_iff hA hS hP hc h' _).mp hsafe)

/-- **C92 (every level, least change).**  With an exact solver the change recorded with every task of a successful call is the least: with the
tasks above it commanded as recorded, no other command for which the robot would be safe is nearer to the task's own. -/
theorem C92_levels_least (hA : IsSPD A) (hS : contactSpace J A⁻¹ = some R.S) (hP : R.P = Model.gravityForce R.S G)
    (h6 : ∀ l ∈ R.cs, l.type = .c6d) (hp : ∀ l ∈ R.cs, 0 < l.planeX ∧ 0 < l.planeY) (hc : c = 6 * (active R.cs).length)
    (hc6 : 6 < c) (cod : (W : Matrix (Fin n) (Fin n) ℝ) → CodNull W) {v k : ℕ} {V2 : Matrix (Fin k) (Fin n) ℝ}
    (hR : calculateContactConstraint J A⁻¹ cod = .ret v R.S (some ⟨k, V2, R.NwJw⟩))
    {solve : Solver} (hs : solve.Exact) (T : TaskReady (Fin n)) (q : TaskRecord n)
    (above below : List (TaskReady (Fin n) × TaskRecord n)) {τt τc : Fin n → ℝ} {rs : List (TaskRecord n)}
    (h : taskControlQPRec R solve (above ++ (T, q) :: below) = (.ret 1 τt τc, rs)) :
    ∃ r a, rs[above.length]? = some r ∧ r.fqp = ⟨T.t, a⟩ ∧ ∀ g ν, MovesNothing A J G ν →
      SafeTorque A J G R.limit R.cs hc
        (R.τg + taskTorque R.S (List.zipWith followed (above.map Prod.fst) rs ++ [withCommand T g]) + ν) →
        a ⬝ᵥ a ≤ (g - T.f) ⬝ᵥ (g - T.f) := by
  obtain ⟨C, e, h'⟩ := stackC_holds h6 hp hc
  obtain ⟨r, a, e1, e2, hb⟩ := loop_best R (show R.C = some ⟨_, C⟩ from e) (δ := 0)
    (fun i t k d x hx y hy => by rw [add_zero]; exact (hs i t k d x hx).2 y hy) T q above below 0 1 0 0 h
  refine ⟨r, a, e1, e2, fun g ν hν hsafe => ?_⟩
  obtain ⟨z, rfl⟩ := (movesNothing_iff hA hc6 cod hS hR ν).mp hν
  have := hb g z ((safe_iff hA hS hP hc h' _).mp hsafe)
  rwa [mul_zero, add_zero] at this

/-- C93 (tolerance).  If the robot could stand still and the solver's answers cost at most `δ` too much, the first task's commanded acceleration
differs from the command by at most the command itself, up to the tolerance: `‖a‖² ≤ ‖f‖² + 2δ`. -/
theorem C93_within {ε δ : ℝ} (hA : IsSPD A) (hS : contactSpace J A⁻¹ = some R.S) (hP : R.P = Model.gravityForce R.S G)
    (h6 : ∀ l ∈ R.cs, l.type = .c6d) (hp : ∀ l ∈ R.cs, 0 < l.planeX ∧ 0 < l.planeY) (hc : c = 6 * (active R.cs).length)
    (hc6 : 6 < c) (cod : (W : Matrix (Fin n) (Fin n) ℝ) → CodNull W) {v k : ℕ} {V2 : Matrix (Fin k) (Fin n) ℝ}
    (hR : calculateContactConstraint J A⁻¹ cod = .ret v R.S (some ⟨k, V2, R.NwJw⟩))
    {solve : Solver} (hs : SolverWithin ε δ solve) {ν : Fin n → ℝ} (hν : MovesNothing A J G ν)
    (hstand : SafeTorque A J G R.limit R.cs hc (R.τg + ν)) (T : TaskReady (Fin n)) (q : TaskRecord n)
    (below : List (TaskReady (Fin n) × TaskRecord n)) {τt τc : Fin n → ℝ} {rs : List (TaskRecord n)}
    (h : taskControlQPRec R solve ((T, q) :: below) = (.ret 1 τt τc, rs)) :
    ∃ r a, rs[0]? = some r ∧ r.fqp = ⟨T.t, a⟩ ∧ a ⬝ᵥ a ≤ T.f ⬝ᵥ T.f + 2 * δ := by
  obtain ⟨r, a, e1, e2, hb⟩ := C88_levels hA hS hP h6 hp hc hc6 cod hR hs T q [] below h
  refine ⟨r, a, e1, e2, ?_⟩
  have := hb 0 ν hν (by simpa [taskTorque, taskTorqueFrom, withCommand] using hstand)
  simpa using this

end

/-- The hypotheses of `C92_levels_least`, `C88_levels` and `C93_within` are met by the biped with an arm whose motor is too weak for the
command, with the task on two levels. -/
theorem C92_levels_met (cod : (W : Matrix (Fin 7) (Fin 7) ℝ) → CodNull W) : ∃ S k V2 N T τt τc rs,
    calculateContactConstraint Reach.J Reach.A⁻¹ cod = .ret 1 S (some ⟨k, V2, N⟩) ∧ contactSpace Reach.J Reach.A⁻¹ = some S ∧
    Stand.solver.Exact ∧ SolverWithin 0 0 Stand.solver ∧
    MovesNothing Reach.A Reach.J Reach.G 0 ∧
    SafeTorque Reach.A Reach.J Reach.G (Reach.robot S N).limit (Reach.robot S N).cs Stand.dof ((Reach.robot S N).τg + 0) ∧
    taskControlQPRec (Reach.robot S N) Stand.solver ([(T, TaskRecord.fresh 7)] ++ (T, TaskRecord.fresh 7) :: []) = (.ret 1 τt τc, rs) ∧ T.f ≠ 0 := by
  obtain ⟨S, k, V2, N, T, τt, τc, -, -, h1, h2, -, h3, h4, h5, -, h6, -⟩ := C93_hypotheses_met cod
  obtain ⟨rs, hrs⟩ := records_of (Reach.robot S N) h5
  refine ⟨S, k, V2, N, T, τt, τc, rs, h1, h2, Stand.solver_exact, fun i t k d x hx => ?_, h3, h4, hrs, h6⟩
  have := Stand.solver_exact i t k d x hx
  refine ⟨fun r hr => ⟨fun b hb => ?_, ?_⟩, fun y hy => ?_⟩
  · have := (this.1 r hr).1 b hb; linarith
  · have := (this.1 r hr).2; linarith
  · have := this.2 y hy; linarith

section Reduced
variable {k nc : ℕ} {ν : Type*} [Fintype ν] [DecidableEq ν]

theorem rec_best {D : Reduced (Fin k) ν} {C : ReducedContact c (Fin k) ν} {R : Mat3} {P : Matrix (RSys (Fin k) ν) (RSys (Fin k) ν) ℝ}
    {K : Option (Matrix (Fin k ⊕ Fin 6) (Fin 6) ℝ)} {Q : RQPRobot k c} {solve : Solver} {lim : Option (Fin (k + 6) → ℝ)} {m : ℕ}
    {Cm : Matrix (Fin m) (Fin c) ℝ} (hfit : Q.fit = some lim) (hst : stackC Q.cs c = some ⟨m, Cm⟩) {δ : ℝ}
    (hs : ∀ i t k d x, solve i t k d = some x → ∀ y, d.Feasible y → d.cost x ≤ d.cost y + δ) {T : RTask (Fin k) ν} (hT : T.noncont = false)
    (q : RTaskRecord k) (above below : List (RTask (Fin k) ν × RTaskRecord k)) (hab : ∀ p ∈ above, p.1.noncont = false) (i : ℕ)
    (prev : Option (RTask (Fin k) ν × Matrix (Fin k ⊕ Fin 6) (Fin k ⊕ Fin 6) ℝ)) (τR : Fin k ⊕ Fin 6 → ℝ) (f : Fin 6 → ℝ)
    (nc : Option (NcSum k ν)) {τ : Fin k ⊕ ν → ℝ} {τR' : Fin k ⊕ Fin 6 → ℝ} {rs : List (RTaskRecord k)}
    (h : rqpFromRec D C R P K Q solve i prev τR f nc (above ++ (T, q) :: below) = (.ret 1 τ τR', rs)) :
    ∃ r a, rs[above.length]? = some r ∧ r.fqp = ⟨T.t, a⟩ ∧ ∀ g τ1 τN z,
      rTaskFrom D C R P K prev τR 0 (List.zipWith rfollowed (above.map Prod.fst) rs ++ [rcommand T g]) = some (τ1, τN) →
      OkR D C lim Cm (reducedGravity D C + τ1 + Q.NwJw *ᵥ z) → a ⬝ᵥ a ≤ (g - T.f) ⬝ᵥ (g - T.f) + 2 * δ := by
  induction above generalizing i prev τR rs with
  | nil =>
    rw [List.nil_append, rec_chain _ _ _ _ _ hT, hfit, hst] at h
    simp only at h
    split at h
    · simp at h
    rename_i x hx
    rw [Prod.mk.injEq] at h
    obtain ⟨-, rfl⟩ := h
    refine ⟨_, fun j => x (Sum.inl j), rfl, rfl, fun g τ1 τN z h1 hok => ?_⟩
    have e : T.f + (fun b => Sum.elim (g - T.f) z (Sum.inl b)) = g := by ext b; simp
    have h2 : τ1 = τR + prevNull prev *ᵥ (T.Jkt *ᵥ (T.Λ *ᵥ g)) := by
      have hg : (rcommand T g).noncont = false := hT
      simp only [List.map_nil, List.zipWith_nil_left, List.nil_append, rTaskFrom, hg, Bool.false_eq_true, if_false, Option.some.injEq,
        Prod.mk.injEq] at h1
      rw [← h1.1]
      rcases prev with _ | ⟨U, N⟩ <;> rfl
    have hle := hs _ _ _ _ _ hx (Sum.elim (g - T.f) z) (by
      rw [rQP_feasible, e, ← mulVec_mulVec, ← mulVec_mulVec, add_assoc (reducedGravity D C), ← h2]
      exact hok)
    rw [rQP_cost, rQP_cost] at hle
    simp only [Sum.elim_inl] at hle
    simp only [dotProduct]
    linarith
  | cons p above ih =>
    obtain ⟨U, u⟩ := p
    have hU : U.noncont = false := hab _ (List.mem_cons_self ..)
    rw [List.cons_append, rec_chain _ _ _ _ _ hU, hfit, hst] at h
    simp only at h
    split at h
    · simp at h
    rename_i x hx
    rw [Prod.mk.injEq] at h
    obtain ⟨h1, rfl⟩ := h
    obtain ⟨r, a, e1, e2, e⟩ := ih (fun p hp => hab p (List.mem_cons_of_mem _ hp)) _ _ _ (Prod.ext h1 rfl)
    refine ⟨r, a, e1, e2, fun g τ1 τN z h2 hok => e g τ1 τN z ?_ hok⟩
    rw [List.map_cons, List.zipWith_cons_cons, rfollowed_of hU (a := fun a => x (Sum.inl a)) rfl, List.cons_append] at h2
    have hg : (rcommand U (U.f + fun a => x (Sum.inl a))).noncont = false := hU
    rcases prev with _ | ⟨V, N⟩ <;>
    · simp only [rTaskFrom, hg, Bool.false_eq_true, if_false] at h2
      rw [← rTaskFrom_command U (U.f + fun a => x (Sum.inl a))]
      exact h2

variable {A : Matrix (RSys (Fin k) (Fin nc)) (RSys (Fin k) (Fin nc)) ℝ} {Jc : Matrix (Fin c) (RSys (Fin k) (Fin nc)) ℝ}
  {G : RSys (Fin k) (Fin nc) → ℝ} {SI : Mat6} {R : Mat3} {J : Matrix (Fin 6) (Fin nc) ℝ} {D : Reduced (Fin k) (Fin nc)}
  {S : ContactSpace c (Fin k ⊕ Fin nc)} {C : ReducedContact c (Fin k) (Fin nc)} {Q : RQPRobot k c}

/-- **C88 (reduced model, every level on the contact chains).**  If the solver's answers cost at most `δ` too much, the change recorded with a task
on the contact chains is hardly more than it has to be: with the tasks above it (on the chains too) commanded as recorded, the square of the
change is at most `2δ` above that of any other command for which the robot would be safe.  Whatever tasks are below. -/
theorem C88_reduced_levels_partial {ε η : ℝ} (hA : IsSPD A) (hR : R * Rᵀ = 1)
    (hJ : jInc SI R (baseNc A) = some J) (hcpl : ∀ (i : Fin k) (j : Fin nc), A (.inr (.inl i)) (.inr (.inr j)) = 0)
    (h : reduce vcOf ncOf A⁻¹ J G = some D) (h0 : ∀ r j, Jc r (ncOf j) = 0)
    (hk : k ≤ c) (hB : BaseDetermined Jc) (hS : contactSpace Jc A⁻¹ = some S) (hC : reducedContact D Jc A⁻¹ = some C)
    (h6 : ∀ l ∈ Q.cs, l.type = .c6d) (hp : ∀ l ∈ Q.cs, 0 < l.planeX ∧ 0 < l.planeY) (hc : c = 6 * (active Q.cs).length)
    (hc6 : 6 < c) {f : CodNull C.W} (hN : reducedNwJw C f = some Q.NwJw) {solve : Solver} (hs : SolverWithin ε η solve)
    {ts : List (RTaskIn (Fin k) (Fin nc))} {qs : List (RTask (Fin k) (Fin nc))} (hm : ts.mapM (calcJKTR D C (A⁻¹ * C.Nc)) = some qs)
    {rs rs' : List (RTaskRecord k)} {T : RTask (Fin k) (Fin nc)} {q : RTaskRecord k} {above below : List (RTask (Fin k) (Fin nc) × RTaskRecord k)}
    (hl : qs.zip rs = above ++ (T, q) :: below) (hab : ∀ p ∈ above, p.1.noncont = false) (hT : T.noncont = false)
    {τ : Fin k ⊕ Fin nc → ℝ} {τR : Fin k ⊕ Fin 6 → ℝ} (hr : reducedTaskTorqueQPRec D C R A⁻¹ Q solve ts rs = (.ret 1 τ τR, rs')) :
    ∃ r a, rs'[above.length]? = some r ∧ r.fqp = ⟨T.t, a⟩ ∧ ∀ g τ1 τN δ,
      rTaskFrom D C R (A⁻¹ * C.Nc) ((jktR C.ARinvNCR C.Winv (jBaseR R)).map Prod.snd) none 0 0
        (List.zipWith rfollowed (above.map Prod.fst) rs' ++ [rcommand T g]) = some (τ1, τN) →
      RSafe A Jc G D C Q hc τ1 δ → a ⬝ᵥ a ≤ (g - T.f) ⬝ᵥ (g - T.f) + 2 * η := by
  obtain ⟨Cm, e, h'⟩ := stackC_holds h6 hp hc
  simp only [reducedTaskTorqueQPRec, hm, hl] at hr
  rcases hfit : Q.fit with _ | lim
  · exfalso
    rcases above with _ | ⟨⟨U, u⟩, above⟩
    · rw [List.nil_append, rec_chain _ _ _ _ _ hT, hfit] at hr
      simp at hr
    · rw [List.cons_append, rec_chain _ _ _ _ _ (hab _ (List.mem_cons_self ..)), hfit] at hr
      simp at hr
  obtain ⟨r, a, e1, e2, hb⟩ := rec_best hfit e (fun i t k d x hx => (hs i t k d x hx).2) hT q above below hab _ _ _ _ _ hr
  refine ⟨r, a, e1, e2, fun g τ1 τN δ h1 hsafe => ?_⟩
  obtain ⟨h2, h3⟩ := okR_iff_safe hA hR hJ hcpl h h0 hk hB hS hC hc hc6 hN hfit h' τ1
  obtain ⟨z, rfl⟩ := h3 δ hsafe
  exact hb g τ1 τN z h1 ((h2 z).mpr hsafe)

end Reduced

/-- The hypotheses of `C88_reduced_levels_partial` are met by the robot of C59 on two feet with a task accelerating its arm, and a solver with
any tolerances. -/
theorem C88_reduced_levels_met {ε δ : ℝ} (hε : 0 ≤ ε) (hδ : 0 ≤ δ) : SolverWithin ε δ (evenSolver ε δ) ∧
    ∃ D S C N τ τR q rs', reduce vcOf ncOf (exRed 6)⁻¹ 1 TwoFeet.G = some D ∧
      contactSpace TwoFeet.Jc (exRed 6)⁻¹ = some S ∧ reducedContact D TwoFeet.Jc (exRed 6)⁻¹ = some C ∧
      (∃ f : CodNull C.W, reducedNwJw C f = some N) ∧ [TwoFeetFail.task].mapM (calcJKTR D C ((exRed 6)⁻¹ * C.Nc)) = some [q] ∧
      [q].zip [RTaskRecord.fresh 6] = [] ++ (q, RTaskRecord.fresh 6) :: [] ∧ q.noncont = false ∧
      reducedTaskTorqueQPRec D C 1 (exRed 6)⁻¹ (TwoFeet.robot N) (evenSolver ε δ) [TwoFeetFail.task] [RTaskRecord.fresh 6] =
        (.ret 1 τ τR, rs') := by
  obtain ⟨hs, -, D, S, C, N, τ, τR, hD, hS, hC, hf, -, hr⟩ := C88_reduced_hypotheses_met hε hδ
  refine ⟨hs, ?_⟩
  rcases hm : [TwoFeetFail.task].mapM (calcJKTR D C ((exRed 6)⁻¹ * C.Nc)) with _ | qs
  · simp [reducedTaskTorqueQP, hm] at hr
  obtain ⟨q, rfl⟩ : ∃ q, qs = [q] := List.length_eq_one_iff.mp (length_of_mapM hm)
  have hq : calcJKTR D C ((exRed 6)⁻¹ * C.Nc) TwoFeetFail.task = some q := by
    obtain ⟨T', hT', e⟩ := mem_of_mapM hm q (List.mem_singleton_self q)
    rwa [List.mem_singleton.mp hT'] at e
  refine ⟨D, S, C, N, τ, τR, q, _, hD, hS, hC, hf, hm, rfl, by rw [noncont_of_calc hq]; rfl, Prod.ext ?_ rfl⟩
  simp only [reducedTaskTorqueQP, hm] at hr
  simp only [reducedTaskTorqueQPRec, hm]
  rw [rec_fst]
  exact hr

end Verif.Props
