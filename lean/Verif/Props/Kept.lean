import Verif.Props.Levels
import Verif.Props.ToleranceMet

/-!
# C48: exactly when QP task control leaves every command as it is
-/

set_option linter.unusedSectionVars false

namespace Verif.Props
open Matrix Verif Verif.Spec Verif.Model

variable {n c : ℕ}

theorem zero_of_dot {t : ℕ} {a : Fin t → ℝ} (h : a ⬝ᵥ a ≤ 0) : a = 0 := by
  have h1 : ∀ j ∈ Finset.univ, 0 ≤ a j * a j := fun j _ => mul_self_nonneg _
  have h2 : ∑ j, a j * a j = 0 := le_antisymm h (Finset.sum_nonneg h1)
  funext j
  exact mul_self_eq_zero.mp ((Finset.sum_eq_zero_iff_of_nonneg h1).mp h2 j (Finset.mem_univ j))

theorem loop_kept (R : QPRobot n c) {m : ℕ} {C : Matrix (Fin m) (Fin c) ℝ} (hC : R.C = some ⟨m, C⟩) (hc6 : 6 < c) {solve : Solver}
    (hs : solve.Exact) (hcomp : solve.Complete) (l : List (TaskReady (Fin n) × TaskRecord n)) (i : ℕ) (N : Matrix (Fin n) (Fin n) ℝ)
    (τ0 τ1 : Fin n → ℝ) :
    (∃ τt τc rs, qpLoopRec R solve i N τ0 τ1 l = (.ret 1 τt τc, rs) ∧ ∀ r ∈ rs, r.fqp.2 = 0) ↔
      ∀ k < l.length, ∃ z, OkT R C (R.τg + taskTorqueFrom R.S N τ0 ((l.map Prod.fst).take (k + 1)) + R.NwJw *ᵥ z) := by
  induction l generalizing i N τ0 τ1 with
  | nil => simp [qpLoopRec]
  | cons p l ih =>
    obtain ⟨T, q⟩ := p
    have hstep : ∀ {x}, (fun j => x (Sum.inl j)) = (0 : Fin T.t → ℝ) → solve i T.t (c - 6) (taskQP R C T N (R.τg + τ0)) = some x →
        qpLoopRec R solve i N τ0 τ1 ((T, q) :: l) =
          ((qpLoopRec R solve (i + 1) (taskNullSpace R.S T N) (τ0 + N *ᵥ (T.Jkt *ᵥ (T.Λ *ᵥ T.f))) (R.NwJw *ᵥ fun b => x (Sum.inr b)) l).1,
            { q.solved T.t (c - 6) x with torque := T.Jkt *ᵥ (T.Λ *ᵥ T.f) } ::
              (qpLoopRec R solve (i + 1) (taskNullSpace R.S T N) (τ0 + N *ᵥ (T.Jkt *ᵥ (T.Λ *ᵥ T.f))) (R.NwJw *ᵥ fun b => x (Sum.inr b)) l).2) := by
      intro x h0 hx
      simp only [qpLoopRec, hC, hx, h0, add_zero]
      rw [if_neg (by omega)]
    have hfeas : ∀ x : Fin T.t ⊕ Fin (c - 6) → ℝ, (fun j => x (Sum.inl j)) = (0 : Fin T.t → ℝ) →
        ((taskQP R C T N (R.τg + τ0)).Feasible x ↔
          OkT R C (R.τg + taskTorqueFrom R.S N τ0 ((((T, q) :: l).map Prod.fst).take 1) + R.NwJw *ᵥ fun b => x (Sum.inr b))) := by
      intro x h0
      rw [taskQP_feasible, h0, add_zero]
      simp only [OkT, List.map_cons, List.take_succ_cons, List.take_zero, taskTorqueFrom, add_assoc]
    constructor
    · rintro ⟨τt, τc, rs, h, h0⟩ k hk
      rcases hx : solve i T.t (c - 6) (taskQP R C T N (R.τg + τ0)) with _ | x
      · simp [qpLoopRec, hC, hx] at h
      have hx0 : (fun j => x (Sum.inl j)) = (0 : Fin T.t → ℝ) := by
        have h' := h
        simp only [qpLoopRec, hC, hx] at h'
        rw [if_neg (by omega), Prod.mk.injEq] at h'
        obtain ⟨-, rfl⟩ := h'
        exact h0 _ (List.mem_cons_self ..)
      rw [hstep hx0 hx, Prod.mk.injEq] at h
      obtain ⟨h1, rfl⟩ := h
      rcases k with _ | k
      · exact ⟨_, (hfeas x hx0).mp (hs _ _ _ _ _ hx).1⟩
      · have := (ih _ _ _ _).mp ⟨τt, τc, _, Prod.ext h1 rfl, fun r hr => h0 r (List.mem_cons_of_mem _ hr)⟩ k (by simpa using hk)
        simpa [taskTorqueFrom] using this
    · intro h
      obtain ⟨z, hz⟩ := h 0 (by simp)
      have hf := (hfeas (Sum.elim 0 z) rfl).mpr hz
      obtain ⟨x, hx⟩ := Option.isSome_iff_exists.mp (hcomp i _ _ (taskQP R C T N (R.τg + τ0)) (taskQP_exists R C T N _ hf))
      have hx0 : (fun j => x (Sum.inl j)) = (0 : Fin T.t → ℝ) := by
        have hle := (hs _ _ _ _ _ hx).2 _ hf
        rw [taskQP_cost, taskQP_cost] at hle
        refine zero_of_dot ?_
        simp only [Sum.elim_inl, Pi.zero_apply, mul_zero, Finset.sum_const_zero] at hle
        simp only [dotProduct]
        linarith
      obtain ⟨τt, τc, rs, h1, h2⟩ := (ih (i + 1) (taskNullSpace R.S T N) (τ0 + N *ᵥ (T.Jkt *ᵥ (T.Λ *ᵥ T.f))) (R.NwJw *ᵥ fun b => x (Sum.inr b))).mpr
        fun k hk => by
          have := h (k + 1) (by simpa using hk)
          simpa [taskTorqueFrom] using this
      refine ⟨τt, τc, _, (hstep hx0 hx).trans (by rw [h1]), fun r hr => ?_⟩
      rcases List.mem_cons.mp hr with rfl | hr
      · exact hx0
      · exact h2 r hr

/-- **C48 (exactly when).**  Two or more feet on the ground and an exact solver: QP task control succeeds and leaves every command as it is if and only if
for each task the torque of the control without QP, for this task and those above it, can be made safe by a torque that moves nothing. -/
theorem C48_kept_iff {A : Matrix (Fin 6 ⊕ Fin n) (Fin 6 ⊕ Fin n) ℝ} {J : Matrix (Fin c) (Fin 6 ⊕ Fin n) ℝ} {G : Fin 6 ⊕ Fin n → ℝ} {R : QPRobot n c}
    (hA : IsSPD A) (hS : contactSpace J A⁻¹ = some R.S) (hP : R.P = Model.gravityForce R.S G)
    (h6 : ∀ l ∈ R.cs, l.type = .c6d) (hp : ∀ l ∈ R.cs, 0 < l.planeX ∧ 0 < l.planeY) (hc : c = 6 * (active R.cs).length)
    (hc6 : 6 < c) (cod : (W : Matrix (Fin n) (Fin n) ℝ) → CodNull W) {v k : ℕ} {V2 : Matrix (Fin k) (Fin n) ℝ}
    (hR : calculateContactConstraint J A⁻¹ cod = .ret v R.S (some ⟨k, V2, R.NwJw⟩))
    {solve : Solver} (hs : solve.Exact) (hcomp : solve.Complete) (l : List (TaskReady (Fin n) × TaskRecord n)) :
    (∃ τt τc rs, taskControlQPRec R solve l = (.ret 1 τt τc, rs) ∧ ∀ r ∈ rs, r.fqp.2 = 0) ↔
      ∀ k < l.length, ∃ ν, MovesNothing A J G ν ∧
        SafeTorque A J G R.limit R.cs hc (R.τg + taskTorque R.S ((l.map Prod.fst).take (k + 1)) + ν) := by
  obtain ⟨C, e, h'⟩ := stackC_holds h6 hp hc
  rw [taskControlQPRec, loop_kept R (show R.C = some ⟨_, C⟩ from e) hc6 hs hcomp]
  refine forall_congr' fun k => forall_congr' fun _ => ⟨fun ⟨z, hz⟩ => ?_, fun ⟨ν, hν, hsafe⟩ => ?_⟩
  · exact ⟨_, (movesNothing_iff hA hc6 cod hS hR _).mpr ⟨z, rfl⟩, (safe_iff hA hS hP hc h' _).mpr hz⟩
  · obtain ⟨z, rfl⟩ := (movesNothing_iff hA hc6 cod hS hR ν).mp hν
    exact ⟨z, (safe_iff hA hS hP hc h' _).mp hsafe⟩

/-- C48 (what is sent then).  If a successful call records no change of a command, the task torque is that of the control without QP. -/
theorem C48_kept_torque (R : QPRobot n c) (solve : Solver) (l : List (TaskReady (Fin n) × TaskRecord n)) {τt τc : Fin n → ℝ}
    {rs : List (TaskRecord n)} (h : taskControlQPRec R solve l = (.ret 1 τt τc, rs)) (h0 : ∀ r ∈ rs, r.fqp.2 = 0) :
    τt = taskTorque R.S (l.map Prod.fst) := by
  obtain ⟨h1, h2, -⟩ := C92_success R solve l h
  rw [h2]
  congr 1
  clear h h2
  induction h1 with
  | nil => rfl
  | cons hp _ ih =>
    rename_i p r l rs _
    obtain ⟨-, -, a, ha, -⟩ := hp
    have hr : r.fqp.2 = 0 := h0 r (List.mem_cons_self ..)
    have : a = 0 := by
      rcases r with ⟨⟨t, b⟩, q, e, τ⟩
      obtain ⟨rfl, h2⟩ := Sigma.mk.inj_iff.mp ha
      obtain rfl := eq_of_heq h2
      exact hr
    rw [List.map_cons, List.zipWith_cons_cons, followed_of ha, ih fun r hr => h0 r (List.mem_cons_of_mem _ hr), this, add_zero]
    rfl
/-- Both sides of `C48_kept_iff` occur, on the biped with an arm: half the command is kept, which takes a torque between the feet that moves nothing;
the whole command is not. -/
theorem C48_kept_met (cod : (W : Matrix (Fin 7) (Fin 7) ℝ) → CodNull W) : ∃ S k V2 N T,
    calculateContactConstraint Reach.J Reach.A⁻¹ cod = .ret 1 S (some ⟨k, V2, N⟩) ∧ contactSpace Reach.J Reach.A⁻¹ = some S ∧
    calculateJKT S Reach.A⁻¹ Reach.T = some T ∧ Stand.solver.Exact ∧ Stand.solver.Complete ∧
    (∃ τt τc rs, taskControlQPRec (Reach.robot S N) Stand.solver [(withCommand T fun _ => 1 / 2, TaskRecord.fresh 7)] = (.ret 1 τt τc, rs) ∧
      ∀ r ∈ rs, r.fqp.2 = 0) ∧
    ¬ ∃ τt τc rs, taskControlQPRec (Reach.robot S N) Stand.solver [(T, TaskRecord.fresh 7)] = (.ret 1 τt τc, rs) ∧ ∀ r ∈ rs, r.fqp.2 = 0 := by
  obtain ⟨S, k, V2, N, T, o, hR, hS, hT, hg, -, hf, hN, h1, -, hz⟩ := reach_data cod
  have key := fun l => C48_kept_iff (R := Reach.robot S N) Reach.hA hS rfl Stand.six Stand.plane Stand.dof (by norm_num) cod hR Stand.solver_exact
    Stand.solver_complete l
  have hg' : (Reach.robot S N).τg = 0 := hg
  refine ⟨S, k, V2, N, T, hR, hS, hT, Stand.solver_exact, Stand.solver_complete, (key _).mpr fun j hj => ?_, fun h => ?_⟩
  · obtain rfl : j = 0 := by simpa using hj
    obtain ⟨z, hz⟩ := hz fun _ => 1 / 2
    refine ⟨N *ᵥ z, (movesNothing_iff Reach.hA (by norm_num) cod hS hR _).mpr ⟨z, rfl⟩, ?_⟩
    have e : (Reach.robot S N).τg + taskTorque (Reach.robot S N).S
        (([(withCommand T fun _ => 1 / 2, TaskRecord.fresh 7)].map Prod.fst).take (0 + 1)) + N *ᵥ z = Pi.single 6 (1 / 2) := by
      rw [hg', zero_add, ← hz]
      congr 1
      exact taskTorque_one ..
    rw [e]
    constructor
    · intro L hL j
      obtain rfl := Option.some.inj hL
      by_cases hj : j = 6
      · subst hj; simp [abs_of_pos]
      · simp [Pi.single_eq_of_ne hj]
    · intro qdd F hM
      rw [(C01_contact_force_exact Reach.hA hS _ _).2.1 _ _ hM, ← (C01_contact_force_exact Reach.hA hS _ _).2.1 _ _ (reach_motion (1 / 2))]
      exact Stand.hold
  · obtain ⟨ν, hν, hs, -⟩ := (key _).mp h 0 (by simp)
    obtain ⟨z, rfl⟩ := (movesNothing_iff Reach.hA (by norm_num) cod hS hR ν).mp hν
    have h6 := hs _ rfl 6
    have e : taskTorque (Reach.robot S N).S (([(T, TaskRecord.fresh 7)].map Prod.fst).take (0 + 1)) = T.Jkt *ᵥ (T.Λ *ᵥ T.f) := taskTorque_one ..
    rw [hg', zero_add, e, Pi.add_apply, h1, hf, hN] at h6
    norm_num at h6

/-- **C94 (every level of QP control).**  If a task's command could be followed safely, with the tasks above it commanded as recorded and some torque
that moves nothing, then a successful call with an exact solver does not change it. -/
theorem C94_level_kept {A : Matrix (Fin 6 ⊕ Fin n) (Fin 6 ⊕ Fin n) ℝ} {J : Matrix (Fin c) (Fin 6 ⊕ Fin n) ℝ} {G : Fin 6 ⊕ Fin n → ℝ} {R : QPRobot n c}
    (hA : IsSPD A) (hS : contactSpace J A⁻¹ = some R.S) (hP : R.P = Model.gravityForce R.S G)
    (h6 : ∀ l ∈ R.cs, l.type = .c6d) (hp : ∀ l ∈ R.cs, 0 < l.planeX ∧ 0 < l.planeY) (hc : c = 6 * (active R.cs).length)
    (hc6 : 6 < c) (cod : (W : Matrix (Fin n) (Fin n) ℝ) → CodNull W) {v k : ℕ} {V2 : Matrix (Fin k) (Fin n) ℝ}
    (hR : calculateContactConstraint J A⁻¹ cod = .ret v R.S (some ⟨k, V2, R.NwJw⟩))
    {solve : Solver} (hs : solve.Exact) (T : TaskReady (Fin n)) (q : TaskRecord n)
    (above below : List (TaskReady (Fin n) × TaskRecord n)) {τt τc : Fin n → ℝ} {rs : List (TaskRecord n)}
    (h : taskControlQPRec R solve (above ++ (T, q) :: below) = (.ret 1 τt τc, rs)) {ν : Fin n → ℝ} (hν : MovesNothing A J G ν)
    (hsafe : SafeTorque A J G R.limit R.cs hc (R.τg + taskTorque R.S (List.zipWith followed (above.map Prod.fst) rs ++ [T]) + ν)) :
    ∃ r, rs[above.length]? = some r ∧ r.fqp = ⟨T.t, 0⟩ := by
  obtain ⟨r, a, e1, e2, e3⟩ := C92_levels_least hA hS hP h6 hp hc hc6 cod hR hs T q above below h
  have := e3 T.f ν hν hsafe
  rw [sub_self, zero_dotProduct] at this
  exact ⟨r, e1, by rw [e2, zero_of_dot this]⟩

section Reduced
variable {k nc : ℕ} {A : Matrix (RSys (Fin k) (Fin nc)) (RSys (Fin k) (Fin nc)) ℝ} {Jc : Matrix (Fin c) (RSys (Fin k) (Fin nc)) ℝ}
  {G : RSys (Fin k) (Fin nc) → ℝ} {SI : Mat6} {R : Mat3} {J : Matrix (Fin 6) (Fin nc) ℝ} {D : Reduced (Fin k) (Fin nc)}
  {S : ContactSpace c (Fin k ⊕ Fin nc)} {C : ReducedContact c (Fin k) (Fin nc)} {Q : RQPRobot k c}

/-- **C94 (every level on the contact chains, reduced model).**  If the command of a task on the contact chains could be followed safely, with the
tasks above it (on the chains too) commanded as recorded, then a successful call with an exact solver does not change it. -/
theorem C94_reduced_level_kept_partial (hA : IsSPD A) (hR : R * Rᵀ = 1)
    (hJ : jInc SI R (baseNc A) = some J) (hcpl : ∀ (i : Fin k) (j : Fin nc), A (.inr (.inl i)) (.inr (.inr j)) = 0)
    (h : reduce vcOf ncOf A⁻¹ J G = some D) (h0 : ∀ r j, Jc r (ncOf j) = 0)
    (hk : k ≤ c) (hB : BaseDetermined Jc) (hS : contactSpace Jc A⁻¹ = some S) (hC : reducedContact D Jc A⁻¹ = some C)
    (h6 : ∀ l ∈ Q.cs, l.type = .c6d) (hp : ∀ l ∈ Q.cs, 0 < l.planeX ∧ 0 < l.planeY) (hc : c = 6 * (active Q.cs).length)
    (hc6 : 6 < c) {f : CodNull C.W} (hN : reducedNwJw C f = some Q.NwJw) {solve : Solver} (hs : solve.Exact)
    {ts : List (RTaskIn (Fin k) (Fin nc))} {qs : List (RTask (Fin k) (Fin nc))} (hm : ts.mapM (calcJKTR D C (A⁻¹ * C.Nc)) = some qs)
    {rs rs' : List (RTaskRecord k)} {T : RTask (Fin k) (Fin nc)} {q : RTaskRecord k} {above below : List (RTask (Fin k) (Fin nc) × RTaskRecord k)}
    (hl : qs.zip rs = above ++ (T, q) :: below) (hab : ∀ p ∈ above, p.1.noncont = false) (hT : T.noncont = false)
    {τ : Fin k ⊕ Fin nc → ℝ} {τR : Fin k ⊕ Fin 6 → ℝ} (hr : reducedTaskTorqueQPRec D C R A⁻¹ Q solve ts rs = (.ret 1 τ τR, rs'))
    {τ1 : Fin k ⊕ Fin 6 → ℝ} {τN : Fin nc → ℝ} {δ : Fin k ⊕ Fin nc → ℝ}
    (ht : rTaskFrom D C R (A⁻¹ * C.Nc) ((jktR C.ARinvNCR C.Winv (jBaseR R)).map Prod.snd) none 0 0
        (List.zipWith rfollowed (above.map Prod.fst) rs' ++ [T]) = some (τ1, τN)) (hsafe : RSafe A Jc G D C Q hc τ1 δ) :
    ∃ r, rs'[above.length]? = some r ∧ r.fqp = ⟨T.t, 0⟩ := by
  have hs' : SolverWithin 0 0 solve := fun i t k d x hx => by
    have := hs i t k d x hx
    refine ⟨fun r hr => ⟨fun b hb => ?_, ?_⟩, fun y hy => ?_⟩
    · have := (this.1 r hr).1 b hb; linarith
    · have := (this.1 r hr).2; linarith
    · have := this.2 y hy; linarith
  obtain ⟨r, a, e1, e2, e3⟩ := C88_reduced_levels_partial hA hR hJ hcpl h h0 hk hB hS hC h6 hp hc hc6 hN hs' hm hl hab hT hr
  have := e3 T.f τ1 τN δ ht hsafe
  rw [sub_self, zero_dotProduct, mul_zero, add_zero] at this
  exact ⟨r, e1, by rw [e2, zero_of_dot this]⟩

end Reduced

/-- The hypotheses of `C94_reduced_level_kept_partial` are met by the robot of C59 on two feet without torque limits, with a task accelerating its arm. -/
theorem C94_reduced_level_met : ∃ D S C N q τ τR rs' τ1 τN δ, reduce vcOf ncOf (exRed 6)⁻¹ 1 TwoFeet.G = some D ∧
    contactSpace TwoFeet.Jc (exRed 6)⁻¹ = some S ∧ reducedContact D TwoFeet.Jc (exRed 6)⁻¹ = some C ∧
    (∃ f : CodNull C.W, reducedNwJw C f = some N) ∧ [TwoFeetFail.task].mapM (calcJKTR D C ((exRed 6)⁻¹ * C.Nc)) = some [q] ∧
    q.noncont = false ∧ Stand.solver.Exact ∧
    reducedTaskTorqueQPRec D C 1 (exRed 6)⁻¹ (TwoFeetFail.robot N) Stand.solver [TwoFeetFail.task] [RTaskRecord.fresh 6] = (.ret 1 τ τR, rs') ∧
    rTaskFrom D C 1 ((exRed 6)⁻¹ * C.Nc) ((jktR C.ARinvNCR C.Winv (jBaseR 1)).map Prod.snd) none 0 0 [q] = some (τ1, τN) ∧
    RSafe (exRed 6) TwoFeet.Jc TwoFeet.G D C (TwoFeetFail.robot N) Stand.dof τ1 δ := by
  obtain ⟨D, hD⟩ := exRed_reduce (k := 6) TwoFeet.G
  obtain ⟨S, hS⟩ : ∃ S, contactSpace TwoFeet.Jc (exRed 6)⁻¹ = some S :=
    ⟨_, contactSpace_eq_some.mpr ⟨exRed_spd.inv.conj_isUnit_iff.mpr TwoFeet.independent, rfl⟩⟩
  obtain ⟨C, hC, -⟩ := C41_contact_partial exRed_spd hD TwoFeet.zero (by norm_num) hS
  obtain ⟨N, hN⟩ := (C59_finite_iff_partial exRed_spd hD TwoFeet.zero (by norm_num) TwoFeet.independent hC (by norm_num)
    fun W => (exists_codNull W).some).mpr ⟨TwoFeet.base, TwoFeet.last⟩
  obtain ⟨x, hx, hq⟩ := TwoFeetFail.calc_some hD hS hC
  obtain ⟨hsafe, -⟩ := TwoFeetFail.good (C := C) hD N (TwoFeetFail.assembled hD hS hC hx hq)
  obtain ⟨Cm, hst, h'⟩ := stackC_holds Stand.six Stand.plane Stand.dof
  have hfit : (TwoFeetFail.robot N).fit = some none := rfl
  obtain ⟨h1, h2⟩ := okR_iff_safe exRed_spd (R := 1) (by simp) exRed_jInc exRed_coupling hD TwoFeet.zero (by norm_num) TwoFeet.base
    hS hC (Q := TwoFeetFail.robot N) Stand.dof (by norm_num) hN hfit h' (x.2 *ᵥ (x.1 *ᵥ TwoFeetFail.aim))
  obtain ⟨z, hz⟩ := h2 _ hsafe
  have hok := (h1 z).mpr (hz ▸ hsafe)
  have hfe : (rQP D C (TwoFeetFail.robot N) none Cm (prevNull (ν := Fin 6) (κ := Fin 6) none * (x.2 * x.1)) TwoFeetFail.aim
      (reducedGravity D C + 0)).Feasible (Sum.elim 0 z) := by
    rw [rQP_feasible]
    have e1 : (TwoFeetFail.aim + fun a => Sum.elim (0 : Fin 6 → ℝ) z (Sum.inl a)) = TwoFeetFail.aim := by ext a; simp
    rw [e1, show prevNull (ν := Fin 6) (κ := Fin 6) none = 1 from rfl, Matrix.one_mul, ← mulVec_mulVec, add_zero]
    exact hok
  obtain ⟨y, hy⟩ := Option.isSome_iff_exists.mp (Stand.solver_complete 0 _ _ _ (rQP_exists _ _ _ hfe))
  have hm : [TwoFeetFail.task].mapM (calcJKTR D C ((exRed 6)⁻¹ * C.Nc)) = some [TwoFeetFail.calculated D x] := by simp [List.mapM_cons, hq]
  have hrun : ∃ τ τR rs', reducedTaskTorqueQPRec D C 1 (exRed 6)⁻¹ (TwoFeetFail.robot N) Stand.solver [TwoFeetFail.task] [RTaskRecord.fresh 6] =
      (.ret 1 τ τR, rs') := by
    simp only [reducedTaskTorqueQPRec, hm, List.zip_cons_cons, List.zip_nil_left]
    rw [rec_chain _ _ _ _ _ (show (TwoFeetFail.calculated D x).noncont = false from rfl), hfit, show stackC (TwoFeetFail.robot N).cs 12 = _ from hst]
    have hy' : Stand.solver 0 (TwoFeetFail.calculated D x).t (12 - 6) (rQP D C (TwoFeetFail.robot N) none Cm
        (prevNull (ν := Fin 6) (κ := Fin 6) none * ((TwoFeetFail.calculated D x).Jkt * (TwoFeetFail.calculated D x).Λ))
          (TwoFeetFail.calculated D x).f (reducedGravity D C + 0)) = some y := hy
    simp only [hy']
    exact ⟨_, _, _, rfl⟩
  obtain ⟨τ, τR, rs', hr⟩ := hrun
  have ht : rTaskFrom D C 1 ((exRed 6)⁻¹ * C.Nc) ((jktR C.ARinvNCR C.Winv (jBaseR 1)).map Prod.snd) none 0 0 [TwoFeetFail.calculated D x] =
      some (x.2 *ᵥ (x.1 *ᵥ TwoFeetFail.aim), 0) := by
    simp only [rTaskFrom, show (TwoFeetFail.calculated D x).noncont = false from rfl, Bool.false_eq_true, if_false]
    refine congrArg some (Prod.ext ?_ rfl)
    exact (zero_add _).trans (one_mulVec _)
  exact ⟨D, S, C, N, _, τ, τR, rs', _, _, _, hD, hS, hC, ⟨_, hN⟩, hm, rfl, Stand.solver_exact, hr, ht, hsafe⟩

end Verif.Props
