import Verif.Props.Tolerance
import Verif.Props.ToleranceMet
import Verif.Props.ReducedFail

/-!
# C88: task control with the reduced model and a solver that stops at a tolerance
-/

set_option linter.unusedSectionVars false

namespace Verif.Props
open Matrix Verif Verif.Spec Verif.Model

section Levels
variable {k c : ℕ} {ν : Type*} [Fintype ν] [DecidableEq ν]

theorem rQP_within {ε : ℝ} (hε : 0 ≤ ε) (D : Reduced (Fin k) ν) (C : ReducedContact c (Fin k) ν) (Q : RQPRobot k c)
    (lim : Option (Fin (k + 6) → ℝ)) {m t : ℕ} (Cm : Matrix (Fin m) (Fin c) ℝ) (B : Matrix (Fin k ⊕ Fin 6) (Fin t) ℝ)
    (f : Fin t → ℝ) (τ : Fin k ⊕ Fin 6 → ℝ) (x : Fin t ⊕ Fin (c - 6) → ℝ) :
    (rQP D C Q lim Cm B f τ).FeasibleWithin ε x ↔
      (∀ L, lim = some L → ∀ j, |(τ + B *ᵥ (f + fun a => x (.inl a)) + Q.NwJw *ᵥ fun b => x (.inr b)) j| ≤ L (finSumFinEquiv j) + ε) ∧
      ∀ r, -ε ≤ (Cm *ᵥ forceR D C (τ + B *ᵥ (f + fun a => x (.inl a)) + Q.NwJw *ᵥ fun b => x (.inr b))) r := by
  have hr := rows_within hε (V := Fin t ⊕ Fin (c - 6)) (Q.flat D C lim) (m + (Q.flat D C lim).limitRows)
    (Matrix.of fun a b => if a = b ∧ a.isLeft then 1 else 0) 0 Cm (rightColsR C) (reducedGravityForce D C)
    (flatV (τ + B *ᵥ f)) (taskCols (flatM B) (flatM Q.NwJw)) le_rfl x
  have e : flatV (τ + B *ᵥ f) + taskCols (flatM B) (flatM Q.NwJw) *ᵥ x
      = flatV (τ + B *ᵥ (f + fun a => x (.inl a)) + Q.NwJw *ᵥ fun b => x (.inr b)) := by
    rw [taskCols_mulVec, flatM_mulVec, flatM_mulVec, ← flatV_add, ← flatV_add, mulVec_add]
    congr 1
    abel
  rw [e, rightColsR_mulVec] at hr
  refine hr.trans (and_congr (forall_congr' fun L => forall_congr' fun _ => ?_) Iff.rfl)
  constructor
  · intro h j
    have := h (finSumFinEquiv j)
    rwa [flatV_apply] at this
  · intro h j
    have := h (finSumFinEquiv.symm j)
    rwa [Equiv.apply_symm_apply] at this

/-- the last level's answer bounds the final torque -/
theorem rqp_chain_within {ε δ : ℝ} (hε : 0 ≤ ε) {D : Reduced (Fin k) ν} {C : ReducedContact c (Fin k) ν} {R : Mat3}
    {P : Matrix (RSys (Fin k) ν) (RSys (Fin k) ν) ℝ} {K : Option (Matrix (Fin k ⊕ Fin 6) (Fin 6) ℝ)} {Q : RQPRobot k c}
    {solve : Solver} (hs : SolverWithin ε δ solve) (ts : List (RTask (Fin k) ν)) (hts : ∀ T ∈ ts, T.noncont = false) (hne : ts ≠ [])
    (i : ℕ) (prev : Option (RTask (Fin k) ν × Matrix (Fin k ⊕ Fin 6) (Fin k ⊕ Fin 6) ℝ)) (τR : Fin k ⊕ Fin 6 → ℝ)
    {τ : Fin k ⊕ ν → ℝ} {τR' : Fin k ⊕ Fin 6 → ℝ} (f : Fin 6 → ℝ)
    (h : rqpFrom D C R P K Q solve i prev τR f none ts = .ret 1 τ τR') :
    τ = assembleTorque D τR' 0 ∧ ∃ lim m Cm x, Q.fit = some lim ∧ stackC Q.cs c = some ⟨m, Cm⟩ ∧
      (∀ L, lim = some L → ∀ j, |(reducedGravity D C + τR' + Q.NwJw *ᵥ x) j| ≤ L (finSumFinEquiv j) + ε) ∧
      ∀ r, -ε ≤ (Cm *ᵥ forceR D C (reducedGravity D C + τR' + Q.NwJw *ᵥ x)) r := by
  induction ts generalizing i prev τR with
  | nil => exact absurd rfl hne
  | cons T rest ih =>
    rw [rqpFrom_chain D C R P K Q solve i prev τR f none (hts T (List.mem_cons_self ..))] at h
    rcases hl : Q.fit with _ | lim
    · rw [hl] at h; simp at h
    rcases hc : stackC Q.cs c with _ | ⟨m, Cm⟩
    · rw [hl, hc] at h; simp at h
    rw [hl, hc] at h
    simp only at h
    rcases hx : solve i T.t (c - 6) (rQP D C Q lim Cm (prevNull prev * (T.Jkt * T.Λ)) T.f (reducedGravity D C + τR)) with _ | x
    · rw [hx] at h
      simp at h
    rw [hx] at h
    simp only at h
    rcases rest with _ | ⟨T', rest⟩
    · rw [rqpFrom, rqpFinish] at h
      simp only [RCtrlResult.ret.injEq, true_and] at h
      obtain ⟨rfl, rfl⟩ := h
      have hf := (rQP_within hε D C Q lim Cm _ _ _ x).mp (hs _ _ _ _ _ hx).1
      have e : (prevNull prev * (T.Jkt * T.Λ)) *ᵥ (T.f + fun a => x (.inl a))
          = prevNull prev *ᵥ (T.Jkt *ᵥ (T.Λ *ᵥ (T.f + fun a => x (.inl a)))) := by
        rw [mulVec_mulVec, mulVec_mulVec, Matrix.mul_assoc]
      rw [e, add_assoc (reducedGravity D C)] at hf
      exact ⟨rfl, lim, m, Cm, fun b => x (.inr b), rfl, rfl, hf.1, hf.2⟩
    · obtain ⟨h1, lim', m', Cm', x', h2, h3, h4⟩ := ih (fun U hU => hts U (List.mem_cons_of_mem _ hU)) (by simp) _ _ _ h
      rw [hl] at h2
      rw [hc] at h3
      exact ⟨h1, lim', m', Cm', x', h2, h3, h4⟩

/-- The rows hold up to `ε`. -/
def OkRWithin (ε : ℝ) (D : Reduced (Fin k) ν) (C : ReducedContact c (Fin k) ν) (lim : Option (Fin (k + 6) → ℝ)) {m : ℕ}
    (Cm : Matrix (Fin m) (Fin c) ℝ) (τ : Fin k ⊕ Fin 6 → ℝ) : Prop :=
  (∀ L, lim = some L → ∀ j, |τ j| ≤ L (finSumFinEquiv j) + ε) ∧ ∀ r, -ε ≤ (Cm *ᵥ forceR D C τ) r

variable {D : Reduced (Fin k) ν} {C : ReducedContact c (Fin k) ν} {R : Mat3} {P : Matrix (RSys (Fin k) ν) (RSys (Fin k) ν) ℝ}
  {K : Option (Matrix (Fin k ⊕ Fin 6) (Fin 6) ℝ)} {Q : RQPRobot k c} {solve : Solver} {lim : Option (Fin (k + 6) → ℝ)} {m : ℕ}
  {Cm : Matrix (Fin m) (Fin c) ℝ}

theorem _root_.Verif.OkR.within {ε : ℝ} (hε : 0 ≤ ε) {τ : Fin k ⊕ Fin 6 → ℝ} (h : OkR D C lim Cm τ) : OkRWithin ε D C lim Cm τ :=
  ⟨fun L hL j => (h.1 L hL j).trans (le_add_of_nonneg_right hε), fun r => (neg_nonpos.mpr hε).trans (h.2 r)⟩

/-- a level after a torque whose rows hold up to `ε` is answered -/
theorem rQP_answers_within {ε δ : ℝ} (hε : 0 ≤ ε) (hδ : 0 ≤ δ) (hs : SolverWithin ε δ solve) (hcomp : AnswersWithin ε δ solve) (i : ℕ)
    {t : ℕ} (B : Matrix (Fin k ⊕ Fin 6) (Fin t) ℝ) (f : Fin t → ℝ) (τ : Fin k ⊕ Fin 6 → ℝ) {z : Fin (c - 6) → ℝ}
    (h : OkRWithin ε D C lim Cm (τ + Q.NwJw *ᵥ z)) :
    ∃ x, solve i t (c - 6) (rQP D C Q lim Cm B f τ) = some x ∧
      OkRWithin ε D C lim Cm (τ + B *ᵥ (f + fun a => x (.inl a)) + Q.NwJw *ᵥ fun b => x (.inr b)) := by
  have hf : (rQP D C Q lim Cm B f τ).FeasibleWithin ε (Sum.elim (-f) z) := by
    rw [rQP_within hε]
    have e : (f + fun a => Sum.elim (-f) z (Sum.inl a)) = 0 := by ext a; simp
    rw [e, mulVec_zero, add_zero]
    exact h
  have hex : ∃ x, (rQP D C Q lim Cm B f τ).SolvedWithin ε δ x := by
    by_cases hy : ∃ y, (rQP D C Q lim Cm B f τ).Feasible y
    · obtain ⟨y, hy⟩ := hy
      obtain ⟨x, hx, hb⟩ := rQP_exists B f τ hy
      refine ⟨x, fun r hr => ⟨fun b hb => ?_, ?_⟩, fun y hy => (hb y hy).trans (le_add_of_nonneg_right hδ)⟩
      · linarith [(hx r hr).1 b hb]
      · linarith [(hx r hr).2]
    · exact ⟨_, hf, fun y hy' => absurd ⟨y, hy'⟩ hy⟩
  obtain ⟨x, hx⟩ := Option.isSome_iff_exists.mp (hcomp i _ _ _ hex)
  exact ⟨x, hx, (rQP_within hε D C Q lim Cm B f τ x).mp (hs _ _ _ _ _ hx).1⟩

/-- from a torque whose rows hold up to `ε` on, the loop does not fail -/
theorem rqp_go_within {ε δ : ℝ} (hε : 0 ≤ ε) (hδ : 0 ≤ δ) (hfit : Q.fit = some lim) (hst : stackC Q.cs c = some ⟨m, Cm⟩) (hs : SolverWithin ε δ solve) (hcomp : AnswersWithin ε δ solve)
    (ts : List (RTask (Fin k) ν)) (i : ℕ) (prev : Option (RTask (Fin k) ν × Matrix (Fin k ⊕ Fin 6) (Fin k ⊕ Fin 6) ℝ))
    (τR : Fin k ⊕ Fin 6 → ℝ) (f : Fin 6 → ℝ) (nc : Option (NcSum k ν)) (z : Fin (c - 6) → ℝ)
    (h : OkRWithin ε D C lim Cm (reducedGravity D C + τR + Q.NwJw *ᵥ z)) (τ : Fin k ⊕ ν → ℝ) (τR' : Fin k ⊕ Fin 6 → ℝ) :
    rqpFrom D C R P K Q solve i prev τR f nc ts ≠ .ret 0 τ τR' := by
  induction ts generalizing i prev τR f nc z with
  | nil =>
    rw [rqpFrom]
    rcases nc with _ | a
    · simp [rqpFinish]
    rcases K with _ | Kb
    · simp [rqpFinish]
    obtain ⟨x, hx, -⟩ := rQP_answers_within hε hδ hs hcomp a.idx (a.N * Kb) f (reducedGravity D C + τR) h
    simp only [rqpFinish, hfit, hst, hx]
    simp
  | cons T rest ih =>
    rcases hT : T.noncont with _ | _
    · rw [rqpFrom_chain D C R P K Q solve i prev τR f nc hT, hfit, hst]
      obtain ⟨x, hx, hok⟩ := rQP_answers_within hε hδ hs hcomp i (prevNull prev * (T.Jkt * T.Λ)) T.f (reducedGravity D C + τR) h
      simp only [hx]
      refine ih _ _ _ _ _ (fun b => x (.inr b)) ?_
      rwa [← mulVec_mulVec, ← mulVec_mulVec, add_assoc (reducedGravity D C)] at hok
    · rcases prev with _ | ⟨U, N⟩
      · simp [rqpFrom, hT]
      rcases K with _ | Kb
      · simp [rqpFrom, hT]
      simp only [rqpFrom, hT, if_true]
      rcases ncTorque D R P Kb U N T with _ | x
      · simp
      exact ih _ _ _ _ _ z h

end Levels

section Safe
variable {k c : ℕ} {ν : Type*} [Fintype ν] [DecidableEq ν]
variable {A : Matrix (RSys (Fin k) ν) (RSys (Fin k) ν) ℝ} {J : Matrix (Fin 6) ν ℝ} {G : RSys (Fin k) ν → ℝ}
  {D : Reduced (Fin k) ν} {Jc : Matrix (Fin c) (RSys (Fin k) ν) ℝ} {S : ContactSpace c (Fin k ⊕ ν)}
  {C : ReducedContact c (Fin k) ν} {SI : Mat6} {R : Mat3} {Q : RQPRobot k c}

/-- C88 (reduced model, safety; partial: tasks on the contact chains).  With a solver whose answers keep the constraints up to `ε`, a success
means: there is a joint torque that does not move the robot such that, with it, joints of the contact chains exceed their limits by at most
`ε` and every contact has to carry at most `ε` more than it can, in every motion of the full robot. -/
theorem C88_reduced_safe_partial {ε δ : ℝ} (hε : 0 ≤ ε) (hA : IsSPD A) (hR : R * Rᵀ = 1)
    (hJ : jInc SI R (baseNc A) = some J) (hcpl : ∀ (i : Fin k) (j : ν), A (.inr (.inl i)) (.inr (.inr j)) = 0)
    (h : reduce vcOf ncOf A⁻¹ J G = some D) (h0 : ∀ r j, Jc r (ncOf j) = 0)
    (hk : k ≤ c) (hB : BaseDetermined Jc) (hS : contactSpace Jc A⁻¹ = some S) (hC : reducedContact D Jc A⁻¹ = some C)
    (h6 : ∀ l ∈ Q.cs, l.type = .c6d) (hc : c = 6 * (active Q.cs).length)
    {f : CodNull C.W} (hN : 6 < c → reducedNwJw C f = some Q.NwJw)
    {solve : Solver} (hs : SolverWithin ε δ solve) {ts : List (RTaskIn (Fin k) ν)} (hne : ts ≠ []) (hts : ∀ T ∈ ts, T.noncont = false)
    {τ : Fin k ⊕ ν → ℝ} {τR : Fin k ⊕ Fin 6 → ℝ} (hr : reducedTaskTorqueQP D C R A⁻¹ Q solve ts = .ret 1 τ τR) :
    ∃ τc : Fin k ⊕ ν → ℝ, (c = 6 → τc = 0) ∧
      (∀ τ' qdd qdd' F F', Motion A Jc G τ' qdd F → Motion A Jc G (τ' + τc) qdd' F' → qdd' = qdd) ∧
      (∀ m (L : Fin m → ℝ), Q.limit = some ⟨m, L⟩ → ∃ hm : m = k + 6, ∀ i : Fin k,
        |(reducedGravityTorque D C + τ + τc) (.inl i)| ≤ L ⟨i, by omega⟩ + ε) ∧
      ∀ qdd F, Motion A Jc G (reducedGravityTorque D C + τ + τc) qdd F → ContactsNear ε Q.cs (F ∘ Fin.cast hc.symm) := by
  simp only [reducedTaskTorqueQP] at hr
  rcases hm : ts.mapM (calcJKTR D C (A⁻¹ * C.Nc)) with _ | rs
  · rw [hm] at hr; simp at hr
  rw [hm] at hr
  simp only at hr
  have hrs : ∀ T ∈ rs, T.noncont = false := by
    intro T hT
    obtain ⟨T', hT', e⟩ := mem_of_mapM hm T hT
    rw [noncont_of_calc e]; exact hts T' hT'
  have hrne : rs ≠ [] := by
    rintro rfl
    exact hne (List.length_eq_zero_iff.mp (length_of_mapM hm).symm)
  obtain ⟨rfl, lim, m, Cm, x, hfit, hst, hlim, hrow⟩ := rqp_chain_within hε hs rs hrs hrne _ _ _ _ hr
  obtain ⟨Cm', e', h'⟩ := stackC_within Q.cs h6 hc
  rw [hst] at e'
  simp only [Option.some.injEq, Sigma.mk.injEq] at e'
  obtain ⟨rfl, e'⟩ := e'
  obtain rfl := eq_of_heq e'
  obtain ⟨hF, -⟩ := rFacts hA hR hJ hcpl h h0 hk hB hS hC
  have hasm : ∀ a b : Fin k ⊕ Fin 6 → ℝ, assembleTorque D a 0 + assembleTorque D b 0 = assembleTorque D (a + b) 0 := by
    intro a b
    ext j
    rcases j with j | j
    · rfl
    · simp only [assembleTorque, Pi.add_apply, Sum.elim_inr, mulVec_zero, add_zero]
      rw [← Pi.add_apply (D.Jᵀ *ᵥ _), ← mulVec_add]
      rfl
  refine ⟨assembleTorque D (Q.NwJw *ᵥ x) 0, ?_, ?_, ?_, ?_⟩
  · intro h6'
    have : Q.NwJw *ᵥ x = 0 := by
      have : IsEmpty (Fin (c - 6)) := by rw [h6']; exact Fin.isEmpty
      ext j
      simp [mulVec, dotProduct]
    rw [this]
    ext j
    rcases j with j | j
    · rfl
    · simp only [assembleTorque, Sum.elim_inr, Pi.zero_apply, mulVec_zero, add_zero]
      exact congrFun (mulVec_zero D.Jᵀ) j
  · intro τ' qdd qdd' F F' hm1 hm2
    rw [motion_iff hA hS] at hm1 hm2
    rw [hm1.1, hm2.1]
    have hz : S.AinvNc *ᵥ actuate (assembleTorque D (Q.NwJw *ᵥ x) 0) = 0 := by
      rw [acc_assemble hF, mulVec_zero]
      have e0 : ncExt (κ := Fin k) (0 : ν → ℝ) = 0 := by ext a; rcases a with a | a | a <;> rfl
      rw [e0, mulVec_zero, add_zero]
      by_cases hc6 : 6 < c
      · exact (nwjwR_still hA hR hJ hcpl h h0 hk hB hS hC (hN hc6) x).1
      · have : IsEmpty (Fin (c - 6)) := by rw [show c - 6 = 0 by omega]; exact Fin.isEmpty
        have : Q.NwJw *ᵥ x = 0 := by ext j; simp [mulVec, dotProduct]
        rw [this, mulVec_zero]
    have e : actuate (τ' + assembleTorque D (Q.NwJw *ᵥ x) 0) = actuate τ' + actuate (assembleTorque D (Q.NwJw *ᵥ x) 0) := by
      ext a; rcases a with a | a <;> simp [actuate]
    rw [e, add_sub_right_comm, mulVec_add, hz, add_zero]
  · intro m L hL
    unfold RQPRobot.fit at hfit
    rw [hL] at hfit
    simp only at hfit
    split_ifs at hfit with hm
    refine ⟨hm, fun i => ?_⟩
    have := hlim _ (Option.some.inj hfit).symm (.inl i)
    exact this
  · intro qdd F hM
    rw [(C01_contact_force_exact hA hS G _).2.1 _ _ hM, add_assoc, hasm,
      assembled_force hA hR hJ hcpl h h0 hk hB hS hC, ← add_assoc]
    exact (h' ε _).mp hrow

end Safe

section Fail
variable {k nc c : ℕ} {A : Matrix (RSys (Fin k) (Fin nc)) (RSys (Fin k) (Fin nc)) ℝ} {Jc : Matrix (Fin c) (RSys (Fin k) (Fin nc)) ℝ}
  {G : RSys (Fin k) (Fin nc) → ℝ} {SI : Mat6} {R : Mat3} {J : Matrix (Fin 6) (Fin nc) ℝ} {D : Reduced (Fin k) (Fin nc)}
  {S : ContactSpace c (Fin k ⊕ Fin nc)} {C : ReducedContact c (Fin k) (Fin nc)} {Q : RQPRobot k c}

/-- C88 (reduced model, a safe robot).  Several feet on the ground, a solver with tolerances that answers every problem solvable within them:
if gravity compensation can be made safe by a torque that moves nothing, no task list makes task control fail. -/
theorem C88_reduced_never_fails_partial {ε η : ℝ} (hε : 0 ≤ ε) (hη : 0 ≤ η) (hA : IsSPD A) (hR : R * Rᵀ = 1)
    (hJ : jInc SI R (baseNc A) = some J) (hcpl : ∀ (i : Fin k) (j : Fin nc), A (.inr (.inl i)) (.inr (.inr j)) = 0)
    (h : reduce vcOf ncOf A⁻¹ J G = some D) (h0 : ∀ r j, Jc r (ncOf j) = 0)
    (hk : k ≤ c) (hB : BaseDetermined Jc) (hS : contactSpace Jc A⁻¹ = some S) (hC : reducedContact D Jc A⁻¹ = some C)
    (h6 : ∀ l ∈ Q.cs, l.type = .c6d) (hp : ∀ l ∈ Q.cs, 0 < l.planeX ∧ 0 < l.planeY) (hc : c = 6 * (active Q.cs).length)
    (hc6 : 6 < c) {f : CodNull C.W} (hN : reducedNwJw C f = some Q.NwJw)
    {solve : Solver} (hs : SolverWithin ε η solve) (hcomp : AnswersWithin ε η solve) {δ : Fin k ⊕ Fin nc → ℝ} (hsafe : RSafe A Jc G D C Q hc 0 δ)
    (ts : List (RTaskIn (Fin k) (Fin nc))) (τ : Fin k ⊕ Fin nc → ℝ) (τR : Fin k ⊕ Fin 6 → ℝ) :
    reducedTaskTorqueQP D C R A⁻¹ Q solve ts ≠ .ret 0 τ τR := by
  obtain ⟨Cm, e, h'⟩ := stackC_holds h6 hp hc
  rcases hfit : Q.fit with _ | lim
  · intro hr
    simp only [reducedTaskTorqueQP] at hr
    rcases hm : ts.mapM (calcJKTR D C (A⁻¹ * C.Nc)) with _ | rs
    · rw [hm] at hr; simp at hr
    rw [hm] at hr
    simp only at hr
    have key : ∀ (rs : List (RTask (Fin k) (Fin nc))) i prev τR0 f0 nc0,
        rqpFrom D C R (A⁻¹ * C.Nc) ((jktR C.ARinvNCR C.Winv (jBaseR R)).map Prod.snd) Q solve i prev τR0 f0 nc0 rs ≠ .ret 0 τ τR := by
      intro rs
      generalize (jktR C.ARinvNCR C.Winv (jBaseR R)).map Prod.snd = K
      induction rs with
      | nil =>
        intro i prev τR0 f0 nc0
        rw [rqpFrom]
        rcases nc0 with _ | a
        · simp [rqpFinish]
        · rcases K with _ | K <;> simp [rqpFinish, hfit]
      | cons T rest ih =>
        intro i prev τR0 f0 nc0
        rcases hT : T.noncont with _ | _
        · rw [rqpFrom_chain _ _ _ _ _ _ _ _ _ _ _ _ hT, hfit]
          simp
        · rcases prev with _ | ⟨U, N⟩
          · simp [rqpFrom, hT]
          rcases K with _ | Kb
          · simp [rqpFrom, hT]
          simp only [rqpFrom, hT, if_true]
          rcases ncTorque D R (A⁻¹ * C.Nc) Kb U N T with _ | x
          · simp
          exact ih _ _ _ _ _
    exact key _ _ _ _ _ _ hr
  · obtain ⟨h1, h2⟩ := okR_iff_safe hA hR hJ hcpl h h0 hk hB hS hC hc hc6 hN hfit h' 0
    obtain ⟨z, rfl⟩ := h2 δ hsafe
    simp only [reducedTaskTorqueQP]
    rcases ts.mapM (calcJKTR D C (A⁻¹ * C.Nc)) with _ | rs
    · simp
    · exact rqp_go_within hε hη hfit e hs hcomp rs 0 none 0 0 none z (((h1 z).mpr hsafe).within hε) τ τR

end Fail

/-- The hypotheses are met by the robot of C59 on two feet with a task accelerating its arm, and a solver with any tolerances. -/
theorem C88_reduced_hypotheses_met {ε δ : ℝ} (hε : 0 ≤ ε) (hδ : 0 ≤ δ) :
    SolverWithin ε δ (evenSolver ε δ) ∧ AnswersWithin ε δ (evenSolver ε δ) ∧
    ∃ D S C N τ τR, reduce vcOf ncOf (exRed 6)⁻¹ 1 TwoFeet.G = some D ∧
      contactSpace TwoFeet.Jc (exRed 6)⁻¹ = some S ∧ reducedContact D TwoFeet.Jc (exRed 6)⁻¹ = some C ∧
      (∃ f : CodNull C.W, reducedNwJw C f = some N) ∧
      (∃ δ, RSafe (exRed 6) TwoFeet.Jc TwoFeet.G D C (TwoFeet.robot N) Stand.dof 0 δ) ∧
      reducedTaskTorqueQP D C 1 (exRed 6)⁻¹ (TwoFeet.robot N) (evenSolver ε δ) [TwoFeetFail.task] = .ret 1 τ τR := by
  obtain ⟨hs, hcomp, -⟩ := C88_never_fails_met (fun W => (exists_codNull W).some) ε δ
  refine ⟨hs, hcomp, ?_⟩
  obtain ⟨D, S, C, N, hD, hS, hC, ⟨f, hf⟩, ⟨η, hη⟩, q, hq⟩ := C69_hypotheses_met
  have hnf := C88_reduced_never_fails_partial (Q := TwoFeet.robot N) hε hδ exRed_spd (by simp) exRed_jInc exRed_coupling hD TwoFeet.zero
    (by norm_num) TwoFeet.base hS hC Stand.six Stand.plane Stand.dof (by norm_num) hf hs hcomp hη [TwoFeetFail.task]
  obtain ⟨Cm, ec, -⟩ := stackC_holds (c := 12) (cs := (TwoFeet.robot N).cs) Stand.six Stand.plane Stand.dof
  have hT : q.noncont = false := by
    have := toIn_of_calc hq
    rw [show q.noncont = q.toRTaskIn.noncont from rfl, this]
    rfl
  have hm : [TwoFeetFail.task].mapM (calcJKTR D C ((exRed 6)⁻¹ * C.Nc)) = some [q] := by
    rw [List.mapM_cons, hq]; rfl
  have hfit : (TwoFeet.robot N).fit = some (some fun _ => 10) := rfl
  rcases hr : reducedTaskTorqueQP D C 1 (exRed 6)⁻¹ (TwoFeet.robot N) (evenSolver ε δ) [TwoFeetFail.task] with _ | ⟨v, τ, τR⟩
  · simp only [reducedTaskTorqueQP, hm] at hr
    rw [rqpFrom_chain _ _ _ _ _ _ _ _ _ _ _ _ hT, hfit, ec] at hr
    simp only at hr
    split at hr
    · cases hr
    · rw [rqpFrom, rqpFinish] at hr
      cases hr
  · have hv : v = 1 := by
      have hr' := hr
      simp only [reducedTaskTorqueQP, hm] at hr'
      rcases rqp_fail_zero _ _ _ _ _ _ hr' with hv | ⟨rfl, -⟩
      · exact hv
      · exact absurd hr (hnf τ τR)
    subst hv
    exact ⟨D, S, C, N, τ, τR, hD, hS, hC, ⟨f, hf⟩, ⟨η, hη⟩, hr⟩

end Verif.Props
