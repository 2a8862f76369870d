import Verif.Props.ReducedQP
import Verif.Lemmas.ReducedFail

/-!
# C69: when QP task control on the reduced model fails, and what it leaves behind
-/

set_option linter.unusedSectionVars false

namespace Verif.Props
open Matrix Verif Verif.Spec Verif.Model

section General

variable {k nc c : ℕ} {A : Matrix (RSys (Fin k) (Fin nc)) (RSys (Fin k) (Fin nc)) ℝ} {Jc : Matrix (Fin c) (RSys (Fin k) (Fin nc)) ℝ}
  {G : RSys (Fin k) (Fin nc) → ℝ} {SI : Mat6} {R : Mat3} {J : Matrix (Fin 6) (Fin nc) ℝ} {D : Reduced (Fin k) (Fin nc)}
  {S : ContactSpace c (Fin k ⊕ Fin nc)} {C : ReducedContact c (Fin k) (Fin nc)} {Q : RQPRobot k c}

/-- `δ` is a torque of the full robot that moves nothing and makes gravity compensation and the torque `τR` of the reduced model safe: no
contact tips or slips in any motion of the full robot, and every joint of the contact chains is within its limit.  The last six limits
apply to the six virtual joints of the reduced model. -/
def RSafe (A : Matrix (RSys (Fin k) (Fin nc)) (RSys (Fin k) (Fin nc)) ℝ) (Jc : Matrix (Fin c) (RSys (Fin k) (Fin nc)) ℝ)
    (G : RSys (Fin k) (Fin nc) → ℝ) (D : Reduced (Fin k) (Fin nc)) (C : ReducedContact c (Fin k) (Fin nc)) (Q : RQPRobot k c)
    (hc : c = 6 * (active Q.cs).length) (τR : Fin k ⊕ Fin 6 → ℝ) (δ : Fin k ⊕ Fin nc → ℝ) : Prop :=
  (∀ τ' qdd qdd' F F', Motion A Jc G τ' qdd F → Motion A Jc G (τ' + δ) qdd' F' → qdd' = qdd) ∧
  (∀ qdd F, Motion A Jc G (reducedGravityTorque D C + assembleTorque D τR 0 + δ) qdd F →
    ContactsHold Q.cs (F ∘ Fin.cast hc.symm)) ∧
  ∀ m (L : Fin m → ℝ) (hm : m = k + 6), Q.limit = some ⟨m, L⟩ →
    (∀ i : Fin k, |(reducedGravityTorque D C + assembleTorque D τR 0 + δ) (.inl i)| ≤ L ⟨i, by omega⟩) ∧
    ∀ s : Fin 6, |(reducedGravity D C + τR) (.inr s)| ≤ L ⟨k + s, by omega⟩

theorem fit_iff {lim : Option (Fin (k + 6) → ℝ)} (hfit : Q.fit = some lim) (L : Fin (k + 6) → ℝ) :
    lim = some L ↔ ∃ m, ∃ L' : Fin m → ℝ, ∃ hm : m = k + 6, Q.limit = some ⟨m, L'⟩ ∧ L = L' ∘ Fin.cast hm.symm := by
  unfold RQPRobot.fit at hfit
  rcases hq : Q.limit with _ | ⟨m, L⟩
  · rw [hq] at hfit
    obtain rfl := Option.some.inj hfit
    simp
  · rw [hq] at hfit
    simp only at hfit
    split_ifs at hfit with hm
    obtain rfl := Option.some.inj hfit
    subst hm
    constructor
    · intro hh
      exact ⟨_, L, rfl, rfl, (Option.some.inj hh).symm⟩
    · rintro ⟨m', L', rfl, hh, rfl⟩
      simp only [Option.some.injEq, Sigma.mk.injEq, heq_eq_eq, true_and] at hh
      rw [hh]

theorem okR_iff_safe (hA : IsSPD A) (hR : R * Rᵀ = 1)
    (hJ : jInc SI R (baseNc A) = some J) (hcpl : ∀ (i : Fin k) (j : Fin nc), A (.inr (.inl i)) (.inr (.inr j)) = 0)
    (h : reduce vcOf ncOf A⁻¹ J G = some D) (h0 : ∀ r j, Jc r (ncOf j) = 0)
    (hk : k ≤ c) (hB : BaseDetermined Jc) (hS : contactSpace Jc A⁻¹ = some S) (hC : reducedContact D Jc A⁻¹ = some C)
    (hc : c = 6 * (active Q.cs).length) (hc6 : 6 < c) {f : CodNull C.W} (hN : reducedNwJw C f = some Q.NwJw)
    {lim : Option (Fin (k + 6) → ℝ)} (hfit : Q.fit = some lim) {m : ℕ} {Cm : Matrix (Fin m) (Fin c) ℝ}
    (h' : ∀ F : Fin c → ℝ, (∀ r, 0 ≤ (Cm *ᵥ F) r) ↔ ContactsHold Q.cs (F ∘ Fin.cast hc.symm)) (τR : Fin k ⊕ Fin 6 → ℝ) :
    (∀ z, OkR D C lim Cm (reducedGravity D C + τR + Q.NwJw *ᵥ z) ↔ RSafe A Jc G D C Q hc τR (assembleTorque D (Q.NwJw *ᵥ z) 0)) ∧
    ∀ δ, RSafe A Jc G D C Q hc τR δ → ∃ z, δ = assembleTorque D (Q.NwJw *ᵥ z) 0 := by
  classical
  obtain ⟨hF, -⟩ := rFacts hA hR hJ hcpl h h0 hk hB hS hC
  have hind := independent_of_some hA hS
  have hlast : IsUnit (lastSixBase hc6 Jc).det :=
    ((C59_finite_iff_partial hA h h0 hk hind hC hc6
      (fun W => if hW : W = C.W then hW ▸ f else (exists_codNull W).some)).mp ⟨Q.NwJw, by simpa using hN⟩).2
  obtain ⟨S', ⟨m', V2, NwJw⟩, hfull⟩ := (C05_outcome hA hind hc6 fun W => (exists_codNull W).some).1.mpr ⟨hB, hlast⟩
  have hsame := C59_same_torques_partial hA hR hJ hcpl h h0 hk hB hC hc6 _ hfull hN
  have hforce : ∀ z qdd F, Motion A Jc G (reducedGravityTorque D C + assembleTorque D τR 0 + assembleTorque D (Q.NwJw *ᵥ z) 0) qdd F →
      F = forceR D C (reducedGravity D C + τR + Q.NwJw *ᵥ z) := by
    intro z qdd F hM
    rw [(C01_contact_force_exact hA hS G _).2.1 _ _ hM, add_assoc, assemble_add,
      assembled_force hA hR hJ hcpl h h0 hk hB hS hC, ← add_assoc]
  constructor
  · intro z
    obtain ⟨hacc, hlow⟩ := nwjwR_still hA hR hJ hcpl h h0 hk hB hS hC hN z
    have hstill : ∀ τ' qdd qdd' F F', Motion A Jc G τ' qdd F → Motion A Jc G (τ' + assembleTorque D (Q.NwJw *ᵥ z) 0) qdd' F' →
        qdd' = qdd := by
      intro τ' qdd qdd' F F' hm1 hm2
      rw [hsame] at hm2
      exact (C04_internal_force hA hc6 _ hfull G τ' z hm1 hm2).1
    have hhold : (∀ r, 0 ≤ (Cm *ᵥ forceR D C (reducedGravity D C + τR + Q.NwJw *ᵥ z)) r) ↔
        ∀ qdd F, Motion A Jc G (reducedGravityTorque D C + assembleTorque D τR 0 + assembleTorque D (Q.NwJw *ᵥ z) 0) qdd F →
          ContactsHold Q.cs (F ∘ Fin.cast hc.symm) := by
      rw [h']
      constructor
      · intro hh qdd F hM
        rw [hforce _ _ _ hM]; exact hh
      · intro hh
        obtain ⟨qdd, hM⟩ := (C01_contact_force_exact hA hS G
          (reducedGravityTorque D C + assembleTorque D τR 0 + assembleTorque D (Q.NwJw *ᵥ z) 0)).1
        have := hh _ _ hM
        rwa [hforce _ _ _ hM] at this
    have hlims : (∀ L, lim = some L → ∀ j, |(reducedGravity D C + τR + Q.NwJw *ᵥ z) j| ≤ L (finSumFinEquiv j)) ↔
        ∀ m (L : Fin m → ℝ) (hm : m = k + 6), Q.limit = some ⟨m, L⟩ →
          (∀ i : Fin k, |(reducedGravityTorque D C + assembleTorque D τR 0 + assembleTorque D (Q.NwJw *ᵥ z) 0) (.inl i)|
            ≤ L ⟨i, by omega⟩) ∧
          ∀ s : Fin 6, |(reducedGravity D C + τR) (.inr s)| ≤ L ⟨k + s, by omega⟩ := by
      constructor
      · intro hh m L hm hL
        have h2 := hh _ ((fit_iff hfit _).mpr ⟨m, L, hm, hL, rfl⟩)
        refine ⟨fun i => h2 (.inl i), fun s => ?_⟩
        have := h2 (.inr s)
        rw [Pi.add_apply, hlow, add_zero] at this
        exact this
      · intro hh L hL j
        obtain ⟨m, L', hm, hq, rfl⟩ := (fit_iff hfit L).mp hL
        obtain ⟨h1, h2⟩ := hh m L' hm hq
        rcases j with i | s
        · exact h1 i
        · rw [Pi.add_apply, hlow, add_zero]
          exact h2 s
    unfold OkR
    rw [hhold, hlims]
    exact ⟨fun ⟨a, b⟩ => ⟨hstill, b, a⟩, fun ⟨_, b, a⟩ => ⟨a, b⟩⟩
  · rintro δ ⟨hst, -, -⟩
    obtain ⟨qdd, hM⟩ := (C01_contact_force_exact hA hS G 0).1
    obtain ⟨qdd', hM'⟩ := (C01_contact_force_exact hA hS G (0 + δ)).1
    obtain rfl := hst _ _ _ _ _ hM hM'
    exact ⟨_, (C04_every_internal_force hA hc6 _ hfull G 0 δ hM hM').trans (hsame _).symm⟩

/-- C69 (a safe robot).  Several feet on the ground, a sound solver that answers every solvable problem: if gravity compensation can be made
safe by a torque that moves nothing, task control with the reduced model and quadratic programmes never reports failure, whatever
tasks are given. -/
theorem C69_never_fails_partial (hA : IsSPD A) (hR : R * Rᵀ = 1)
    (hJ : jInc SI R (baseNc A) = some J) (hcpl : ∀ (i : Fin k) (j : Fin nc), A (.inr (.inl i)) (.inr (.inr j)) = 0)
    (h : reduce vcOf ncOf A⁻¹ J G = some D) (h0 : ∀ r j, Jc r (ncOf j) = 0)
    (hk : k ≤ c) (hB : BaseDetermined Jc) (hS : contactSpace Jc A⁻¹ = some S) (hC : reducedContact D Jc A⁻¹ = some C)
    (h6 : ∀ l ∈ Q.cs, l.type = .c6d) (hp : ∀ l ∈ Q.cs, 0 < l.planeX ∧ 0 < l.planeY) (hc : c = 6 * (active Q.cs).length)
    (hc6 : 6 < c) {f : CodNull C.W} (hN : reducedNwJw C f = some Q.NwJw)
    {solve : Solver} (hs : solve.Sound) (hcomp : solve.Complete) {δ : Fin k ⊕ Fin nc → ℝ} (hsafe : RSafe A Jc G D C Q hc 0 δ)
    (ts : List (RTaskIn (Fin k) (Fin nc))) (τ : Fin k ⊕ Fin nc → ℝ) (τR : Fin k ⊕ Fin 6 → ℝ) :
    reducedTaskTorqueQP D C R A⁻¹ Q solve ts ≠ .ret 0 τ τR := by
  obtain ⟨Cm, e, h'⟩ := stackC_holds h6 hp hc
  rcases hfit : Q.fit with _ | lim
  · intro hr
    simp only [reducedTaskTorqueQP] at hr
    rcases hm : ts.mapM (calcJKTR D C (A⁻¹ * C.Nc)) with _ | rs
    · rw [hm] at hr; simp at hr
    rw [hm] at hr
    simp only at hr
    have key : ∀ (rs : List (RTask (Fin k) (Fin nc))) i prev τR0 f0 nc0,
        rqpFrom D C R (A⁻¹ * C.Nc) ((jktR C.ARinvNCR C.Winv (jBaseR R)).map Prod.snd) Q solve i prev τR0 f0 nc0 rs ≠ .ret 0 τ τR := by
      intro rs
      generalize (jktR C.ARinvNCR C.Winv (jBaseR R)).map Prod.snd = K
      induction rs with
      | nil =>
        intro i prev τR0 f0 nc0
        rw [rqpFrom]
        rcases nc0 with _ | a
        · simp [rqpFinish]
        · rcases K with _ | K <;> simp [rqpFinish, hfit]
      | cons T rest ih =>
        intro i prev τR0 f0 nc0
        rcases hT : T.noncont with _ | _
        · rw [rqpFrom_chain _ _ _ _ _ _ _ _ _ _ _ _ hT, hfit]
          simp
        · rcases prev with _ | ⟨U, N⟩
          · simp [rqpFrom, hT]
          rcases K with _ | Kb
          · simp [rqpFrom, hT]
          simp only [rqpFrom, hT, if_true]
          rcases ncTorque D R (A⁻¹ * C.Nc) Kb U N T with _ | x
          · simp
          exact ih _ _ _ _ _
    exact key _ _ _ _ _ _ hr
  · obtain ⟨h1, h2⟩ := okR_iff_safe hA hR hJ hcpl h h0 hk hB hS hC hc hc6 hN hfit h' 0
    obtain ⟨z, rfl⟩ := h2 δ hsafe
    simp only [reducedTaskTorqueQP]
    rcases ts.mapM (calcJKTR D C (A⁻¹ * C.Nc)) with _ | rs
    · simp
    · exact rqp_go hfit e hs hcomp rs 0 none 0 0 none z ((h1 z).mpr hsafe) τ τR

/-- C69 (only the first task).  Several feet on the ground, a torque limit of the size of the reduced model (if any), a sound solver that
answers every solvable problem, all tasks regular and the first one on a contact chain or the centre of mass: task control with the
reduced model reports failure exactly when no acceleration of the first task, together with any torque that moves nothing, is safe.
Lower tasks, on the chains or outside them, never make it fail. -/
theorem C69_fails_iff_partial (hA : IsSPD A) (hR : R * Rᵀ = 1)
    (hJ : jInc SI R (baseNc A) = some J) (hcpl : ∀ (i : Fin k) (j : Fin nc), A (.inr (.inl i)) (.inr (.inr j)) = 0)
    (h : reduce vcOf ncOf A⁻¹ J G = some D) (h0 : ∀ r j, Jc r (ncOf j) = 0)
    (hk : k ≤ c) (hB : BaseDetermined Jc) (hS : contactSpace Jc A⁻¹ = some S) (hC : reducedContact D Jc A⁻¹ = some C)
    (h6 : ∀ l ∈ Q.cs, l.type = .c6d) (hp : ∀ l ∈ Q.cs, 0 < l.planeX ∧ 0 < l.planeY) (hc : c = 6 * (active Q.cs).length)
    (hc6 : 6 < c) {f : CodNull C.W} (hN : reducedNwJw C f = some Q.NwJw)
    (hL : ∀ m (L : Fin m → ℝ), Q.limit = some ⟨m, L⟩ → m = k + 6)
    {solve : Solver} (hs : solve.Sound) (hcomp : solve.Complete) {T : RTaskIn (Fin k) (Fin nc)} (hT : T.noncont = false)
    {lower : List (RTaskIn (Fin k) (Fin nc))} {q : RTask (Fin k) (Fin nc)} (hq : calcJKTR D C (A⁻¹ * C.Nc) T = some q)
    (hlow : ∀ T' ∈ lower, ∃ q', calcJKTR D C (A⁻¹ * C.Nc) T' = some q') :
    (∃ τ τR, reducedTaskTorqueQP D C R A⁻¹ Q solve (T :: lower) = .ret 0 τ τR) ↔
      ¬ ∃ a δ, RSafe A Jc G D C Q hc (q.Jkt *ᵥ (q.Λ *ᵥ a)) δ := by
  obtain ⟨Cm, e, h'⟩ := stackC_holds h6 hp hc
  obtain ⟨lim, hfit⟩ : ∃ lim, Q.fit = some lim := by
    unfold RQPRobot.fit
    rcases hq : Q.limit with _ | ⟨m, L⟩
    · exact ⟨none, rfl⟩
    · simp only [dif_pos (hL m L hq)]
      exact ⟨_, rfl⟩
  have hqn : q.noncont = false := by rw [noncont_of_calc hq]; exact hT
  obtain ⟨rs, hrs⟩ : ∃ rs, lower.mapM (calcJKTR D C (A⁻¹ * C.Nc)) = some rs := by
    clear hq hqn
    induction lower with
    | nil => exact ⟨[], rfl⟩
    | cons T' l ih =>
      obtain ⟨rs, hrs⟩ := ih fun U hU => hlow U (List.mem_cons_of_mem _ hU)
      obtain ⟨q', hq'⟩ := hlow T' (List.mem_cons_self ..)
      exact ⟨q' :: rs, by simp [List.mapM_cons, hq', hrs]⟩
  have hmm : (T :: lower).mapM (calcJKTR D C (A⁻¹ * C.Nc)) = some (q :: rs) := by simp [List.mapM_cons, hq, hrs]
  have hfe : (∃ x, (rQP D C Q lim Cm (prevNull (ν := Fin nc) none * (q.Jkt * q.Λ)) q.f (reducedGravity D C + 0)).Feasible x) ↔
      ∃ a δ, RSafe A Jc G D C Q hc (q.Jkt *ᵥ (q.Λ *ᵥ a)) δ := by
    rw [rQP_feasible_iff]
    refine exists_congr fun a => ?_
    obtain ⟨h1, h2⟩ := okR_iff_safe hA hR hJ hcpl h h0 hk hB hS hC hc hc6 hN hfit h' (q.Jkt *ᵥ (q.Λ *ᵥ a))
    have e1 : (prevNull (ν := Fin nc) (κ := Fin k) none * (q.Jkt * q.Λ)) *ᵥ a = q.Jkt *ᵥ (q.Λ *ᵥ a) := by
      rw [show prevNull (ν := Fin nc) (κ := Fin k) none = 1 from rfl, Matrix.one_mul, mulVec_mulVec]
    rw [add_zero, e1]
    constructor
    · rintro ⟨z, hz⟩
      exact ⟨_, (h1 z).mp hz⟩
    · rintro ⟨δ, hδ⟩
      obtain ⟨z, rfl⟩ := h2 δ hδ
      exact ⟨z, (h1 z).mpr hδ⟩
  simp only [reducedTaskTorqueQP, hmm]
  rw [rqpFrom_chain _ _ _ _ _ _ _ _ _ _ _ _ hqn, hfit, e, ← hfe]
  simp only
  rcases hx : solve 0 q.t (c - 6) (rQP D C Q lim Cm (prevNull (ν := Fin nc) none * (q.Jkt * q.Λ)) q.f (reducedGravity D C + 0))
    with _ | x
  · simp only [RCtrlResult.ret.injEq, true_and]
    refine ⟨fun _ hfx => ?_, fun _ => ⟨_, _, rfl, rfl⟩⟩
    obtain ⟨x, hfx⟩ := hfx
    have := hcomp 0 _ _ _ (rQP_exists _ _ _ hfx)
    rw [hx] at this
    cases this
  · simp only
    have hfx := hs _ _ _ _ _ hx
    refine ⟨fun ⟨τ, τR, hr⟩ => ?_, fun hno => absurd ⟨x, hfx⟩ hno⟩
    refine absurd hr (rqp_go hfit e hs hcomp rs _ _ _ _ _ (fun b => x (.inr b)) ?_ τ τR)
    have := (rQP_feasible D C Q lim Cm _ _ _ x).mp hfx
    rwa [← mulVec_mulVec, ← mulVec_mulVec, add_assoc (reducedGravity D C)] at this

/-- C69, negation (what failing leaves).  After a failure the task torque is zero, also when only a lower task was given up; control with the
full model keeps the tasks above (`C60_failure_keeps`). -/
theorem C69_failure_zero {Ainv : Matrix (RSys (Fin k) (Fin nc)) (RSys (Fin k) (Fin nc)) ℝ} {solve : Solver}
    {ts : List (RTaskIn (Fin k) (Fin nc))} {v : ℕ} {τ : Fin k ⊕ Fin nc → ℝ} {τR : Fin k ⊕ Fin 6 → ℝ}
    (h : reducedTaskTorqueQP D C R Ainv Q solve ts = .ret v τ τR) : v = 1 ∨ v = 0 ∧ τ = 0 := by
  simp only [reducedTaskTorqueQP] at h
  rcases hm : ts.mapM (calcJKTR D C (Ainv * C.Nc)) with _ | rs
  · rw [hm] at h; simp at h
  · rw [hm] at h
    exact rqp_fail_zero _ _ _ _ _ _ h

/-- C69 (what redistribution reads after a failure).  Tasks on the contact chains, then tasks on the other links: the torque of the
reduced model that a failing call leaves, and that redistribution works on, is the one for which the tasks above the failing one succeed
(all chain tasks, if the QP for the tasks on the other links fails). -/
theorem C69_reduced_torque_kept {Ainv : Matrix (RSys (Fin k) (Fin nc)) (RSys (Fin k) (Fin nc)) ℝ} {solve : Solver}
    {ts free : List (RTaskIn (Fin k) (Fin nc))} (hts : ∀ T ∈ ts, T.noncont = false) (hfree : ∀ T ∈ free, T.noncont = true)
    {τ : Fin k ⊕ Fin nc → ℝ} {τR : Fin k ⊕ Fin 6 → ℝ}
    (h : reducedTaskTorqueQP D C R Ainv Q solve (ts ++ free) = .ret 0 τ τR) :
    ∃ i ≤ ts.length, i < (ts ++ free).length ∧
      reducedTaskTorqueQP D C R Ainv Q solve (ts.take i) = .ret 1 (assembleTorque D τR 0) τR := by
  simp only [reducedTaskTorqueQP] at h
  rcases hm : (ts ++ free).mapM (calcJKTR D C (Ainv * C.Nc)) with _ | rs
  · rw [hm] at h; simp at h
  rw [hm] at h
  have hlen := length_of_mapM hm
  have h1 := mapM_take hm ts.length
  rw [List.take_left] at h1
  have hsplit : rs = rs.take ts.length ++ rs.drop ts.length := (List.take_append_drop _ _).symm
  have hdrop : ∀ (l : List (RTaskIn (Fin k) (Fin nc))) (m : List (RTask (Fin k) (Fin nc))) n,
      l.mapM (calcJKTR D C (Ainv * C.Nc)) = some m → (l.drop n).mapM (calcJKTR D C (Ainv * C.Nc)) = some (m.drop n) := by
    intro l
    induction l with
    | nil => intro m n hh; simp at hh; subst hh; simp
    | cons a l ih =>
      intro m n hh
      rw [List.mapM_cons] at hh
      rcases ha : calcJKTR D C (Ainv * C.Nc) a with _ | a'
      · rw [ha] at hh; simp at hh
      rcases hl : l.mapM (calcJKTR D C (Ainv * C.Nc)) with _ | l'
      · rw [ha, hl] at hh; simp at hh
      rw [ha, hl] at hh
      have hh' : a' :: l' = m := Option.some.inj hh
      subst hh'
      cases n with
      | zero => simp only [List.drop_zero]; rw [List.mapM_cons, ha, hl]; rfl
      | succ n => simp only [List.drop_succ_cons]; exact ih l' n hl
  have h2 := hdrop _ _ ts.length hm
  rw [List.drop_left] at h2
  have hrs : ∀ T ∈ rs.take ts.length, T.noncont = false := by
    intro T hT
    obtain ⟨T', hT', e⟩ := mem_of_mapM h1 T hT
    rw [noncont_of_calc e]; exact hts T' hT'
  have hrf : ∀ T ∈ rs.drop ts.length, T.noncont = true := by
    intro T hT
    obtain ⟨T', hT', e⟩ := mem_of_mapM h2 T hT
    rw [noncont_of_calc e]; exact hfree T' hT'
  simp only at h
  rw [hsplit] at h
  obtain ⟨j, hj, hj', e⟩ := rqp_fail_prefix _ _ hrs hrf _ _ _ _ h
  have l1 := length_of_mapM h1
  have l2 := length_of_mapM h2
  refine ⟨j, by omega, by rw [List.length_append]; omega, ?_⟩
  simp only [reducedTaskTorqueQP, mapM_take h1 j]
  exact e

end General

namespace TwoFeetFail

open TwoFeet (Jc G)

/-- the joints of the arm -/
noncomputable def TJ : Matrix (Fin 6) (RSys (Fin 6) (Fin 6)) ℝ :=
  Matrix.of fun r a => Sum.elim (fun _ => 0) (Sum.elim (fun _ => 0) fun j => if r = j then 1 else 0) a

theorem TJ_mulVec (v : RSys (Fin 6) (Fin 6) → ℝ) : TJ *ᵥ v = fun r => v (.inr (.inr r)) := by
  ext r
  simp [TJ, mulVec, dotProduct, Fintype.sum_sum_type]

theorem TJ_transpose (y : Fin 6 → ℝ) : TJᵀ *ᵥ y = actuate (Sum.elim 0 y : Fin 6 ⊕ Fin 6 → ℝ) := by
  ext a
  rcases a with a | a | a <;> simp [TJ, mulVec, dotProduct, actuate]

/-- the acceleration asked for -/
noncomputable def aim : Fin 6 → ℝ := fun r => if r = 0 then 20 else if r = 2 then 198 else 0

/-- accelerate the arm forwards and upwards -/
noncomputable def task : RTaskIn (Fin 6) (Fin 6) where
  t := 6
  J := TJ
  f := aim
  cmm := true
  reduced := false
  noncont := false
  ncOrder := 0

/-- two feet on the ground, no torque limit -/
noncomputable def robot (N : Matrix (Fin 6 ⊕ Fin 6) (Fin (12 - 6)) ℝ) : RQPRobot 6 12 where
  NwJw := N
  limit := none
  cs := Stand.cs

/-- the weight redistribution uses for two feet parallel to the ground: everything but the vertical force -/
noncomputable def Wt : Matrix (Fin 12) (Fin 12) ℝ := Matrix.diagonal fun i => if i.val % 6 = 2 then 0 else 1

/-- a solver that gives up on the second task -/
noncomputable def giveUp (solve : Solver) : Solver := fun i t n d => if i = 1 then none else solve i t n d

theorem giveUp_exact {solve : Solver} (hs : solve.Exact) : (giveUp solve).Exact := by
  intro i t n d x h
  unfold giveUp at h
  split_ifs at h
  exact hs _ _ _ _ _ h

/-- contact forces under leg torques `ℓ` and arm torques `y` -/
noncomputable def force (ℓ y : Fin 6 → ℝ) : Fin 12 → ℝ := fun r =>
  if h : r.val < 6 then -(if r.val = 2 then 2 else 0) - y ⟨r, h⟩ / 2 - ℓ ⟨r, h⟩ else ℓ ⟨r - 6, by omega⟩

theorem force_left (ℓ y : Fin 6 → ℝ) (i : Fin 6) : force ℓ y ⟨i, by omega⟩ = -(if i.val = 2 then 2 else 0) - y i / 2 - ℓ i := by
  simp [force]

theorem force_right (ℓ y : Fin 6 → ℝ) (i : Fin 6) : force ℓ y ⟨6 + i, by omega⟩ = ℓ i := by
  simp [force]

theorem motion (ℓ y : Fin 6 → ℝ) :
    Motion (exRed 6) Jc G (Sum.elim ℓ y) (Sum.elim 0 (Sum.elim 0 fun j => y j / 2)) (force ℓ y) := by
  have hq : exE 6 *ᵥ (Sum.elim 0 (Sum.elim 0 fun j => y j / 2) : RSys (Fin 6) (Fin 6) → ℝ) = fun j => y j / 2 := by
    ext s
    simp [mulVec, dotProduct, exE, Fintype.sum_sum_type]
  constructor
  · unfold Dynamics
    rw [exRed, add_mulVec, one_mulVec, ← mulVec_mulVec, hq, TwoFeet.transpose_mulVec]
    ext a
    rcases a with a | a | a
    · fin_cases a <;> simp [G, actuate, mulVec, dotProduct, Ex.J, Fin.sum_univ_succ, force, exE] <;> ring
    · fin_cases a <;> simp [G, actuate, mulVec, dotProduct, Ex.J, Fin.sum_univ_succ, force, exE]
    · simp [G, actuate, mulVec, dotProduct, exE]
  · unfold ContactsFixed
    ext r
    simp [mulVec, dotProduct, Fintype.sum_sum_type, Jc]

/-- what the two motions of the same robot under the same torque have in common -/
theorem motion_eq {τ : Fin 6 ⊕ Fin 6 → ℝ} {qdd F} (h : Motion (exRed 6) Jc G τ qdd F) :
    qdd = Sum.elim (0 : Fin 6 → ℝ) (Sum.elim (0 : Fin 6 → ℝ) fun j => τ (.inr j) / 2) ∧ F = force (fun i => τ (.inl i)) fun j => τ (.inr j) := by
  obtain ⟨S, hS⟩ : ∃ S, contactSpace Jc (exRed 6)⁻¹ = some S :=
    ⟨_, contactSpace_eq_some.mpr ⟨exRed_spd.inv.conj_isUnit_iff.mpr TwoFeet.independent, rfl⟩⟩
  have h2 := motion (fun i => τ (.inl i)) fun j => τ (.inr j)
  rw [show (Sum.elim (fun i => τ (.inl i)) fun j => τ (.inr j)) = τ from by ext a; rcases a with a | a <;> rfl] at h2
  rw [motion_iff exRed_spd hS] at h h2
  exact ⟨h.1.trans h2.1.symm, h.2.trans h2.2.symm⟩

theorem hold_of {F : Fin 12 → ℝ}
    (h : ∀ i : Fin 2, ∀ j : Fin 6, F ⟨6 * i + j, by omega⟩ = if j = 0 then -10 else if j = 2 then -100 else 0) :
    ContactsHold Stand.cs (F ∘ Fin.cast Stand.dof.symm) := by
  intro i
  have hi : i.val < 2 := by have := i.isLt; have := Stand.dof; omega
  have hl : ∀ l ∈ active Stand.cs, l = exContact true := by
    rw [Stand.cs_active]; simp [Stand.cs]
  have hi' := hl _ (List.getElem_mem i.isLt)
  simp only [Fin.getElem_fin, hi']
  rw [show (exContact true).rotm = 1 from rfl, Stand.inFrame_one]
  generalize hw : wrenchOf (F ∘ Fin.cast Stand.dof.symm) i = w
  have hv : ∀ j : Fin 6, w j = if j = 0 then -10 else if j = 2 then -100 else 0 := by
    intro j
    rw [← hw, ← h ⟨i, hi⟩ j]
    rfl
  have hx : (exContact true).planeX = 15 / 100 := rfl
  have hy : (exContact true).planeY = 75 / 1000 := rfl
  have hf : (exContact true).friction = 2 / 10 := rfl
  have hz : (exContact true).frictionZ = 2 / 10 := rfl
  rw [hx, hy, hf, hz]
  constructor
  · rw [noTip_iff (by norm_num) (by norm_num)]
    simp [press, hv]
  · simp [NoSlip, press, hv, abs_le]
    norm_num

/-- what a foot that holds can do -/
theorem slip_le {F : Fin 12 → ℝ} (h : ContactsHold Stand.cs (F ∘ Fin.cast Stand.dof.symm)) (i : Fin 2) :
    |F ⟨6 * i, by omega⟩| ≤ 2 / 10 * -F ⟨6 * i + 2, by omega⟩ := by
  have hn : i.val < (active Stand.cs).length := by have := Stand.dof; omega
  have hl : ∀ l ∈ active Stand.cs, l = exContact true := by
    rw [Stand.cs_active]; simp [Stand.cs]
  have hi := (h ⟨i, hn⟩).2.1
  have hi' := hl _ (List.getElem_mem hn)
  simp only [Fin.getElem_fin, hi'] at hi
  rw [show (exContact true).rotm = 1 from rfl, Stand.inFrame_one] at hi
  exact hi

section

variable {D : Reduced (Fin 6) (Fin 6)} {S : ContactSpace 12 (Fin 6 ⊕ Fin 6)} {C : ReducedContact 12 (Fin 6) (Fin 6)}
  (hD : reduce vcOf ncOf (exRed 6)⁻¹ 1 G = some D) (hS : contactSpace Jc (exRed 6)⁻¹ = some S)
  (hC : reducedContact D Jc (exRed 6)⁻¹ = some C)

include hS in
theorem acc (τ : Fin 6 ⊕ Fin 6 → ℝ) : S.AinvNc *ᵥ actuate τ = Sum.elim (0 : Fin 6 → ℝ) (Sum.elim (0 : Fin 6 → ℝ) fun j => τ (.inr j) / 2) := by
  have h1 := motion (fun i => τ (.inl i)) fun j => τ (.inr j)
  rw [show (Sum.elim (fun i => τ (.inl i)) fun j => τ (.inr j)) = τ from by ext a; rcases a with a | a <;> rfl] at h1
  have h2 := motion 0 0
  rw [show (Sum.elim (0 : Fin 6 → ℝ) (0 : Fin 6 → ℝ)) = 0 from by ext a; rcases a with a | a <;> rfl] at h2
  rw [motion_iff exRed_spd hS] at h1 h2
  have e1 := h1.1
  have e2 := h2.1
  rw [mulVec_sub] at e1 e2
  rw [e1]
  have : actuate (0 : Fin 6 ⊕ Fin 6 → ℝ) = 0 := by rw [actuate_eq, mulVec_zero]
  rw [this, mulVec_zero] at e2
  have e3 : (Sum.elim 0 (Sum.elim 0 fun j => (0 : Fin 6 → ℝ) j / 2) : RSys (Fin 6) (Fin 6) → ℝ) = 0 := by
    ext a; rcases a with a | a | a <;> simp
  rw [e3] at e2
  have e4 : S.AinvNc *ᵥ G = 0 := by
    have := e2.symm
    rw [zero_sub, neg_eq_zero] at this
    exact this
  rw [e4, sub_zero]

include hS in
theorem ready : ∃ q, calculateJKT S (exRed 6)⁻¹ (fullTask task) = some q := by
  have e : TJ * S.AinvNc * TJᵀ = (1 / 2 : ℝ) • 1 := by
    ext r s
    have h2 : (TJ * S.AinvNc * TJᵀ) *ᵥ Pi.single s 1 = fun r => (Pi.single s 1 : Fin 6 → ℝ) r / 2 := by
      rw [← mulVec_mulVec, ← mulVec_mulVec, TJ_transpose, acc hS, TJ_mulVec]
      rfl
    have h3 := congrFun h2 r
    rw [mulVec_single_one] at h3
    rw [show (TJ * S.AinvNc * TJᵀ) r s = _ from h3]
    simp only [Pi.single_apply, Matrix.smul_apply, Matrix.one_apply, smul_eq_mul]
    split_ifs <;> norm_num
  refine ⟨_, (jkt_eq_some hS).mpr ⟨?_, rfl⟩⟩
  rw [show (fullTask task).J * S.AinvNc * (fullTask task).Jᵀ = (1 / 2 : ℝ) • 1 from e]
  simp

theorem chain : ChainTask (exRed 6) task := by
  have hB : baseNc (exRed 6) = (1 : Matrix (Fin 6) (Fin 6) ℝ).submatrix six id := by
    ext r j
    simp [baseNc, exRed, ncOf, Matrix.mul_apply, exE, Matrix.one_apply, eq_comm]
  refine ⟨rfl, .inl ⟨rfl, (1 : Matrix (Fin 6) (Fin 6) ℝ).submatrix id six, ?_⟩⟩
  have h1 : TJ.submatrix id ncOf = (1 : Matrix (Fin 6) (Fin 6) ℝ).submatrix id six * (1 : Matrix (Fin 6) (Fin 6) ℝ).submatrix six id := by
    rw [submatrix_mul_equiv, Matrix.one_mul]
    ext r j
    simp [TJ, ncOf, Matrix.one_apply]
  rw [hB]
  exact h1

/-- the task, once calculated -/
noncomputable def calculated (D : Reduced (Fin 6) (Fin 6)) (x : Matrix (Fin 6) (Fin 6) ℝ × Matrix (Fin 6 ⊕ Fin 6) (Fin 6) ℝ) :
    RTask (Fin 6) (Fin 6) :=
  { task with JR := taskJR D TJ, Λ := x.1, Jkt := x.2, JNC := none }

include hD hS hC in
theorem calc_some : ∃ x, jktR C.ARinvNCR C.Winv (taskJR D TJ) = some x ∧
    calcJKTR D C ((exRed 6)⁻¹ * C.Nc) task = some (calculated D x) := by
  obtain ⟨hF, hP⟩ := rFacts exRed_spd (R := 1) (by simp) exRed_jInc exRed_coupling hD TwoFeet.zero (by norm_num) TwoFeet.base hS hC
  obtain ⟨q, hq⟩ := ready hS
  obtain ⟨q', hq', -, -⟩ := chainTask_ready (R := 1) (by simp) exRed_jInc hF (reduce_eq_some hD).2.2.2.1 hS chain hq
  rw [← hP] at hq'
  rcases hx : jktR C.ARinvNCR C.Winv (taskJR D TJ) with _ | x
  · simp [calcJKTR, task, hx] at hq'
  · exact ⟨x, rfl, by simp [calcJKTR, task, hx, calculated]⟩

include hD hS hC in
theorem leg_zero {x} (hx : jktR C.ARinvNCR C.Winv (taskJR D TJ) = some x) (v : Fin 6 → ℝ) (i : Fin 6) :
    (x.2 *ᵥ v) (.inl i) = 0 := by
  obtain ⟨hF, hP⟩ := rFacts exRed_spd (R := 1) (by simp) exRed_jInc exRed_coupling hD TwoFeet.zero (by norm_num) TwoFeet.base hS hC
  have hW : C.W = Sel (Fin 6 ⊕ Fin 6) * C.ARinvNCR * (Sel (Fin 6 ⊕ Fin 6))ᵀ ∧ C.Winv = pinv C.W := by
    rw [sel_mul_selT]
    unfold reducedContact at hC
    simp only at hC
    split_ifs at hC
    obtain ⟨Λ, -, rfl⟩ := Option.map_eq_some_iff.mp hC
    exact ⟨rfl, rfl⟩
  have he : C.W *ᵥ Pi.single (.inl i) 1 = 0 := by
    rw [hW.1, ← mulVec_mulVec, ← mulVec_mulVec, ← actuate_eq, hF.proj, ← mulVec_mulVec, ← mulVec_mulVec]
    have h1 := actuate_assemble hF (Pi.single (.inl i) 1) 0
    have h2 : ncExt (κ := Fin 6) (D.N *ᵥ (0 : Fin 6 → ℝ)) = 0 := by
      ext a; rcases a with a | a | a <;> simp [ncExt]
    rw [h2, add_zero] at h1
    rw [← h1, acc hS]
    have h3 : (fun s => (Pi.single (.inl i) 1 : Fin 6 ⊕ Fin 6 → ℝ) (.inr s)) = 0 := by ext s; simp
    have h4 : (Sum.elim (0 : Fin 6 → ℝ) (Sum.elim (0 : Fin 6 → ℝ)
        fun j => assembleTorque D (Pi.single (.inl i) 1) 0 (.inr j) / 2) : RSys (Fin 6) (Fin 6) → ℝ) = 0 := by
      ext a
      rcases a with a | a | a
      · rfl
      · rfl
      · simp only [Sum.elim_inr, assembleTorque, h3, mulVec_zero, add_zero, Pi.zero_apply, zero_div]
    rw [h4, mulVec_zero, mulVec_zero]
  have hp := pinv_spec C.W
  rw [← hW.2] at hp
  have hWs : C.Wᵀ = C.W := by
    rw [hW.1]; simp [transpose_mul, hF.symmR, Matrix.mul_assoc]
  have hi : C.Winv *ᵥ Pi.single (.inl i) 1 = 0 := by
    have e : C.Winv = C.Winv * (C.Winv * C.W) := by
      have h1 := hp.bab
      have h2 : (C.W * C.Winv)ᵀ = C.W * C.Winv := hp.symL
      rw [transpose_mul, hWs, hF.winv] at h2
      rw [h2, ← Matrix.mul_assoc, h1]
    rw [e, ← mulVec_mulVec, ← mulVec_mulVec, he, mulVec_zero, mulVec_zero]
  obtain ⟨Λ, K⟩ := x
  rw [hF.jkt hx, ← mulVec_mulVec]
  generalize (taskJR D TJ * C.ARinvNCR * (Sel (Fin 6 ⊕ Fin 6))ᵀ)ᵀ *ᵥ v = u
  have : (C.Winv *ᵥ u) (.inl i) = (C.Winv *ᵥ Pi.single (.inl i) 1) ⬝ᵥ u := by
    rw [dotProduct_comm, dotProduct_mulVec, ← mulVec_transpose, hF.winv, dotProduct_single, mul_one]
  rw [this, hi, zero_dotProduct]

include hD hS hC in
theorem assembled {x} (hx : jktR C.ARinvNCR C.Winv (taskJR D TJ) = some x)
    (hq : calcJKTR D C ((exRed 6)⁻¹ * C.Nc) task = some (calculated D x)) :
    assembleTorque D (x.2 *ᵥ (x.1 *ᵥ aim)) 0 = Sum.elim (0 : Fin 6 → ℝ) fun j => 2 * aim j := by
  have ht : reducedTaskTorque D C 1 (exRed 6)⁻¹ [task] = some (assembleTorque D (x.2 *ᵥ (x.1 *ᵥ aim)) 0) := by
    simp only [reducedTaskTorque, List.mapM_cons, hq]
    simp [rTaskFrom, calculated, task]
  obtain ⟨qdd, hM⟩ := (C01_contact_force_exact exRed_spd hS G
    (reducedGravityTorque D C + assembleTorque D (x.2 *ᵥ (x.1 *ᵥ aim)) 0)).1
  have h1 := C55_first_task_partial exRed_spd (R := 1) (by simp) exRed_jInc exRed_coupling hD TwoFeet.zero (by norm_num)
    TwoFeet.base hS hC chain [] ht hM
  rw [(motion_eq hM).1] at h1
  have h1' := (TJ_mulVec _).symm.trans h1
  ext j
  rcases j with j | j
  · exact leg_zero hD hS hC hx _ j
  · have h2 : _ = aim j := congrFun h1' j
    have h3 : reducedGravityTorque D C (.inr j) = 0 := ((reduce_eq_some hD).2.2.2.2.2.2.2.2.1 j).trans rfl
    simp only [Sum.elim_inr, Pi.add_apply, h3, zero_add] at h2 ⊢
    linarith

/-- the leg torque that shares the load -/
def share : Fin 6 → ℝ := fun i => if i = 0 then -10 else if i = 2 then -100 else 0

include hD in
theorem gravity_arm (j : Fin 6) : reducedGravityTorque D C (.inr j) = 0 := ((reduce_eq_some hD).2.2.2.2.2.2.2.2.1 j).trans rfl

include hD in
/-- any leg torque can be reached without moving anything -/
theorem reach (ℓ y : Fin 6 → ℝ) : reducedGravityTorque D C + Sum.elim (0 : Fin 6 → ℝ) y +
    Sum.elim (fun i => ℓ i - reducedGravityTorque D C (.inl i)) (0 : Fin 6 → ℝ) = Sum.elim ℓ y := by
  ext j
  rcases j with j | j
  · simp
  · simp [gravity_arm hD]

theorem leg_still (ℓ : Fin 6 → ℝ) {τ' qdd qdd' F F'} (h : Motion (exRed 6) Jc G τ' qdd F)
    (h' : Motion (exRed 6) Jc G (τ' + Sum.elim ℓ (0 : Fin 6 → ℝ)) qdd' F') : qdd' = qdd := by
  rw [(motion_eq h).1, (motion_eq h').1]
  simp

theorem share_hold {qdd F} (h : Motion (exRed 6) Jc G (Sum.elim share fun j => 2 * aim j) qdd F) :
    (∀ i : Fin 2, ∀ j : Fin 6, F ⟨6 * i + j, by omega⟩ = if j = 0 then -10 else if j = 2 then -100 else 0) := by
  rw [(motion_eq h).2]
  intro i j
  fin_cases i
  · refine (congrArg _ (Fin.ext (by simp))).trans ((force_left _ _ j).trans ?_)
    fin_cases j <;> simp [share, aim] <;> norm_num
  · refine (congrArg _ (Fin.ext (by simp))).trans ((force_right _ _ j).trans ?_)
    fin_cases j <;> simp [share]

include hD in
theorem good (N : Matrix (Fin 6 ⊕ Fin 6) (Fin (12 - 6)) ℝ) {τ1 : Fin 6 ⊕ Fin 6 → ℝ}
    (e : assembleTorque D τ1 0 = Sum.elim (0 : Fin 6 → ℝ) fun j => 2 * aim j) :
    RSafe (exRed 6) Jc G D C (robot N) Stand.dof τ1
        (Sum.elim (fun i => share i - reducedGravityTorque D C (.inl i)) (0 : Fin 6 → ℝ)) ∧
      RGood (exRed 6) Jc G D C (robot N) Stand.dof τ1 0
        (Sum.elim (fun i => share i - reducedGravityTorque D C (.inl i)) (0 : Fin 6 → ℝ)) := by
  have h1 : ∀ qdd F, Motion (exRed 6) Jc G (reducedGravityTorque D C + assembleTorque D τ1 0 +
      Sum.elim (fun i => share i - reducedGravityTorque D C (.inl i)) (0 : Fin 6 → ℝ)) qdd F →
      ContactsHold Stand.cs (F ∘ Fin.cast Stand.dof.symm) := by
    intro qdd F hM
    rw [e, reach hD] at hM
    exact hold_of (share_hold hM)
  refine ⟨⟨fun τ' qdd qdd' F F' h h' => leg_still _ h h', h1, fun m L hm hL => ?_⟩,
    ⟨fun τ' qdd qdd' F F' h h' => leg_still _ h h', h1, fun m L hL => ?_⟩⟩
  · cases hL
  · cases hL

/-- the weighted contact force -/
theorem weight (F : Fin 12 → ℝ) : (Wt *ᵥ F) ⬝ᵥ (Wt *ᵥ F) = ∑ i : Fin 12, if i.val % 6 = 2 then 0 else F i ^ 2 := by
  unfold Wt dotProduct
  refine Finset.sum_congr rfl fun i _ => ?_
  rw [mulVec_diagonal]
  split_ifs <;> ring

end

end TwoFeetFail

/-- C69 is false after a failure: the robot stands on two feet and is asked to accelerate its arm, and the solver gives up on the second task
only.  No task torque is left, but redistribution still works on the reduced torque of the first task and reports success, with a
torque that would be right if the task torque were sent.  The torque that is sent makes a foot slip, although some redistribution of
gravity compensation alone keeps both feet. -/
theorem C69_after_failure {solve : Solver} (hs : solve.Exact) (ha : solve.Complete) {rsolve : RSolver} (hrs : rsolve.Exact)
    (hra : rsolve.Complete) :
    ∃ D C N τR τc, reduce vcOf ncOf (exRed 6)⁻¹ 1 TwoFeet.G = some D ∧ reducedContact D TwoFeet.Jc (exRed 6)⁻¹ = some C ∧
      (∃ f : CodNull C.W, reducedNwJw C f = some N) ∧
      reducedTaskTorqueQP D C 1 (exRed 6)⁻¹ (TwoFeetFail.robot N) (TwoFeetFail.giveUp solve)
        [TwoFeetFail.task, TwoFeetFail.task] = .ret 0 0 τR ∧
      reducedRedistribute D C (TwoFeetFail.robot N) TwoFeetFail.Wt rsolve τR 0 = some (1, τc) ∧
      (∀ qdd F, Motion (exRed 6) TwoFeet.Jc TwoFeet.G (reducedGravityTorque D C + assembleTorque D τR 0 + τc) qdd F →
        ContactsHold Stand.cs (F ∘ Fin.cast Stand.dof.symm)) ∧
      (∃ qdd F, Motion (exRed 6) TwoFeet.Jc TwoFeet.G (reducedGravityTorque D C + 0 + τc) qdd F) ∧
      (∀ qdd F, Motion (exRed 6) TwoFeet.Jc TwoFeet.G (reducedGravityTorque D C + 0 + τc) qdd F →
        ¬ ContactsHold Stand.cs (F ∘ Fin.cast Stand.dof.symm)) ∧
      ∃ τi, ∀ qdd F, Motion (exRed 6) TwoFeet.Jc TwoFeet.G (reducedGravityTorque D C + 0 + τi) qdd F →
        ContactsHold Stand.cs (F ∘ Fin.cast Stand.dof.symm) := by
  obtain ⟨D, hD⟩ := exRed_reduce (k := 6) TwoFeet.G
  obtain ⟨S, hS⟩ : ∃ S, contactSpace TwoFeet.Jc (exRed 6)⁻¹ = some S :=
    ⟨_, contactSpace_eq_some.mpr ⟨exRed_spd.inv.conj_isUnit_iff.mpr TwoFeet.independent, rfl⟩⟩
  obtain ⟨C, hC, -⟩ := C41_contact_partial exRed_spd hD TwoFeet.zero (by norm_num) hS
  obtain ⟨N, hN⟩ := (C59_finite_iff_partial exRed_spd hD TwoFeet.zero (by norm_num) TwoFeet.independent hC (by norm_num)
    fun W => (exists_codNull W).some).mpr ⟨TwoFeet.base, TwoFeet.last⟩
  obtain ⟨x, hx, hq⟩ := TwoFeetFail.calc_some hD hS hC
  have e := TwoFeetFail.assembled hD hS hC hx hq
  obtain ⟨hsafe, hgood⟩ := TwoFeetFail.good (C := C) hD N e
  obtain ⟨Cm, hst, h'⟩ := stackC_holds Stand.six Stand.plane Stand.dof
  have hfit : (TwoFeetFail.robot N).fit = some none := rfl
  -- the first task
  obtain ⟨h1, h2⟩ := okR_iff_safe exRed_spd (R := 1) (by simp) exRed_jInc exRed_coupling hD TwoFeet.zero (by norm_num) TwoFeet.base
    hS hC (Q := TwoFeetFail.robot N) Stand.dof (by norm_num) hN hfit h' (x.2 *ᵥ (x.1 *ᵥ TwoFeetFail.aim))
  obtain ⟨z, hz⟩ := h2 _ hsafe
  rw [hz] at hsafe
  have hok := (h1 z).mpr hsafe
  have hfe : (rQP D C (TwoFeetFail.robot N) none Cm (prevNull (ν := Fin 6) (κ := Fin 6) none * (x.2 * x.1)) TwoFeetFail.aim
      (reducedGravity D C + 0)).Feasible (Sum.elim 0 z) := by
    rw [rQP_feasible]
    have e1 : (TwoFeetFail.aim + fun a => Sum.elim (0 : Fin 6 → ℝ) z (Sum.inl a)) = TwoFeetFail.aim := by ext a; simp
    rw [e1, show prevNull (ν := Fin 6) (κ := Fin 6) none = 1 from rfl, Matrix.one_mul, ← mulVec_mulVec, add_zero]
    exact hok
  obtain ⟨y, hy⟩ := Option.isSome_iff_exists.mp (ha 0 _ _ _ (rQP_exists _ _ _ hfe))
  have hy0 := rQP_solution_left (fun a => rfl) hfe (hs _ _ _ _ _ hy)
  have hrun : reducedTaskTorqueQP D C 1 (exRed 6)⁻¹ (TwoFeetFail.robot N) (TwoFeetFail.giveUp solve)
      [TwoFeetFail.task, TwoFeetFail.task] = .ret 0 0 (x.2 *ᵥ (x.1 *ᵥ TwoFeetFail.aim)) := by
    have hmm : [TwoFeetFail.task, TwoFeetFail.task].mapM (calcJKTR D C ((exRed 6)⁻¹ * C.Nc))
        = some [TwoFeetFail.calculated D x, TwoFeetFail.calculated D x] := by simp [List.mapM_cons, hq]
    simp only [reducedTaskTorqueQP, hmm]
    have hg0 : TwoFeetFail.giveUp solve 0 6 (12 - 6) (rQP D C (TwoFeetFail.robot N) none Cm
        (prevNull (ν := Fin 6) (κ := Fin 6) none * (x.2 * x.1)) TwoFeetFail.aim (reducedGravity D C + 0)) = some y := by
      rw [← hy]; rfl
    rw [rqp_step (T := TwoFeetFail.calculated D x) hfit hst _ _ _ _ _ rfl _ hg0,
      rqp_stop (T := TwoFeetFail.calculated D x) hfit hst _ _ _ _ _ rfl _ rfl]
    congr 1
    have e1 : (TwoFeetFail.aim + fun a => y (Sum.inl a)) = TwoFeetFail.aim := by ext a; simp [hy0]
    refine (zero_add _).trans ((one_mulVec _).trans ?_)
    exact congrArg (fun v => x.2 *ᵥ (x.1 *ᵥ v)) e1
  -- redistribution
  obtain ⟨hiff, hopt⟩ := C59_succeeds_iff_partial exRed_spd (R := 1) (by simp) exRed_jInc exRed_coupling hD TwoFeet.zero (by norm_num)
    TwoFeet.base hS hC (Q := TwoFeetFail.robot N) Stand.six Stand.plane Stand.dof (by norm_num) hN (Wt := TwoFeetFail.Wt) hrs hra
    (x.2 *ᵥ (x.1 *ᵥ TwoFeetFail.aim)) 0 0
  obtain ⟨τc, hτc⟩ := hiff.mpr ⟨_, hgood⟩
  obtain ⟨hg, hbest⟩ := hopt τc hτc
  obtain ⟨q0, hM0⟩ := (C01_contact_force_exact exRed_spd hS TwoFeet.G (reducedGravityTorque D C + 0 + τc)).1
  refine ⟨D, C, N, _, τc, hD, hC, ⟨_, hN⟩, hrun, hτc, hg.2.1, ⟨q0, _, hM0⟩, ?_, ?_⟩
  · intro qdd F hM hh
    obtain ⟨qa, hMa⟩ := (C01_contact_force_exact exRed_spd hS TwoFeet.G
      (reducedGravityTorque D C + assembleTorque D (x.2 *ᵥ (x.1 *ᵥ TwoFeetFail.aim)) 0 + τc)).1
    obtain ⟨qb, hMb⟩ := (C01_contact_force_exact exRed_spd hS TwoFeet.G
      (reducedGravityTorque D C + assembleTorque D (x.2 *ᵥ (x.1 *ᵥ TwoFeetFail.aim)) 0 +
        (Sum.elim (fun i => TwoFeetFail.share i - reducedGravityTorque D C (.inl i)) (0 : Fin 6 → ℝ)))).1
    have hle := hbest _ hgood _ _ _ _ hMa hMb
    have hhold := hg.2.1 _ _ hMa
    generalize contactForce S (gravityForce S TwoFeet.G) (reducedGravityTorque D C +
      assembleTorque D (x.2 *ᵥ (x.1 *ᵥ TwoFeetFail.aim)) 0 + τc) = Fa at hMa hle hhold
    generalize contactForce S (gravityForce S TwoFeet.G) (reducedGravityTorque D C +
      assembleTorque D (x.2 *ᵥ (x.1 *ᵥ TwoFeetFail.aim)) 0 + _) = Fb at hMb hle
    rw [e, TwoFeetFail.reach hD] at hMb
    have hFb := TwoFeetFail.share_hold hMb
    -- the contact torque does not move the arm
    obtain ⟨q1, hM1⟩ := (C01_contact_force_exact exRed_spd hS TwoFeet.G 0).1
    obtain ⟨q2, hM2⟩ := (C01_contact_force_exact exRed_spd hS TwoFeet.G (0 + τc)).1
    have harm : ∀ j, τc (.inr j) = 0 := by
      intro j
      have h3 := hg.1 _ _ _ _ _ hM1 hM2
      rw [(TwoFeetFail.motion_eq hM1).1, (TwoFeetFail.motion_eq hM2).1] at h3
      have h4 := congrFun h3 (.inr (.inr j))
      simp only [Sum.elim_inr, Pi.add_apply, Pi.zero_apply, zero_add, zero_div] at h4
      linarith
    have hFa := (TwoFeetFail.motion_eq hMa).2
    have hF := (TwoFeetFail.motion_eq hM).2
    rw [e] at hFa
    have a0 : Fa 0 = -20 - (reducedGravityTorque D C (.inl 0) + τc (.inl 0)) := by
      rw [hFa]
      refine (TwoFeetFail.force_left _ _ 0).trans ?_
      simp [harm, TwoFeetFail.gravity_arm hD, TwoFeetFail.aim]
    have a6 : Fa 6 = reducedGravityTorque D C (.inl 0) + τc (.inl 0) := by
      rw [hFa]
      refine (TwoFeetFail.force_right _ _ 0).trans ?_
      simp
    have a8 : Fa 8 = reducedGravityTorque D C (.inl 2) + τc (.inl 2) := by
      rw [hFa]
      refine (TwoFeetFail.force_right _ _ 2).trans ?_
      simp
    have b2 : F 2 = -2 - (reducedGravityTorque D C (.inl 2) + τc (.inl 2)) := by
      rw [hF]
      refine (TwoFeetFail.force_left _ _ 2).trans ?_
      simp [harm, TwoFeetFail.gravity_arm hD]
    have hsum : Fa 0 ^ 2 + Fa 6 ^ 2 ≤ 200 := by
      have hl : Fa 0 ^ 2 + Fa 6 ^ 2 ≤ (TwoFeetFail.Wt *ᵥ Fa) ⬝ᵥ (TwoFeetFail.Wt *ᵥ Fa) := by
        rw [TwoFeetFail.weight]
        have hsub : ({0, 6} : Finset (Fin 12)) ⊆ Finset.univ := Finset.subset_univ _
        have h5 := Finset.sum_le_sum_of_subset_of_nonneg hsub (f := fun i : Fin 12 => if i.val % 6 = 2 then (0 : ℝ) else Fa i ^ 2)
          fun i _ _ => by
            split_ifs
            · exact le_rfl
            · exact sq_nonneg _
        rw [Finset.sum_pair (by decide)] at h5
        exact h5
      have hr : (TwoFeetFail.Wt *ᵥ Fb) ⬝ᵥ (TwoFeetFail.Wt *ᵥ Fb) = 200 := by
        rw [TwoFeetFail.weight]
        have h7 : ∀ i : Fin 12, (if i.val % 6 = 2 then (0 : ℝ) else Fb i ^ 2) = if i.val % 6 = 0 then 100 else 0 := by
          intro i
          have h9 := hFb ⟨i / 6, by omega⟩ ⟨i % 6, by omega⟩
          have h10 : (⟨6 * (i.val / 6) + i.val % 6, by omega⟩ : Fin 12) = i := Fin.ext (by simp; omega)
          simp only [h10] at h9
          rw [h9]
          fin_cases i <;> simp <;> norm_num
        simp only [h7]
        simp [Fin.sum_univ_succ]
        norm_num
      linarith
    have h6 : reducedGravityTorque D C (.inl 0) + τc (.inl 0) = -10 := by
      rw [a0, a6] at hsum
      nlinarith [sq_nonneg (reducedGravityTorque D C (.inl 0) + τc (.inl 0) + 10)]
    have h8 : |Fa 6| ≤ 2 / 10 * -Fa 8 := TwoFeetFail.slip_le hhold 1
    rw [a6, a8, h6] at h8
    have h20 : |F 0| ≤ 2 / 10 * -F 2 := TwoFeetFail.slip_le hh 0
    have h21 := abs_nonneg (F 0)
    rw [abs_neg] at h8
    norm_num at h8
    linarith
  · refine ⟨Sum.elim (fun i => (if i = 2 then -1 else 0) - reducedGravityTorque D C (.inl i)) (0 : Fin 6 → ℝ), fun qdd F hM => ?_⟩
    have h0 : (0 : Fin 6 ⊕ Fin 6 → ℝ) = Sum.elim (0 : Fin 6 → ℝ) (0 : Fin 6 → ℝ) := by ext j; rcases j with j | j <;> rfl
    rw [h0, TwoFeetFail.reach hD] at hM
    have hF : F = Stand.F := by
      rw [(TwoFeetFail.motion_eq hM).2]
      ext i
      fin_cases i <;> simp [TwoFeetFail.force, Stand.F] <;> norm_num
    rw [hF]
    exact Stand.hold

/-- The hypotheses of C69 hold for the robot of C59 with limit ten on every joint: gravity compensation can be made safe, and tasks are
regular. -/
theorem C69_hypotheses_met : ∃ D S C N, reduce vcOf ncOf (exRed 6)⁻¹ 1 TwoFeet.G = some D ∧
    contactSpace TwoFeet.Jc (exRed 6)⁻¹ = some S ∧ reducedContact D TwoFeet.Jc (exRed 6)⁻¹ = some C ∧
    (∃ f : CodNull C.W, reducedNwJw C f = some N) ∧
    (∃ δ, RSafe (exRed 6) TwoFeet.Jc TwoFeet.G D C (TwoFeet.robot N) Stand.dof 0 δ) ∧
    ∃ q, calcJKTR D C ((exRed 6)⁻¹ * C.Nc) TwoFeetFail.task = some q := by
  obtain ⟨D, hD⟩ := exRed_reduce (k := 6) TwoFeet.G
  obtain ⟨S, hS⟩ : ∃ S, contactSpace TwoFeet.Jc (exRed 6)⁻¹ = some S :=
    ⟨_, contactSpace_eq_some.mpr ⟨exRed_spd.inv.conj_isUnit_iff.mpr TwoFeet.independent, rfl⟩⟩
  obtain ⟨C, hC, -⟩ := C41_contact_partial exRed_spd hD TwoFeet.zero (by norm_num) hS
  obtain ⟨N, hN⟩ := (C59_finite_iff_partial exRed_spd hD TwoFeet.zero (by norm_num) TwoFeet.independent hC (by norm_num)
    fun W => (exists_codNull W).some).mpr ⟨TwoFeet.base, TwoFeet.last⟩
  obtain ⟨x, -, hq⟩ := TwoFeetFail.calc_some hD hS hC
  have hz : assembleTorque D 0 0 = Sum.elim (0 : Fin 6 → ℝ) (0 : Fin 6 → ℝ) := by
    ext j
    have e0 : (fun _ : Fin 6 => (0 : ℝ)) = 0 := rfl
    rcases j with j | j <;> simp [assembleTorque, e0]
  refine ⟨D, S, C, N, hD, hS, hC, ⟨_, hN⟩,
    ⟨Sum.elim (fun i => (if i = 2 then -1 else 0) - reducedGravityTorque D C (.inl i)) (0 : Fin 6 → ℝ), ?_, ?_, ?_⟩, _, hq⟩
  · exact fun τ' qdd qdd' F F' h h' => TwoFeetFail.leg_still _ h h'
  · intro qdd F hM
    rw [hz, TwoFeetFail.reach hD] at hM
    have hF : F = Stand.F := by
      rw [(TwoFeetFail.motion_eq hM).2]
      ext i
      fin_cases i <;> simp [TwoFeetFail.force, Stand.F] <;> norm_num
    rw [hF]
    exact Stand.hold
  · intro m L hm hL
    simp only [TwoFeet.robot, Option.some.injEq, Sigma.mk.injEq] at hL
    obtain ⟨rfl, hL⟩ := hL
    obtain rfl := eq_of_heq hL
    refine ⟨fun i => ?_, fun s => ?_⟩
    · rw [hz, TwoFeetFail.reach hD]
      simp only [Sum.elim_inl]
      split_ifs <;> norm_num
    · rw [Pi.add_apply, reducedGravity_low exRed_spd hD TwoFeet.zero (by norm_num) TwoFeet.base hS hC]
      have : D.GNC = 0 := funext fun j => ((reduce_eq_some hD).2.2.2.2.2.2.2.2.1 j).trans rfl
      rw [this, mulVec_zero]
      norm_num

end Verif.Props
