import Verif.Lemmas.ReducedQP
import Verif.Lemmas.QPLeast

/-!
# Lemmas on failing quadratic programmes of the reduced model
-/

set_option linter.unusedSectionVars false

namespace Verif
open Matrix Verif.Spec Verif.Model

variable {k c : ℕ} {ν : Type*} [Fintype ν] [DecidableEq ν]

/-- the rows of the quadratic programmes for a torque of the reduced model -/
def OkR (D : Reduced (Fin k) ν) (C : ReducedContact c (Fin k) ν) (lim : Option (Fin (k + 6) → ℝ)) {m : ℕ}
    (Cm : Matrix (Fin m) (Fin c) ℝ) (τ : Fin k ⊕ Fin 6 → ℝ) : Prop :=
  (∀ L, lim = some L → ∀ j, |τ j| ≤ L (finSumFinEquiv j)) ∧ ∀ r, 0 ≤ (Cm *ᵥ forceR D C τ) r

variable {D : Reduced (Fin k) ν} {C : ReducedContact c (Fin k) ν} {R : Mat3} {P : Matrix (RSys (Fin k) ν) (RSys (Fin k) ν) ℝ}
  {K : Option (Matrix (Fin k ⊕ Fin 6) (Fin 6) ℝ)} {Q : RQPRobot k c} {solve : Solver} {lim : Option (Fin (k + 6) → ℝ)} {m : ℕ}
  {Cm : Matrix (Fin m) (Fin c) ℝ}

/-- a level's QP with a feasible point has a solution -/
theorem rQP_exists {t : ℕ} (B : Matrix (Fin k ⊕ Fin 6) (Fin t) ℝ) (f : Fin t → ℝ) (τ : Fin k ⊕ Fin 6 → ℝ)
    {x₀ : Fin t ⊕ Fin (c - 6) → ℝ} (h0 : (rQP D C Q lim Cm B f τ).Feasible x₀) : ∃ x, (rQP D C Q lim Cm B f τ).IsSolution x := by
  refine exists_solution_ls (M := Fin t) (Matrix.of fun a s => if s = Sum.inl a then (1 : ℝ) else 0) 0 0 (fun x => ?_) h0
  have e : (Matrix.of fun (a : Fin t) (s : Fin t ⊕ Fin (c - 6)) => if s = Sum.inl a then (1 : ℝ) else 0) *ᵥ x
      = fun a => x (Sum.inl a) := by
    ext a
    simp [mulVec, dotProduct, Fintype.sum_sum_type]
  rw [rQP_cost, e]
  simp [dotProduct]

/-- from a torque with good rows on, every level has an answer -/
theorem rQP_answers (hs : solve.Sound) (hcomp : solve.Complete) (i : ℕ) {t : ℕ} (B : Matrix (Fin k ⊕ Fin 6) (Fin t) ℝ)
    (f : Fin t → ℝ) (τ : Fin k ⊕ Fin 6 → ℝ) {z : Fin (c - 6) → ℝ} (h : OkR D C lim Cm (τ + Q.NwJw *ᵥ z)) :
    ∃ x, solve i t (c - 6) (rQP D C Q lim Cm B f τ) = some x ∧
      OkR D C lim Cm (τ + B *ᵥ (f + fun a => x (.inl a)) + Q.NwJw *ᵥ fun b => x (.inr b)) := by
  have hf : (rQP D C Q lim Cm B f τ).Feasible (Sum.elim (-f) z) := by
    rw [rQP_feasible]
    have e : (f + fun a => Sum.elim (-f) z (Sum.inl a)) = 0 := by ext a; simp
    rw [e, mulVec_zero, add_zero]
    exact h
  obtain ⟨x, hx⟩ := Option.isSome_iff_exists.mp (hcomp i _ _ _ (rQP_exists B f τ hf))
  exact ⟨x, hx, (rQP_feasible D C Q lim Cm B f τ x).mp (hs _ _ _ _ _ hx)⟩

/-- the QP of the first task has a feasible point exactly if some command has good rows -/
theorem rQP_feasible_iff {t : ℕ} (B : Matrix (Fin k ⊕ Fin 6) (Fin t) ℝ) (f : Fin t → ℝ) (τ : Fin k ⊕ Fin 6 → ℝ) :
    (∃ x, (rQP D C Q lim Cm B f τ).Feasible x) ↔ ∃ a z, OkR D C lim Cm (τ + B *ᵥ a + Q.NwJw *ᵥ z) := by
  constructor
  · rintro ⟨x, hx⟩
    exact ⟨_, _, (rQP_feasible D C Q lim Cm B f τ x).mp hx⟩
  · rintro ⟨a, z, h⟩
    refine ⟨Sum.elim (a - f) z, (rQP_feasible D C Q lim Cm B f τ _).mpr ?_⟩
    have e : (f + fun b => Sum.elim (a - f) z (Sum.inl b)) = a := by ext b; simp
    rw [e]
    exact h

/-- from a torque with good rows on, the loop does not fail -/
theorem rqp_go (hfit : Q.fit = some lim) (hst : stackC Q.cs c = some ⟨m, Cm⟩) (hs : solve.Sound) (hcomp : solve.Complete)
    (ts : List (RTask (Fin k) ν)) (i : ℕ) (prev : Option (RTask (Fin k) ν × Matrix (Fin k ⊕ Fin 6) (Fin k ⊕ Fin 6) ℝ))
    (τR : Fin k ⊕ Fin 6 → ℝ) (f : Fin 6 → ℝ) (nc : Option (NcSum k ν)) (z : Fin (c - 6) → ℝ)
    (h : OkR D C lim Cm (reducedGravity D C + τR + Q.NwJw *ᵥ z)) (τ : Fin k ⊕ ν → ℝ) (τR' : Fin k ⊕ Fin 6 → ℝ) :
    rqpFrom D C R P K Q solve i prev τR f nc ts ≠ .ret 0 τ τR' := by
  induction ts generalizing i prev τR f nc z with
  | nil =>
    rw [rqpFrom]
    rcases nc with _ | a
    · simp [rqpFinish]
    rcases K with _ | Kb
    · simp [rqpFinish]
    obtain ⟨x, hx, -⟩ := rQP_answers hs hcomp a.idx (a.N * Kb) f (reducedGravity D C + τR) h
    simp only [rqpFinish, hfit, hst, hx]
    simp
  | cons T rest ih =>
    rcases hT : T.noncont with _ | _
    · rw [rqpFrom_chain D C R P K Q solve i prev τR f nc hT, hfit, hst]
      obtain ⟨x, hx, hok⟩ := rQP_answers hs hcomp i (prevNull prev * (T.Jkt * T.Λ)) T.f (reducedGravity D C + τR) h
      simp only [hx]
      refine ih _ _ _ _ _ (fun b => x (.inr b)) ?_
      rwa [← mulVec_mulVec, ← mulVec_mulVec, add_assoc (reducedGravity D C)] at hok
    · rcases prev with _ | ⟨U, N⟩
      · simp [rqpFrom, hT]
      rcases K with _ | Kb
      · simp [rqpFrom, hT]
      simp only [rqpFrom, hT, if_true]
      rcases ncTorque D R P Kb U N T with _ | x
      · simp
      exact ih _ _ _ _ _ z h

/-- a chain task whose QP is answered -/
theorem rqp_step (hfit : Q.fit = some lim) (hst : stackC Q.cs c = some ⟨m, Cm⟩) (i : ℕ)
    (prev : Option (RTask (Fin k) ν × Matrix (Fin k ⊕ Fin 6) (Fin k ⊕ Fin 6) ℝ)) (τR : Fin k ⊕ Fin 6 → ℝ) (f : Fin 6 → ℝ)
    (nc : Option (NcSum k ν)) {T : RTask (Fin k) ν} (hT : T.noncont = false) (rest : List (RTask (Fin k) ν))
    {x} (hx : solve i T.t (c - 6) (rQP D C Q lim Cm (prevNull prev * (T.Jkt * T.Λ)) T.f (reducedGravity D C + τR)) = some x) :
    rqpFrom D C R P K Q solve i prev τR f nc (T :: rest) =
      rqpFrom D C R P K Q solve (i + 1) (some (T, nullR C T (prevNull prev)))
        (τR + prevNull prev *ᵥ (T.Jkt *ᵥ (T.Λ *ᵥ (T.f + fun a => x (Sum.inl a))))) f nc rest := by
  rw [rqpFrom_chain D C R P K Q solve i prev τR f nc hT, hfit, hst]
  simp only [hx]

/-- a chain task whose QP is given up -/
theorem rqp_stop (hfit : Q.fit = some lim) (hst : stackC Q.cs c = some ⟨m, Cm⟩) (i : ℕ)
    (prev : Option (RTask (Fin k) ν × Matrix (Fin k ⊕ Fin 6) (Fin k ⊕ Fin 6) ℝ)) (τR : Fin k ⊕ Fin 6 → ℝ) (f : Fin 6 → ℝ)
    (nc : Option (NcSum k ν)) {T : RTask (Fin k) ν} (hT : T.noncont = false) (rest : List (RTask (Fin k) ν))
    (hx : solve i T.t (c - 6) (rQP D C Q lim Cm (prevNull prev * (T.Jkt * T.Λ)) T.f (reducedGravity D C + τR)) = none) :
    rqpFrom D C R P K Q solve i prev τR f nc (T :: rest) = .ret 0 0 τR := by
  rw [rqpFrom_chain D C R P K Q solve i prev τR f nc hT, hfit, hst]
  simp only [hx]

/-- a failing loop leaves no task torque -/
theorem rqp_fail_zero (ts : List (RTask (Fin k) ν)) (i : ℕ)
    (prev : Option (RTask (Fin k) ν × Matrix (Fin k ⊕ Fin 6) (Fin k ⊕ Fin 6) ℝ))
    (τR : Fin k ⊕ Fin 6 → ℝ) (f : Fin 6 → ℝ) (nc : Option (NcSum k ν)) {v : ℕ} {τ : Fin k ⊕ ν → ℝ} {τR' : Fin k ⊕ Fin 6 → ℝ}
    (h : rqpFrom D C R P K Q solve i prev τR f nc ts = .ret v τ τR') : v = 1 ∨ v = 0 ∧ τ = 0 := by
  induction ts generalizing i prev τR f nc with
  | nil =>
    rw [rqpFrom] at h
    rcases nc with _ | a
    · simp only [rqpFinish, RCtrlResult.ret.injEq] at h
      exact .inl h.1.symm
    unfold rqpFinish at h
    simp only at h
    split at h
    · split at h
      · simp only [RCtrlResult.ret.injEq] at h
        exact .inr ⟨h.1.symm, h.2.1.symm⟩
      · simp only [RCtrlResult.ret.injEq] at h
        exact .inl h.1.symm
    · cases h
  | cons T rest ih =>
    rcases hT : T.noncont with _ | _
    · rw [rqpFrom_chain D C R P K Q solve i prev τR f nc hT] at h
      split at h
      · split at h
        · simp only [RCtrlResult.ret.injEq] at h
          exact .inr ⟨h.1.symm, h.2.1.symm⟩
        · exact ih _ _ _ _ _ h
      · cases h
    · rcases prev with _ | ⟨U, N⟩
      · simp [rqpFrom, hT] at h
      rcases K with _ | Kb
      · simp [rqpFrom, hT] at h
      simp only [rqpFrom, hT, if_true] at h
      rcases hx : ncTorque D R P Kb U N T with _ | x
      · rw [hx] at h; simp at h
      rw [hx] at h
      exact ih _ _ _ _ _ h

/-- a loop over free tasks that fails leaves the reduced torque it found -/
theorem rqp_fail_free (ts : List (RTask (Fin k) ν)) (hts : ∀ T ∈ ts, T.noncont = true) (i : ℕ)
    (prev : Option (RTask (Fin k) ν × Matrix (Fin k ⊕ Fin 6) (Fin k ⊕ Fin 6) ℝ)) (τR : Fin k ⊕ Fin 6 → ℝ) (f : Fin 6 → ℝ)
    (nc : Option (NcSum k ν)) {τ : Fin k ⊕ ν → ℝ} {τR' : Fin k ⊕ Fin 6 → ℝ}
    (h : rqpFrom D C R P K Q solve i prev τR f nc ts = .ret 0 τ τR') : τR' = τR := by
  induction ts generalizing i prev f nc with
  | nil =>
    rw [rqpFrom] at h
    rcases nc with _ | a
    · simp [rqpFinish] at h
    · rcases K with _ | Kb
      · simp [rqpFinish] at h
      rcases hl : Q.fit with _ | lim
      · simp [rqpFinish, hl] at h
      rcases hc : stackC Q.cs c with _ | ⟨m, Cm⟩
      · simp [rqpFinish, hl, hc] at h
      simp only [rqpFinish, hl, hc] at h
      rcases hx : solve a.idx 6 (c - 6) (rQP D C Q lim Cm (a.N * Kb) f (reducedGravity D C + τR)) with _ | x
      · rw [hx] at h
        simp only [RCtrlResult.ret.injEq, true_and] at h
        exact h.2.symm
      · rw [hx] at h
        simp at h
  | cons T rest ih =>
    have hT := hts T (List.mem_cons_self ..)
    rcases prev with _ | ⟨U, N⟩
    · simp [rqpFrom, hT] at h
    rcases K with _ | Kb
    · simp [rqpFrom, hT] at h
    simp only [rqpFrom, hT, if_true] at h
    rcases hx : ncTorque D R P Kb U N T with _ | x
    · rw [hx] at h; simp at h
    rw [hx] at h
    exact ih (fun U hU => hts U (List.mem_cons_of_mem _ hU)) _ _ _ _ h

/-- a failing loop over chain tasks and then free tasks stops after a successful stretch of chain tasks -/
theorem rqp_fail_prefix (ts free : List (RTask (Fin k) ν)) (hts : ∀ T ∈ ts, T.noncont = false)
    (hfree : ∀ T ∈ free, T.noncont = true) (i : ℕ)
    (prev : Option (RTask (Fin k) ν × Matrix (Fin k ⊕ Fin 6) (Fin k ⊕ Fin 6) ℝ)) (τR : Fin k ⊕ Fin 6 → ℝ) (f : Fin 6 → ℝ)
    {τ : Fin k ⊕ ν → ℝ} {τR' : Fin k ⊕ Fin 6 → ℝ} (h : rqpFrom D C R P K Q solve i prev τR f none (ts ++ free) = .ret 0 τ τR') :
    ∃ j ≤ ts.length, j < ts.length + free.length ∧
      rqpFrom D C R P K Q solve i prev τR f none (ts.take j) = .ret 1 (assembleTorque D τR' 0) τR' := by
  induction ts generalizing i prev τR with
  | nil =>
    rcases free with _ | ⟨T, free⟩
    · simp [rqpFrom, rqpFinish] at h
    · refine ⟨0, le_rfl, by simp, ?_⟩
      rw [List.take_zero, rqpFrom, rqpFinish, rqp_fail_free _ hfree _ _ _ _ _ h]
  | cons T rest ih =>
    have hT := hts T (List.mem_cons_self ..)
    rw [List.cons_append, rqpFrom_chain D C R P K Q solve i prev τR f none hT] at h
    rcases hl : Q.fit with _ | lim
    · rw [hl] at h; simp at h
    rcases hc : stackC Q.cs c with _ | ⟨m, Cm⟩
    · rw [hl, hc] at h; simp at h
    rw [hl, hc] at h
    simp only at h
    rcases hx : solve i T.t (c - 6) (rQP D C Q lim Cm (prevNull prev * (T.Jkt * T.Λ)) T.f (reducedGravity D C + τR)) with _ | x
    · rw [hx] at h
      simp only [RCtrlResult.ret.injEq, true_and] at h
      refine ⟨0, by simp, by simp, ?_⟩
      rw [List.take_zero, rqpFrom, rqpFinish, h.2]
    · rw [hx] at h
      obtain ⟨j, hj, hj', e⟩ := ih (fun U hU => hts U (List.mem_cons_of_mem _ hU)) _ _ _ h
      refine ⟨j + 1, by simpa using hj, by rw [List.length_cons]; omega, ?_⟩
      rw [List.take_succ_cons, rqpFrom_chain D C R P K Q solve i prev τR f none hT, hl, hc]
      simp only [hx]
      exact e

end Verif
