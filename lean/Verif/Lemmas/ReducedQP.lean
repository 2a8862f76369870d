import Verif.Model.ReducedQP
import Verif.Lemmas.QPControl
import Verif.Lemmas.ReducedTask

/-!
# Lemmas on the quadratic programmes of the reduced model
-/

set_option linter.unusedSectionVars false

namespace Verif
open Matrix Verif.Spec Verif.Model

variable {k c : ℕ} {ν : Type*} [Fintype ν] [DecidableEq ν]

theorem flatM_mulVec {V : Type*} [Fintype V] (M : Matrix (Fin k ⊕ Fin 6) V ℝ) (x : V → ℝ) : flatM M *ᵥ x = flatV (M *ᵥ x) := rfl

theorem flatV_add (a b : Fin k ⊕ Fin 6 → ℝ) : flatV (a + b) = flatV a + flatV b := rfl

theorem flatV_apply (v : Fin k ⊕ Fin 6 → ℝ) (j : Fin k ⊕ Fin 6) : flatV v (finSumFinEquiv j) = v j := by
  simp [flatV]

theorem rightColsR_mulVec (C : ReducedContact c (Fin k) ν) (v : Fin k ⊕ Fin 6 → ℝ) :
    rightColsR C *ᵥ flatV v = C.JCRinvT *ᵥ actuate v := by
  ext r
  simp only [mulVec, dotProduct, rightColsR, submatrix_apply, id, Function.comp, flatV, actuate]
  rw [Fintype.sum_sum_type]
  simp only [Sum.elim_inl, Pi.zero_apply, mul_zero, Finset.sum_const_zero, zero_add, Sum.elim_inr]
  exact Equiv.sum_comp finSumFinEquiv.symm fun j => C.JCRinvT r (.inr j) * v j

/-- contact force of the reduced model -/
def forceR (D : Reduced (Fin k) ν) (C : ReducedContact c (Fin k) ν) (τ : Fin k ⊕ Fin 6 → ℝ) : Fin c → ℝ :=
  C.JCRinvT *ᵥ actuate τ - reducedGravityForce D C

theorem rQP_feasible (D : Reduced (Fin k) ν) (C : ReducedContact c (Fin k) ν) (Q : RQPRobot k c)
    (lim : Option (Fin (k + 6) → ℝ)) {m t : ℕ} (Cm : Matrix (Fin m) (Fin c) ℝ) (B : Matrix (Fin k ⊕ Fin 6) (Fin t) ℝ)
    (f : Fin t → ℝ) (τ : Fin k ⊕ Fin 6 → ℝ) (x : Fin t ⊕ Fin (c - 6) → ℝ) :
    (rQP D C Q lim Cm B f τ).Feasible x ↔
      (∀ L, lim = some L → ∀ j, |(τ + B *ᵥ (f + fun a => x (.inl a)) + Q.NwJw *ᵥ fun b => x (.inr b)) j| ≤ L (finSumFinEquiv j)) ∧
      ∀ r, 0 ≤ (Cm *ᵥ forceR D C (τ + B *ᵥ (f + fun a => x (.inl a)) + Q.NwJw *ᵥ fun b => x (.inr b))) r := by
  have hr := rows_feasible (V := Fin t ⊕ Fin (c - 6)) (Q.flat D C lim) (m + (Q.flat D C lim).limitRows)
    (Matrix.of fun a b => if a = b ∧ a.isLeft then 1 else 0) 0 Cm (rightColsR C) (reducedGravityForce D C)
    (flatV (τ + B *ᵥ f)) (taskCols (flatM B) (flatM Q.NwJw)) le_rfl x
  have e : flatV (τ + B *ᵥ f) + taskCols (flatM B) (flatM Q.NwJw) *ᵥ x
      = flatV (τ + B *ᵥ (f + fun a => x (.inl a)) + Q.NwJw *ᵥ fun b => x (.inr b)) := by
    rw [taskCols_mulVec, flatM_mulVec, flatM_mulVec, ← flatV_add, ← flatV_add, mulVec_add]
    congr 1
    abel
  rw [e, rightColsR_mulVec] at hr
  refine hr.trans (and_congr (forall_congr' fun L => forall_congr' fun _ => ?_) Iff.rfl)
  constructor
  · intro h j
    have := h (finSumFinEquiv j)
    rwa [flatV_apply] at this
  · intro h j
    have := h (finSumFinEquiv.symm j)
    rwa [Equiv.apply_symm_apply] at this

theorem rQP_cost (D : Reduced (Fin k) ν) (C : ReducedContact c (Fin k) ν) (Q : RQPRobot k c)
    (lim : Option (Fin (k + 6) → ℝ)) {m t : ℕ} (Cm : Matrix (Fin m) (Fin c) ℝ) (B : Matrix (Fin k ⊕ Fin 6) (Fin t) ℝ)
    (f : Fin t → ℝ) (τ : Fin k ⊕ Fin 6 → ℝ) (x : Fin t ⊕ Fin (c - 6) → ℝ) :
    (rQP D C Q lim Cm B f τ).cost x = (1 / 2) * ∑ a, x (.inl a) * x (.inl a) := by
  have hH : (rQP D C Q lim Cm B f τ).H = Matrix.of fun a b => if a = b ∧ a.isLeft then 1 else 0 := by
    unfold rQP; rcases lim with _ | L <;> rfl
  have hg : (rQP D C Q lim Cm B f τ).g = 0 := by
    unfold rQP; rcases lim with _ | L <;> rfl
  rw [QP.cost, hH, hg]
  simp [dotProduct, mulVec, Fintype.sum_sum_type]

/-- With zero feasible, every exact answer leaves the command alone. -/
theorem rQP_solution_left {D : Reduced (Fin k) ν} {C : ReducedContact c (Fin k) ν} {Q : RQPRobot k c}
    {lim : Option (Fin (k + 6) → ℝ)} {m t : ℕ} {Cm : Matrix (Fin m) (Fin c) ℝ} {B : Matrix (Fin k ⊕ Fin 6) (Fin t) ℝ}
    {f : Fin t → ℝ} {τ : Fin k ⊕ Fin 6 → ℝ} {x y : Fin t ⊕ Fin (c - 6) → ℝ} (hy : ∀ a, y (.inl a) = 0)
    (h : (rQP D C Q lim Cm B f τ).Feasible y) (hx : (rQP D C Q lim Cm B f τ).IsSolution x) (a : Fin t) : x (.inl a) = 0 := by
  have := hx.2 y h
  rw [rQP_cost, rQP_cost] at this
  have h2 : ∑ a, x (.inl a) * x (.inl a) = 0 := by
    apply le_antisymm
    · simp only [hy, mul_zero, Finset.sum_const_zero] at this
      linarith
    · exact Finset.sum_nonneg fun a _ => mul_self_nonneg _
  exact mul_self_eq_zero.mp ((Finset.sum_eq_zero_iff_of_nonneg (fun a _ => mul_self_nonneg (x (.inl a)))).mp h2 a (Finset.mem_univ _))

/-- one task of the hierarchy that is not a non-contact task -/
theorem rqpFrom_chain (D : Reduced (Fin k) ν) (C : ReducedContact c (Fin k) ν) (R : Mat3)
    (P : Matrix (RSys (Fin k) ν) (RSys (Fin k) ν) ℝ) (K : Option (Matrix (Fin k ⊕ Fin 6) (Fin 6) ℝ)) (Q : RQPRobot k c)
    (solve : Solver) (i : ℕ) (prev : Option (RTask (Fin k) ν × Matrix (Fin k ⊕ Fin 6) (Fin k ⊕ Fin 6) ℝ))
    (τR : Fin k ⊕ Fin 6 → ℝ) (f : Fin 6 → ℝ) (nc : Option (NcSum k ν)) {T : RTask (Fin k) ν} (hT : T.noncont = false)
    (rest : List (RTask (Fin k) ν)) :
    rqpFrom D C R P K Q solve i prev τR f nc (T :: rest) =
      match Q.fit, stackC Q.cs c with
      | some lim, some ⟨_, Cm⟩ =>
        match solve i T.t (c - 6) (rQP D C Q lim Cm (prevNull prev * (T.Jkt * T.Λ)) T.f (reducedGravity D C + τR)) with
        | none => .ret 0 0 τR
        | some x =>
          rqpFrom D C R P K Q solve (i + 1) (some (T, nullR C T (prevNull prev)))
            (τR + prevNull prev *ᵥ (T.Jkt *ᵥ (T.Λ *ᵥ (T.f + fun a => x (Sum.inl a))))) f nc rest
      | _, _ => .undefined := by
  rcases prev with _ | ⟨U, N⟩ <;> simp only [rqpFrom, hT, prevNull, Bool.false_eq_true, if_false] <;>
    rcases Q.fit with _ | lim <;> rcases stackC Q.cs c with _ | ⟨m, Cm⟩ <;> rfl

/-- a stretch of chain tasks at the end: the last answer bounds the final torque -/
theorem rqp_chain_success {D : Reduced (Fin k) ν} {C : ReducedContact c (Fin k) ν} {R : Mat3}
    {P : Matrix (RSys (Fin k) ν) (RSys (Fin k) ν) ℝ} {K : Option (Matrix (Fin k ⊕ Fin 6) (Fin 6) ℝ)} {Q : RQPRobot k c}
    {solve : Solver} (hs : solve.Sound) (ts : List (RTask (Fin k) ν)) (hts : ∀ T ∈ ts, T.noncont = false) (hne : ts ≠ [])
    (i : ℕ) (prev : Option (RTask (Fin k) ν × Matrix (Fin k ⊕ Fin 6) (Fin k ⊕ Fin 6) ℝ)) (τR : Fin k ⊕ Fin 6 → ℝ)
    {τ : Fin k ⊕ ν → ℝ} {τR' : Fin k ⊕ Fin 6 → ℝ} (f : Fin 6 → ℝ)
    (h : rqpFrom D C R P K Q solve i prev τR f none ts = .ret 1 τ τR') :
    τ = assembleTorque D τR' 0 ∧ ∃ lim m Cm x, Q.fit = some lim ∧ stackC Q.cs c = some ⟨m, Cm⟩ ∧
      (∀ L, lim = some L → ∀ j, |(reducedGravity D C + τR' + Q.NwJw *ᵥ x) j| ≤ L (finSumFinEquiv j)) ∧
      ∀ r, 0 ≤ (Cm *ᵥ forceR D C (reducedGravity D C + τR' + Q.NwJw *ᵥ x)) r := by
  induction ts generalizing i prev τR with
  | nil => exact absurd rfl hne
  | cons T rest ih =>
    rw [rqpFrom_chain D C R P K Q solve i prev τR f none (hts T (List.mem_cons_self ..))] at h
    rcases hl : Q.fit with _ | lim
    · rw [hl] at h; simp at h
    rcases hc : stackC Q.cs c with _ | ⟨m, Cm⟩
    · rw [hl, hc] at h; simp at h
    rw [hl, hc] at h
    simp only at h
    rcases hx : solve i T.t (c - 6) (rQP D C Q lim Cm (prevNull prev * (T.Jkt * T.Λ)) T.f (reducedGravity D C + τR)) with _ | x
    · rw [hx] at h
      simp at h
    rw [hx] at h
    simp only at h
    rcases rest with _ | ⟨T', rest⟩
    · rw [rqpFrom, rqpFinish] at h
      simp only [RCtrlResult.ret.injEq, true_and] at h
      obtain ⟨rfl, rfl⟩ := h
      have hf := (rQP_feasible D C Q lim Cm _ _ _ x).mp (hs _ _ _ _ _ hx)
      have e : (prevNull prev * (T.Jkt * T.Λ)) *ᵥ (T.f + fun a => x (.inl a))
          = prevNull prev *ᵥ (T.Jkt *ᵥ (T.Λ *ᵥ (T.f + fun a => x (.inl a)))) := by
        rw [mulVec_mulVec, mulVec_mulVec, Matrix.mul_assoc]
      rw [e, add_assoc (reducedGravity D C)] at hf
      exact ⟨rfl, lim, m, Cm, fun b => x (.inr b), rfl, rfl, hf.1, hf.2⟩
    · obtain ⟨h1, lim', m', Cm', x', h2, h3, h4⟩ := ih (fun U hU => hts U (List.mem_cons_of_mem _ hU)) (by simp) _ _ _ h
      rw [hl] at h2
      rw [hc] at h3
      exact ⟨h1, lim', m', Cm', x', h2, h3, h4⟩

/-- one task that is not a non-contact task, without a QP -/
theorem rTaskFrom_chain (D : Reduced (Fin k) ν) (C : ReducedContact c (Fin k) ν) (R : Mat3)
    (P : Matrix (RSys (Fin k) ν) (RSys (Fin k) ν) ℝ) (K : Option (Matrix (Fin k ⊕ Fin 6) (Fin 6) ℝ))
    (prev : Option (RTask (Fin k) ν × Matrix (Fin k ⊕ Fin 6) (Fin k ⊕ Fin 6) ℝ))
    (τR : Fin k ⊕ Fin 6 → ℝ) (τN : ν → ℝ) {T : RTask (Fin k) ν} (hT : T.noncont = false) (rest : List (RTask (Fin k) ν)) :
    rTaskFrom D C R P K prev τR τN (T :: rest) =
      rTaskFrom D C R P K (some (T, nullR C T (prevNull prev))) (τR + prevNull prev *ᵥ (T.Jkt *ᵥ (T.Λ *ᵥ T.f))) τN rest := by
  rcases prev with _ | ⟨U, N⟩ <;> simp only [rTaskFrom, hT, prevNull, Bool.false_eq_true, if_false]

/-- When the plain torque satisfies the contact rows after every task, exact answers give the plain torque. -/
theorem rqp_chain_kept {D : Reduced (Fin k) ν} {C : ReducedContact c (Fin k) ν} {R : Mat3}
    {P : Matrix (RSys (Fin k) ν) (RSys (Fin k) ν) ℝ} {K : Option (Matrix (Fin k ⊕ Fin 6) (Fin 6) ℝ)} {Q : RQPRobot k c}
    (hlim : Q.limit = none) {m : ℕ} {Cm : Matrix (Fin m) (Fin c) ℝ} (hst : stackC Q.cs c = some ⟨m, Cm⟩)
    {solve : Solver} (hs : solve.Exact) (ts : List (RTask (Fin k) ν)) (hts : ∀ T ∈ ts, T.noncont = false)
    (i : ℕ) (prev : Option (RTask (Fin k) ν × Matrix (Fin k ⊕ Fin 6) (Fin k ⊕ Fin 6) ℝ)) (τR : Fin k ⊕ Fin 6 → ℝ)
    (hok : ∀ j < ts.length, ∀ y, rTaskFrom D C R P K prev τR 0 (ts.take (j + 1)) = some y →
      ∀ r, 0 ≤ (Cm *ᵥ forceR D C (reducedGravity D C + y.1)) r)
    {τ : Fin k ⊕ ν → ℝ} {τR' : Fin k ⊕ Fin 6 → ℝ} (f : Fin 6 → ℝ)
    (h : rqpFrom D C R P K Q solve i prev τR f none ts = .ret 1 τ τR') :
    τ = assembleTorque D τR' 0 ∧ rTaskFrom D C R P K prev τR 0 ts = some (τR', 0) := by
  induction ts generalizing i prev τR with
  | nil =>
    rw [rqpFrom, rqpFinish] at h
    simp only [RCtrlResult.ret.injEq, true_and] at h
    obtain ⟨rfl, rfl⟩ := h
    exact ⟨rfl, by (cases prev <;> rfl)⟩
  | cons T rest ih =>
    have hT := hts T (List.mem_cons_self ..)
    have hfit : Q.fit = some none := by rw [RQPRobot.fit, hlim]
    rw [rqpFrom_chain D C R P K Q solve i prev τR f none hT, hfit, hst] at h
    simp only at h
    have h1 : ∀ r, 0 ≤ (Cm *ᵥ forceR D C (reducedGravity D C + (τR + prevNull prev *ᵥ (T.Jkt *ᵥ (T.Λ *ᵥ T.f))))) r := by
      refine hok 0 (by simp) (τR + prevNull prev *ᵥ (T.Jkt *ᵥ (T.Λ *ᵥ T.f)), 0) ?_
      rw [List.take_succ_cons, List.take_zero, rTaskFrom_chain D C R P K prev τR 0 hT]
      rfl
    have hz : (rQP D C Q none Cm (prevNull prev * (T.Jkt * T.Λ)) T.f (reducedGravity D C + τR)).Feasible 0 := by
      rw [rQP_feasible]
      refine ⟨(fun L hL => absurd hL (by simp)), ?_⟩
      have z1 : (fun _ : Fin T.t => (0 : ℝ)) = 0 := rfl
      have z2 : (fun _ : Fin (c - 6) => (0 : ℝ)) = 0 := rfl
      simp only [Pi.zero_apply, z1, z2, add_zero, mulVec_zero]
      rw [← mulVec_mulVec, ← mulVec_mulVec, add_assoc]
      exact h1
    rcases hx : solve i T.t (c - 6) (rQP D C Q none Cm (prevNull prev * (T.Jkt * T.Λ)) T.f (reducedGravity D C + τR)) with _ | x
    · rw [hx] at h
      simp at h
    rw [hx] at h
    simp only at h
    have hx0 : (fun a => x (.inl a)) = (0 : Fin T.t → ℝ) :=
      funext fun a => rQP_solution_left (fun _ => rfl) hz (hs _ _ _ _ _ hx) a
    rw [hx0, add_zero] at h
    rw [rTaskFrom_chain D C R P K prev τR 0 hT]
    refine ih (fun U hU => hts U (List.mem_cons_of_mem _ hU)) _ _ _ (fun j hj y hy => ?_) h
    refine hok (j + 1) (by simp only [List.length_cons]; omega) y ?_
    rw [List.take_succ_cons, rTaskFrom_chain D C R P K prev τR 0 hT]
    exact hy

/-- task and null-space matrix after a stretch of chain tasks -/
def chainEnd (C : ReducedContact c (Fin k) ν) :
    Option (RTask (Fin k) ν × Matrix (Fin k ⊕ Fin 6) (Fin k ⊕ Fin 6) ℝ) → List (RTask (Fin k) ν) →
      Option (RTask (Fin k) ν × Matrix (Fin k ⊕ Fin 6) (Fin k ⊕ Fin 6) ℝ)
  | prev, [] => prev
  | prev, T :: rest => chainEnd C (some (T, nullR C T (prevNull prev))) rest

theorem chainEnd_null {D : Reduced (Fin k) ν} {C : ReducedContact c (Fin k) ν} {P : Matrix (RSys (Fin k) ν) (RSys (Fin k) ν) ℝ}
    (h : RFacts D C P) (ts : List (RTask (Fin k) ν)) (hts : ∀ T ∈ ts, ChainReady D C T)
    (prev : Option (RTask (Fin k) ν × Matrix (Fin k ⊕ Fin 6) (Fin k ⊕ Fin 6) ℝ)) (M : Matrix (RSys (Fin k) ν) (RSys (Fin k) ν) ℝ)
    (hN : accR D P * prevNull prev = M * accR D P) :
    accR D P * prevNull (chainEnd C prev ts) = nullAfter P M (ts.map ofR) * accR D P := by
  induction ts generalizing prev M with
  | nil => exact hN
  | cons T ts ih => exact ih (fun U hU => hts U (List.mem_cons_of_mem _ hU)) _ _ (accR_null h (hts T (List.mem_cons_self ..)) hN)

/-- torques of the loop without a QP start from any sums -/
theorem rTaskFrom_shift (D : Reduced (Fin k) ν) (C : ReducedContact c (Fin k) ν) (R : Mat3)
    (P : Matrix (RSys (Fin k) ν) (RSys (Fin k) ν) ℝ) (K : Option (Matrix (Fin k ⊕ Fin 6) (Fin 6) ℝ)) (ts : List (RTask (Fin k) ν))
    (prev : Option (RTask (Fin k) ν × Matrix (Fin k ⊕ Fin 6) (Fin k ⊕ Fin 6) ℝ)) (τR : Fin k ⊕ Fin 6 → ℝ) (τN : ν → ℝ) :
    rTaskFrom D C R P K prev τR τN ts = (rTaskFrom D C R P K prev 0 0 ts).map fun y => (τR + y.1, τN + y.2) := by
  induction ts generalizing prev τR τN with
  | nil => simp [rTaskFrom]
  | cons T ts ih =>
    rcases hT : T.noncont with _ | _
    · rw [rTaskFrom_chain D C R P K prev τR τN hT, rTaskFrom_chain D C R P K prev 0 0 hT, ih,
        ih _ (0 + _) 0]
      rcases rTaskFrom D C R P K _ 0 0 ts with _ | y
      · rfl
      · simp [add_assoc]
    · rcases prev with _ | ⟨U, N⟩
      · simp [rTaskFrom, hT]
      rcases K with _ | K
      · simp [rTaskFrom, hT]
      simp only [rTaskFrom, hT, if_true]
      rcases ncTorque D R P K U N T with _ | x
      · rfl
      simp only
      rw [ih, ih _ (0 + _) (0 + _)]
      rcases rTaskFrom D C R P _ _ 0 0 ts with _ | y
      · rfl
      · simp [add_assoc]

/-- the loop without a QP over chain tasks, then others -/
theorem rTaskFrom_split (D : Reduced (Fin k) ν) (C : ReducedContact c (Fin k) ν) (R : Mat3)
    (P : Matrix (RSys (Fin k) ν) (RSys (Fin k) ν) ℝ) (K : Option (Matrix (Fin k ⊕ Fin 6) (Fin 6) ℝ))
    (ts : List (RTask (Fin k) ν)) (hts : ∀ T ∈ ts, T.noncont = false)
    (prev : Option (RTask (Fin k) ν × Matrix (Fin k ⊕ Fin 6) (Fin k ⊕ Fin 6) ℝ)) (τR : Fin k ⊕ Fin 6 → ℝ) :
    ∃ τ0, ∀ rest, rTaskFrom D C R P K prev τR 0 (ts ++ rest) = rTaskFrom D C R P K (chainEnd C prev ts) τ0 0 rest := by
  induction ts generalizing prev τR with
  | nil => exact ⟨τR, fun _ => rfl⟩
  | cons T ts ih =>
    obtain ⟨τ0, h⟩ := ih (fun U hU => hts U (List.mem_cons_of_mem _ hU)) (some (T, nullR C T (prevNull prev)))
      (τR + prevNull prev *ᵥ (T.Jkt *ᵥ (T.Λ *ᵥ T.f)))
    exact ⟨τ0, fun rest => by rw [List.cons_append, rTaskFrom_chain D C R P K prev τR 0 (hts T (List.mem_cons_self ..)), h]; rfl⟩

/-- the loop with QPs over chain tasks, then others -/
theorem rqp_chain_split {D : Reduced (Fin k) ν} {C : ReducedContact c (Fin k) ν} {R : Mat3}
    {P : Matrix (RSys (Fin k) ν) (RSys (Fin k) ν) ℝ} {K : Option (Matrix (Fin k ⊕ Fin 6) (Fin 6) ℝ)} {Q : RQPRobot k c}
    {solve : Solver} (ts rest : List (RTask (Fin k) ν)) (hts : ∀ T ∈ ts, T.noncont = false)
    (i : ℕ) (prev : Option (RTask (Fin k) ν × Matrix (Fin k ⊕ Fin 6) (Fin k ⊕ Fin 6) ℝ)) (τR : Fin k ⊕ Fin 6 → ℝ)
    {τ : Fin k ⊕ ν → ℝ} {τR' : Fin k ⊕ Fin 6 → ℝ} (f : Fin 6 → ℝ)
    (h : rqpFrom D C R P K Q solve i prev τR f none (ts ++ rest) = .ret 1 τ τR') :
    ∃ τ1, rqpFrom D C R P K Q solve i prev τR f none ts = .ret 1 (assembleTorque D τ1 0) τ1 ∧
      rqpFrom D C R P K Q solve (i + ts.length) (chainEnd C prev ts) τ1 f none rest = .ret 1 τ τR' := by
  induction ts generalizing i prev τR with
  | nil => exact ⟨τR, by simp [rqpFrom, rqpFinish], h⟩
  | cons T ts ih =>
    have hT := hts T (List.mem_cons_self ..)
    rw [List.cons_append, rqpFrom_chain D C R P K Q solve i prev τR f none hT] at h
    rw [rqpFrom_chain D C R P K Q solve i prev τR f none hT]
    rcases hl : Q.fit with _ | lim
    · rw [hl] at h; simp at h
    rcases hc : stackC Q.cs c with _ | ⟨m, Cm⟩
    · rw [hl, hc] at h; simp at h
    rw [hl, hc] at h
    simp only at h ⊢
    rcases hx : solve i T.t (c - 6) (rQP D C Q lim Cm (prevNull prev * (T.Jkt * T.Λ)) T.f (reducedGravity D C + τR)) with _ | x
    · rw [hx] at h
      simp at h
    rw [hx] at h
    simp only at h ⊢
    obtain ⟨τ1, h1, h2⟩ := ih (fun U hU => hts U (List.mem_cons_of_mem _ hU)) _ _ _ h
    refine ⟨τ1, h1, ?_⟩
    rw [List.length_cons, show i + (ts.length + 1) = i + 1 + ts.length by omega]
    exact h2

/-- generalised force of tasks outside the chains below another such task -/
def freeForceFrom (P : Matrix (RSys (Fin k) ν) (RSys (Fin k) ν) ℝ) : RTask (Fin k) ν → List (RTask (Fin k) ν) → RSys (Fin k) ν → ℝ
  | _, [] => 0
  | U, T :: rest =>
    (T.Jᵀ *ᵥ (T.Λ *ᵥ T.f) - U.Jᵀ *ᵥ (U.Λ *ᵥ (U.J *ᵥ (P *ᵥ (T.Jᵀ *ᵥ (T.Λ *ᵥ T.f)))))) + freeForceFrom P T rest

/-- the loop with QPs over tasks outside the chains, all below another such task -/
theorem rqp_free {D : Reduced (Fin k) ν} {C : ReducedContact c (Fin k) ν} {R : Mat3}
    {P : Matrix (RSys (Fin k) ν) (RSys (Fin k) ν) ℝ} {Kb : Matrix (Fin k ⊕ Fin 6) (Fin 6) ℝ} {Q : RQPRobot k c}
    {solve : Solver} (ts : List (RTask (Fin k) ν)) (hts : ∀ T ∈ ts, T.noncont = true ∧ T.ncOrder ≠ 0)
    (i : ℕ) (U : RTask (Fin k) ν) (N : Matrix (Fin k ⊕ Fin 6) (Fin k ⊕ Fin 6) ℝ) (τR : Fin k ⊕ Fin 6 → ℝ)
    {v : ℕ} {τ : Fin k ⊕ ν → ℝ} {τR' : Fin k ⊕ Fin 6 → ℝ} (f : Fin 6 → ℝ) (a : NcSum k ν)
    (h : rqpFrom D C R P (some Kb) Q solve i (some (U, N)) τR f (some a) ts = .ret v τ τR') :
    ∃ y, rTaskFrom D C R P (some Kb) (some (U, N)) 0 0 ts = some y ∧
      rqpFinish D C (some Kb) Q solve τR (f + forceOnNc R (freeForceFrom P U ts))
        (some { a with sumR := a.sumR + y.1, sumN := a.sumN + y.2 }) = .ret v τ τR' := by
  induction ts generalizing i U f a with
  | nil =>
    refine ⟨(0, 0), rfl, ?_⟩
    rw [rqpFrom] at h
    have e : forceOnNc R (freeForceFrom P U []) = 0 := mulVec_zero _
    simpa [e] using h
  | cons T ts ih =>
    obtain ⟨hT, ho⟩ := hts T (List.mem_cons_self ..)
    simp only [rqpFrom, rTaskFrom, hT, if_true] at h ⊢
    rcases hx : ncTorque D R P Kb U N T with _ | x
    · rw [hx] at h; simp at h
    rw [hx] at h
    simp only [if_neg ho, Option.map_some] at h ⊢
    obtain ⟨y, hy, h'⟩ := ih (fun U hU => hts U (List.mem_cons_of_mem _ hU)) _ _ _ _ h
    refine ⟨(x.1 + y.1, x.2 + y.2), ?_, ?_⟩
    · rw [rTaskFrom_shift, hy]
      simp
    · have e : f + ncForce R P U T + forceOnNc R (freeForceFrom P T ts) = f + forceOnNc R (freeForceFrom P U (T :: ts)) := by
        rw [add_assoc]
        congr 1
        simp only [ncForce, if_neg ho, freeForceFrom, forceOnNc]
        rw [← mulVec_sub, ← mulVec_add]
        rfl
      rw [← e]
      simpa only [add_assoc] using h'

end Verif
